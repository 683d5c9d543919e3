import Verif.Lemmas.Setters
import Verif.Lemmas.Geom
import Verif.Spec.Ellipsoid
import Verif.Model.RealInst

/-!
# C92: obstacles remember what was set

After any sequence of calls of setters, on any obstacles in any order, each obstacle holds in each member the value
that was written last, and nothing else changed.
-/

set_option linter.unusedSectionVars false
set_option linter.unusedSimpArgs false

namespace DOA.Props
open DOA DOA.Spec DOA.Setters

section
variable {α : Type} [Add α] [Sub α] [Mul α] [Div α] [Neg α] [Zero α] [One α]
  [LE α] [LT α] [DecidableLE α] [DecidableLT α] [CMath α]

/-- C92: a sequence of setters has a defined result exactly if each call is made on an existing object of the right
type. -/
theorem C92_defined {h : Heap α} (hac : Acyclic h) (cs : List (Ptr × Setter α)) :
    (∃ h', h.calls cs = .ok h') ↔ ∀ c ∈ cs, Callable h c := by
  have h0 : After h [] h := by
    intro p
    rcases h[p]? with _ | o
    · rfl
    · simp only [Option.map_some, expectObj_nil]
  constructor
  · rintro ⟨h', e⟩
    exact callable_of_calls hac cs h0 e
  · intro hc
    obtain ⟨h', e, -⟩ := calls_after hac cs h0 hc
    exact ⟨h', e⟩

/-- C92: every member of every object has the value written last; the members that have no setter, and the members of
the objects on which no setter was called, are as before. -/
theorem C92_last_write {h h' : Heap α} (hac : Acyclic h) {cs : List (Ptr × Setter α)} (hr : h.calls cs = .ok h') (p : Ptr) :
    h'[p]? = (h[p]?).map (expectObj h cs p) := by
  have h0 : After h [] h := by
    intro p
    rcases h[p]? with _ | o
    · rfl
    · simp only [Option.map_some, expectObj_nil]
  obtain ⟨h1, e, a⟩ := calls_after hac cs h0 (callable_of_calls hac cs h0 hr)
  rw [hr] at e
  cases e
  exact a p

/-- What was set is read back as long as it is not written again. -/
theorem lastOf_split {γ β : Type} (f : γ → Option β) (cs : List γ) (c : γ) (ds : List γ) (i : β) {b : β} (hc : f c = some b)
    (hd : ∀ d ∈ ds, f d = none) : lastOf f (cs ++ c :: ds) i = b := by
  have : ds.filterMap f = [] := List.filterMap_eq_nil_iff.2 hd
  simp [lastOf, List.filterMap_append, List.filterMap_cons, hc, this]

/-- C92: the position that was set is read back, whatever was set before, and whatever is set afterwards on other
objects or on other members. -/
theorem C92_position {h h' : Heap α} (hac : Acyclic h) {cs ds : List (Ptr × Setter α)} {p : Ptr} {v : V3 α}
    (hr : h.calls (cs ++ (p, .position v) :: ds) = .ok h')
    (hd : ∀ d ∈ ds, d.1 = p → (∀ w, d.2 ≠ .position w) ∧ ∀ x, d.2 ≠ .pose x) :
    ∃ o, h'[p]? = some o ∧ o.position = v := by
  have hc := (C92_defined hac _).1 ⟨h', hr⟩ (p, .position v) (by simp)
  obtain ⟨o, ho⟩ : ∃ o, h[p]? = some o := ⟨_, List.getElem?_eq_getElem hc⟩
  refine ⟨expectObj h _ p o, by rw [C92_last_write hac hr p, ho]; rfl, ?_⟩
  have key : ∀ i, lastOf (positionBy p) (cs ++ (p, .position v) :: ds) i = v := by
    intro i
    refine lastOf_split _ _ _ _ _ (by simp [positionBy]) ?_
    rintro ⟨q, s⟩ hq
    have := hd _ hq
    cases s <;> simp [positionBy] <;> rintro rfl
    · exact (this rfl).2 _ rfl
    · exact (this rfl).1 _ rfl
  cases o <;> exact key _

/-- C92: the reference position that was set on an object is read back from that object and from everything nested in
it, as long as none is set on an object that contains the one that is read. -/
theorem C92_reference {h h' : Heap α} (hac : Acyclic h) {cs ds : List (Ptr × Setter α)} {p r : Ptr} {v : V3 α}
    (hr : h.calls (cs ++ (p, .reference v) :: ds) = .ok h') (hw : Within h p r)
    (hd : ∀ d ∈ ds, (∃ w, d.2 = .reference w) → ¬ Within h d.1 r) : refOf h' r = some v := by
  have hc := (C92_defined hac _).1 ⟨h', hr⟩ (p, .reference v) (by simp)
  obtain ⟨rank, hrk⟩ := exists_ranked hac
  have hl : r < h.length := Within.lt_length hrk hc hw
  obtain ⟨o, ho⟩ : ∃ o, h[r]? = some o := ⟨_, List.getElem?_eq_getElem hl⟩
  have key : ∀ i, lastOf (referenceBy h r) (cs ++ (p, .reference v) :: ds) i = some v := by
    intro i
    refine lastOf_split _ _ _ _ _ (by simp [referenceBy, hw]) ?_
    rintro ⟨q, s⟩ hq
    have := hd _ hq
    cases s <;> simp [referenceBy]
    exact this ⟨_, rfl⟩
  unfold refOf
  rw [C92_last_write hac hr r, ho]
  cases o <;> exact key _

/-- C92: an object on which no setter is called, and which is not nested in an object whose reference position is set,
is the same as before. -/
theorem C92_untouched {h h' : Heap α} (hac : Acyclic h) {cs : List (Ptr × Setter α)} (hr : h.calls cs = .ok h') {p : Ptr}
    (hp : ∀ c ∈ cs, c.1 ≠ p ∧ ((∃ v, c.2 = .reference v) → ¬ Within h c.1 p)) : h'[p]? = h[p]? := by
  rw [C92_last_write hac hr p]
  rcases h[p]? with _ | o
  · rfl
  · have : expectObj h cs p o = expectObj h [] p o := expectObj_congr (fun f hf => by
      rw [List.filterMap_nil, List.filterMap_eq_nil_iff]
      exact fun c hc => hf c (silent_of_ne h (hp c hc).1 (hp c hc).2)) o
    rw [Option.map_some, this, expectObj_nil]

/-- C92: the order of two calls on different objects does not matter (unless something is nested in both of them). -/
theorem C92_commute {h : Heap α} (hac : Acyclic h) {p q : Ptr} (s t : Setter α) (hpq : ¬ ∃ r, Within h p r ∧ Within h q r)
    (hs : Callable h (p, s)) (ht : Callable h (q, t)) :
    ∃ h', h.calls [(p, s), (q, t)] = .ok h' ∧ h.calls [(q, t), (p, s)] = .ok h' := by
  obtain ⟨h1, e1⟩ := (C92_defined hac [(p, s), (q, t)]).2 (by simp [hs, ht])
  obtain ⟨h2, e2⟩ := (C92_defined hac [(q, t), (p, s)]).2 (by simp [hs, ht])
  suffices h1 = h2 by subst this; exact ⟨h1, e1, e2⟩
  refine List.ext_getElem? fun r => ?_
  rw [C92_last_write hac e1 r, C92_last_write hac e2 r]
  have hor : Silent h r (p, s) ∨ Silent h r (q, t) := by
    by_cases hp : Within h p r
    · right
      have hq : ¬ Within h q r := fun hq => hpq ⟨r, hp, hq⟩
      exact silent_of_ne h (fun e => hq (by rw [show q = r from e]; exact .refl)) fun _ => hq
    · left
      exact silent_of_ne h (fun e => hp (by rw [show p = r from e]; exact .refl)) fun _ => hp
  rcases h[r]? with _ | o
  · rfl
  · have : expectObj h [(p, s), (q, t)] r o = expectObj h [(q, t), (p, s)] r o := expectObj_congr (fun f hf => by
      rcases hor with x | x <;> simp [List.filterMap_cons, hf _ x]) o
    rw [Option.map_some, Option.map_some, this]

/-! ### Constructors -/

/-- C92: an obstacle built from a state has its name, its pose, its velocities, its margin, and its position as
reference position, or the reference position that is given; an obstacle built from coordinates stands there, at rest
and not rotated. -/
theorem C92_constructors (name : String) (s : State α) (c ref margin : V3 α) :
    (let b := Base.mkState name s margin
     b.name = name ∧ b.state = s ∧ b.margin = margin ∧ b.ref = .ok s.pose.position) ∧
    (let b := Base.mkRef name s ref margin
     b.name = name ∧ b.state = s ∧ b.margin = margin ∧ b.ref = .ok ref) ∧
    (let b := Base.mkPos name c margin
     b.name = name ∧ b.state = ⟨⟨c, ⟨1, 0, 0, 0⟩⟩, ⟨0, 0, 0⟩, ⟨0, 0, 0⟩⟩ ∧ b.margin = margin ∧ b.ref = .ok c) ∧
    (let b := Base.mkName name margin
     b.name = name ∧ b.state = ⟨⟨⟨0, 0, 0⟩, ⟨1, 0, 0, 0⟩⟩, ⟨0, 0, 0⟩, ⟨0, 0, 0⟩⟩ ∧ b.margin = margin ∧
       b.ref = .ub .uninitialised) :=
  ⟨⟨rfl, rfl, rfl, rfl⟩, ⟨rfl, rfl, rfl, rfl⟩, ⟨rfl, rfl, rfl, rfl⟩, ⟨rfl, rfl, rfl, rfl⟩⟩

/-- C92: a state built from a pose, from a position, or from a position, an orientation and velocities. -/
theorem C92_states (x : Pose α) (c v w : V3 α) (q : Quat α) :
    State.ofPose x = ⟨x, ⟨0, 0, 0⟩, ⟨0, 0, 0⟩⟩ ∧
    State.ofPosition c = ⟨⟨c, ⟨1, 0, 0, 0⟩⟩, ⟨0, 0, 0⟩, ⟨0, 0, 0⟩⟩ ∧
    (State.default : State α) = ⟨⟨⟨0, 0, 0⟩, ⟨1, 0, 0, 0⟩⟩, ⟨0, 0, 0⟩, ⟨0, 0, 0⟩⟩ ∧
    State.mk2 c q = ⟨Pose.mk2 c q, ⟨0, 0, 0⟩, ⟨0, 0, 0⟩⟩ ∧
    State.mk4 c q v w = ⟨Pose.mk2 c q, v, w⟩ ∧ (Pose.mk2 c q).position = c :=
  ⟨rfl, rfl, rfl, rfl, rfl, rfl⟩

/-- C92: ellipsoids start with unit axes and unit curvature, and a copy has everything of the original. -/
theorem C92_ellipsoids (b : Base α) (e : Ellipsoid α) :
    (Ellipsoid.ofBase b).base = b ∧ (Ellipsoid.ofBase b).axis = ⟨1, 1, 1⟩ ∧ (Ellipsoid.ofBase b).curv = ⟨1, 1, 1⟩ ∧
    e.copy = e :=
  ⟨rfl, rfl, rfl, rfl⟩

end

/-! ### Orientations -/

/-- C92: the orientation that is read back after `set_orientation` is the given quaternion scaled to unit norm. -/
theorem C92_orientation {h h' : Heap ℝ} (hac : Acyclic h) {cs ds : List (Ptr × Setter ℝ)} {p : Ptr} {q : Quat ℝ}
    (hq : q ≠ ⟨0, 0, 0, 0⟩) (hr : h.calls (cs ++ (p, .orientation q) :: ds) = .ok h')
    (hd : ∀ d ∈ ds, d.1 = p → (∀ w, d.2 ≠ .orientation w) ∧ ∀ x, d.2 ≠ .pose x) :
    ∃ o k, h'[p]? = some o ∧ 0 < k ∧ o.base.orientation.norm = 1 ∧
      q = ⟨k * o.base.orientation.w, k * o.base.orientation.x, k * o.base.orientation.y, k * o.base.orientation.z⟩ := by
  have hc := (C92_defined hac _).1 ⟨h', hr⟩ (p, .orientation q) (by simp)
  obtain ⟨o, ho⟩ : ∃ o, h[p]? = some o := ⟨_, List.getElem?_eq_getElem hc⟩
  have key : ∀ i, lastOf (orientationBy p) (cs ++ (p, .orientation q) :: ds) i = q.normalized := by
    intro i
    refine lastOf_split _ _ _ _ _ (by simp [orientationBy]) ?_
    rintro ⟨r, s⟩ hs
    have := hd _ hs
    cases s <;> simp [orientationBy] <;> rintro rfl
    · exact (this rfl).2 _ rfl
    · exact (this rfl).1 _ rfl
  have hor : (expectObj h (cs ++ (p, .orientation q) :: ds) p o).base.orientation = q.normalized := by
    cases o <;> exact key _
  have hpos : 0 < q.sqNorm := by
    by_contra hn
    push Not at hn
    have e : q.w ^ 2 + q.x ^ 2 + q.y ^ 2 + q.z ^ 2 ≤ 0 := by
      have : q.sqNorm = q.w ^ 2 + q.x ^ 2 + q.y ^ 2 + q.z ^ 2 := by unfold Quat.sqNorm; ring
      linarith
    have h1 : q.w = 0 := by nlinarith [sq_nonneg q.w, sq_nonneg q.x, sq_nonneg q.y, sq_nonneg q.z]
    have h2 : q.x = 0 := by nlinarith [sq_nonneg q.w, sq_nonneg q.x, sq_nonneg q.y, sq_nonneg q.z]
    have h3 : q.y = 0 := by nlinarith [sq_nonneg q.w, sq_nonneg q.x, sq_nonneg q.y, sq_nonneg q.z]
    have h4 : q.z = 0 := by nlinarith [sq_nonneg q.w, sq_nonneg q.x, sq_nonneg q.y, sq_nonneg q.z]
    exact hq (by cases q; simp_all)
  have hs : 0 < Real.sqrt q.sqNorm := Real.sqrt_pos.2 hpos
  have hn : q.normalized = ⟨q.w / Real.sqrt q.sqNorm, q.x / Real.sqrt q.sqNorm,
      q.y / Real.sqrt q.sqNorm, q.z / Real.sqrt q.sqNorm⟩ := by
    unfold Quat.normalized; rw [if_pos hpos]; rfl
  refine ⟨expectObj h _ p o, Real.sqrt q.sqNorm, by rw [C92_last_write hac hr p, ho]; rfl, hs, ?_, ?_⟩
  · rw [hor]
    exact (Quat.isUnit_iff_norm _).1 (Quat.normalized_isUnit hq)
  · rw [hor, hn]
    cases q
    simp only [Quat.mk.injEq]
    refine ⟨?_, ?_, ?_, ?_⟩ <;> field_simp

/-! ### A concrete case -/

/-- An aggregate (object 2) of a disc (object 0) and a point (object 1), and a hull (object 3). -/
noncomputable def shelf : Heap ℝ :=
  [.ellipsoid (Ellipsoid.ofBase (Base.mkPos "disc" ⟨1, 0, 0⟩ ⟨0, 0, 0⟩)), .plain (Base.mkPos "point" ⟨2, 0, 0⟩ ⟨0, 0, 0⟩),
   .aggregate { Aggregate.default with prims := [0, 1] }, .hull (Hull.mk' false 4 1)]

theorem shelf_acyclic : Acyclic shelf := by
  refine ⟨fun p => if p = 2 then 1 else 0, ?_⟩
  rintro p q ⟨a, ha, hq⟩
  have hp : p = 2 := by
    rcases p with _ | _ | _ | _ | p <;> simp [shelf] at ha ⊢
  subst hp
  simp [shelf] at ha
  subst ha
  simp at hq
  rcases hq with rfl | rfl <;> simp [shelf]

/-- Calls on all the objects: the reference position is set on the disc and then on the aggregate. -/
def shelfCalls : List (Ptr × Setter ℝ) :=
  [(0, .position ⟨5, 5, 0⟩), (0, .reference ⟨9, 9, 9⟩), (2, .reference ⟨7, 7, 0⟩), (1, .name "renamed"),
   (0, .axisLengths ⟨3, 2, 1⟩), (0, .position ⟨6, 6, 0⟩), (3, .resolution 2), (0, .linearVelocity ⟨1, 0, 0⟩)]

theorem shelf_callable : ∀ c ∈ shelfCalls, Callable shelf c := by
  intro c hc
  simp [shelfCalls] at hc
  rcases hc with rfl | rfl | rfl | rfl | rfl | rfl | rfl | rfl <;> simp [Callable, shelf]

example : ∃ h', shelf.calls shelfCalls = .ok h' := (C92_defined shelf_acyclic _).2 shelf_callable

/-- The disc afterwards. -/
example : ∃ h' e, shelf.calls shelfCalls = .ok h' ∧ h'[(0 : Ptr)]? = some (.ellipsoid e) ∧ e.base.position = ⟨6, 6, 0⟩ ∧
    e.base.refPos = some ⟨7, 7, 0⟩ ∧ e.axis = ⟨3, 2, 1⟩ ∧ e.curv = ⟨1, 1, 1⟩ ∧ e.base.name = "disc" := by
  obtain ⟨h', e⟩ := (C92_defined shelf_acyclic _).2 shelf_callable
  have w0 : Within shelf 0 0 := .refl
  have w2 : Within shelf 2 0 := .single ⟨_, rfl, by simp⟩
  refine ⟨h', _, e, by rw [C92_last_write shelf_acyclic e 0]; rfl, ?_, ?_, ?_, ?_, ?_⟩
  · simp [expectBase, Base.position, State.position, lastOf, List.filterMap_cons, shelfCalls, positionBy]
  · simp [expectBase, lastOf, List.filterMap_cons, shelfCalls, referenceBy, w0, w2]
  · simp [lastOf, List.filterMap_cons, shelfCalls, axisBy]
  · simp [lastOf, List.filterMap_cons, shelfCalls, curvatureBy, Ellipsoid.ofBase, V3.const]
  · simp [expectBase, lastOf, List.filterMap_cons, shelfCalls, nameBy, Ellipsoid.ofBase, Base.mkPos]

/-- The reference position set on the aggregate is read back from the point in it. -/
example : ∃ h', shelf.calls ([] ++ (2, .reference ⟨7, 7, 0⟩) :: [(0, .reference ⟨1, 1, 1⟩)]) = .ok h' ∧ refOf h' 1 = some ⟨7, 7, 0⟩ := by
  obtain ⟨h', e⟩ := (C92_defined shelf_acyclic ([] ++ (2, .reference ⟨7, 7, 0⟩) :: [(0, .reference ⟨1, 1, 1⟩)])).2 (by
    simp [Callable, shelf])
  refine ⟨h', e, C92_reference shelf_acyclic e (.single ⟨_, rfl, by simp⟩) ?_⟩
  rintro d hd -
  simp at hd
  subst hd
  intro hw
  rcases Relation.ReflTransGen.cases_head hw with h0 | ⟨c, ⟨a, ha, -⟩, -⟩
  · exact absurd h0 (by decide)
  · simp [shelf] at ha

/-- The disc and the hull are not nested in each other: the order of the calls on them does not matter. -/
example : ∃ h', shelf.calls [(0, .axisLengths ⟨3, 2, 1⟩), (3, .resolution 2)] = .ok h' ∧
    shelf.calls [(3, .resolution 2), (0, .axisLengths ⟨3, 2, 1⟩)] = .ok h' := by
  refine C92_commute shelf_acyclic _ _ ?_ (by simp [Callable, shelf]) (by simp [Callable, shelf])
  rintro ⟨r, h0, h3⟩
  have e0 : (0 : Ptr) = r := by
    rcases Relation.ReflTransGen.cases_head h0 with h | ⟨c, ⟨a, ha, -⟩, -⟩
    · exact h
    · simp [shelf] at ha
  have e3 : (3 : Ptr) = r := by
    rcases Relation.ReflTransGen.cases_head h3 with h | ⟨c, ⟨a, ha, -⟩, -⟩
    · exact h
    · simp [shelf] at ha
  exact absurd (e0.trans e3.symm) (by decide)

end DOA.Props
