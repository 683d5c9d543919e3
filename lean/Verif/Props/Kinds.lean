import Verif.Props.Intersection
import Verif.Props.AggregationHistory
import Verif.Props.HullDistance
import Verif.Props.Total

/-!
# C30 (intersection test between obstacle kinds) and C59 (constructors)
-/

set_option linter.unusedSectionVars false
set_option linter.unusedSimpArgs false

namespace DOA.Props
open DOA DOA.Spec DOA.Ellipsoid

section
variable {α : Type} [Add α] [Sub α] [Mul α] [Div α] [Neg α] [Zero α] [One α]
  [LE α] [LT α] [DecidableLE α] [DecidableLT α] [CMath α]

/-! ## C30 -/

/-- the loop over the primitives -/
theorem foldlM_short {β : Type} (f : β → Res Bool) (l : List β) : ∀ (acc r : Bool),
    l.foldlM (fun acc q => if acc then Res.ok true else f q) acc = .ok r →
    (r = true → acc = true ∨ ∃ q ∈ l, f q = .ok true) ∧ (r = false → ∀ q ∈ l, f q = .ok false) := by
  induction l with
  | nil => intro acc r h; injection h with h; subst h; simp
  | cons a l ih =>
    intro acc r h
    rw [List.foldlM_cons] at h
    obtain ⟨c, hc, h⟩ := Res.bind_eq_ok.mp h
    obtain ⟨h1, h2⟩ := ih c r h
    have hstay : ∀ (l : List β) (r : Bool),
        l.foldlM (fun acc q => if acc then Res.ok true else f q) true = .ok r → r = true := by
      intro l
      induction l with
      | nil => intro r h; injection h with h; exact h.symm
      | cons b l ihl => intro r h; exact ihl r h
    cases acc with
    | true =>
      simp only [if_true] at hc
      injection hc with hc
      subst hc
      exact ⟨fun _ => Or.inl rfl, fun hr => by rw [hstay l r h] at hr; cases hr⟩
    | false =>
      simp only [Bool.false_eq_true, if_false] at hc
      cases c with
      | true => exact ⟨fun _ => Or.inr ⟨a, List.mem_cons_self, hc⟩, fun hr => by rw [hstay l r h] at hr; cases hr⟩
      | false =>
        refine ⟨fun hr => ?_, fun hr q hq => ?_⟩
        · rcases h1 hr with hh | ⟨q, hq, hf⟩
          · cases hh
          · exact Or.inr ⟨q, List.mem_cons_of_mem _ hq, hf⟩
        · rcases List.mem_cons.mp hq with rfl | hq
          · exact hc
          · exact h2 hr q hq

theorem deref_some {h : Heap α} {q : Ptr} {o : Obj α} (hq : h.deref q = .ok o) : h[q]? = some o := by
  unfold Heap.deref at hq
  cases hh : h[q]? with
  | none => rw [hh] at hq; cases hq
  | some o' => rw [hh] at hq; injection hq with hq; rw [hq]

theorem intersecting_aux (n : Nat) : ∀ (h : Heap α) (o : Obj α) (p : Ptr) (other : Obj α) (b : Bool), h[p]? = some other →
    Heap.isIntersectingAux n h o other = .ok b →
    (b = true ↔ ∃ e r e', o = .ellipsoid e ∧ Within h p r ∧ h[r]? = some (.ellipsoid e') ∧
      e.isIntersectingEllipsoid e' = .ok true) := by
  induction n with
  | zero => intro h o p other b _ hb; simp [Heap.isIntersectingAux] at hb
  | succ n ih =>
    intro h o p other b hp hb
    have hleaf : (∀ a, other ≠ .aggregate a) → ∀ r, Within h p r → r = p := by
      intro hno r hw
      induction hw with
      | refl => rfl
      | tail _ hc ihw =>
        obtain ⟨a, ha, -⟩ := hc
        rw [ihw, hp] at ha
        injection ha with ha
        exact absurd ha (hno a)
    cases other with
    | plain b' =>
      rw [Heap.isIntersectingAux] at hb
      injection hb with hb
      subst hb
      simp only [Bool.false_eq_true, false_iff]
      rintro ⟨e, r, e', -, hw, hr, -⟩
      rw [hleaf (by simp) r hw, hp] at hr
      cases hr
    | hull k =>
      rw [Heap.isIntersectingAux] at hb
      injection hb with hb
      subst hb
      simp only [Bool.false_eq_true, false_iff]
      rintro ⟨e, r, e', -, hw, hr, -⟩
      rw [hleaf (by simp) r hw, hp] at hr
      cases hr
    | ellipsoid e' =>
      rw [Heap.isIntersectingAux] at hb
      cases o with
      | ellipsoid e =>
        constructor
        · intro hbt; subst hbt
          exact ⟨e, p, e', rfl, Relation.ReflTransGen.refl, hp, hb⟩
        · rintro ⟨e1, r, e2, he, hw, hr, hi⟩
          cases he
          rw [hleaf (by simp) r hw, hp] at hr
          cases hr
          have hb' : e.isIntersectingEllipsoid e' = .ok b := hb
          rw [hi] at hb'
          injection hb' with hb'; exact hb'.symm
      | plain _ => injection hb with hb; subst hb; simp
      | hull _ => injection hb with hb; subst hb; simp
      | aggregate _ => injection hb with hb; subst hb; simp
    | aggregate a =>
      rw [Heap.isIntersectingAux] at hb
      obtain ⟨g1, g2⟩ := foldlM_short _ _ _ _ hb
      constructor
      · intro hbt
        rcases g1 hbt with hh | ⟨q, hq, hi⟩
        · cases hh
        · obtain ⟨oq, hoq, hi⟩ := Res.bind_eq_ok.mp hi
          obtain ⟨e, r, e', h1, h2, h3, h4⟩ := (ih h o q oq true (deref_some hoq) hi).mp rfl
          exact ⟨e, r, e', h1, Relation.ReflTransGen.head ⟨a, hp, hq⟩ h2, h3, h4⟩
      · rintro ⟨e, r, e', h1, h2, h3, h4⟩
        rcases Relation.ReflTransGen.cases_head h2 with rfl | ⟨q, ⟨a', ha', hq⟩, hw⟩
        · rw [hp] at h3; cases h3
        · rw [hp] at ha'
          cases ha'
          cases b with
          | true => rfl
          | false =>
            obtain ⟨oq, hoq, hi⟩ := Res.bind_eq_ok.mp (g2 rfl q hq)
            exact (ih h o q oq false (deref_some hoq) hi).mpr ⟨e, r, e', h1, hw, h3, h4⟩

/-- C30: exactly when `o.is_intersecting(*other)` answers yes: `o` is an ellipsoid and intersects (as an ellipsoid) one of
the ellipsoids that `other` is or contains at some nesting level.  In particular a plain obstacle, a hull or an
aggregate as `o` never intersects anything.  Every heap, every nesting. -/
theorem C30_exact (h : Heap α) (o : Obj α) (p : Ptr) (other : Obj α) (hp : h[p]? = some other) (b : Bool)
    (hb : h.isIntersecting o other = .ok b) :
    b = true ↔ ∃ e r e', o = .ellipsoid e ∧ Within h p r ∧ h[r]? = some (.ellipsoid e') ∧
      e.isIntersectingEllipsoid e' = .ok true :=
  intersecting_aux _ h o p other b hp hb

/-- C30, a part that holds: obstacles that are not ellipsoids answer no to each other, both ways.
Full statement (false, see `C30_negation` and `C30_negation_ellipsoids`): the answer does not depend on the order. -/
theorem C30_symmetric_partial (h : Heap α) (o o' : Obj α) (p p' : Ptr) (hp : h[p]? = some o) (hp' : h[p']? = some o')
    (ho : ∀ e, o ≠ .ellipsoid e) (ho' : ∀ e, o' ≠ .ellipsoid e) (b b' : Bool)
    (hb : h.isIntersecting o o' = .ok b) (hb' : h.isIntersecting o' o = .ok b') : b = b' := by
  have h1 : b = false := by
    rw [← Bool.not_eq_true, C30_exact h o p' o' hp' b hb]
    rintro ⟨e, _, _, he, -⟩
    exact ho e he
  have h2 : b' = false := by
    rw [← Bool.not_eq_true, C30_exact h o' p o hp b' hb']
    rintro ⟨e, _, _, he, -⟩
    exact ho' e he
  rw [h1, h2]

/-! ## C59 -/

/-- C59, the part that holds: the constructors that are given a position or a state (with or without a reference
position).  Position, orientation, velocities, reference position, margins and shape are what was asked for, and all
queries of an ellipsoid built that way are defined.
Full statement (false, see `C59_negation`): every public constructor. -/
theorem C59_constructors_partial (name : String) (c : V3 α) (s : State α) (ref margin : V3 α) :
    (Base.mkPos name c margin).ref = .ok c ∧ (Base.mkPos name c margin).position = c ∧
    (Base.mkPos name c margin).orientation = Quat.one ∧ (Base.mkPos name c margin).state.linearVelocity = V3.zero ∧
    (Base.mkPos name c margin).state.angularVelocity = V3.zero ∧
    (Base.mkState name s margin).ref = .ok s.pose.position ∧ (Base.mkState name s margin).state = s ∧
    (Base.mkRef name s ref margin).ref = .ok ref ∧ (Base.mkRef name s ref margin).state = s ∧
    ∀ b ∈ [Base.mkPos name c margin, Base.mkState name s margin, Base.mkRef name s ref margin],
      b.name = name ∧ b.margin = margin ∧ (Ellipsoid.ofBase b).axis = ⟨1, 1, 1⟩ ∧ (Ellipsoid.ofBase b).curv = ⟨1, 1, 1⟩ ∧
      ∀ (h : Heap α) (p : V3 α) (r t : α) (o : Ellipsoid α), let e := Obj.ellipsoid (Ellipsoid.ofBase b)
        (∃ d, h.distanceToAgent e p r = .ok d) ∧ (∃ n, h.normalToAgent e p r = .ok n) ∧
        (∃ v, h.generateRepulsion e p r t = .ok v) ∧ (∃ i, h.pointIsInside e p = .ok i) ∧
        (∃ i, h.isIntersecting e (.ellipsoid o) = .ok i) ∧ e.isClosed = .ok true := by
  refine ⟨rfl, rfl, rfl, rfl, rfl, rfl, rfl, rfl, rfl, ?_⟩
  have key : ∀ b : Base α, (∃ v, b.ref = .ok v) → ∀ (h : Heap α) (p : V3 α) (r t : α) (o : Ellipsoid α),
      let e := Obj.ellipsoid (Ellipsoid.ofBase b);
        (∃ d, h.distanceToAgent e p r = .ok d) ∧ (∃ n, h.normalToAgent e p r = .ok n) ∧
        (∃ v, h.generateRepulsion e p r t = .ok v) ∧ (∃ i, h.pointIsInside e p = .ok i) ∧
        (∃ i, h.isIntersecting e (.ellipsoid o) = .ok i) ∧ e.isClosed = .ok true := by
    rintro b ⟨v, hv⟩ h p r t o e
    refine ⟨⟨_, rfl⟩, ⟨_, rfl⟩, ?_, ⟨_, rfl⟩, C29_total _ _, rfl⟩
    have hv' : (Ellipsoid.ofBase b).base.ref = .ok v := hv
    simp only [Heap.generateRepulsion, Heap.distanceToAgent, Heap.distanceToPoint, Heap.repulsionVector,
      Ellipsoid.repulsionVector, e, Res.ok_bind, hv']
    split <;> exact ⟨_, rfl⟩
  intro b hb
  simp only [List.mem_cons, List.not_mem_nil, or_false] at hb
  rcases hb with rfl | rfl | rfl
  · exact ⟨rfl, rfl, rfl, rfl, key _ ⟨_, rfl⟩⟩
  · exact ⟨rfl, rfl, rfl, rfl, key _ ⟨_, rfl⟩⟩
  · exact ⟨rfl, rfl, rfl, rfl, key _ ⟨_, rfl⟩⟩

/-- C59 is false for the constructors that get a name only: the reference position is uninitialised and the first use of
it is undefined behaviour (repulsion close to the obstacle). -/
theorem C59_negation (name : String) (margin p : V3 α) (r : α) (h : Heap α) :
    (Base.mkName name margin).ref = .ub .uninitialised ∧
    h.repulsionVector (.ellipsoid (Ellipsoid.ofBase (Base.mkName name margin))) p r = .ub .uninitialised ∧
    (Hull.mk' true 10 r).base.ref = .ub .uninitialised ∧
    (Aggregate.default : Aggregate α).base.ref = .ub .uninitialised := ⟨rfl, rfl, rfl, rfl⟩

end

/-- C30 is false: an ellipsoid intersects an aggregate that contains an overlapping ellipsoid, but no aggregate ever
intersects anything.  For every pair of overlapping z-rotated ellipsoids whose centre is inside the other one. -/
theorem C30_negation (e o : Ellipsoid ℝ) (he : ZRotated e) (ho : ZRotated o)
    (hin : InEllipse e (halfLengths e V3.zero) o.base.position.x o.base.position.y) :
    ∃ (h : Heap ℝ) (a : Aggregate ℝ), a.prims = [0] ∧ h[0]? = some (.ellipsoid o) ∧ h[1]? = some (.ellipsoid e) ∧
      h.isIntersecting (.ellipsoid e) (.aggregate a) = .ok true ∧
      h.isIntersecting (.aggregate a) (.ellipsoid e) = .ok false := by
  have hi : e.isIntersectingEllipsoid o = .ok true := C29_detects_centres e o he ho (Or.inl hin)
  refine ⟨[.ellipsoid o, .ellipsoid e], { (Aggregate.default : Aggregate ℝ) with prims := [0] }, rfl, rfl, rfl, ?_, rfl⟩
  simp [Heap.isIntersecting, Heap.fuel, Heap.isIntersectingAux, Heap.deref, Heap.isIntersectingEllipsoid, hi]

/-- Even between two ellipsoids the answer depends on the order. -/
theorem C30_negation_ellipsoids : ∃ (e o : Ellipsoid ℝ), ZRotated e ∧ ZRotated o ∧
    ∀ h : Heap ℝ, h.isIntersecting (.ellipsoid e) (.ellipsoid o) = .ok false ∧
      h.isIntersecting (.ellipsoid o) (.ellipsoid e) = .ok true := by
  obtain ⟨e, o, h1, h2, -, h3, h4⟩ := C29_negation
  exact ⟨e, o, h1, h2, fun h => ⟨h3, h4⟩⟩

/-- C30, another part that holds: if the centre of one ellipsoid is inside the other, the answer is yes both ways. -/
theorem C30_centres_partial (h : Heap ℝ) (e o : Ellipsoid ℝ) (he : ZRotated e) (ho : ZRotated o)
    (hin : InEllipse e (halfLengths e V3.zero) o.base.position.x o.base.position.y ∨
      InEllipse o (halfLengths o V3.zero) e.base.position.x e.base.position.y) :
    h.isIntersecting (.ellipsoid e) (.ellipsoid o) = .ok true ∧
      h.isIntersecting (.ellipsoid o) (.ellipsoid e) = .ok true :=
  ⟨C29_detects_centres e o he ho hin, C29_detects_centres o e ho he hin.symm⟩

/-- Non-vacuity of the hypotheses. -/
example : InEllipse exZ (halfLengths exZ V3.zero) exZ.base.position.x exZ.base.position.y :=
  ⟨0, 0, by simp, by simp [zrot_apply exZ_rotated], by simp [zrot_apply exZ_rotated]⟩

end DOA.Props
