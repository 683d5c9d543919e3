import Verif.Lemmas.CombineMany
import Verif.Props.Loop

/-!
# C74: the control loop among several obstacles
-/

set_option linter.unusedSectionVars false
set_option linter.unusedSimpArgs false

namespace DOA.Props
open DOA DOA.Spec DOA.Modulation DOA.Ellipsoid

/-! ## the weight of the nearest obstacle -/

theorem sum_le_card {l : List ℝ} {b : ℝ} (h : ∀ y ∈ l, y ≤ b) : l.sum ≤ l.length * b := by
  induction l with
  | nil => simp
  | cons a l ih =>
    have h1 := h a (by simp)
    have h2 := ih (fun y hy => h y (by simp [hy]))
    simp only [List.sum_cons, List.length_cons, Nat.cast_add, Nat.cast_one]
    linarith

/-- Near one obstacle and away from the others, the weights of the others vanish in proportion to the
excess `d - 1` (default critical distance 1, power at least 1). -/
theorem weight_near (d1 d2 : List ℝ) {d p : ℝ} (hp : 1 ≤ p) (h1 : 1 < d) (hd : d < 11 / 10)
    (ho : ∀ y ∈ d1 ++ d2, 11 / 10 ≤ y) :
    1 - weightOf (d1 ++ d :: d2) 1 p d ≤ (d1 ++ d2).length * (10 * (d - 1)) := by
  have hno : ¬ 0 < ((d1 ++ d :: d2).filter fun d => decide (d ≤ 1)).length := by
    rw [not_lt, Nat.le_zero, List.length_eq_zero_iff, List.filter_eq_nil_iff]
    intro y hy
    have : 1 < y := by
      rcases List.mem_append.mp hy with hy | hy
      · linarith [ho y (by simp [hy])]
      · rcases List.mem_cons.mp hy with rfl | hy
        · exact h1
        · linarith [ho y (by simp [hy])]
    simpa using this
  unfold weightOf
  simp only [if_neg hno]
  have hd1 : 0 < d - 1 := by linarith
  have hpos : 0 < (d - 1) ^ (-p) := Real.rpow_pos_of_pos hd1 _
  set T := ((d1 ++ d2).map fun d => (d - 1) ^ (-p)).sum with hT
  have hT0 : 0 ≤ T := by
    apply List.sum_nonneg
    intro z hz
    obtain ⟨y, hy, rfl⟩ := List.mem_map.mp hz
    exact Real.rpow_nonneg (by linarith [ho y hy]) _
  have hsum : ((d1 ++ d :: d2).map fun d => (d - 1) ^ (-p)).sum = (d - 1) ^ (-p) + T := by
    rw [hT]
    simp only [List.map_append, List.map_cons, List.sum_append, List.sum_cons]
    ring
  rw [hsum]
  have hTle : T ≤ (d1 ++ d2).length * (1 / 10 : ℝ) ^ (-p) := by
    have := sum_le_card (l := (d1 ++ d2).map fun d => (d - 1) ^ (-p)) (b := (1 / 10 : ℝ) ^ (-p)) (by
      intro z hz
      obtain ⟨y, hy, rfl⟩ := List.mem_map.mp hz
      exact Real.rpow_le_rpow_of_nonpos (by norm_num) (by linarith [ho y hy]) (by linarith))
    rwa [List.length_map] at this
  have e1 : 1 - (d - 1) ^ (-p) / ((d - 1) ^ (-p) + T) = T / ((d - 1) ^ (-p) + T) := by
    field_simp; ring
  rw [e1]
  have h2 : T / ((d - 1) ^ (-p) + T) ≤ T / (d - 1) ^ (-p) :=
    div_le_div_of_nonneg_left hT0 hpos (by linarith)
  have h3 : T / (d - 1) ^ (-p) = T * (d - 1) ^ p := by
    rw [Real.rpow_neg hd1.le, div_inv_eq_mul]
  have h4 : (1 / 10 : ℝ) ^ (-p) * (d - 1) ^ p = (10 * (d - 1)) ^ p := by
    rw [Real.mul_rpow (by norm_num) hd1.le, one_div, Real.inv_rpow (by norm_num), Real.rpow_neg (by norm_num), inv_inv]
  have h5 : (10 * (d - 1)) ^ p ≤ 10 * (d - 1) := by
    have := Real.rpow_le_rpow_of_exponent_ge (by linarith : 0 < 10 * (d - 1)) (by linarith) hp
    simpa using this
  have hN : (0 : ℝ) ≤ (d1 ++ d2).length := Nat.cast_nonneg _
  calc T / ((d - 1) ^ (-p) + T) ≤ T * (d - 1) ^ p := by rw [← h3]; exact h2
    _ ≤ ((d1 ++ d2).length * (1 / 10 : ℝ) ^ (-p)) * (d - 1) ^ p :=
        mul_le_mul_of_nonneg_right hTle (Real.rpow_nonneg hd1.le _)
    _ = (d1 ++ d2).length * (10 * (d - 1)) ^ p := by rw [mul_assoc, h4]
    _ ≤ _ := mul_le_mul_of_nonneg_left h5 hN

/-! ## several obstacles in `modulate_velocity` -/

/-- The obstacles of a scene, with their curvatures and reference points. -/
structure Scene where
  obj : Ptr → Ellipsoid ℝ
  curv : Ptr → ℕ
  ref : Ptr → V3 ℝ

/-- What the theorems ask of each obstacle: static, in the plane, smooth, thick; its reference point is not too
near to its surface. -/
structure Scene.Good (S : Scene) (m l : ℝ) (p : Ptr) : Prop where
  static : Static (.ellipsoid (S.obj p))
  plane : InPlaneZ (S.obj p).base
  smooth : Smooth (S.obj p) m (S.curv p)
  thick : Thick (S.obj p) m l
  ref : (S.obj p).base.refPos = some (S.ref p)
  inside : 121 / 10 ^ 6 * S.curv p < (1 - gdist (S.obj p) m (S.ref p)) * l

/-- No point of the plane is near to two obstacles: the regions where the distance is below 1.1 are disjoint. -/
def Scene.Apart (S : Scene) (m : ℝ) (l : List Ptr) : Prop :=
  l.Pairwise fun p q => ∀ x : V3 ℝ, x.z = 0 → 11 / 10 ≤ gdist (S.obj p) m x ∨ 11 / 10 ≤ gdist (S.obj q) m x

theorem apart_split {S : Scene} {m : ℝ} {l1 l2 : List Ptr} {p : Ptr} (h : S.Apart m (l1 ++ p :: l2)) {x : V3 ℝ}
    (hx : x.z = 0) (hn : gdist (S.obj p) m x < 11 / 10) : ∀ q ∈ l1 ++ l2, 11 / 10 ≤ gdist (S.obj q) m x := by
  obtain ⟨-, h2, h3⟩ := List.pairwise_append.mp h
  obtain ⟨h4, -⟩ := List.pairwise_cons.mp h2
  intro q hq
  rcases List.mem_append.mp hq with hq | hq
  · rcases h3 q hq p (by simp) x hx with h | h
    · exact h
    · linarith
  · rcases h4 q hq x hx with h | h
    · linarith
    · exact h

theorem inside_lt {S : Scene} {m l : ℝ} {p : Ptr} (g : S.Good m l p) : gdist (S.obj p) m (S.ref p) < 1 := by
  have hl := g.thick.1
  have hk : (0 : ℝ) ≤ S.curv p := Nat.cast_nonneg _
  have := g.inside
  by_contra hn
  have := mul_nonneg (sub_nonneg.mpr (not_lt.mp hn)) hl.le
  nlinarith

theorem good_plane {S : Scene} {m l : ℝ} {p : Ptr} (g : S.Good m l p) {x : V3 ℝ} (hx : x.z = 0) :
    InPlane (S.obj p) x (S.ref p) := by
  have key : ∀ y : V3 ℝ, y.z = 0 → ∃ a b, y = (S.obj p).base.pose.apply ⟨a, b, 0⟩ := by
    intro y hy
    refine ⟨((S.obj p).base.pose.inverse.apply y).x, ((S.obj p).base.pose.inverse.apply y).y, ?_⟩
    have h1 := flat_apply (flat_inversePose g.plane.pose) hy
    have h2 : (⟨((S.obj p).base.pose.inverse.apply y).x, ((S.obj p).base.pose.inverse.apply y).y, 0⟩ : V3 ℝ) =
        (S.obj p).base.pose.inverse.apply y := by ext <;> simp [h1]
    rw [h2, Pose.apply_apply_inverse (unit' g.smooth)]
  exact ⟨key x hx, key _ (g.plane.ref _ g.ref)⟩

theorem lsum_split (l1 l2 : List Ptr) (p : Ptr) (f : Ptr → V3 ℝ) (h : ∀ q ∈ l1 ++ l2, f q = V3.zero) :
    V3.lsum ((l1 ++ p :: l2).map f) = f p := by
  have hz : ∀ l : List Ptr, (∀ q ∈ l, f q = V3.zero) → V3.lsum (l.map f) = V3.zero := fun l hl => lsum_zero hl
  induction l1 with
  | nil =>
    rw [List.nil_append, List.map_cons, V3.lsum_cons, hz l2 (fun q hq => h q (by simpa using hq)), V3.add_zero']
  | cons a l ih =>
    rw [List.cons_append, List.map_cons, V3.lsum_cons, ih (fun q hq => h q (by
      rw [List.cons_append]; exact List.mem_cons_of_mem _ hq)), h a (by simp), V3.zero_add']

/-- The result of `modulate_velocity` with repulsion among several static obstacles. Near one obstacle and away
from the others it is `M v` of that obstacle, its repulsion, and an error that vanishes (up to 1E-8) towards
its surface. -/
theorem many_out (h : Heap ℝ) (a : Agent ℝ) (E : Env) (S : Scene) (l power K : ℝ) (hne : E.list ≠ [])
    (hobj : ∀ p ∈ E.list, h[p]? = some (.ellipsoid (S.obj p))) (hg : ∀ p ∈ E.list, S.Good a.margin l p)
    (hv : a.state.linearVelocity.z = 0) (hp : 1 ≤ power)
    (hout : ∀ p ∈ E.list, 1 < gdist (S.obj p) a.margin a.state.position)
    (hK : ∀ p ∈ E.list, ∀ M B d, modulationMatrix h a (.ellipsoid (S.obj p)) = .ok (M, B, d) →
      V3.norm (M.mulVec a.state.linearVelocity) ≤ K) :
    ∃ out, modulateVelocity h a E false true false 1 power = .ok (h, out) ∧
      ∀ l1 p l2, E.list = l1 ++ p :: l2 → gdist (S.obj p) a.margin a.state.position < 11 / 10 →
        (∀ q ∈ l1 ++ l2, 11 / 10 ≤ gdist (S.obj q) a.margin a.state.position) →
        ∃ M B err, modulationMatrix h a (.ellipsoid (S.obj p)) =
            .ok (M, B, gdist (S.obj p) a.margin a.state.position) ∧
          out = M.mulVec a.state.linearVelocity + err +
            V3.smul (2 / gdist (S.obj p) a.margin a.state.position) (a.state.position - S.ref p) ∧
          V3.norm err ≤ 1 / 10 ^ 8 * K + (1 + 4 * Real.pi) *
            (((l1 ++ l2).length * (10 * (gdist (S.obj p) a.margin a.state.position - 1))) * K) := by
  set x := a.state.position with hxd
  set v := a.state.linearVelocity with hvd
  have hmat := fun p (hp : p ∈ E.list) => matrix_ellipsoid h a (S.obj p) (hg p hp).ref
  let mm : Ptr → M3 ℝ := fun p => modulationProduct (S.obj p).base.pose.orientation
    (referenceBasis ((S.obj p).normalToAgent x a.margin) (referenceDirection (S.obj p).base.pose x (S.ref p)))
    (diagonalEigenvalues (gdist (S.obj p) a.margin x) 1)
  let bb : Ptr → M3 ℝ := fun p => orthogonalBasis ((S.obj p).normalToAgent x a.margin)
  let dd : Ptr → ℝ := fun p => gdist (S.obj p) a.margin x
  let it : Ptr → Item ℝ := fun p => ⟨(S.obj p).base, mm p, bb p, dd p⟩
  have hits : E.list.mapM (itemOf h a) = .ok (E.list.map it) := by
    refine (mapM_ok _ _ _).mpr ?_
    rw [List.forall₂_map_right_iff, List.forall₂_same]
    intro p hp
    exact itemOf_ok (hobj p hp) (hmat p hp)
  have hstat : obsVel x (E.list.map it) 1 power = V3.zero := by
    refine static_obsVel (h := h) (a := a) (l := E.list) (fun q hq => ⟨_, hobj q hq, (hg q hq).static⟩) ?_
    intro i hi
    obtain ⟨p, hp, rfl⟩ := List.mem_map.mp hi
    exact ⟨p, hp, _, hobj p hp, rfl, hmat p hp⟩
  have hplain := modulate_plain h a E false 1 power _ hne (by intro h; cases h) hits
  rw [combine_eq, ← hxd, ← hvd, hstat, V3.sub_zero', V3.add_zero'] at hplain
  let rr : Ptr → V3 ℝ := fun p => if dd p < 11 / 10 then V3.smul (2 / dd p) (x - S.ref p) else V3.zero
  have hadd := C42_added h h a E false false 1 power _ (E.list.map rr) hne (by intro h; cases h) hplain (by
    rw [List.forall₂_map_right_iff, List.forall₂_same]
    intro p hp
    refine ⟨_, hobj p hp, ?_⟩
    by_cases hn : dd p < 11 / 10
    · rw [C42_near h (S.obj p) (S.ref p) x a.margin (11 / 10) (hg p hp).ref hn]
      simp only [rr, if_pos hn]; rfl
    · rw [C42_far h (.ellipsoid (S.obj p)) x a.margin (11 / 10) (dd p) rfl hn]
      simp only [rr, if_neg hn])
  refine ⟨_, hadd, ?_⟩
  intro l1 p l2 hsplit hn hfar
  have hpm : p ∈ E.list := by rw [hsplit]; simp
  have hsum : V3.lsum (E.list.map rr) = V3.smul (2 / dd p) (x - S.ref p) := by
    rw [hsplit, lsum_split l1 l2 p rr]
    · exact if_pos hn
    · intro q hq; exact if_neg (not_lt.mpr (hfar q hq))
  obtain ⟨hbig, -⟩ := near_push (hg p hpm).smooth (hg p hpm).thick (hg p hpm).inside (hout p hpm) hn.le
  rw [hsum, if_pos hbig]
  have hpairs : pairs (E.list.map it) 1 power = (l1.map fun q => (mm q, weightOf (E.list.map dd) 1 power (dd q))) ++
      (mm p, weightOf (E.list.map dd) 1 power (dd p)) ::
        l2.map fun q => (mm q, weightOf (E.list.map dd) 1 power (dd q)) := by
    have e1 : pairs (E.list.map it) 1 power =
        E.list.map fun q => (mm q, weightOf (E.list.map dd) 1 power (dd q)) := by
      unfold pairs
      simp only [List.map_map]; rfl
    rw [e1]
    generalize weightOf (E.list.map dd) 1 power = w
    rw [hsplit]
    simp
  have hine : E.list.map it ≠ [] := by simpa using hne
  have hw := pairs_nonneg (c := 1) (p := power) hine
  have hs1 : ((pairs (E.list.map it) 1 power).map (·.2)).sum = 1 := by
    have := (C33_convex ((E.list.map it).map (·.dist)) 1 power (by simpa using hne)).2.2
    rw [weight_eq] at this
    unfold pairs
    rw [List.map_map]
    rw [List.map_map] at this
    exact this
  have hKK : ∀ y ∈ pairs (E.list.map it) 1 power, V3.norm (y.1.mulVec v) ≤ K := by
    intro y hy
    obtain ⟨i, hi, rfl⟩ := List.mem_map.mp hy
    obtain ⟨q, hq, rfl⟩ := List.mem_map.mp hi
    exact hK q hq _ _ _ (hmat q hq)
  rw [hpairs] at hw hs1 hKK ⊢
  have hnear := core_near hv _ _ _ hw hs1 hKK (fun c hc hv0 =>
    matrix_not_opposite (o := .ellipsoid (S.obj p)) (hg p hpm).smooth.unit (hmat p hpm) v c hc hv0)
  refine ⟨mm p, bb p, core v ((l1.map fun q => (mm q, weightOf (E.list.map dd) 1 power (dd q))) ++
      (mm p, weightOf (E.list.map dd) 1 power (dd p)) ::
        l2.map fun q => (mm q, weightOf (E.list.map dd) 1 power (dd q))) - (mm p).mulVec v, hmat p hpm, ?_, ?_⟩
  · v3_ring
  · refine le_trans hnear ?_
    have hK0 : 0 ≤ K := le_trans (V3.norm_nonneg _) (hK p hpm _ _ _ (hmat p hpm))
    have hwn := weight_near (l1.map dd) (l2.map dd) hp (hout p hpm) hn (by
      intro y hy
      rw [← List.map_append] at hy
      obtain ⟨q, hq, rfl⟩ := List.mem_map.mp hy
      exact hfar q hq)
    have e2 : E.list.map dd = l1.map dd ++ dd p :: l2.map dd := by rw [hsplit]; simp
    have e3 : ((l1.map dd ++ l2.map dd).length : ℝ) = (l1 ++ l2).length := by simp
    rw [e3] at hwn
    rw [e2]
    have hpi := Real.pi_pos
    have := mul_le_mul_of_nonneg_right hwn hK0
    have := mul_le_mul_of_nonneg_left this (by positivity : 0 ≤ 1 + 4 * Real.pi)
    linarith

/-! ## C74 the loop -/

/-- The situation at the beginning of an iteration: the listed objects are the obstacles of the scene, the
envelope of the agent is another object, the agent is in the plane. -/
structure OnScene (S : Scene) (ps : List Ptr) (m : ℝ) (s : Heap ℝ × Agent ℝ) : Prop where
  obj : ∀ p ∈ ps, s.1[p]? = some (.ellipsoid (S.obj p))
  envelope : ∃ (q : Ptr) (env : Ellipsoid ℝ), q ∉ ps ∧ s.2.envelope = some q ∧ s.1[q]? = some (.ellipsoid env)
  margin : s.2.margin = m
  flat : s.2.state.position.z = 0

theorem withState_onScene {S : Scene} {ps : List Ptr} {m : ℝ} {s : Heap ℝ × Agent ℝ} (hs : OnScene S ps m s)
    (st : State ℝ) (hz : st.position.z = 0) :
    ∃ h', Agent.withState s.1 s.2 st = .ok (h', { s.2 with state := st }) ∧
      OnScene S ps m (h', { s.2 with state := st }) := by
  obtain ⟨q, env, hqp, hq, henv⟩ := hs.envelope
  have hlt : q < s.1.length := by
    by_contra hn
    rw [List.getElem?_eq_none (Nat.le_of_not_lt hn)] at henv
    cases henv
  refine ⟨_, by simp [Agent.withState, Agent.updateEnvelope, hq, Heap.deref, henv]; rfl, ⟨?_, ?_, hs.margin, hz⟩⟩
  · intro p hp
    show (List.set s.1 q _)[p]? = _
    rw [List.getElem?_set_ne (by rintro rfl; exact hqp hp)]
    exact hs.obj p hp
  · exact ⟨q, _, hqp, hq, by rw [List.getElem?_set_self hlt]⟩

/-- What is fixed during the loop: the default critical distance 1, a power of at least 1, repulsion. -/
structure ManySetup (c : Loop ℝ) (E : Env) (S : Scene) (m l : ℝ) : Prop where
  nonempty : E.list ≠ []
  good : ∀ p ∈ E.list, S.Good m l p
  apart : S.Apart m E.list
  notLocal : c.isLocal = false
  notPlanar : c.planar = false
  repulsion : c.addRepulsion = true
  critical : c.critical = 1
  power : 1 ≤ c.power
  dt : 0 ≤ c.dt
  maxVel : ∀ v, c.maxVel = some v → 0 ≤ v
  target : c.target.z = 0

/-- No obstacle stretches the velocity `v` beyond `K`. -/
def Stretch (E : Env) (S : Scene) (K : ℝ) (s : Heap ℝ × Agent ℝ) (v : V3 ℝ) : Prop :=
  ∀ p ∈ E.list, ∀ M B d, modulationMatrix s.1 s.2 (.ellipsoid (S.obj p)) = .ok (M, B, d) →
    V3.norm (M.mulVec v) ≤ K

theorem exists_stretch {E : Env} {S : Scene} {m l : ℝ} (hg : ∀ p ∈ E.list, S.Good m l p) (s : Heap ℝ × Agent ℝ)
    (v : V3 ℝ) : ∃ K, Stretch E S K s v := by
  have key : ∀ ps : List Ptr, (∀ p ∈ ps, p ∈ E.list) → ∃ K : ℝ, ∀ p ∈ ps, ∀ M B d,
      modulationMatrix s.1 s.2 (.ellipsoid (S.obj p)) = .ok (M, B, d) → V3.norm (M.mulVec v) ≤ K := by
    intro ps
    induction ps with
    | nil => intro _; exact ⟨0, fun p hp => by cases hp⟩
    | cons a ps ih =>
      intro h
      obtain ⟨K, hK⟩ := ih (fun p hp => h p (by simp [hp]))
      obtain ⟨M0, B0, d0, ha⟩ : ∃ M0 B0 d0, modulationMatrix s.1 s.2 (.ellipsoid (S.obj a)) = .ok (M0, B0, d0) :=
        ⟨_, _, _, matrix_ellipsoid s.1 s.2 (S.obj a) (hg a (h a (by simp))).ref⟩
      refine ⟨max (V3.norm (M0.mulVec v)) K, fun p hp M B d hM => ?_⟩
      rcases List.mem_cons.mp hp with rfl | hp
      · rw [ha] at hM
        simp only [Res.ok.injEq, Prod.mk.injEq] at hM
        rw [← hM.1]
        exact le_max_left _ _
      · exact le_trans (hK p hp M B d hM) (le_max_right _ _)
  exact key _ (fun _ h => h)

/-- One iteration. -/
theorem iterate_many {c : Loop ℝ} {E : Env} {S : Scene} {m l K : ℝ} (hc : ManySetup c E S m l)
    {s : Heap ℝ × Agent ℝ} (hs : OnScene S E.list m s) (v : V3 ℝ) (hv : v.z = 0)
    (hout : ∀ p ∈ E.list, 1 < gdist (S.obj p) m s.2.state.position) (hK : Stretch E S K s v) :
    ∃ out g s', 0 ≤ g ∧ g ≤ 1 ∧ c.iterate E v s = .ok s' ∧ OnScene S E.list m s' ∧
      s'.2.state.position = s.2.state.position + V3.smul (c.dt * g) out ∧
      (∀ w, c.maxVel = some w → V3.norm (V3.smul g out) ≤ w) ∧
      ∀ p ∈ E.list, gdist (S.obj p) m s.2.state.position < 11 / 10 →
        ∃ (M : M3 ℝ) (err : V3 ℝ), out = M.mulVec v + err +
            V3.smul (2 / gdist (S.obj p) m s.2.state.position) (s.2.state.position - S.ref p) ∧
          (∀ v s0, Slope (S.obj p) m s.2.state.position v s0 → Slope (S.obj p) m s.2.state.position (M.mulVec v)
            (max 0 (1 - 1 / gdist (S.obj p) m s.2.state.position) * s0)) ∧
          V3.norm err ≤ 1 / 10 ^ 8 * K + (1 + 4 * Real.pi) *
            (((E.list.length - 1 : ℕ) * (10 * (gdist (S.obj p) m s.2.state.position - 1))) * K) := by
  obtain ⟨h1, hset, hon⟩ := withState_onScene hs (s.2.state.setLinearVelocity v) hs.flat
  set a1 : Agent ℝ := { s.2 with state := s.2.state.setLinearVelocity v } with ha1
  have hpos : a1.state.position = s.2.state.position := rfl
  have hmar : a1.margin = m := hs.margin
  have hvel : a1.state.linearVelocity = v := rfl
  have hmat : ∀ p ∈ E.list, modulationMatrix h1 a1 (.ellipsoid (S.obj p)) =
      modulationMatrix s.1 s.2 (.ellipsoid (S.obj p)) := by
    intro p hp
    rw [matrix_ellipsoid _ _ _ (hc.good p hp).ref, matrix_ellipsoid _ _ _ (hc.good p hp).ref, hpos, hmar, ← hs.margin]
  obtain ⟨out, hmod, hnear⟩ := many_out h1 a1 E S l c.power K hc.nonempty hon.obj
    (by rw [hmar]; exact hc.good) (by rw [hvel]; exact hv) hc.power
    (by rw [hmar, hpos]; exact hout)
    (by rw [hvel]; intro p hp M B d hM; rw [hmat p hp] at hM; exact hK p hp M B d hM)
  rw [hpos, hmar, hvel] at hnear
  have hlim : ∃ g, 0 ≤ g ∧ g ≤ 1 ∧ c.limit out = V3.smul g out ∧
      ∀ w, c.maxVel = some w → V3.norm (V3.smul g out) ≤ w := by
    obtain ⟨g, hg0, hg1, h2, -⟩ := limit_eq c hc.maxVel out
    refine ⟨g, hg0, hg1, h2, fun w hw => ?_⟩
    rw [← h2]
    unfold Loop.limit
    simp only [hw]
    split
    · rw [V3.norm_smul, abs_of_nonneg (hc.maxVel w hw)]
      have h3 : V3.norm out.normalized ≤ 1 := by
        by_cases h0 : out = V3.zero
        · rw [h0, V3.normalized_zero]
          have : V3.norm (V3.zero : V3 ℝ) = 0 := by simp [V3.norm, V3.sqNorm, V3.dot, V3.zero, CMath.sqrt]
          rw [this]; norm_num
        · exact (V3.norm_normalized h0).le
      nlinarith [hc.maxVel w hw]
    · rename_i hnot; exact not_lt.mp hnot
  obtain ⟨g, hg0, hg1, hlim, hmax⟩ := hlim
  have hz : out.z = 0 := by
    refine C48_planar_partial h1 h1 a1 E false true false 1 c.power _ (by rw [hpos]; exact hs.flat)
      (by rw [hvel]; exact hv) ?_ hmod
    intro q hq o ho
    rw [hon.obj q hq] at ho
    cases ho
    refine ⟨(hc.good q hq).plane, ?_⟩
    show (S.obj q).curv.z ≠ 1 / 2
    rw [(hc.good q hq).smooth.curv.1]
    have hk := (hc.good q hq).smooth.curv.2.1
    have : (1 : ℝ) ≤ S.curv q := by exact_mod_cast hk
    show (S.curv q : ℝ) ≠ 1 / 2
    linarith
  obtain ⟨h2, hset2, hon2⟩ := withState_onScene hon (a1.state.setPosition (s.2.state.position +
    V3.smul c.dt (V3.smul g out))) (by
      show (s.2.state.position + _).z = 0
      simp only [V3.add_z, V3.smul, hs.flat, hz, mul_zero, add_zero])
  refine ⟨out, g, _, hg0, hg1, ?_, hon2, ?_, hmax, ?_⟩
  · unfold Loop.iterate
    rw [show Agent.setLinearVelocity s.1 s.2 v = .ok (h1, a1) from hset]
    simp only [Res.ok_bind, hc.notLocal, hc.notPlanar, hc.repulsion, hc.critical, hmod, hlim]
    exact hset2
  · show s.2.state.position + _ = _
    congr 1
    ext <;> simp only [V3.smul] <;> ring
  · intro p hp hn
    obtain ⟨l1, l2, hsplit⟩ := List.append_of_mem hp
    obtain ⟨M, B, err, hM, he, herr⟩ := hnear l1 p l2 hsplit hn
      (apart_split (by rw [← hsplit]; exact hc.apart) hs.flat hn)
    have g := hc.good p hp
    obtain ⟨M', B', hM', hsl⟩ := C37_impenetrable_partial h1 a1 (S.obj p) (S.curv p) (by rw [hmar]; exact g.smooth)
      (S.ref p) g.ref (by rw [hmar, hpos]; linarith [hout p hp, inside_lt g]) (Or.inl (good_plane g hs.flat))
    rw [hM] at hM'
    simp only [Res.ok.injEq, Prod.mk.injEq] at hM'
    obtain ⟨rfl, -, -⟩ := hM'
    rw [hpos, hmar] at hsl
    have hlen : E.list.length - 1 = (l1 ++ l2).length := by rw [hsplit]; simp
    rw [hlen]
    exact ⟨M, err, he, hsl, herr⟩

/-- C74: the control loop of the demonstration programs with repulsion among any number of static obstacles in
the plane, whose 1.1-regions are disjoint, starting anywhere outside all of them: the loop never fails and the
agent never touches any obstacle. Conditions at every iteration, with `K` at least all modulated speeds
`|M_i v|`: short steps, and a speed that is not astronomically large. -/
theorem C74_many (c : Loop ℝ) (E : Env) (S : Scene) (m l : ℝ) (hc : ManySetup c E S m l) (n : ℕ) :
    ∀ (s : Heap ℝ × Agent ℝ), OnScene S E.list m s →
    (∀ p ∈ E.list, 1 < gdist (S.obj p) m s.2.state.position) →
    (∀ i < n, ∀ s' s'', c.run E i s = .ok s' → c.iterate E (c.desired s'.2.state.position) s' = .ok s'' →
      ∃ K, Stretch E S K s' (c.desired s'.2.state.position) ∧ ∀ p ∈ E.list,
        22 * S.curv p * V3.norm (s''.2.state.position - s'.2.state.position) < l ∧
        2 * S.curv p * (c.dt * (V3.norm (c.desired s'.2.state.position) +
          11 * (1 + 4 * Real.pi) * ((E.list.length - 1 : ℕ) * K))) < l ∧
        11 / 10 * (S.curv p * (1 / 10 ^ 8 * K)) ≤ (1 - gdist (S.obj p) m (S.ref p)) * l) →
    ∃ s', c.run E n s = .ok s' ∧ OnScene S E.list m s' ∧
      ∀ p ∈ E.list, 1 < gdist (S.obj p) m s'.2.state.position := by
  induction n with
  | zero => intro s hs h0 _; exact ⟨s, rfl, hs, h0⟩
  | succ n ih =>
    intro s hs h0 hshort
    set x := s.2.state.position with hx
    set v := c.desired x with hv
    have hvz := desired_flat c hc.target hs.flat
    obtain ⟨K0, hK0⟩ := exists_stretch hc.good s v
    obtain ⟨-, -, s1, -, -, hit, hs1, -⟩ := iterate_many hc hs v hvz h0 hK0
    obtain ⟨K, hK, hsteps⟩ := hshort 0 (Nat.succ_pos n) s s1 rfl hit
    obtain ⟨out, g, s2, hg0, hg1, hit', -, hpos, -, hnear⟩ := iterate_many hc hs v hvz h0 hK
    rw [hit] at hit'
    cases hit'
    have htg : 0 ≤ c.dt * g := mul_nonneg hc.dt hg0
    have key : ∀ p ∈ E.list, 1 < gdist (S.obj p) m s1.2.state.position := by
      intro p hp
      obtain ⟨h22, hsh, hsp⟩ := hsteps p hp
      have gd := hc.good p hp
      have hl := gd.thick.1
      have hk : (0 : ℝ) ≤ S.curv p := Nat.cast_nonneg _
      have hf1 := h0 p hp
      rcases le_or_gt (11 / 10) (gdist (S.obj p) m x) with hfar | hnr
      · -- far: the length of the step is enough
        have hs0 := slope_level gd.smooth x (s1.2.state.position - x)
        generalize dlevel _ _ _ _ = σ at hs0
        have h1 := gdist_tangent gd.smooth hs0
        have h2 := (abs_le.mp (slope_bound gd.smooth hs0 hl gd.thick.2.1 gd.thick.2.2.1 gd.thick.2.2.2)).1
        have e1 : x + (s1.2.state.position - x) = s1.2.state.position := by v3_ring
        rw [e1] at h1
        rw [max_eq_right hf1.le] at h2
        set f := gdist (S.obj p) m x with hf
        set δ := V3.norm (s1.2.state.position - x) with hδ
        have h3 : 2 * S.curv p * (δ / l) < 1 / 11 := by
          have : 22 * S.curv p * δ / l < 1 := (div_lt_one hl).mpr h22
          have e2 : 22 * S.curv p * δ / l = 11 * (2 * S.curv p * (δ / l)) := by ring
          linarith
        have h4 : 2 * S.curv p * f * (δ / l) ≤ f * (1 / 11) := by
          have := mul_le_mul_of_nonneg_left h3.le (by linarith : 0 ≤ f)
          linarith
        have h5 : 2 * S.curv p * f * (δ / l) < f * (1 / 11) := by
          have := mul_lt_mul_of_pos_left h3 (by linarith : 0 < f)
          linarith
        linarith
      · -- near: the repulsion outweighs the errors
        obtain ⟨M, err, he, hsl, herr⟩ := hnear p hp hnr
        have hρ := slope_level gd.smooth x (V3.smul (2 / gdist (S.obj p) m x) (x - S.ref p))
        generalize dlevel _ _ _ _ = σ at hρ
        have hσ := (near_push gd.smooth gd.thick gd.inside hf1 hnr.le).2 σ hρ
        have hsv := slope_level gd.smooth x v
        have hstep := step_bound gd.smooth gd.thick htg hsv (hsl _ _ hsv) (le_max_left _ _) hρ (err := err)
        rw [← he, ← hpos, max_eq_right hf1.le] at hstep
        have hKn : 0 ≤ K := le_trans (V3.norm_nonneg _)
          (hK p hp _ _ _ (matrix_ellipsoid s.1 s.2 _ gd.ref))
        clear hsl hsv hρ
        have hN : (0 : ℝ) ≤ (E.list.length - 1 : ℕ) := Nat.cast_nonneg _
        generalize ((E.list.length - 1 : ℕ) : ℝ) = N at *
        have hpi := Real.pi_pos
        set A := 1 + 4 * Real.pi with hA
        have hA0 : 0 < A := by positivity
        set f := gdist (S.obj p) m x with hf
        set f0 := gdist (S.obj p) m (S.ref p) with hf0
        have hfpos : 0 < f := by linarith
        have hle1 : 1 / f ≤ 1 := by rw [div_le_one hfpos]; exact hf1.le
        rw [max_eq_right (by linarith : (0 : ℝ) ≤ 1 - 1 / f)] at hstep
        have hvn := V3.norm_nonneg v
        set t := c.dt * g with ht
        set κ := 2 * (S.curv p : ℝ) / l with hκ
        have hκ0 : 0 ≤ κ := by positivity
        have e1 : t * ((1 - 1 / f) * (2 * S.curv p * f * (V3.norm v / l))) = (f - 1) * (t * (κ * V3.norm v)) := by
          rw [hκ]; field_simp
        have e2 : t * (2 * S.curv p * f * (V3.norm err / l)) = t * (κ * (f * V3.norm err)) := by rw [hκ]; ring
        rw [e1, e2] at hstep
        have hEbd : f * V3.norm err ≤ 11 / 10 * (1 / 10 ^ 8 * K) + (f - 1) * (11 * A * (N * K)) := by
          have hen := V3.norm_nonneg err
          have h1 : f * V3.norm err ≤ 11 / 10 * V3.norm err := mul_le_mul_of_nonneg_right hnr.le hen
          linarith
        have h3 := mul_le_mul_of_nonneg_left (mul_le_mul_of_nonneg_left hEbd hκ0) htg
        have h4 : κ * (11 / 10 * (1 / 10 ^ 8 * K)) ≤ 2 * (1 - f0) := by
          have := mul_le_mul_of_nonneg_left hsp (by positivity : 0 ≤ 2 / l)
          refine le_trans (le_of_eq ?_) (le_trans this (le_of_eq ?_))
          · rw [hκ]; ring
          · field_simp
        have h5 := mul_le_mul_of_nonneg_left (le_trans h4 hσ) htg
        have h6 : t * (κ * (V3.norm v + 11 * A * (N * K))) < 1 := by
          have h7 : κ * (c.dt * (V3.norm v + 11 * A * (N * K))) < 1 := by
            have := (div_lt_one hl).mpr hsh
            refine lt_of_le_of_lt (le_of_eq ?_) this
            rw [hκ]; ring
          refine lt_of_le_of_lt ?_ h7
          have h8 : t ≤ c.dt := by
            rw [ht]; have := mul_le_mul_of_nonneg_left hg1 hc.dt; linarith
          have h9 : 0 ≤ κ * (V3.norm v + 11 * A * (N * K)) := by positivity
          have := mul_le_mul_of_nonneg_right h8 h9
          linarith
        have h10 := mul_pos (sub_pos.mpr hf1) (sub_pos.mpr h6)
        linarith
    obtain ⟨s', h1, h2, h3⟩ := ih s1 hs1 key (by
      intro i hi s' s'' h1 h2
      refine hshort (i + 1) (Nat.succ_lt_succ hi) s' s'' ?_ h2
      rw [Loop.run, hit]
      exact h1)
    exact ⟨s', by rw [Loop.run, hit]; exact h1, h2, h3⟩

/-- C74, with conditions that can be checked before the loop starts: with a limit `w` of the speed and obstacles
that stretch velocities at most by the factor `κ`, `n` iterations are safe when the time step is small compared
to `D`, the distance of the target plus the way the agent can go in this time. -/
theorem C74_horizon (c : Loop ℝ) (E : Env) (S : Scene) (m l w κ D : ℝ) (hc : ManySetup c E S m l)
    (hw : c.maxVel = some w) (hgain : 0 ≤ c.gain)
    (hκ : ∀ s, OnScene S E.list m s → (∀ p ∈ E.list, 1 < gdist (S.obj p) m s.2.state.position) →
      ∀ v, Stretch E S (κ * V3.norm v) s v) (hκ0 : 0 ≤ κ)
    (hstep : ∀ p ∈ E.list, 22 * S.curv p * (c.dt * w) < l ∧
      2 * S.curv p * (c.dt * (c.gain * D * (1 + 11 * (1 + 4 * Real.pi) * ((E.list.length - 1 : ℕ) * κ)))) < l ∧
      11 / 10 * (S.curv p * (1 / 10 ^ 8 * (κ * (c.gain * D)))) ≤ (1 - gdist (S.obj p) m (S.ref p)) * l) (n : ℕ) :
    ∀ s, OnScene S E.list m s → (∀ p ∈ E.list, 1 < gdist (S.obj p) m s.2.state.position) →
    V3.norm (s.2.state.position - c.target) + n * (c.dt * w) ≤ D →
    ∃ s', c.run E n s = .ok s' ∧ OnScene S E.list m s' ∧
      ∀ p ∈ E.list, 1 < gdist (S.obj p) m s'.2.state.position := by
  have hw0 := hc.maxVel w hw
  induction n with
  | zero => intro s hs h0 _; exact ⟨s, rfl, hs, h0⟩
  | succ n ih =>
    intro s hs h0 hD
    have hdw : 0 ≤ c.dt * w := mul_nonneg hc.dt hw0
    have hndw : 0 ≤ (n : ℝ) * (c.dt * w) := mul_nonneg (Nat.cast_nonneg _) hdw
    push_cast at hD
    have hnear : V3.norm (s.2.state.position - c.target) ≤ D := by nlinarith
    have hdes : V3.norm (c.desired s.2.state.position) ≤ c.gain * D := by
      unfold Loop.desired
      rw [V3.norm_smul, abs_neg, abs_of_nonneg hgain]
      exact mul_le_mul_of_nonneg_left hnear hgain
    have hD0 : 0 ≤ c.gain * D := le_trans (V3.norm_nonneg _) hdes
    have hstr := hκ s hs h0 (c.desired s.2.state.position)
    obtain ⟨out, g, s1, hg0, hg1, hit, hs1, hpos, hmax, -⟩ :=
      iterate_many hc hs _ (desired_flat c hc.target hs.flat) h0 hstr
    have hlen : V3.norm (s1.2.state.position - s.2.state.position) ≤ c.dt * w := by
      have e1 : s1.2.state.position - s.2.state.position = V3.smul c.dt (V3.smul g out) := by
        rw [hpos]
        ext <;> simp only [V3.smul, V3.sub_x, V3.sub_y, V3.sub_z, V3.add_x, V3.add_y, V3.add_z] <;> ring
      rw [e1, V3.norm_smul, abs_of_nonneg hc.dt]
      exact mul_le_mul_of_nonneg_left (hmax w hw) hc.dt
    obtain ⟨s2, hrun, -, h1⟩ := C74_many c E S m l hc 1 s hs h0 (by
      intro i hi s' s'' hr hi'
      obtain rfl : i = 0 := by omega
      cases hr
      rw [hit] at hi'
      cases hi'
      refine ⟨κ * V3.norm (c.desired s.2.state.position), hstr, fun p hp => ?_⟩
      obtain ⟨h1, h2, h3⟩ := hstep p hp
      have hk : (0 : ℝ) ≤ S.curv p := Nat.cast_nonneg _
      have hN : (0 : ℝ) ≤ (E.list.length - 1 : ℕ) := Nat.cast_nonneg _
      have hpi := Real.pi_pos
      refine ⟨?_, ?_, ?_⟩
      · refine lt_of_le_of_lt ?_ h1
        exact mul_le_mul_of_nonneg_left hlen (by positivity)
      · refine lt_of_le_of_lt ?_ h2
        apply mul_le_mul_of_nonneg_left _ (by positivity)
        apply mul_le_mul_of_nonneg_left _ hc.dt
        have := mul_le_mul_of_nonneg_right hdes
          (by positivity : 0 ≤ 1 + 11 * (1 + 4 * Real.pi) * ((E.list.length - 1 : ℕ) * κ))
        linarith
      · refine le_trans ?_ h3
        apply mul_le_mul_of_nonneg_left _ (by norm_num)
        apply mul_le_mul_of_nonneg_left _ hk
        apply mul_le_mul_of_nonneg_left _ (by norm_num)
        exact mul_le_mul_of_nonneg_left hdes hκ0)
    have hrun1 : c.run E 1 s = .ok s1 := by rw [Loop.run, hit]; rfl
    rw [hrun1] at hrun
    cases hrun
    obtain ⟨s', h2, h3, h4⟩ := ih s1 hs1 h1 (by
      have := norm_add_le (s1.2.state.position - s.2.state.position) (s.2.state.position - c.target)
      have e1 : s1.2.state.position - s.2.state.position + (s.2.state.position - c.target) =
        s1.2.state.position - c.target := by v3_ring
      rw [e1] at this
      linarith)
    exact ⟨s', by rw [Loop.run, hit]; exact h2, h3, h4⟩

/-- Balls with centred reference points stretch velocities at most by the factor 2 (C44). -/
theorem balls_stretch {E : Env} {S : Scene} {m l : ℝ} (hg : ∀ p ∈ E.list, S.Good m l p)
    (hb : ∀ p ∈ E.list, CentredBall (S.obj p) m (S.ref p)) (s : Heap ℝ × Agent ℝ) (hs : OnScene S E.list m s)
    (hout : ∀ p ∈ E.list, 1 < gdist (S.obj p) m s.2.state.position) (v : V3 ℝ) :
    Stretch E S (2 * V3.norm v) s v := by
  intro p hp M B d hM
  have g := hg p hp
  refine matrix_le_two (by rw [hs.margin]; exact g.smooth) g.ref (by rw [hs.margin]; exact hb p hp) ?_ hM v
  intro h
  have h1 := hout p hp
  have h2 := inside_lt g
  rw [h, ← (hb p hp).2.2.2] at h1
  linarith

/-! ## the critical distance matters -/

/-- Obstacles that do not turn the velocity: `modulate_velocity` scales it by the weighted mean. -/
theorem parallel_out (h : Heap ℝ) (a : Agent ℝ) (e : Env) (critical power : ℝ) (ms : List (M3 ℝ × M3 ℝ × ℝ))
    (hne : e.list ≠ []) (hm : Matrices h a e.list ms) (hst : ∀ q ∈ e.list, ∃ o, h[q]? = some o ∧ Static o)
    (hv : a.state.linearVelocity.z = 0) (c : M3 ℝ → ℝ)
    (hc : ∀ m ∈ ms, 0 ≤ c m.1 ∧ m.1.mulVec a.state.linearVelocity = V3.smul (c m.1) a.state.linearVelocity) :
    modulateVelocity h a e false false false critical power = .ok (h, V3.smul
      ((ms.zip (weightObstacles (ms.map (·.2.2)) critical power)).map fun x => c x.1.1 * x.2).sum
      a.state.linearVelocity) := by
  obtain ⟨its, h1, h2, h3⟩ := items_of hm
  rw [modulate_plain h a e false critical power its hne (by intro h; cases h) h1, combine_eq, static_obsVel hst h3,
    V3.sub_zero', V3.add_zero', core_parallel hv _ (fun y => c y.1)]
  · rw [pairs_zip, h2, List.map_map]; rfl
  · intro y hy
    rw [pairs_zip, h2] at hy
    obtain ⟨z, hz, rfl⟩ := List.mem_map.mp hy
    exact hc z.1 (List.of_mem_zip hz).1

/-- The critical distance 1 cannot be replaced: with `critical_distance = 0` the influence of another obstacle does
not vanish at the surface. Between two unit balls whose 1.1-regions are disjoint, the agent touches the
first one and wants to go straight into it. In spite of the repulsion every short step enters the obstacle. -/
theorem C74_negation_critical : ∃ out, modulateVelocity
      [.ellipsoid (ballAt ⟨0, 0, 0⟩), .ellipsoid (ballAt ⟨4, 0, 0⟩)] (agentAt ⟨1, 0, 0⟩ ⟨-1000, 0, 0⟩) (envOf [0, 1])
      false true false 0 2 = .ok ([.ellipsoid (ballAt ⟨0, 0, 0⟩), .ellipsoid (ballAt ⟨4, 0, 0⟩)], out) ∧
    (∀ x : V3 ℝ, 11 / 10 ≤ gdist (ballAt ⟨0, 0, 0⟩) 0 x ∨ 11 / 10 ≤ gdist (ballAt ⟨4, 0, 0⟩) 0 x) ∧
    ∀ dt, 0 < dt → dt < 1 / 10 → gdist (ballAt ⟨0, 0, 0⟩) 0 (⟨1, 0, 0⟩ + V3.smul dt out) < 1 := by
  set h : Heap ℝ := [.ellipsoid (ballAt ⟨0, 0, 0⟩), .ellipsoid (ballAt ⟨4, 0, 0⟩)] with hh
  set a := agentAt ⟨1, 0, 0⟩ ⟨-1000, 0, 0⟩ with ha
  have hd0 : gdist (ballAt ⟨0, 0, 0⟩) 0 ⟨1, 0, 0⟩ = 1 := by rw [ballAt_dist]; norm_num
  have hd1 : gdist (ballAt ⟨4, 0, 0⟩) 0 ⟨1, 0, 0⟩ = 9 := by rw [ballAt_dist]; norm_num
  have hr0 : gdist (ballAt ⟨0, 0, 0⟩) 0 ⟨0, 0, 0⟩ = 0 := by rw [ballAt_dist]; norm_num
  have hr1 : gdist (ballAt ⟨4, 0, 0⟩) 0 ⟨4, 0, 0⟩ = 0 := by rw [ballAt_dist]; norm_num
  obtain ⟨M0, B0, hm0, hM0⟩ := C36_reference h a (ballAt ⟨0, 0, 0⟩) 1 (ballAt_smooth _) ⟨0, 0, 0⟩ rfl
    (by show gdist (ballAt ⟨0, 0, 0⟩) 0 ⟨0, 0, 0⟩ < gdist (ballAt ⟨0, 0, 0⟩) 0 ⟨1, 0, 0⟩; rw [hd0, hr0]; norm_num)
  obtain ⟨M1, B1, hm1, hM1⟩ := C36_reference h a (ballAt ⟨4, 0, 0⟩) 1 (ballAt_smooth _) ⟨4, 0, 0⟩ rfl
    (by show gdist (ballAt ⟨4, 0, 0⟩) 0 ⟨4, 0, 0⟩ < gdist (ballAt ⟨4, 0, 0⟩) 0 ⟨1, 0, 0⟩; rw [hd1, hr1]; norm_num)
  change modulationMatrix h a _ = .ok (M0, B0, gdist (ballAt ⟨0, 0, 0⟩) 0 ⟨1, 0, 0⟩) at hm0
  change modulationMatrix h a _ = .ok (M1, B1, gdist (ballAt ⟨4, 0, 0⟩) 0 ⟨1, 0, 0⟩) at hm1
  change M0.mulVec ((⟨1, 0, 0⟩ : V3 ℝ) - ⟨0, 0, 0⟩) =
    V3.smul (max 0 (1 - 1 / gdist (ballAt ⟨0, 0, 0⟩) 0 ⟨1, 0, 0⟩)) ((⟨1, 0, 0⟩ : V3 ℝ) - ⟨0, 0, 0⟩) at hM0
  change M1.mulVec ((⟨1, 0, 0⟩ : V3 ℝ) - ⟨4, 0, 0⟩) =
    V3.smul (max 0 (1 - 1 / gdist (ballAt ⟨4, 0, 0⟩) 0 ⟨1, 0, 0⟩)) ((⟨1, 0, 0⟩ : V3 ℝ) - ⟨4, 0, 0⟩) at hM1
  rw [hd0] at hm0 hM0
  rw [hd1] at hm1 hM1
  have hv0 : M0.mulVec ⟨-1000, 0, 0⟩ = V3.smul 0 ⟨-1000, 0, 0⟩ := by
    have e1 : (⟨-1000, 0, 0⟩ : V3 ℝ) = V3.smul (-1000) ((⟨1, 0, 0⟩ : V3 ℝ) - ⟨0, 0, 0⟩) := by
      ext <;> norm_num [V3.smul]
    conv_lhs => rw [e1, M3.mulVec_smul, hM0]
    ext <;> norm_num [V3.smul]
  have hv1 : M1.mulVec ⟨-1000, 0, 0⟩ = V3.smul (8 / 9) ⟨-1000, 0, 0⟩ := by
    have e1 : (⟨-1000, 0, 0⟩ : V3 ℝ) = V3.smul (1000 / 3) ((⟨1, 0, 0⟩ : V3 ℝ) - ⟨4, 0, 0⟩) := by
      ext <;> norm_num [V3.smul]
    have e2 : max (0 : ℝ) (1 - 1 / 9) = 8 / 9 := by norm_num
    conv_lhs => rw [e1, M3.mulVec_smul, hM1, e2]
    ext <;> norm_num [V3.smul]
  have hne : M0 ≠ M1 := by
    rintro rfl
    rw [hv0] at hv1
    have := congrArg V3.x hv1
    norm_num [V3.smul] at this
  classical
  have hpl := parallel_out h a (envOf [0, 1]) 0 2 [(M0, B0, 1), (M1, B1, 9)] (by simp [envOf])
    (.cons ⟨_, rfl, hm0⟩ (.cons ⟨_, rfl, hm1⟩ .nil))
    (by
      intro q hq
      simp only [envOf, List.mem_cons, List.not_mem_nil, or_false] at hq
      rcases hq with rfl | rfl
      · exact ⟨_, rfl, rfl, rfl⟩
      · exact ⟨_, rfl, rfl, rfl⟩)
    rfl (fun M => if M = M0 then 0 else 8 / 9) (by
      intro m hm
      simp only [List.mem_cons, List.not_mem_nil, or_false] at hm
      rcases hm with rfl | rfl
      · simp only [if_true]; exact ⟨le_refl _, hv0⟩
      · simp only [if_neg hne.symm]; exact ⟨by norm_num, hv1⟩)
  have hw : weightObstacles [1, 9] (0 : ℝ) 2 = [81 / 82, 1 / 82] := by
    rw [weight_eq]
    have h1 : ¬ 0 < (([1, 9] : List ℝ).filter fun d => decide (d ≤ 0)).length := by
      norm_num
    have e9 : (9 : ℝ) ^ (-2 : ℝ) = 1 / 81 := by
      rw [Real.rpow_neg (by norm_num), show (2 : ℝ) = ((2 : ℕ) : ℝ) by norm_num, Real.rpow_natCast]; norm_num
    simp only [List.map_cons, List.map_nil, weightOf, if_neg h1, sub_zero, Real.one_rpow, e9, List.sum_cons, List.sum_nil]
    norm_num
  rw [show ([(M0, B0, (1 : ℝ)), (M1, B1, 9)].map fun x => x.2.2) = [1, 9] from rfl, hw] at hpl
  simp only [List.zip_cons_cons, List.zip_nil_left, List.map_cons, List.map_nil, List.sum_cons, List.sum_nil, if_true,
    if_neg hne.symm] at hpl
  have hrep0 := C42_near h (ballAt ⟨0, 0, 0⟩) ⟨0, 0, 0⟩ ⟨1, 0, 0⟩ 0 (11 / 10) rfl (by rw [hd0]; norm_num)
  have hrep1 := C42_far h (.ellipsoid (ballAt ⟨4, 0, 0⟩)) ⟨1, 0, 0⟩ 0 (11 / 10) (gdist (ballAt ⟨4, 0, 0⟩) 0 ⟨1, 0, 0⟩) rfl
    (by rw [hd1]; norm_num)
  have hadd := C42_added h h a (envOf [0, 1]) false false 0 2 _ _ (by simp [envOf]) (by intro h; cases h) hpl
    (.cons ⟨_, rfl, hrep0⟩ (.cons ⟨_, rfl, hrep1⟩ .nil))
  have e1 : V3.lsum [V3.smul (2 / gdist (ballAt ⟨0, 0, 0⟩) 0 ⟨1, 0, 0⟩) ((⟨1, 0, 0⟩ : V3 ℝ) - ⟨0, 0, 0⟩), V3.zero] =
      ⟨2, 0, 0⟩ := by
    rw [hd0]
    simp only [V3.lsum_cons, V3.lsum_nil]
    ext <;> norm_num [V3.smul, V3.zero]
  have hbig : 1 / 10000 < V3.norm (⟨2, 0, 0⟩ : V3 ℝ) := by
    simp only [V3.norm, V3.sqNorm, V3.dot, CMath.sqrt]
    rw [Real.lt_sqrt (by norm_num)]
    norm_num
  have e2 : V3.smul (0 * (81 / 82) + (8 / 9 * (1 / 82) + 0)) a.state.linearVelocity + (⟨2, 0, 0⟩ : V3 ℝ) =
      ⟨-(3262 / 369), 0, 0⟩ := by
    rw [show a.state.linearVelocity = ⟨-1000, 0, 0⟩ from rfl]
    ext <;> norm_num [V3.smul]
  rw [e1, if_pos hbig, e2] at hadd
  refine ⟨_, hadd, ?_, ?_⟩
  · intro x
    rw [ballAt_dist, ballAt_dist]
    by_contra hn
    rw [not_or, not_le, not_le] at hn
    nlinarith [sq_nonneg (x.x - 2), sq_nonneg x.y, sq_nonneg x.z]
  · intro dt h0 h1
    rw [ballAt_dist]
    simp only [V3.add_x, V3.add_y, V3.add_z, V3.smul, mul_zero, add_zero, sub_zero]
    nlinarith

/-! ### Non-vacuity: through the gap between two unit balls -/

/-- Balls at the origin and at (0,3,0). -/
noncomputable def gapScene : Scene where
  obj p := ballAt (if p = 0 then ⟨0, 0, 0⟩ else ⟨0, 3, 0⟩)
  curv _ := 1
  ref p := if p = 0 then ⟨0, 0, 0⟩ else ⟨0, 3, 0⟩

/-- Gain 1, steps of 1/20000, speed limit 1, target (-3,0,0). -/
noncomputable def gapLoop : Loop ℝ :=
  { gain := 1, dt := 1 / 20000, target := ⟨-3, 0, 0⟩, maxVel := some 1, isLocal := false, addRepulsion := true,
    planar := false, critical := 1, power := 2 }

/-- The two balls, the envelope of the agent, the agent at (2, 1/2, 0). -/
noncomputable def gapStart : Heap ℝ × Agent ℝ :=
  ([.ellipsoid (gapScene.obj 0), .ellipsoid (gapScene.obj 1), .ellipsoid (ball V3.zero)],
    { agentAt ⟨2, 1 / 2, 0⟩ V3.zero with envelope := some 2 })

theorem gap_good (p : Ptr) : gapScene.Good 0 1 p := by
  refine ⟨⟨rfl, rfl⟩, ⟨rfl, rfl, ?_, ?_, rfl, rfl, rfl⟩, ballAt_smooth _, ?_, rfl, ?_⟩
  · show (if p = 0 then (⟨0, 0, 0⟩ : V3 ℝ) else ⟨0, 3, 0⟩).z = 0
    split <;> rfl
  · intro v hv
    cases hv
    show (if p = 0 then (⟨0, 0, 0⟩ : V3 ℝ) else ⟨0, 3, 0⟩).z = 0
    split <;> rfl
  · norm_num [Thick, halfLengths, gapScene, ballAt, Ellipsoid.ofBase, V3.const, V3.zero, Base.mkRef]
  · show 121 / 10 ^ 6 * ((1 : ℕ) : ℝ) < (1 - gdist (ballAt _) 0 _) * 1
    rw [ballAt_dist]
    norm_num [gapScene]

theorem gap_setup : ManySetup gapLoop (envOf [0, 1]) gapScene 0 1 := by
  refine ⟨by simp [envOf], fun p _ => gap_good p, ?_, rfl, rfl, rfl, rfl, ?_, ?_, ?_, rfl⟩
  · refine List.pairwise_cons.mpr ⟨fun q hq x _ => ?_, List.pairwise_singleton _ _⟩
    simp only [List.mem_singleton] at hq
    subst hq
    show 11 / 10 ≤ gdist (ballAt _) 0 x ∨ 11 / 10 ≤ gdist (ballAt _) 0 x
    rw [ballAt_dist, ballAt_dist]
    simp only [if_true, one_ne_zero, if_false, sub_zero]
    by_contra hn
    rw [not_or, not_le, not_le] at hn
    nlinarith [sq_nonneg (x.y - 3 / 2), sq_nonneg x.x, sq_nonneg x.z]
  · norm_num [gapLoop]
  · norm_num [gapLoop]
  · intro v hv; cases hv; norm_num

theorem gap_start : OnScene gapScene (envOf [0, 1]).list 0 gapStart := by
  refine ⟨fun p hp => ?_, ⟨2, _, by simp [envOf], rfl, rfl⟩, rfl, rfl⟩
  simp only [envOf, List.mem_cons, List.not_mem_nil, or_false] at hp
  rcases hp with rfl | rfl <;> rfl

/-- The first 200000 iterations (10 seconds): all hypotheses of C74_horizon hold. -/
example (n : ℕ) (hn : n ≤ 200000) : ∃ s', gapLoop.run (envOf [0, 1]) n gapStart = .ok s' ∧
    1 < gdist (ballAt ⟨0, 0, 0⟩) 0 s'.2.state.position ∧ 1 < gdist (ballAt ⟨0, 3, 0⟩) 0 s'.2.state.position := by
  obtain ⟨s', h1, -, h2⟩ := C74_horizon gapLoop (envOf [0, 1]) gapScene 0 1 1 2 20 gap_setup rfl
    (by norm_num [gapLoop])
    (balls_stretch (fun p _ => gap_good p) (fun p _ => ⟨rfl, rfl, rfl, rfl⟩)) (by norm_num)
    (by
      intro p _
      have hd : gdist (gapScene.obj p) 0 (gapScene.ref p) = 0 := by
        show gdist (ballAt _) 0 _ = 0
        rw [ballAt_dist]
        simp [gapScene]
      have hpi := Real.pi_le_four
      rw [hd]
      refine ⟨by norm_num [gapLoop, gapScene], ?_, by norm_num [gapLoop, gapScene]⟩
      simp only [gapLoop, gapScene, envOf, List.length_cons, List.length_nil]
      norm_num
      nlinarith) n gapStart gap_start
    (by
      intro p hp
      show 1 < gdist (ballAt _) 0 ⟨2, 1 / 2, 0⟩
      rw [ballAt_dist]
      split <;> norm_num)
    (by
      have h1 : V3.norm (gapStart.2.state.position - gapLoop.target) ≤ 6 := by
        show Real.sqrt (((2 : ℝ) - -3) * (2 - -3) + (1 / 2 - 0) * (1 / 2 - 0) + (0 - 0) * (0 - 0)) ≤ 6
        rw [Real.sqrt_le_left (by norm_num)]
        norm_num
      have h2 : (n : ℝ) ≤ 200000 := by exact_mod_cast hn
      have h3 : (n : ℝ) * (gapLoop.dt * 1) ≤ 10 := by
        show (n : ℝ) * (1 / 20000 * 1) ≤ 10
        linarith
      linarith)
  refine ⟨s', h1, ?_, ?_⟩
  · exact h2 0 (by simp [envOf])
  · exact h2 1 (by simp [envOf])

end DOA.Props
