import Verif.Lemmas.Planar
import Verif.Props.Total

/-!
# C48: planar situations stay planar
-/

set_option linter.unusedSectionVars false
set_option linter.unusedSimpArgs false

namespace DOA.Props
open DOA DOA.Spec DOA.Modulation

/-- An obstacle (of any kind) in the plane z = 0: rotated about z only, position and reference
position at height 0, moving in the plane and turning about z only. -/
structure InPlaneZ (b : Base ℝ) : Prop where
  orient_x : b.pose.orientation.x = 0
  orient_y : b.pose.orientation.y = 0
  pos : b.pose.position.z = 0
  ref : ∀ v, b.refPos = some v → v.z = 0
  vel : b.state.linearVelocity.z = 0
  ang_x : b.state.angularVelocity.x = 0
  ang_y : b.state.angularVelocity.y = 0

/-- Ellipsoids need a curvature exponent other than 1/2 in z: for 1/2 the code computes
`pow(0, 0) = 1` for the z component of the normal (`C48_negation_half`). -/
def NotHalf : Obj ℝ → Prop
  | .ellipsoid e => e.curv.z ≠ 1 / 2
  | _ => True

theorem InPlaneZ.pose {b : Base ℝ} (h : InPlaneZ b) : FlatPose b.pose := ⟨h.orient_x, h.orient_y, h.pos⟩

theorem flat_normal {h : Heap ℝ} {o : Obj ℝ} {x n : V3 ℝ} {m : ℝ} (ho : InPlaneZ o.base) (hh : NotHalf o)
    (hx : x.z = 0) (hn : h.normalToAgent o x m = .ok n) : n.z = 0 := by
  cases o with
  | plain b => simp [Heap.normalToAgent] at hn
  | ellipsoid e =>
    simp only [Heap.normalToAgent, Res.ok.injEq] at hn
    rw [← hn]
    exact flat_ellipsoid_normal ho.pose hh hx m
  | hull k => exact flat_hull_normal hn
  | aggregate a =>
    simp only [Heap.normalToAgent] at hn
    obtain ⟨b, -, hn⟩ := Res.bind_eq_ok.mp hn
    cases b
    · exact flat_hull_normal hn
    · exact flat_hull_normal hn

/-- what is stored for a flat obstacle -/
theorem flat_matrix {h : Heap ℝ} {a : Agent ℝ} {o : Obj ℝ} {M B : M3 ℝ} {d : ℝ} (ho : InPlaneZ o.base) (hh : NotHalf o)
    (hx : a.state.position.z = 0) (hm : modulationMatrix h a o = .ok (M, B, d)) :
    (∀ v : V3 ℝ, v.z = 0 → (M.mulVec v).z = 0) ∧ ∀ v : V3 ℝ, v.z = 0 → (B.mulVec (B.transpose.mulVec v)).z = 0 := by
  unfold modulationMatrix at hm
  obtain ⟨n, hn, hm⟩ := Res.bind_eq_ok.mp hm
  obtain ⟨d', -, hm⟩ := Res.bind_eq_ok.mp hm
  obtain ⟨b, hb, hm⟩ := Res.bind_eq_ok.mp hm
  cases hm
  unfold basisMatrices at hb
  obtain ⟨ref, href, hb⟩ := Res.bind_eq_ok.mp hb
  cases hb
  have hr : ref.z = 0 := by
    apply ho.ref
    unfold Base.ref at href
    cases hh : o.base.refPos with
    | none => simp [hh] at href
    | some v => simp [hh] at href; rw [href]
  have hn0 := flat_normal ho hh hx hn
  exact ⟨fun v hv => flat_product ho.orient_x ho.orient_y hn0 (flat_direction ho.pose hx hr) _ hv,
    fun v hv => flat_basis hn0 hv⟩

/-- an item of the list is flat -/
structure FlatItem (i : Item ℝ) : Prop where
  base : InPlaneZ i.base
  matrix : ∀ v : V3 ℝ, v.z = 0 → (i.matrix.mulVec v).z = 0
  basis : ∀ v : V3 ℝ, v.z = 0 → (i.basis.mulVec (i.basis.transpose.mulVec v)).z = 0

theorem flat_combine {x v : V3 ℝ} (hv : v.z = 0) {items : List (Item ℝ)}
    (hi : ∀ i ∈ items, FlatItem i) (critical power : ℝ) : (combine x v items critical power).z = 0 := by
  have hobs : (obsVel x items critical power).z = 0 := by
    unfold obsVel
    apply flat_lsum
    intro w hw
    simp only [List.mem_map] at hw
    obtain ⟨i, hmem, rfl⟩ := hw
    have hf := hi i hmem
    unfold obstacleVelocity
    simp only []
    rw [hf.basis _ (by
      simp [V3.smul, V3.cross, hf.base.vel, hf.base.ang_x, hf.base.ang_y]), zero_mul]
  rw [combine_eq, V3.add_z, hobs, add_zero]
  apply flat_core
  · simp [hv, hobs]
  · intro y hy
    simp only [pairs, List.mem_map] at hy
    obtain ⟨i, hmem, rfl⟩ := hy
    exact (hi i hmem).matrix _ (by simp [hv, hobs])

theorem flat_shifted {o : Obj ℝ} (ho : InPlaneZ o.base) (hh : NotHalf o) {x : V3 ℝ} (v : V3 ℝ) :
    InPlaneZ (shifted x v o).base ∧ NotHalf (shifted x v o) := by
  cases o with
  | ellipsoid e =>
    simp only [shifted]
    by_cases hr : (e.intersectionPoints x (x + v)).1 = true
    · rw [if_pos hr]
      refine ⟨⟨ho.orient_x, ho.orient_y, ho.pos, ?_, ho.vel, ho.ang_x, ho.ang_y⟩, hh⟩
      intro w hw
      have hw' : (((e.intersectionPoints x (x + v)).2.1 + (e.intersectionPoints x (x + v)).2.2).sdiv (lit 2 1)) = w := by
        simpa [Obj.base, Base.setRef] using hw
      rw [← hw']
      have h1 : (e.intersectionPoints x (x + v)).2.1.z = 0 ∧ (e.intersectionPoints x (x + v)).2.2.z = 0 := by
        unfold Ellipsoid.intersectionPoints
        simp only []
        split
        · exact ⟨flat_apply ho.pose rfl, flat_apply ho.pose rfl⟩
        · exact ⟨rfl, rfl⟩
      simp [V3.sdiv, h1.1, h1.2]
    · rw [if_neg hr]; exact ⟨ho, hh⟩
  | _ => exact ⟨ho, hh⟩

theorem flat_items {planar : Bool} {h : Heap ℝ} {a : Agent ℝ} (hx : a.state.position.z = 0) {l : List Ptr}
    {its : List (Item ℝ)} (ho : ∀ p ∈ l, ∀ o, h[p]? = some o → InPlaneZ o.base ∧ NotHalf o)
    (hits : l.mapM (itemFor planar h a) = .ok its) : ∀ i ∈ its, FlatItem i := by
  have hf := (mapM_ok _ _ _).mp hits
  clear hits
  induction hf with
  | nil => intro i hi; cases hi
  | @cons p i l its hx' _ ih =>
    intro j hj
    rcases List.mem_cons.mp hj with rfl | hj
    · obtain ⟨o, hp⟩ := itemFor_valid hx'
      obtain ⟨h1, h2⟩ := ho p List.mem_cons_self o hp
      cases planar with
      | false =>
        simp only [itemFor, Bool.false_eq_true, if_false, itemOf, Heap.deref, hp, Res.ok_bind] at hx'
        obtain ⟨m, hm, hx'⟩ := Res.bind_eq_ok.mp hx'
        cases hx'
        obtain ⟨g1, g2⟩ := flat_matrix h1 h2 hx hm
        exact ⟨h1, g1, g2⟩
      | true =>
        simp only [itemFor, if_true, shiftedItem, Heap.deref, hp, Res.ok_bind] at hx'
        obtain ⟨m, hm, hx'⟩ := Res.bind_eq_ok.mp hx'
        cases hx'
        obtain ⟨h3, h4⟩ := flat_shifted h1 h2 (x := a.state.position) a.state.linearVelocity
        obtain ⟨g1, g2⟩ := flat_matrix h3 h4 hx hm
        exact ⟨h3, g1, g2⟩
    · exact ih (fun p hp => ho p (List.mem_cons_of_mem _ hp)) j hj

theorem flat_after {planar : Bool} {h : Heap ℝ} {a : Agent ℝ} {l : List Ptr}
    (ho : ∀ p ∈ l, ∀ o, h[p]? = some o → InPlaneZ o.base ∧ NotHalf o) :
    ∀ p ∈ l, ∀ o, (heapAfter planar h a l)[p]? = some o → InPlaneZ o.base ∧ NotHalf o := by
  intro p hp o
  unfold heapAfter
  split
  · rw [getElem?_shiftAll]
    cases hh : h[p]? with
    | none => simp
    | some o' =>
      simp only [Option.map_some, hp, if_true, Option.some.injEq]
      rintro rfl
      obtain ⟨h1, h2⟩ := ho p hp o' hh
      exact flat_shifted h1 h2 _
  · exact ho p hp o

theorem flat_repulsion {h : Heap ℝ} {a : Agent ℝ} (hx : a.state.position.z = 0) {l : List Ptr} {v : V3 ℝ}
    (ho : ∀ p ∈ l, ∀ o, h[p]? = some o → InPlaneZ o.base ∧ NotHalf o) (hv : repulsionSum h a l = .ok v) :
    v.z = 0 := by
  rw [repulsionSum_eq] at hv
  obtain ⟨rs, hrs, hv⟩ := Res.bind_eq_ok.mp hv
  cases hv
  apply flat_lsum
  have hf := (mapM_ok _ _ _).mp hrs
  clear hrs hv
  induction hf with
  | nil => intro i hi; cases hi
  | @cons p w l rs hw _ ih =>
    intro j hj
    rcases List.mem_cons.mp hj with rfl | hj
    · unfold repulsionOf at hw
      obtain ⟨o, hd, hw⟩ := Res.bind_eq_ok.mp hw
      have hp : h[p]? = some o := by
        unfold Heap.deref at hd
        cases hh : h[p]? with
        | none => simp [hh] at hd
        | some o' => simp [hh] at hd; rw [hd]
      obtain ⟨h1, -⟩ := ho p List.mem_cons_self o hp
      unfold Heap.generateRepulsion at hw
      obtain ⟨d, -, hw⟩ := Res.bind_eq_ok.mp hw
      split at hw
      · have hrefz : ∀ ref, o.base.ref = .ok ref → ref.z = 0 := by
          intro ref href
          apply h1.ref
          unfold Base.ref at href
          cases hh : o.base.refPos with
          | none => simp [hh] at href
          | some v => simp [hh] at href; rw [href]
        cases o with
        | plain b => simp only [Heap.repulsionVector, Res.ok.injEq] at hw; rw [← hw]; rfl
        | hull k => simp only [Heap.repulsionVector, Res.ok.injEq] at hw; rw [← hw]; rfl
        | ellipsoid e =>
          simp only [Heap.repulsionVector, Ellipsoid.repulsionVector] at hw
          obtain ⟨ref, href, hw⟩ := Res.bind_eq_ok.mp hw
          cases hw
          simp [V3.smul, hx, hrefz ref href]
        | aggregate g =>
          simp only [Heap.repulsionVector] at hw
          obtain ⟨f, -, hw⟩ := Res.bind_eq_ok.mp hw
          obtain ⟨ref, href, hw⟩ := Res.bind_eq_ok.mp hw
          obtain ⟨b, -, hw⟩ := Res.bind_eq_ok.mp hw
          have hz := hrefz ref href
          cases hw
          cases b <;> simp [V3.smul, hx, hz]
      · cases hw; rfl
    · exact ih (fun p hp => ho p (List.mem_cons_of_mem _ hp)) j hj

/-- C48: any number of obstacles of any kind (ellipsoids, hulls, aggregates) in the plane z = 0, all
options including repulsion and planar modulation: the resulting velocity is in the plane. -/
theorem C48_planar_partial (h h' : Heap ℝ) (a : Agent ℝ) (e : Env) (loc rep planar : Bool) (critical power : ℝ) (v : V3 ℝ)
    (hx : a.state.position.z = 0) (hv : a.state.linearVelocity.z = 0)
    (ho : ∀ p ∈ e.list, ∀ o, h[p]? = some o → InPlaneZ o.base ∧ NotHalf o)
    (hm : modulateVelocity h a e loc rep planar critical power = .ok (h', v)) : v.z = 0 := by
  rw [modulateVelocity_eq] at hm
  by_cases hl : e.list.isEmpty = true
  · rw [if_pos hl] at hm; cases hm; exact hv
  · rw [if_neg hl] at hm
    obtain ⟨sight, -, hm⟩ := Res.bind_eq_ok.mp hm
    cases sight with
    | false => cases hm; exact hv
    | true =>
      simp only [if_true, collect_eq] at hm
      obtain ⟨r, hr, hm⟩ := Res.bind_eq_ok.mp hm
      obtain ⟨its, hits, hr⟩ := Res.bind_eq_ok.mp hr
      cases hr
      obtain ⟨rp, hrp, hm⟩ := Res.bind_eq_ok.mp hm
      cases hm
      have hc := flat_combine (x := a.state.position) hv (flat_items hx ho hits) critical power
      have hfin : ∀ mv : V3 ℝ, mv.z = 0 → (finish rp mv).z = 0 := by
        intro mv hmv
        unfold finish
        cases rp with
        | none =>
          simp only []
          split
          · rfl
          · exact hmv
        | some w =>
          have hw : w.z = 0 := by
            cases rep with
            | false => simp [repOf] at hrp
            | true =>
              simp only [repOf] at hrp
              obtain ⟨w', hw', hrp⟩ := Res.bind_eq_ok.mp hrp
              cases hrp
              exact flat_repulsion hx (flat_after ho) hw'
          simp only []
          split <;> split <;> first | rfl | exact hmv | simp [hmv, hw]
      exact hfin _ hc

/-- Non-vacuity: an obstacle rotated about z, moving and turning in the plane, reference off-centre. -/
example : ∃ el : Ellipsoid ℝ, InPlaneZ el.base ∧ NotHalf (.ellipsoid el) ∧ el.base.refPos = some ⟨1, 1 / 2, 0⟩ ∧
    el.base.state.angularVelocity = ⟨0, 0, 3⟩ ∧ el.base.pose.orientation = ⟨3 / 5, 0, 0, 4 / 5⟩ := by
  refine ⟨⟨⟨"e", ⟨⟨⟨1, 0, 0⟩, ⟨3 / 5, 0, 0, 4 / 5⟩⟩, ⟨1, 2, 0⟩, ⟨0, 0, 3⟩⟩, some ⟨1, 1 / 2, 0⟩, V3.zero⟩,
    ⟨1, 2, 1⟩, ⟨1, 1, 1⟩⟩, ⟨rfl, rfl, rfl, ?_, rfl, rfl, rfl⟩, ?_, rfl, rfl, rfl⟩
  · rintro v ⟨⟩; rfl
  · norm_num [NotHalf]

/-- An ellipsoid with curvature exponent 1/2 in z, moving with (625,0,0). -/
noncomputable def halfCurved : Ellipsoid ℝ :=
  { base := { Base.mkRef "e" (State.ofPosition V3.zero) V3.zero V3.zero with
      state := ⟨Pose.ofPosition V3.zero, ⟨625, 0, 0⟩, V3.zero⟩ },
    axis := ⟨8 / 3, 8 / 3, 8 / 3⟩, curv := ⟨1, 1, 1 / 2⟩ }

/-- C48 without the condition on the curvature is false: with exponent 1/2 in z everything else is
planar, but the velocity (369,0,0) becomes (369,0,-192). -/
theorem C48_negation_half : ∃ (h : Heap ℝ) (a : Agent ℝ) (e : Env) (el : Ellipsoid ℝ),
    h = [.ellipsoid el] ∧ e.list = [0] ∧ InPlaneZ el.base ∧ el.curv.z = 1 / 2 ∧
    a.state.position.z = 0 ∧ a.state.linearVelocity = ⟨369, 0, 0⟩ ∧
    modulateVelocity h a e false false false 1 2 = .ok (h, ⟨369, 0, -192⟩) := by
  set a := agentAt ⟨8 / 3, 0, 0⟩ ⟨369, 0, 0⟩ with ha
  have hpos : a.state.position = ⟨8 / 3, 0, 0⟩ := rfl
  have hvel : a.state.linearVelocity = ⟨369, 0, 0⟩ := rfl
  have hmar : a.margin = 0 := rfl
  have hm := matrix_ellipsoid [.ellipsoid halfCurved] a halfCurved (ref := V3.zero) rfl
  have hinv : ∀ y, halfCurved.base.pose.inverse.apply y = y := by
    intro y
    ext <;> simp [halfCurved, Base.mkRef, Pose.ofPosition, Pose.apply, Base.pose, Pose.inverse, Quat.one,
      Quat.conjugate, Quat.rotate, Quat.vec, V3.cross, V3.smul, V3.zero]
  have hn : halfCurved.normalToAgent ⟨8 / 3, 0, 0⟩ 0 = ⟨3 / 5, 0, 4 / 5⟩ := by
    unfold Ellipsoid.normalToAgent
    simp only [hinv]
    have e1 : ∀ r : ℝ, Ellipsoid.scaledSq r (8 / 3 : ℝ) = r / (8 / 3 * (8 / 3)) := by
      intro r
      unfold Ellipsoid.scaledSq Ellipsoid.epsilon
      rw [if_pos (by norm_num)]
    have e2 : halfCurved.axis + halfCurved.base.margin + V3.const 0 = ⟨8 / 3, 8 / 3, 8 / 3⟩ := by
      ext <;> simp [halfCurved, Base.mkRef, V3.zero, V3.const]
    rw [e2]
    simp only [e1, halfCurved, pow_real]
    norm_num
    have hne : (⟨3 / 4, 0, 1⟩ : V3 ℝ) ≠ V3.zero := by
      intro h0; have := congrArg V3.z h0; simp [V3.zero] at this
    have hnn : V3.norm (⟨3 / 4, 0, 1⟩ : V3 ℝ) = 5 / 4 := by
      have : V3.sqNorm (⟨3 / 4, 0, 1⟩ : V3 ℝ) = (5 / 4) ^ 2 := by norm_num [V3.sqNorm, V3.dot]
      rw [V3.norm, this, sqrt_real, Real.sqrt_sq (by norm_num)]
    rw [V3.normalized_of_ne hne, hnn]
    ext <;> norm_num [V3.smul]
  have hd : gdist halfCurved 0 ⟨8 / 3, 0, 0⟩ = 1 := by
    unfold gdist Ellipsoid.distanceToPoint
    simp only [hinv]
    have e1 : ∀ r : ℝ, Ellipsoid.scaled r (8 / 3 : ℝ) = r / (8 / 3) := by
      intro r
      unfold Ellipsoid.scaled Ellipsoid.epsilon
      rw [if_pos (by norm_num)]
    have e2 : halfCurved.axis + halfCurved.base.margin + V3.const 0 = ⟨8 / 3, 8 / 3, 8 / 3⟩ := by
      ext <;> simp [halfCurved, Base.mkRef, V3.zero, V3.const]
    rw [e2]
    simp only [e1, halfCurved, pow_real]
    norm_num
  have hr : referenceDirection halfCurved.base.pose ⟨8 / 3, 0, 0⟩ V3.zero = ⟨1, 0, 0⟩ := by
    unfold referenceDirection
    have hne : (⟨8 / 3, 0, 0⟩ : V3 ℝ) ≠ V3.zero := by
      intro h0; have := congrArg V3.x h0; simp [V3.zero] at this
    have hnn : V3.norm (⟨8 / 3, 0, 0⟩ : V3 ℝ) = 8 / 3 := by
      have : V3.sqNorm (⟨8 / 3, 0, 0⟩ : V3 ℝ) = (8 / 3) ^ 2 := by norm_num [V3.sqNorm, V3.dot]
      rw [V3.norm, this, sqrt_real, Real.sqrt_sq (by norm_num)]
    rw [hinv, hinv, V3.sub_zero', V3.normalized_of_ne hne, hnn]
    ext <;> norm_num [V3.smul]
  rw [hpos, hmar, hd, hn, hr] at hm
  have hMv : (modulationProduct halfCurved.base.pose.orientation
      (referenceBasis ⟨3 / 5, 0, 4 / 5⟩ ⟨1, 0, 0⟩) (diagonalEigenvalues 1 1)).mulVec ⟨0, 0, -192⟩ =
      ⟨0, 0, -384⟩ := by
    have ho : halfCurved.base.pose.orientation = Quat.one := rfl
    have hu : (Quat.one : Quat ℝ).IsUnit := by simp [Quat.IsUnit, Quat.sqNorm, Quat.one]
    have e2 : (Quat.one : Quat ℝ).conjugate.rotate ⟨0, 0, -192⟩ = ⟨0, 0, -192⟩ := by
      ext <;> simp [Quat.one, Quat.rotate, Quat.conjugate, Quat.vec, V3.cross, V3.smul]
    rw [ho, modulationProduct_mulVec hu, Quat.rotate_one, e2, C34_inside 1 1 (le_refl _)]
    simp only [referenceBasis, slant_tangent, M3.mulVec, M3.had, M3.inverse, M3.det, V3.cross, V3.mk.injEq]
    norm_num
  have hw : weightOf [(1 : ℝ)] 1 2 1 = 1 := weightOf_single _ _ _
  have hov : obstacleVelocity ⟨8 / 3, 0, 0⟩ halfCurved.base 1 1 (orthogonalBasis ⟨3 / 5, 0, 4 / 5⟩) =
      ⟨369, 0, 192⟩ := by
    unfold obstacleVelocity orthogonalBasis
    rw [slant_tangent]
    have hp : halfCurved.base.state = ⟨Pose.ofPosition V3.zero, ⟨625, 0, 0⟩, V3.zero⟩ := rfl
    ext <;> norm_num [hp, V3.cross, V3.zero, V3.smul, M3.mulVec, M3.transpose]
  refine ⟨_, a, envOf [0], halfCurved, rfl, rfl, ⟨rfl, rfl, rfl, ?_, rfl, rfl, rfl⟩, rfl, rfl, rfl, ?_⟩
  · rintro v ⟨⟩; rfl
  rw [modulate_plain _ a (envOf [0]) false 1 2 [_] (by simp [envOf]) (by intro h; cases h) (by
    simp only [envOf, List.mapM_cons, List.mapM_nil]
    rw [itemOf_ok rfl hm]; rfl), combine_eq]
  have hobs : ∀ m, obsVel a.state.position [⟨halfCurved.base, m, orthogonalBasis ⟨3 / 5, 0, 4 / 5⟩, 1⟩] 1 2 =
      ⟨369, 0, 192⟩ := by
    intro m
    simp only [obsVel, List.map_cons, List.map_nil, hw, hpos]
    rw [V3.lsum_cons, V3.lsum_nil, V3.add_zero']
    exact hov
  have hb : (Obj.ellipsoid halfCurved).base = halfCurved.base := rfl
  have hnz : V3.norm (⟨0, 0, -384⟩ : V3 ℝ) = 384 := by
    have : V3.sqNorm (⟨0, 0, -384⟩ : V3 ℝ) = 384 ^ 2 := by norm_num [V3.sqNorm, V3.dot]
    rw [V3.norm, this, sqrt_real, Real.sqrt_sq (by norm_num)]
  have hnn : V3.norm (⟨0, 0, -192⟩ : V3 ℝ) = 192 := by
    have : V3.sqNorm (⟨0, 0, -192⟩ : V3 ℝ) = 192 ^ 2 := by norm_num [V3.sqNorm, V3.dot]
    rw [V3.norm, this, sqrt_real, Real.sqrt_sq (by norm_num)]
  have hne : (⟨0, 0, -192⟩ : V3 ℝ) ≠ V3.zero := by
    intro h0; have := congrArg V3.z h0; norm_num [V3.zero] at this
  rw [hb, hobs, hvel, show (⟨369, 0, 0⟩ - ⟨369, 0, 192⟩ : V3 ℝ) = ⟨0, 0, -192⟩ by ext <;> norm_num, core_vertical,
    V3.normalized_of_ne hne, hnn]
  simp only [pairs, List.map_cons, List.map_nil, hw, hMv, hnz, List.sum_cons, List.sum_nil]
  congr 2
  ext <;> norm_num [V3.smul]

end DOA.Props
