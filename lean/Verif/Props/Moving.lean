import Verif.Props.Combine

/-!
# Moving obstacles and impenetrability of the final velocity (C44, C45)
-/

set_option linter.unusedSectionVars false
set_option linter.unusedSimpArgs false

namespace DOA.Props
open DOA DOA.Spec DOA.Modulation

/-! ## C44 obstacle motion -/

/-- The velocity of the point of the (rigid) obstacle that is at `x`. -/
def pointVelocity (b : Base ℝ) (x : V3 ℝ) : V3 ℝ :=
  b.state.linearVelocity + V3.cross b.state.angularVelocity (x - b.position)

/-- C44: the two velocities add up to the velocity of the agent. -/
theorem C44_sum (x v : V3 ℝ) (items : List (Item ℝ)) (ws : List ℝ) :
    (relativeVelocities x v items ws).1 + (relativeVelocities x v items ws).2 = v := by
  unfold relativeVelocities
  v3_ring

theorem orthonormal_det {b : M3 ℝ} (h : Orthonormal b) : b.det ≠ 0 := by
  obtain ⟨h0, h1, h2, h3, h4, h5⟩ := h
  rw [V3.norm_eq_one_iff] at h0 h1 h2
  have hg : b.det * b.det = V3.sqNorm b.c0 * V3.sqNorm b.c1 * V3.sqNorm b.c2
      + 2 * V3.dot b.c0 b.c1 * V3.dot b.c0 b.c2 * V3.dot b.c1 b.c2
      - V3.sqNorm b.c0 * V3.dot b.c1 b.c2 ^ 2 - V3.sqNorm b.c1 * V3.dot b.c0 b.c2 ^ 2
      - V3.sqNorm b.c2 * V3.dot b.c0 b.c1 ^ 2 := by
    simp only [M3.det, V3.sqNorm, V3.dot, V3.cross]; ring
  rw [h0, h1, h2, h3, h4, h5] at hg
  intro h6
  rw [h6] at hg
  norm_num at hg

theorem orthonormal_mul {b : M3 ℝ} (h : Orthonormal b) (v : V3 ℝ) : b.mulVec (b.transpose.mulVec v) = v := by
  obtain ⟨c, rfl⟩ : ∃ c, b.mulVec c = v := ⟨_, M3.mulVec_inverse_mulVec (orthonormal_det h) v⟩
  congr 1
  obtain ⟨h0, h1, h2, h3, h4, h5⟩ := h
  rw [V3.norm_eq_one_iff] at h0 h1 h2
  simp only [V3.sqNorm, V3.dot] at h0 h1 h2 h3 h4 h5
  ext <;> simp only [M3.mulVec, M3.transpose]
  · linear_combination c.x * h0 + c.y * h3 + c.z * h4
  · linear_combination c.x * h3 + c.y * h1 + c.z * h5
  · linear_combination c.x * h4 + c.y * h5 + c.z * h2

/-- one obstacle -/
theorem obstacleVelocity_eq {x : V3 ℝ} {b : Base ℝ} {d w : ℝ} {B : M3 ℝ} (hB : Orthonormal B) :
    obstacleVelocity x b d w B = V3.smul (w * Real.exp (-(max 1 d - 1))) (pointVelocity b x) := by
  unfold obstacleVelocity pointVelocity
  simp only [orthonormal_mul hB, maxS_real, exp_real]
  ext <;> simp [V3.smul] <;> ring

/-- C44, partial: when all bases are orthonormal, the combined velocity is the weighted and attenuated sum
of the velocities of the obstacles at the agent. Missing: bases that are not orthonormal, see
`C44_negation`. -/
theorem C44_weighted_partial (x v : V3 ℝ) (items : List (Item ℝ)) (ws : List ℝ)
    (hB : ∀ i ∈ items, Orthonormal i.basis) :
    (relativeVelocities x v items ws).2 = V3.lsum ((items.zip ws).map fun p =>
      V3.smul (p.2 * Real.exp (-(max 1 p.1.dist - 1))) (pointVelocity p.1.base x)) := by
  unfold relativeVelocities
  simp only []
  rw [V3.foldl_add, V3.zero_add']
  congr 1
  apply List.map_congr_left
  intro p hp
  exact obstacleVelocity_eq (hB p.1 (List.of_mem_zip hp).1)

/-- C44: the basis is orthonormal when the agent is in the x-y plane of a smooth ellipsoid. -/
theorem C44_orthonormal (h : Heap ℝ) (a : Agent ℝ) (e : Ellipsoid ℝ) (ref : V3 ℝ) (k : ℕ) (M B : M3 ℝ) (d : ℝ)
    (sm : Smooth e a.margin k) (href : e.base.refPos = some ref)
    (hin : gdist e a.margin ref < gdist e a.margin a.state.position)
    (hpl : ∃ p q, a.state.position = e.base.pose.apply ⟨p, q, 0⟩)
    (hm : modulationMatrix h a (.ellipsoid e) = .ok (M, B, d)) : Orthonormal B := by
  obtain ⟨y, w, c⟩ := coord sm hin
  obtain ⟨p, q, hpq⟩ := hpl
  rw [matrix_ellipsoid h a e href] at hm
  simp only [Res.ok.injEq, Prod.mk.injEq] at hm
  obtain ⟨-, rfl, -⟩ := hm
  have hn1 : V3.norm (e.normalToAgent a.state.position a.margin) = 1 := by
    rw [c.hx]; exact (normal_facts sm c.y0).1
  exact (C35_orthogonal_partial _ hn1).2.2.2.2.2.2 (Or.inl (by rw [hpq]; exact normal_planar sm rfl))

/-- C44: the motion of the obstacles is compensated: relative to the combined velocity `ov` of the
obstacles, the agent moves as among obstacles at rest with desired velocity `v - ov`. -/
theorem C44_galilean (x v : V3 ℝ) (items : List (Item ℝ)) (critical power : ℝ) :
    let ov := (relativeVelocities x v items (weightObstacles (items.map (·.dist)) critical power)).2
    combine x v items critical power =
      combine x (v - ov) (items.map fun i => { i with base := { i.base with
        state := { i.base.state with linearVelocity := V3.zero, angularVelocity := V3.zero } } }) critical power
        + ov := by
  intro ov
  have hov : ov = obsVel x items critical power := by
    show (relativeVelocities x v items (weightObstacles (items.map (·.dist)) critical power)).2 = _
    unfold relativeVelocities obsVel
    simp only [Props.weight_eq, zip_weights]
    rw [V3.foldl_add, V3.zero_add', List.map_map]; rfl
  rw [combine_eq, combine_eq, hov]
  have h0 : obsVel x (items.map fun i => { i with base := { i.base with
        state := { i.base.state with linearVelocity := V3.zero, angularVelocity := V3.zero } } }) critical power
      = V3.zero := by
    unfold obsVel
    apply lsum_zero
    intro i hi
    obtain ⟨j, -, rfl⟩ := List.mem_map.mp hi
    exact obstacleVelocity_static rfl rfl _ _ _
  rw [h0, V3.sub_zero', V3.add_zero']
  congr 2
  unfold pairs
  simp only [List.map_map]
  rfl

/-- C44: obstacles that all translate with the same velocity `u` and are touched by the agent (`d ≤ 1`)
are compensated by exactly `u`. -/
theorem C44_common (x v u : V3 ℝ) (items : List (Item ℝ)) (critical power : ℝ) (hne : items ≠ [])
    (hB : ∀ i ∈ items, Orthonormal i.basis) (hd : ∀ i ∈ items, i.dist ≤ 1)
    (hu : ∀ i ∈ items, i.base.state.linearVelocity = u ∧ i.base.state.angularVelocity = V3.zero) :
    (relativeVelocities x v items (weightObstacles (items.map (·.dist)) critical power)).2 = u := by
  rw [C44_weighted_partial _ _ _ _ hB]
  obtain ⟨w1, -, w3⟩ := C33_convex (items.map (·.dist)) critical power (by simpa using hne)
  generalize weightObstacles (items.map (·.dist)) critical power = ws at w1 w3
  have key : ∀ (l : List (Item ℝ)) (ws : List ℝ), ws.length = l.length → (∀ i ∈ l, i ∈ items) →
      V3.lsum ((l.zip ws).map fun p =>
        V3.smul (p.2 * Real.exp (-(max 1 p.1.dist - 1))) (pointVelocity p.1.base x)) = V3.smul ws.sum u := by
    intro l
    induction l with
    | nil => intro ws hl _; simp at hl; subst hl; ext <;> simp [V3.lsum, V3.smul]
    | cons i l ih =>
      intro ws hl hi
      cases ws with
      | nil => simp at hl
      | cons w ws =>
        simp only [List.zip_cons_cons, List.map_cons, V3.lsum_cons, List.sum_cons]
        rw [ih ws (by simpa using hl) fun j hj => hi j (List.mem_cons_of_mem _ hj)]
        have hi' := hi i List.mem_cons_self
        have e1 : pointVelocity i.base x = u := by
          unfold pointVelocity
          rw [(hu i hi').1, (hu i hi').2]
          ext <;> simp [V3.cross, V3.zero]
        rw [max_eq_left (hd i hi'), e1]
        ext <;> simp [V3.smul] <;> ring
  rw [key items ws (by simpa using w1) (fun _ h => h), w3]
  ext <;> simp [V3.smul]

example : ∃ (i : Item ℝ), Orthonormal i.basis ∧ i.dist ≤ 1 ∧ i.base.state.linearVelocity = ⟨1, 0, 0⟩ ∧
    i.base.state.angularVelocity = V3.zero ∧
    (relativeVelocities ⟨1, 0, 0⟩ ⟨-1, 0, 0⟩ [i] (weightObstacles [i.dist] 1 2)).2 = ⟨1, 0, 0⟩ := by
  have hx : V3.norm (⟨1, 0, 0⟩ : V3 ℝ) = 1 := by rw [V3.norm_eq_one_iff]; simp [V3.sqNorm, V3.dot]
  have ho : Orthonormal (orthogonalBasis (⟨1, 0, 0⟩ : V3 ℝ)) := (C35_orthogonal_partial _ hx).2.2.2.2.2.2 (Or.inl rfl)
  refine ⟨⟨{ (ball V3.zero).base with state := ⟨Pose.ofPosition V3.zero, ⟨1, 0, 0⟩, V3.zero⟩ }, orthogonalBasis ⟨1, 0, 0⟩,
    orthogonalBasis ⟨1, 0, 0⟩, 1⟩, ho, le_refl _, rfl, rfl, ?_⟩
  refine C44_common ⟨1, 0, 0⟩ ⟨-1, 0, 0⟩ ⟨1, 0, 0⟩ [_] 1 2 (by simp) ?_ ?_ ?_ <;>
  · intro i hi
    simp only [List.mem_singleton] at hi
    subst hi
    first | exact ho | exact le_refl _ | exact ⟨rfl, rfl⟩

theorem slant_norm : V3.norm (⟨3 / 5, 0, 4 / 5⟩ : V3 ℝ) = 1 := by
  rw [V3.norm_eq_one_iff]; norm_num [V3.sqNorm, V3.dot]

theorem slant_tangent : tangentVector (⟨3 / 5, 0, 4 / 5⟩ : V3 ℝ) = ⟨0, -(3 / 5), 0⟩ := by
  have hc : V3.cross (⟨3 / 5, 0, 4 / 5⟩ : V3 ℝ) V3.unitZ = ⟨0, -(3 / 5), 0⟩ := by
    ext <;> simp [V3.cross, V3.unitZ]
  have hnorm : V3.norm (⟨0, -(3 / 5), 0⟩ : V3 ℝ) = 3 / 5 := by
    have : V3.sqNorm (⟨0, -(3 / 5), 0⟩ : V3 ℝ) = (3 / 5) ^ 2 := by simp [V3.sqNorm, V3.dot]; norm_num
    rw [V3.norm, this, sqrt_real, Real.sqrt_sq (by norm_num)]
  simp only [tangentVector, hc, hnorm, lit_real]
  rw [if_neg (by norm_num)]

/-- The unit ball moving with velocity `u`. -/
def movingBall (u : V3 ℝ) : Ellipsoid ℝ :=
  { ball V3.zero with base := { (ball V3.zero).base with state := ⟨Pose.ofPosition V3.zero, u, V3.zero⟩ } }

/-- C44 is false in space: a ball moves with (0,1,0), the agent touches it at (3/5,0,4/5), the weight is 1
and there is no attenuation, but only (0,9/25,0) is subtracted. -/
theorem C44_negation : ∃ (a : Agent ℝ) (e : Ellipsoid ℝ) (M B : M3 ℝ),
    Smooth e a.margin 1 ∧ e.base.state.angularVelocity = V3.zero ∧ e.base.state.linearVelocity = ⟨0, 1, 0⟩ ∧
    modulationMatrix [] a (.ellipsoid e) = .ok (M, B, 1) ∧ weightObstacles [1] 1 2 = [(1 : ℝ)] ∧
    (relativeVelocities a.state.position a.state.linearVelocity [⟨e.base, M, B, 1⟩] (weightObstacles [1] 1 2)).2 =
      ⟨0, 9 / 25, 0⟩ := by
  have hm := matrix_ellipsoid [] (agentAt ⟨3 / 5, 0, 4 / 5⟩ V3.zero) (movingBall ⟨0, 1, 0⟩) rfl
  have e1 : (movingBall ⟨0, 1, 0⟩).normalToAgent (agentAt ⟨3 / 5, 0, 4 / 5⟩ V3.zero).state.position
      (agentAt ⟨3 / 5, 0, 4 / 5⟩ V3.zero).margin = ⟨3 / 5, 0, 4 / 5⟩ := ball_normal V3.zero _ slant_norm
  have e2 : gdist (movingBall ⟨0, 1, 0⟩) (agentAt ⟨3 / 5, 0, 4 / 5⟩ V3.zero).margin
      (agentAt ⟨3 / 5, 0, 4 / 5⟩ V3.zero).state.position = 1 := by
    have h1 := ball_dist V3.zero ⟨3 / 5, 0, 4 / 5⟩
    have h2 : gdist (movingBall ⟨0, 1, 0⟩) 0 ⟨3 / 5, 0, 4 / 5⟩ = gdist (ball V3.zero) 0 ⟨3 / 5, 0, 4 / 5⟩ := rfl
    show gdist (movingBall ⟨0, 1, 0⟩) 0 ⟨3 / 5, 0, 4 / 5⟩ = 1
    rw [h2, h1]; norm_num
  rw [e1, e2] at hm
  have hw : weightObstacles [1] 1 2 = [(1 : ℝ)] := by
    rw [weight_eq, List.map_singleton, weightOf_single]
  have hsm := ball_smooth V3.zero
  refine ⟨agentAt ⟨3 / 5, 0, 4 / 5⟩ V3.zero, movingBall ⟨0, 1, 0⟩, _, _, ⟨hsm.curv, hsm.unit, hsm.long, hsm.exact_⟩, rfl, rfl, hm, hw, ?_⟩
  rw [hw]
  unfold relativeVelocities obstacleVelocity orthogonalBasis
  rw [slant_tangent]
  have hp : (movingBall ⟨0, 1, 0⟩).base.state = ⟨Pose.ofPosition V3.zero, ⟨0, 1, 0⟩, V3.zero⟩ := rfl
  ext <;> norm_num [hp, V3.cross, V3.zero, V3.smul, M3.mulVec, M3.transpose]

/-! ## C45 every direction of motion -/

/-- a vertical velocity has a degenerate frame -/
theorem core_vertical (z : ℝ) (l : List (M3 ℝ × ℝ)) :
    core ⟨0, 0, z⟩ l = V3.smul (l.map fun x => V3.norm (x.1.mulVec ⟨0, 0, z⟩) * x.2).sum
      (V3.normalized ⟨0, 0, z⟩) := by
  obtain ⟨c, hc⟩ : ∃ c, V3.normalized (⟨0, 0, z⟩ : V3 ℝ) = ⟨0, 0, c⟩ := by
    unfold V3.normalized
    split
    · exact ⟨_, by ext <;> simp [V3.sdiv]; rfl⟩
    · exact ⟨z, rfl⟩
  have hf : dsFrame (⟨0, 0, c⟩ : V3 ℝ) = ⟨⟨0, 0, c⟩, V3.zero, V3.zero⟩ := by
    unfold dsFrame
    ext <;> simp [V3.cross, V3.unitZ, V3.zero]
  unfold core
  rw [hc, hf]
  have ha : ∀ m w, (angleTerm (M3.transpose ⟨⟨0, 0, c⟩, V3.zero, V3.zero⟩) ⟨0, 0, c⟩ ⟨0, 0, z⟩ m w).2 = ⟨0, 0⟩ := by
    intro m w
    simp [angleTerm, M3.mulVec, M3.transpose, V3.zero, V2.normalized, V2.sqNorm, V2.scale]
  have hx : (List.map (fun x : ℝ × V2 ℝ => x.2.x) (l.map fun x => angleTerm (M3.transpose ⟨⟨0, 0, c⟩, V3.zero, V3.zero⟩)
      ⟨0, 0, c⟩ ⟨0, 0, z⟩ x.1 x.2)).sum = 0 := by
    rw [List.map_map]
    apply List.sum_eq_zero
    intro y hy
    obtain ⟨x, -, rfl⟩ := List.mem_map.mp hy
    simp [ha]
  have hy : (List.map (fun x : ℝ × V2 ℝ => x.2.y) (l.map fun x => angleTerm (M3.transpose ⟨⟨0, 0, c⟩, V3.zero, V3.zero⟩)
      ⟨0, 0, c⟩ ⟨0, 0, z⟩ x.1 x.2)).sum = 0 := by
    rw [List.map_map]
    apply List.sum_eq_zero
    intro y hy
    obtain ⟨x, -, rfl⟩ := List.mem_map.mp hy
    simp [ha]
  simp only [hx, hy]
  have hr : reconstruct (⟨0, 0⟩ : V2 ℝ) = ⟨1, 0, 0⟩ := by
    have : V2.norm (⟨0, 0⟩ : V2 ℝ) = 0 := by simp [V2.norm, V2.sqNorm]
    simp [reconstruct, this]
  rw [hr, List.map_map]
  congr 1
  ext <;> simp [M3.mulVec, V3.zero]

/-- C45 is false for motion along the z axis: whatever the (static) obstacles, a vertical velocity keeps its
direction and only its length is changed (the degenerate case of `compute_dynamical_system_frame` is not
treated). -/
theorem C45_negation_vertical (h : Heap ℝ) (a : Agent ℝ) (e : Env) (loc : Bool) (critical power z : ℝ)
    (ms : List (M3 ℝ × M3 ℝ × ℝ)) (hne : e.list ≠ []) (hm : Matrices h a e.list ms)
    (hst : ∀ q ∈ e.list, ∃ o, h[q]? = some o ∧ Static o)
    (hv : a.state.linearVelocity = ⟨0, 0, z⟩) (hz : z ≠ 0) (hsight : InSight h a e loc) :
    ∃ c, 0 ≤ c ∧ modulateVelocity h a e loc false false critical power = .ok (h, V3.smul c a.state.linearVelocity) ∧
      c * |z| = meanSpeed a.state.linearVelocity critical power ms := by
  obtain ⟨its, h1, h2, h3⟩ := items_of hm
  have hine : its ≠ [] := by
    rintro rfl
    rw [mapM_ok] at h1
    cases hl : e.list with
    | nil => exact hne hl
    | cons p l => rw [hl] at h1; cases h1
  have hms : meanSpeed a.state.linearVelocity critical power ms =
      ((pairs its critical power).map fun x => V3.norm (x.1.mulVec a.state.linearVelocity) * x.2).sum := by
    unfold meanSpeed
    rw [pairs_zip, h2, List.map_map]; rfl
  have hW : 0 ≤ meanSpeed a.state.linearVelocity critical power ms := by
    rw [hms]
    apply List.sum_nonneg
    intro y hy
    obtain ⟨x, hx, rfl⟩ := List.mem_map.mp hy
    exact mul_nonneg (V3.norm_nonneg _) (pairs_nonneg hine x hx)
  have hvne : (⟨0, 0, z⟩ : V3 ℝ) ≠ V3.zero := by
    intro h0; exact hz (congrArg V3.z h0)
  have hvn : V3.norm (⟨0, 0, z⟩ : V3 ℝ) = |z| := by
    simp [V3.norm, V3.sqNorm, V3.dot, sqrt_real, Real.sqrt_mul_self_eq_abs]
  refine ⟨meanSpeed a.state.linearVelocity critical power ms / |z|, by positivity, ?_, by field_simp⟩
  rw [modulate_plain h a e loc critical power its hne hsight h1, combine_eq, static_obsVel hst h3, V3.sub_zero',
    V3.add_zero', hms, hv, core_vertical, V3.normalized_of_ne hvne, hvn]
  congr 2
  ext <;> simp [V3.smul]
  ring

/-- C45: an agent on the surface of a unit ball at (3/5,0,4/5) with velocity (0,0,-1): the final velocity
is (0,0,-6/5), which points into the ball, although `M v` does not. -/
theorem C45_negation : ∃ (h : Heap ℝ) (a : Agent ℝ) (e : Env) (el : Ellipsoid ℝ) (M B : M3 ℝ) (out : V3 ℝ) (s : ℝ),
    e.list = [0] ∧ h[0]? = some (.ellipsoid el) ∧ Smooth el a.margin 1 ∧ Static (.ellipsoid el) ∧
    CentredBall el a.margin el.base.position ∧ gdist el a.margin a.state.position = 1 ∧
    modulationMatrix h a (.ellipsoid el) = .ok (M, B, 1) ∧
    Slope el a.margin a.state.position (M.mulVec a.state.linearVelocity) 0 ∧
    modulateVelocity h a e false false false 1 2 = .ok (h, out) ∧
    Slope el a.margin a.state.position out s ∧ s < 0 := by
  set a := agentAt ⟨3 / 5, 0, 4 / 5⟩ ⟨0, 0, -1⟩ with ha
  set h : Heap ℝ := [.ellipsoid (ball V3.zero)] with hh
  have hm := matrix_ellipsoid h a (ball V3.zero) rfl
  have hpos : a.state.position = ⟨3 / 5, 0, 4 / 5⟩ := rfl
  have hmar : a.margin = 0 := rfl
  have hr : referenceDirection (ball V3.zero).base.pose ⟨3 / 5, 0, 4 / 5⟩ V3.zero = ⟨3 / 5, 0, 4 / 5⟩ := by
    unfold referenceDirection
    rw [ball_inv, ball_inv, V3.sub_zero', V3.normalized_of_ne, slant_norm]
    · ext <;> simp [V3.smul]
    · intro h0; have := slant_norm; rw [h0, V3.norm_eq_zero.mpr rfl] at this; norm_num at this
  have hd : gdist (ball V3.zero) 0 ⟨3 / 5, 0, 4 / 5⟩ = 1 := by rw [ball_dist]; norm_num
  rw [hpos, hmar, hd, ball_normal _ _ slant_norm, hr] at hm
  have hMv : (modulationProduct (ball V3.zero).base.pose.orientation
      (referenceBasis ⟨3 / 5, 0, 4 / 5⟩ ⟨3 / 5, 0, 4 / 5⟩) (diagonalEigenvalues 1 1)).mulVec ⟨0, 0, -1⟩ =
      ⟨24 / 25, 0, -(18 / 25)⟩ := by
    rw [modulationProduct_mulVec (unit' (ball_smooth _)), ball_rotate]
    have e2 : (ball V3.zero).base.pose.orientation.conjugate.rotate ⟨0, 0, -1⟩ = ⟨0, 0, -1⟩ := by
      ext <;> simp [ball, Ellipsoid.ofBase, Base.mkRef, State.ofPosition, Pose.ofPosition, Base.pose,
        Quat.one, Quat.rotate, Quat.conjugate, Quat.vec, V3.cross, V3.smul]
    rw [e2, C34_inside 1 1 (le_refl _)]
    simp only [referenceBasis, slant_tangent, M3.mulVec, M3.had, M3.inverse, M3.det, V3.cross, V3.mk.injEq]
    norm_num
  have hn : V3.norm (⟨24 / 25, 0, -(18 / 25)⟩ : V3 ℝ) = 6 / 5 := by
    have : V3.sqNorm (⟨24 / 25, 0, -(18 / 25)⟩ : V3 ℝ) = (6 / 5) ^ 2 := by norm_num [V3.sqNorm, V3.dot]
    rw [V3.norm, this, sqrt_real, Real.sqrt_sq (by norm_num)]
  obtain ⟨c, hc0, hc1, hc2⟩ := C45_negation_vertical h a (envOf [0]) false 1 2 (-1) [_] (by simp [envOf])
    (.cons ⟨_, rfl, hm⟩ .nil) (by
      intro q hq
      simp only [envOf, List.mem_singleton] at hq
      subst hq
      exact ⟨_, rfl, rfl, rfl⟩) rfl (by norm_num) (by intro h; cases h)
  have hc : c = 6 / 5 := by
    have hw : weightObstacles [1] 1 2 = [(1 : ℝ)] := by
      rw [weight_eq, List.map_singleton, weightOf_single]
    have hvel : a.state.linearVelocity = ⟨0, 0, -1⟩ := rfl
    simp only [meanSpeed, List.map_cons, List.map_nil, hw, List.zip_cons_cons, List.zip_nil_right, hvel, hMv, hn,
      List.sum_cons, List.sum_nil] at hc2
    norm_num at hc2
    exact hc2
  refine ⟨h, a, envOf [0], ball V3.zero, _, _, _, 2 * V3.dot ⟨3 / 5, 0, 4 / 5⟩ (V3.smul c ⟨0, 0, -1⟩), rfl, rfl,
    ball_smooth _, ⟨rfl, rfl⟩, ⟨?_, rfl, rfl, rfl⟩, hd, hm, ?_, hc1, ?_, ?_⟩
  · simp [ball, Ellipsoid.ofBase, V3.const]
  · show Slope (ball V3.zero) 0 ⟨3 / 5, 0, 4 / 5⟩ (M3.mulVec _ ⟨0, 0, -1⟩) 0
    rw [hMv, ball_slope _ _ _ slant_norm]
    norm_num [V3.dot]
  · exact (ball_slope _ _ _ slant_norm _).mpr rfl
  · rw [hc]; norm_num [V3.dot, V3.smul]

/-- C45 is false, even for planar motion, inside the small-angle branch: the final velocity of an agent on
the surface of a unit ball points into the ball for every velocity (-sin φ, cos φ, 0) with
0 < φ < 1E-4. -/
theorem C45_negation_small_angle (φ : ℝ) (h0 : 0 < φ) (h1 : φ < 1 / 10000) :
    ∃ (h : Heap ℝ) (a : Agent ℝ) (e : Env) (el : Ellipsoid ℝ) (out : V3 ℝ) (s : ℝ),
    e.list = [0] ∧ h[0]? = some (.ellipsoid el) ∧ Smooth el a.margin 1 ∧ Static (.ellipsoid el) ∧
    CentredBall el a.margin el.base.position ∧ gdist el a.margin a.state.position = 1 ∧
    a.state.linearVelocity = ⟨-Real.sin φ, Real.cos φ, 0⟩ ∧
    modulateVelocity h a e false false false 1 2 = .ok (h, out) ∧
    Slope el a.margin a.state.position out s ∧ s < 0 := by
  set a := agentAt ⟨1, 0, 0⟩ ⟨-Real.sin φ, Real.cos φ, 0⟩ with ha
  set h : Heap ℝ := [.ellipsoid (ball V3.zero)] with hh
  have hx : V3.norm (⟨1, 0, 0⟩ : V3 ℝ) = 1 := by rw [V3.norm_eq_one_iff]; simp [V3.sqNorm, V3.dot]
  have hm := matrix_ellipsoid h a (ball V3.zero) rfl
  have hpos : a.state.position = ⟨1, 0, 0⟩ := rfl
  have hmar : a.margin = 0 := rfl
  have hr : referenceDirection (ball V3.zero).base.pose ⟨1, 0, 0⟩ V3.zero = ⟨1, 0, 0⟩ := by
    unfold referenceDirection
    rw [ball_inv, ball_inv, V3.sub_zero', V3.normalized_of_ne, hx]
    · ext <;> simp [V3.smul]
    · intro h0; rw [h0, V3.norm_eq_zero.mpr rfl] at hx; norm_num at hx
  have ht : tangentVector (⟨1, 0, 0⟩ : V3 ℝ) = ⟨0, -1, 0⟩ := tangent_planar hx rfl
  have hd : gdist (ball V3.zero) 0 ⟨1, 0, 0⟩ = 1 := by rw [ball_dist]; norm_num
  rw [hpos, hmar, hd, ball_normal _ _ hx, hr] at hm
  have hMv : ∀ p q, (modulationProduct (ball V3.zero).base.pose.orientation
      (referenceBasis ⟨1, 0, 0⟩ ⟨1, 0, 0⟩) (diagonalEigenvalues 1 1)).mulVec ⟨p, q, 0⟩ = ⟨0, 2 * q, 0⟩ := by
    intro p q
    rw [modulationProduct_mulVec (unit' (ball_smooth _)), ball_rotate]
    have e2 : (ball V3.zero).base.pose.orientation.conjugate.rotate ⟨p, q, 0⟩ = ⟨p, q, 0⟩ := by
      ext <;> simp [ball, Ellipsoid.ofBase, Base.mkRef, State.ofPosition, Pose.ofPosition, Base.pose,
        Quat.one, Quat.rotate, Quat.conjugate, Quat.vec, V3.cross, V3.smul]
    rw [e2, C34_inside 1 1 (le_refl _)]
    simp only [referenceBasis, ht, M3.mulVec, M3.had, M3.inverse, M3.det, V3.cross, V3.mk.injEq]
    refine ⟨by norm_num, ?_, by norm_num⟩
    norm_num
  set M := modulationProduct (ball V3.zero).base.pose.orientation
      (referenceBasis ⟨1, 0, 0⟩ ⟨1, 0, 0⟩) (diagonalEigenvalues 1 1) with hM
  have hpi : 2 ≤ Real.pi := Real.two_le_pi
  have hc : 0 < Real.cos φ := Real.cos_pos_of_mem_Ioo ⟨by linarith, by linarith⟩
  have hs : 0 < Real.sin φ := Real.sin_pos_of_pos_of_lt_pi h0 (by linarith)
  have hsc := Real.sin_sq_add_cos_sq φ
  set v : V3 ℝ := ⟨-Real.sin φ, Real.cos φ, 0⟩ with hv
  have hvn : V3.norm v = 1 := by
    rw [V3.norm_eq_one_iff]; simp only [V3.sqNorm, V3.dot, hv]; nlinarith
  have hun : V3.norm (⟨0, 2 * Real.cos φ, 0⟩ : V3 ℝ) = 2 * Real.cos φ := by
    have : V3.sqNorm (⟨0, 2 * Real.cos φ, 0⟩ : V3 ℝ) = (2 * Real.cos φ) ^ 2 := by
      simp only [V3.sqNorm, V3.dot]; ring
    rw [V3.norm, this, sqrt_real, Real.sqrt_sq (by positivity)]
  have hang : angle (M.mulVec v) v = φ := by
    rw [hv, hMv, angle, ← hv, hvn, hun]
    have : V3.dot ⟨0, 2 * Real.cos φ, 0⟩ v / (2 * Real.cos φ * 1) = Real.cos φ := by
      simp only [V3.dot, hv]; field_simp; ring
    rw [this, Real.arccos_cos h0.le (by linarith)]
  have hitem : [0].mapM (itemOf h a) = .ok [⟨(ball V3.zero).base, M, orthogonalBasis ⟨1, 0, 0⟩, 1⟩] := by
    rw [mapM_ok]; exact .cons (itemOf_ok rfl hm) .nil
  have hout := modulate_plain h a (envOf [0]) false 1 2 _ (by simp [envOf]) (by intro h; cases h) hitem
  obtain ⟨-, -, h5⟩ := core_single (rv := v) (M := M) rfl
    fun c hc hne => matrix_not_opposite (o := .ellipsoid (ball V3.zero)) (ball_smooth V3.zero).unit hm _ c hc hne
  have hcomb : ∀ B, combine a.state.position a.state.linearVelocity [⟨(ball V3.zero).base, M, B, 1⟩] 1 2 =
      core v [(M, 1)] := by
    intro B
    rw [combine_eq]
    have hov : obsVel a.state.position [⟨(ball V3.zero).base, M, B, 1⟩] 1 2 = V3.zero := by
      unfold obsVel
      apply lsum_zero
      intro i hi
      simp only [List.mem_singleton] at hi
      subst hi
      exact obstacleVelocity_static rfl rfl _ _ _
    rw [hov, V3.sub_zero', V3.add_zero']
    simp only [pairs, List.map_cons, List.map_nil, weightOf_single]
    rfl
  rw [hcomb, h5 (by rw [hang]; exact h0) (by rw [hang]; exact h1), hang] at hout
  refine ⟨h, a, envOf [0], ball V3.zero, _, _, rfl, rfl, ball_smooth _, ⟨rfl, rfl⟩, ⟨?_, rfl, rfl, rfl⟩, hd, rfl,
    hout, (ball_slope _ _ _ hx _).mpr rfl, ?_⟩
  · simp [ball, Ellipsoid.ofBase, V3.const]
  · have hvne : v ≠ V3.zero := by
      intro h0; rw [h0, V3.norm_eq_zero.mpr rfl] at hvn; norm_num at hvn
    have hMvv : M.mulVec v = ⟨0, 2 * Real.cos φ, 0⟩ := hMv _ _
    have hune : (⟨0, 2 * Real.cos φ, 0⟩ : V3 ℝ) ≠ V3.zero := by
      intro h0; rw [h0, V3.norm_eq_zero.mpr rfl] at hun; linarith
    rw [hMvv, hun, V3.normalized_of_ne hvne, hvn, V3.normalized_of_ne hune, hun]
    have htan := Real.lt_tan h0 (by linarith)
    rw [Real.tan_eq_sin_div_cos, lt_div_iff₀ hc] at htan
    have : V3.dot (⟨1, 0, 0⟩ : V3 ℝ) (V3.smul (2 * Real.cos φ) (V3.smul (1 / 1) v + V3.smul (φ / Real.sin φ)
        (V3.smul (1 / (2 * Real.cos φ)) ⟨0, 2 * Real.cos φ, 0⟩ - V3.smul (Real.cos φ) (V3.smul (1 / 1) v)))) =
        -(2 * Real.cos φ * (Real.sin φ - φ * Real.cos φ)) := by
      simp only [V3.dot, V3.smul, hv, V3.add_x, V3.add_y, V3.add_z, V3.sub_x, V3.sub_y, V3.sub_z]
      field_simp
      ring
    rw [this]
    have : 0 < 2 * Real.cos φ * (Real.sin φ - φ * Real.cos φ) := by
      apply mul_pos (by linarith); linarith
    linarith

/-- C45, partial: the agent is near exactly one obstacle (the others are beyond the critical distance,
whatever their kind and motion), in its x-y plane, and the velocity relative to the obstacle is
planar. Relative to the obstacle's (attenuated) motion `u` the distance then changes at
`max 0 (1 - 1/d)` times the desired rate, unless the angle of the deflection is in (0, 1E-4), when the
velocity is off by at most a relative error of 1E-8. On the surface (`d = 1`) the agent hence cannot move
into the obstacle.

Missing: velocities that are not planar (`C45_negation`), the small-angle branch
(`C45_negation_small_angle`), several critical obstacles. -/
theorem C45_focus_partial (h : Heap ℝ) (a : Agent ℝ) (e : Env) (loc : Bool) (critical power : ℝ)
    (l1 l2 : List Ptr) (p : Ptr) (el : Ellipsoid ℝ) (ref : V3 ℝ) (k : ℕ)
    (hl : e.list = l1 ++ p :: l2) (hp : h[p]? = some (.ellipsoid el)) (sm : Smooth el a.margin k)
    (href : el.base.refPos = some ref) (hin : gdist el a.margin ref < gdist el a.margin a.state.position)
    (hpl : InPlane el a.state.position ref) (hcrit : gdist el a.margin a.state.position ≤ critical)
    (hoth : ∀ q ∈ l1 ++ l2, ∃ o M B d, h[q]? = some o ∧ modulationMatrix h a o = .ok (M, B, d) ∧ critical < d)
    (hsight : InSight h a e loc) (u : V3 ℝ)
    (hu : u = V3.smul (Real.exp (-(max 1 (gdist el a.margin a.state.position) - 1)))
      (pointVelocity el.base a.state.position))
    (hz : (a.state.linearVelocity - u).z = 0) :
    ∃ M B out, modulationMatrix h a (.ellipsoid el) = .ok (M, B, gdist el a.margin a.state.position) ∧
      modulateVelocity h a e loc false false critical power = .ok (h, out) ∧
      V3.norm (out - u - M.mulVec (a.state.linearVelocity - u)) ≤
        1 / 10 ^ 8 * V3.norm (M.mulVec (a.state.linearVelocity - u)) ∧
      (angle (M.mulVec (a.state.linearVelocity - u)) (a.state.linearVelocity - u) = 0 ∨
        1 / 10000 ≤ angle (M.mulVec (a.state.linearVelocity - u)) (a.state.linearVelocity - u) →
        ∀ s, Slope el a.margin a.state.position (a.state.linearVelocity - u) s →
          Slope el a.margin a.state.position (out - u)
            (max 0 (1 - 1 / gdist el a.margin a.state.position) * s)) := by
  obtain ⟨M, B, hm, himp⟩ := C37_impenetrable_partial h a el k sm ref href hin (Or.inl hpl)
  have hB : Orthonormal B := C44_orthonormal h a el ref k M B _ sm href hin hpl.1 hm
  set d := gdist el a.margin a.state.position with hd
  have hits : ∀ l : List Ptr, (∀ q ∈ l, ∃ o M B d, h[q]? = some o ∧ modulationMatrix h a o = .ok (M, B, d) ∧
      critical < d) → ∃ its : List (Item ℝ), List.Forall₂ (fun b c => itemOf h a b = .ok c) l its ∧
        ∀ i ∈ its, critical < i.dist := by
    intro l
    induction l with
    | nil => intro _; exact ⟨[], .nil, fun i hi => by cases hi⟩
    | cons q l ih =>
      intro hq
      obtain ⟨its, t1, t2⟩ := ih fun r hr => hq r (List.mem_cons_of_mem _ hr)
      obtain ⟨o, M', B', d', q1, q2, q3⟩ := hq q List.mem_cons_self
      refine ⟨_, .cons (itemOf_ok q1 q2) t1, ?_⟩
      intro i hi
      rcases List.mem_cons.mp hi with rfl | hi
      · exact q3
      · exact t2 i hi
  obtain ⟨i1, s1, f1⟩ := hits l1 fun q hq => hoth q (List.mem_append_left _ hq)
  obtain ⟨i2, s2, f2⟩ := hits l2 fun q hq => hoth q (List.mem_append_right _ hq)
  have hall : e.list.mapM (itemOf h a) = .ok (i1 ++ ⟨el.base, M, B, d⟩ :: i2) := by
    rw [hl, mapM_ok]
    exact List.rel_append s1 (.cons (itemOf_ok hp hm) s2)
  have hout := modulate_plain h a e loc critical power _ (by rw [hl]; simp) hsight hall
  rw [combine_eq] at hout
  obtain ⟨w1, w2⟩ := weightOf_focus (i1.map (·.dist)) (i2.map (·.dist)) d critical power hcrit
    (by intro y hy; obtain ⟨i, hi, rfl⟩ := List.mem_map.mp hy; exact f1 i hi)
    (by intro y hy; obtain ⟨i, hi, rfl⟩ := List.mem_map.mp hy; exact f2 i hi)
  have hdl : (i1 ++ (⟨el.base, M, B, d⟩ : Item ℝ) :: i2).map (·.dist) =
      i1.map (·.dist) ++ d :: i2.map (·.dist) := by simp
  have hzero : ∀ (x : V3 ℝ) (b : Base ℝ) (d : ℝ) (B : M3 ℝ), obstacleVelocity x b d 0 B = V3.zero := by
    intro x b d B; unfold obstacleVelocity; ext <;> simp [V3.zero]
  have hov : obsVel a.state.position (i1 ++ ⟨el.base, M, B, d⟩ :: i2) critical power = u := by
    unfold obsVel
    rw [hdl]
    simp only [List.map_append, List.map_cons]
    have happ : ∀ l l' : List (V3 ℝ), V3.lsum (l ++ l') = V3.lsum l + V3.lsum l' := by
      intro l l'; ext <;> simp [V3.lsum]
    rw [happ, V3.lsum_cons, lsum_zero (l := i1), lsum_zero (l := i2), V3.add_zero', V3.zero_add', w1,
      obstacleVelocity_eq hB, one_mul, hu]
    · intro i hi; rw [w2 _ (f2 i hi), hzero]
    · intro i hi; rw [w2 _ (f1 i hi), hzero]
  have hpairs : ∀ rv, core rv (pairs (i1 ++ ⟨el.base, M, B, d⟩ :: i2) critical power) = core rv [(M, 1)] := by
    intro rv
    unfold pairs
    rw [hdl]
    simp only [List.map_append, List.map_cons, w1]
    apply core_focus
    · intro y hy; obtain ⟨i, hi, rfl⟩ := List.mem_map.mp hy; exact w2 _ (f1 i hi)
    · intro y hy; obtain ⟨i, hi, rfl⟩ := List.mem_map.mp hy; exact w2 _ (f2 i hi)
  rw [hov, hpairs] at hout
  obtain ⟨c1, c2, -⟩ := core_single hz (M := M) fun c hc hne => matrix_not_opposite (o := .ellipsoid el) sm.unit hm _ c hc hne
  refine ⟨M, B, _, hm, hout, ?_, ?_⟩
  · rw [V3.add_sub_cancel']; exact c2
  · intro hang s hs
    rw [V3.add_sub_cancel', c1 hang]
    exact himp _ _ hs

/-- A unit ball at `c` with the reference point at its centre. -/
def ballAt (c : V3 ℝ) : Ellipsoid ℝ := Ellipsoid.ofBase (Base.mkRef "far" (State.ofPosition c) c V3.zero)

theorem ballAt_smooth (c : V3 ℝ) : Smooth (ballAt c) 0 1 := by
  refine ⟨by simp [HasCurv, ballAt, Ellipsoid.ofBase, V3.const], ?_, ?_, Or.inl rfl⟩
  · simp [ballAt, Ellipsoid.ofBase, Base.orientation, State.orientation, Base.mkRef, State.ofPosition,
      Pose.ofPosition, Quat.norm, Quat.sqNorm, Quat.one]
  · norm_num [AllGt, halfLengths, ballAt, Ellipsoid.ofBase, V3.const, V3.zero, Base.mkRef]

theorem ballAt_dist (c x : V3 ℝ) : gdist (ballAt c) 0 x = (x.x - c.x) ^ 2 + (x.y - c.y) ^ 2 + (x.z - c.z) ^ 2 := by
  have h1 : (ballAt c).base.pose.apply (x - c) = x := by
    ext <;> simp [ballAt, Ellipsoid.ofBase, Base.mkRef, State.ofPosition, Pose.ofPosition, Base.pose,
      Pose.apply, Quat.one, Quat.rotate, Quat.vec, V3.cross, V3.smul]
  have := dist_apply (ballAt_smooth c) (x - c)
  rw [h1] at this
  rw [this]
  simp [level, halfLengths, ballAt, Ellipsoid.ofBase, V3.const, V3.zero, Base.mkRef]

/-- Two balls, the agent touches the first one. -/
example : ∃ M B out,
    modulationMatrix [.ellipsoid (ballAt V3.zero), .ellipsoid (ballAt ⟨10, 0, 0⟩)] (agentAt ⟨1, 0, 0⟩ ⟨-1, 1, 0⟩)
      (.ellipsoid (ballAt V3.zero)) = .ok (M, B, 1) ∧
    modulateVelocity [.ellipsoid (ballAt V3.zero), .ellipsoid (ballAt ⟨10, 0, 0⟩)] (agentAt ⟨1, 0, 0⟩ ⟨-1, 1, 0⟩)
      (envOf [1, 0]) false false false 1 2 =
        .ok ([.ellipsoid (ballAt V3.zero), .ellipsoid (ballAt ⟨10, 0, 0⟩)], out) ∧
    V3.norm (out - M.mulVec ⟨-1, 1, 0⟩) ≤ 1 / 10 ^ 8 * V3.norm (M.mulVec ⟨-1, 1, 0⟩) := by
  have hd0 : gdist (ballAt V3.zero) 0 ⟨1, 0, 0⟩ = 1 := by rw [ballAt_dist]; norm_num [V3.zero]
  have hd1 : gdist (ballAt V3.zero) 0 V3.zero = 0 := by rw [ballAt_dist]; norm_num [V3.zero]
  have hd2 : gdist (ballAt ⟨10, 0, 0⟩) 0 ⟨1, 0, 0⟩ = 81 := by rw [ballAt_dist]; norm_num
  have hap : ∀ x, (ballAt V3.zero).base.pose.apply x = x := by
    intro x
    ext <;> simp [ballAt, Ellipsoid.ofBase, Base.mkRef, State.ofPosition, Pose.ofPosition, Base.pose,
      Pose.apply, Quat.one, Quat.rotate, Quat.vec, V3.cross, V3.smul, V3.zero]
  have hv : (agentAt ⟨1, 0, 0⟩ ⟨-1, 1, 0⟩).state.linearVelocity - V3.zero = ⟨-1, 1, 0⟩ := V3.sub_zero' _
  obtain ⟨M, B, out, h1, h2, h3, -⟩ := C45_focus_partial
    [.ellipsoid (ballAt V3.zero), .ellipsoid (ballAt ⟨10, 0, 0⟩)] (agentAt ⟨1, 0, 0⟩ ⟨-1, 1, 0⟩) (envOf [1, 0]) false
    1 2 [1] [] 0 (ballAt V3.zero) V3.zero 1 rfl rfl (ballAt_smooth _) rfl
    (by show gdist (ballAt V3.zero) 0 V3.zero < gdist (ballAt V3.zero) 0 ⟨1, 0, 0⟩; rw [hd0, hd1]; norm_num)
    ⟨⟨1, 0, (hap _).symm⟩, ⟨0, 0, (hap _).symm⟩⟩ hd0.le
    (by
      intro q hq
      simp only [List.append_nil, List.mem_singleton] at hq
      subst hq
      have hm := matrix_ellipsoid [.ellipsoid (ballAt V3.zero), .ellipsoid (ballAt ⟨10, 0, 0⟩)]
        (agentAt ⟨1, 0, 0⟩ ⟨-1, 1, 0⟩) (ballAt ⟨10, 0, 0⟩) rfl
      refine ⟨_, _, _, _, rfl, hm, ?_⟩
      show 1 < gdist (ballAt ⟨10, 0, 0⟩) 0 ⟨1, 0, 0⟩
      rw [hd2]; norm_num)
    (by intro h; cases h) V3.zero
    (by
      ext <;> simp [pointVelocity, ballAt, Ellipsoid.ofBase, Base.mkRef, State.ofPosition, V3.smul, V3.zero, V3.cross])
    (by rw [hv])
  rw [hv, V3.sub_zero'] at h3
  refine ⟨M, B, out, ?_, h2, h3⟩
  have : gdist (ballAt V3.zero) (agentAt ⟨1, 0, 0⟩ ⟨-1, 1, 0⟩).margin
    (agentAt ⟨1, 0, 0⟩ ⟨-1, 1, 0⟩).state.position = 1 := hd0
  rwa [this] at h1

end DOA.Props
