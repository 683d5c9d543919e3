import Verif.Props.Trajectory
import Verif.Props.Loop
import Mathlib.Analysis.SpecialFunctions.Sqrt
import Mathlib.Analysis.SpecialFunctions.ExpDeriv

/-!
# C38, C68: what the wrong normals of curved obstacles lead to

For curvature 2 and different lengths the normal of the code is not the gradient of the distance (C25). An agent may then
slide along the surface the code believes in, which crosses the true one.
-/

set_option linter.unusedSectionVars false
set_option linter.unusedSimpArgs false

namespace DOA.Props
open DOA DOA.Spec DOA.Modulation DOA.Ellipsoid

/-- C38 for the velocity that `modulate_velocity` returns: an agent that starts outside of a static obstacle and follows
the result of the call for a continuous planar desired velocity never reaches the surface, provided the result is
never computed in the small-angle branch (angle between `M v` and `v` either 0 or at least 1E-4). -/
theorem C38_output_partial (h : Heap ℝ) (env : Env) (e : Ellipsoid ℝ) (m : ℝ) (k : ℕ) (sm : Smooth e m k) (ref : V3 ℝ) (p : Ptr)
    (hl : env.list = [p]) (hp : h[p]? = some (.ellipsoid e)) (hst : Static (.ellipsoid e)) (loc : Bool) (critical power : ℝ)
    (href : e.base.refPos = some ref) (hin : gdist e m ref < 1) (x u : ℝ → V3 ℝ) (a : ℝ → Agent ℝ)
    (ha : ∀ t, (a t).state.position = x t ∧ (a t).margin = m ∧ (a t).state.linearVelocity.z = 0)
    (hsight : ∀ t, InSight h (a t) env loc)
    (hplane : ∀ t, 0 ≤ t → InPlane e (x t) ref ∨ CentredBall e m ref)
    (hv : ContinuousCurve fun t => (a t).state.linearVelocity) (hx : ContinuousCurve x)
    (hode : ∀ t, 0 < t → HasVelocity x (u t) t)
    (hu : ∀ t, 0 < t → modulateVelocity h (a t) env loc false false critical power = .ok (h, u t))
    (hang : ∀ t, 0 < t → ∀ M B d, modulationMatrix h (a t) (.ellipsoid e) = .ok (M, B, d) →
      angle (M.mulVec (a t).state.linearVelocity) (a t).state.linearVelocity = 0 ∨
        1 / 10000 ≤ angle (M.mulVec (a t).state.linearVelocity) (a t).state.linearVelocity)
    (h0 : 1 < gdist e m (x 0)) : ∀ t, 0 ≤ t → 1 < gdist e m (x t) := by
  refine C38_never_enters_partial h e m k sm ref href hin x (fun t => (a t).state.linearVelocity) u a
    (fun t => ⟨(ha t).1, (ha t).2.1⟩) hplane hv hx hode (fun t ht => ?_) h0
  have hm := matrix_ellipsoid h (a t) e href
  refine ⟨_, _, _, hm, ?_⟩
  obtain ⟨out, h1, h2, -⟩ := C39_single h (a t) env loc critical power p (.ellipsoid e) _ _ _ hl hp hst sm.unit hm (ha t).2.2
    (hsight t)
  rw [hu t ht] at h1
  cases h1
  exact h2 (hang t ht _ _ _ hm)

theorem boxy_curv : HasCurv boxy 2 2 2 := by simp [HasCurv, boxy]

theorem boxy_norm : boxy.base.orientation.norm = 1 := by
  simp [boxy, Base.orientation, State.orientation, Base.mkPos, State.ofPosition, Pose.ofPosition, Quat.norm, Quat.sqNorm,
    Quat.one]

theorem boxy_long : AllGt (halfLengths boxy (V3.const 0)) (1 / 10000) := by
  norm_num [AllGt, halfLengths, boxy, V3.const, V3.zero, Base.mkPos]

theorem boxy_apply (x : V3 ℝ) : boxy.base.pose.apply x = x := by
  ext <;> simp [boxy, Base.mkPos, State.ofPosition, Pose.ofPosition, Base.pose, Pose.apply, Quat.one, Quat.rotate, Quat.vec,
    V3.cross, V3.smul, V3.zero]

theorem boxy_rotate (x : V3 ℝ) : boxy.base.pose.orientation.rotate x = x := by
  ext <;> simp [boxy, Base.mkPos, State.ofPosition, Pose.ofPosition, Base.pose, Quat.one, Quat.rotate, Quat.vec, V3.cross,
    V3.smul]

theorem boxy_dist (x : V3 ℝ) : gdist boxy 0 x = x.x ^ 4 + (x.y / 2) ^ 4 + x.z ^ 4 := by
  have := Ellipsoid.distance_eq boxy (V3.const 0) x 2 2 2 boxy_curv ((Quat.isUnit_iff_norm _).mpr boxy_norm) boxy_long
  rw [boxy_apply] at this
  rw [gdist, this]
  simp [level, halfLengths, boxy, V3.const, V3.zero, Base.mkPos]

/-- The modulation matrix of `boxy` doubles or nearly doubles the direction the code takes for the tangent. -/
theorem boxy_tangent (a : Agent ℝ) (p q : ℝ) (hp : 0 < p) (hq : 0 < q) (ha : a.state.position = ⟨p, q, 0⟩)
    (hm : a.margin = 0) : ∃ M B, modulationMatrix [] a (.ellipsoid boxy) = .ok (M, B, gdist boxy 0 ⟨p, q, 0⟩) ∧
      ∀ s, M.mulVec ⟨s * (q ^ 3 / 64), -(s * p ^ 3), 0⟩ =
        V3.smul (1 + min 1 (1 / gdist boxy 0 ⟨p, q, 0⟩)) ⟨s * (q ^ 3 / 64), -(s * p ^ 3), 0⟩ := by
  have hu : boxy.base.pose.orientation.IsUnit := (Quat.isUnit_iff_norm _).mpr boxy_norm
  have hinv : ∀ x, boxy.base.pose.inverse.apply x = x := by
    intro x; conv_lhs => rw [← boxy_apply x]
    exact Pose.apply_inverse_apply hu x
  have hpos : boxy.base.position = V3.zero := rfl
  set y : V3 ℝ := ⟨p, q, 0⟩ with hy
  have hd0 : 0 < gdist boxy 0 y := by rw [boxy_dist]; simp only [hy]; positivity
  have hy0 : y ≠ ⟨0, 0, 0⟩ := by simp [hy, hp.ne']
  obtain ⟨hn1, hny⟩ := C25_normal_unit_outward boxy y 0 2 2 2 boxy_curv boxy_norm boxy_long hy0
  rw [boxy_apply] at hn1 hny
  have hn : boxy.normalToAgent y 0 = V3.normalized ⟨64 * p ^ 3, q ^ 3, 0⟩ := by
    rw [Ellipsoid.normal_frame boxy y 0 2 2 2 boxy_curv boxy_long, hinv]
    congr 1
    ext
    · norm_num [halfLengths, boxy, V3.const, V3.zero, Base.mkPos, hy]; try ring
    · norm_num [halfLengths, boxy, V3.const, V3.zero, Base.mkPos, hy]
    · simp [halfLengths, boxy, V3.const, V3.zero, Base.mkPos, hy]
  have hne : (⟨64 * p ^ 3, q ^ 3, 0⟩ : V3 ℝ) ≠ V3.zero := by simp [V3.zero, hp.ne']
  have hnz : (boxy.normalToAgent y 0).z = 0 := by
    rw [hn, V3.normalized_of_ne hne]; simp [V3.smul]
  have hr : referenceDirection boxy.base.pose y boxy.base.position = V3.smul (1 / V3.norm y) y := by
    unfold referenceDirection
    rw [hinv, hinv, hpos, V3.sub_zero', V3.normalized_of_ne hy0]
  have hnr : V3.dot (boxy.normalToAgent y 0) (referenceDirection boxy.base.pose y boxy.base.position) ≠ 0 := by
    rw [hr, V3.dot_smul]
    have := V3.norm_pos hy0
    positivity
  have hrz : (referenceDirection boxy.base.pose y boxy.base.position).z = 0 := by
    rw [hr]; simp [V3.smul, hy]
  have hmat := matrix_ellipsoid [] a boxy rfl
  rw [ha, hm] at hmat
  refine ⟨_, _, hmat, fun s => ?_⟩
  have hnv : V3.dot (boxy.normalToAgent y 0) ⟨s * (q ^ 3 / 64), -(s * p ^ 3), 0⟩ = 0 := by
    rw [hn, V3.normalized_of_ne hne, V3.smul_dot]; simp [V3.dot]; right; ring
  have hact := frameAct_tangent (d := diagonalEigenvalues (gdist boxy 0 y) 1) (det_planar hn1 hnz hrz hnr)
    (h3_planar hn1 hnz hrz) hnr (by rw [diag_eq _ hd0]) hnv
  conv_lhs => rw [← boxy_rotate ⟨s * (q ^ 3 / 64), -(s * p ^ 3), 0⟩]
  rw [modulationProduct_frame hu, boxy_rotate]
  rw [show (diagonalEigenvalues (gdist boxy 0 y) 1).y = 1 + min 1 (1 / gdist boxy 0 y) by rw [diag_eq _ hd0]] at hact
  exact hact

/-- The path: the level line of `x^4 + y^4/64` through a point outside of `boxy`. -/
noncomputable def slide (t : ℝ) : V3 ℝ := ⟨√(√(3 / 4 - Real.exp (-(4 * t)) / 4)), 2 * Real.exp (-t), 0⟩

theorem slide_pos (t : ℝ) (ht : 0 ≤ t) : 1 / 2 ≤ 3 / 4 - Real.exp (-(4 * t)) / 4 := by
  have : Real.exp (-(4 * t)) ≤ 1 := Real.exp_le_one_iff.mpr (by linarith)
  linarith

theorem slide_x (t : ℝ) (ht : 0 ≤ t) : 0 < (slide t).x ∧ (slide t).x ^ 4 = 3 / 4 - Real.exp (-(4 * t)) / 4 := by
  have h := slide_pos t ht
  have h1 : 0 < √(3 / 4 - Real.exp (-(4 * t)) / 4) := Real.sqrt_pos.mpr (by linarith)
  refine ⟨Real.sqrt_pos.mpr h1, ?_⟩
  show √(√(3 / 4 - Real.exp (-(4 * t)) / 4)) ^ 4 = _
  rw [show (4 : ℕ) = 2 * 2 from rfl, pow_mul, Real.sq_sqrt h1.le, Real.sq_sqrt (by linarith)]

theorem slide_y (t : ℝ) : (slide t).y ^ 4 = 16 * Real.exp (-(4 * t)) := by
  show (2 * Real.exp (-t)) ^ 4 = _
  rw [mul_pow, ← Real.exp_nat_mul]
  norm_num

theorem slide_dist (t : ℝ) (ht : 0 ≤ t) : gdist boxy 0 (slide t) = 3 / 4 + 3 / 4 * Real.exp (-(4 * t)) := by
  rw [boxy_dist, (slide_x t ht).2, div_pow, slide_y, show (slide t).z = 0 from rfl]
  ring

/-- The velocity of `slide`. -/
noncomputable def slideVel (t : ℝ) : V3 ℝ :=
  ⟨(slide t).y / (slide t).x ^ 3 * ((slide t).y ^ 3 / 64), -((slide t).y / (slide t).x ^ 3 * (slide t).x ^ 3), 0⟩

theorem slide_vel (t : ℝ) (ht : 0 ≤ t) : HasVelocity slide (slideVel t) t := by
  obtain ⟨hx, hx4⟩ := slide_x t ht
  have h := slide_pos t ht
  refine ⟨?_, ?_, ?_⟩
  · have e1 : HasDerivAt (fun s : ℝ => 3 / 4 - Real.exp (-(4 * s)) / 4) (Real.exp (-(4 * t))) t := by
      have e0 : HasDerivAt (fun s : ℝ => -(4 * s)) (-4) t :=
        (((hasDerivAt_id t).const_mul 4).neg).congr_deriv (by norm_num)
      exact ((e0.exp.div_const 4).const_sub (3 / 4)).congr_deriv (by ring)
    have e2 := (e1.sqrt (by linarith)).sqrt (Real.sqrt_pos.mpr (by linarith)).ne'
    have hs : √(3 / 4 - Real.exp (-(4 * t)) / 4) = (slide t).x ^ 2 := by
      show _ = √(√(3 / 4 - Real.exp (-(4 * t)) / 4)) ^ 2
      rw [Real.sq_sqrt (Real.sqrt_nonneg _)]
    have hs' : √(√(3 / 4 - Real.exp (-(4 * t)) / 4)) = (slide t).x := rfl
    rw [hs', hs] at e2
    refine e2.congr_deriv ?_
    have := slide_y t
    show _ = (slide t).y / (slide t).x ^ 3 * ((slide t).y ^ 3 / 64)
    field_simp
    rw [this]
    ring
  · have e0 : HasDerivAt (fun s : ℝ => -s) (-1) t := (hasDerivAt_id t).neg
    refine (e0.exp.const_mul 2).congr_deriv ?_
    show _ = -((slide t).y / (slide t).x ^ 3 * (slide t).x ^ 3)
    rw [div_mul_cancel₀ _ (by positivity)]
    simp [slide]
  · exact hasDerivAt_const t 0

/-- C38 is false for curvature 2 with different lengths: an agent outside of `boxy` that wants to move (continuously, in
the plane) and follows the modulated velocity at all times enters the obstacle. -/
theorem C38_negation : ∃ (x v u : ℝ → V3 ℝ) (a : ℝ → Agent ℝ), HasCurv boxy 2 2 2 ∧ boxy.base.orientation.norm = 1 ∧
    boxy.base.refPos = some boxy.base.position ∧ AllGt (halfLengths boxy (V3.const 0)) (1 / 10000) ∧
    (∀ t, (a t).state.position = x t ∧ (a t).margin = 0) ∧ (∀ t, InPlane boxy (x t) boxy.base.position) ∧
    ContinuousCurve v ∧ ContinuousCurve x ∧ (∀ t, 0 < t → HasVelocity x (u t) t) ∧
    (∀ t, 0 < t → ∃ M B d, modulationMatrix [] (a t) (.ellipsoid boxy) = .ok (M, B, d) ∧ u t = M.mulVec (v t)) ∧
    1 < gdist boxy 0 (x 0) ∧ ∃ t, 0 ≤ t ∧ gdist boxy 0 (x t) < 1 := by
  have hy : ∀ t, 0 < (slide t).y := fun t => by simp only [slide]; positivity
  refine ⟨slide, fun t => V3.smul (1 / (1 + min 1 (1 / gdist boxy 0 (slide t)))) (slideVel t), slideVel,
    fun t => agentAt (slide t) V3.zero, boxy_curv, boxy_norm, rfl, boxy_long, fun t => ⟨rfl, rfl⟩, fun t => ?_, ?_, ?_,
    fun t ht => slide_vel t ht.le, fun t ht => ?_, ?_, 1, zero_le_one, ?_⟩
  · exact ⟨⟨(slide t).x, (slide t).y, (boxy_apply _).symm⟩, ⟨0, 0, (boxy_apply _).symm⟩⟩
  · have hc : ContinuousOn (fun t => 1 / (1 + min 1 (1 / gdist boxy 0 (slide t)))) (Set.Ici 0) := by
      have h1 : ContinuousOn (fun t : ℝ => 1 / (1 + min 1 (1 / (3 / 4 + 3 / 4 * Real.exp (-(4 * t)))))) (Set.Ici 0) := by
        apply Continuous.continuousOn
        have hpos : ∀ t : ℝ, 0 < 3 / 4 + 3 / 4 * Real.exp (-(4 * t)) := fun t => by positivity
        refine continuous_const.div ?_ ?_
        · refine continuous_const.add (continuous_const.min (continuous_const.div ?_ (fun t => (hpos t).ne')))
          fun_prop
        · intro t
          have : 0 < min 1 (1 / (3 / 4 + 3 / 4 * Real.exp (-(4 * t)))) := lt_min one_pos (by have := hpos t; positivity)
          positivity
      exact h1.congr (fun t ht => by rw [slide_dist t ht])
    have hyc : Continuous fun t => (slide t).y := by simp only [slide]; fun_prop
    have hxc : Continuous fun t => (slide t).x := by simp only [slide]; fun_prop
    have hx3 : ∀ t ∈ Set.Ici (0 : ℝ), (slide t).x ^ 3 ≠ 0 := fun t ht => (pow_pos (slide_x t ht).1 3).ne'
    have hq : ContinuousOn (fun t => (slide t).y / (slide t).x ^ 3) (Set.Ici 0) :=
      hyc.continuousOn.div (hxc.pow 3).continuousOn hx3
    refine ⟨?_, ?_, ?_⟩
    · exact hc.mul (hq.mul ((hyc.pow 3).div_const 64).continuousOn)
    · exact hc.mul (hq.mul (hxc.pow 3).continuousOn).neg
    · exact hc.mul continuousOn_const
  · refine ⟨?_, ?_, continuousOn_const⟩
    · apply Continuous.continuousOn; simp only [slide]; fun_prop
    · apply Continuous.continuousOn; simp only [slide]; fun_prop
  · obtain ⟨M, B, h1, h2⟩ := boxy_tangent (agentAt (slide t) V3.zero) (slide t).x (slide t).y (slide_x t ht.le).1 (hy t) rfl rfl
    refine ⟨M, B, _, h1, ?_⟩
    rw [M3.mulVec_smul]
    have h3 := h2 ((slide t).y / (slide t).x ^ 3)
    have hs : (⟨(slide t).x, (slide t).y, 0⟩ : V3 ℝ) = slide t := rfl
    rw [hs] at h3
    have h4 : M.mulVec (slideVel t) = V3.smul (1 + min 1 (1 / gdist boxy 0 (slide t))) (slideVel t) := h3
    rw [h4]
    have : 0 < 1 + min 1 (1 / gdist boxy 0 (slide t)) := by
      have hd : 0 < gdist boxy 0 (slide t) := by rw [slide_dist t ht.le]; positivity
      have : 0 < min 1 (1 / gdist boxy 0 (slide t)) := lt_min one_pos (by positivity)
      linarith
    ext <;> simp only [V3.smul] <;> field_simp
  · rw [slide_dist 0 le_rfl]; norm_num
  · rw [slide_dist 1 zero_le_one]
    have h1 : Real.exp (-(4 * 1)) < 1 / 3 := by
      have h2 : (3 : ℝ) < Real.exp (4 * 1) := by
        have := Real.add_one_lt_exp (show (4 * 1 : ℝ) ≠ 0 by norm_num)
        linarith
      rw [Real.exp_neg, inv_eq_one_div]
      exact one_div_lt_one_div_of_lt (by norm_num) h2
    linarith

/-- C68 is false for curvature 2 with different lengths: however small the bound on the steps, some step from outside of
`boxy` ends inside it. -/
theorem C68_negation_curvature (ε : ℝ) (hε : 0 < ε) : ∃ (x v : V3 ℝ) (M B : M3 ℝ) (t d : ℝ),
    InPlane boxy x boxy.base.position ∧ boxy.base.refPos = some boxy.base.position ∧ 0 ≤ t ∧ t * V3.norm v < ε ∧
    modulationMatrix [] (agentAt x v) (.ellipsoid boxy) = .ok (M, B, d) ∧
    1 < gdist boxy 0 x ∧ gdist boxy 0 (x + V3.smul t (M.mulVec v)) < 1 := by
  obtain ⟨τ, h0, h1, h2⟩ : ∃ τ : ℝ, 0 < τ ∧ τ ≤ 1 / 100 ∧ 9 * τ < ε :=
    ⟨min (1 / 100) (ε / 10), lt_min (by norm_num) (by positivity), min_le_left _ _, by
      have := min_le_right (1 / 100 : ℝ) (ε / 10); linarith⟩
  obtain ⟨s, hs0, hs⟩ : ∃ s : ℝ, 0 < s ∧ s ^ 4 = 8 + 4 / 5 * τ := by
    have hp : 0 < √(8 + 4 / 5 * τ) := Real.sqrt_pos.mpr (by linarith)
    exact ⟨√√(8 + 4 / 5 * τ), Real.sqrt_pos.mpr hp, by
      rw [show √√(8 + 4 / 5 * τ) ^ 4 = (√√(8 + 4 / 5 * τ) ^ 2) ^ 2 by ring, Real.sq_sqrt hp.le,
        Real.sq_sqrt (by linarith)]⟩
  have hs1 : 8 / 5 < s := by
    by_contra hc
    have : s ^ 4 ≤ (8 / 5) ^ 4 := pow_le_pow_left₀ hs0.le (not_lt.mp hc) 4
    norm_num at this
    linarith
  have hs2 : s < 17 / 10 := by
    by_contra hc
    have : (17 / 10 : ℝ) ^ 4 ≤ s ^ 4 := pow_le_pow_left₀ (by norm_num) (not_lt.mp hc) 4
    norm_num at this
    linarith
  obtain ⟨M, B, hm, hM⟩ := boxy_tangent (agentAt ⟨s / 2, s, 0⟩ ⟨1, -8, 0⟩) (s / 2) s (by positivity) hs0 rfl rfl
  have hd : gdist boxy 0 ⟨s / 2, s, 0⟩ = 1 + τ / 10 := by
    rw [boxy_dist]
    show (s / 2) ^ 4 + (s / 2) ^ 4 + 0 ^ 4 = _
    linear_combination hs / 8
  have hv := hM (64 / s ^ 3)
  have e1 : (⟨64 / s ^ 3 * (s ^ 3 / 64), -(64 / s ^ 3 * (s / 2) ^ 3), 0⟩ : V3 ℝ) = ⟨1, -8, 0⟩ := by
    ext
    · show 64 / s ^ 3 * (s ^ 3 / 64) = 1
      field_simp
    · show -(64 / s ^ 3 * (s / 2) ^ 3) = -8
      field_simp
      norm_num
    · rfl
  rw [e1] at hv
  obtain ⟨L, hL, hL1, hv⟩ : ∃ L : ℝ, 1 ≤ L ∧ 0 < L ∧ M.mulVec ⟨1, -8, 0⟩ = V3.smul L ⟨1, -8, 0⟩ := by
    refine ⟨_, ?_, ?_, hv⟩
    all_goals
      have : 0 < min 1 (1 / gdist boxy 0 ⟨s / 2, s, 0⟩) := lt_min one_pos (by rw [hd]; positivity)
      linarith
  refine ⟨⟨s / 2, s, 0⟩, ⟨1, -8, 0⟩, M, B, τ / L, _, ⟨⟨s / 2, s, (boxy_apply _).symm⟩, ⟨0, 0, (boxy_apply _).symm⟩⟩, rfl,
    by positivity, ?_, hm, by rw [hd]; linarith, ?_⟩
  · have hn : V3.norm (⟨1, -8, 0⟩ : V3 ℝ) ≤ 9 := by
      simp only [V3.norm, V3.sqNorm, V3.dot, sqrt_real]
      rw [Real.sqrt_le_left (by norm_num)]
      norm_num
    have : τ / L ≤ τ := div_le_self h0.le hL
    have hn0 := V3.norm_nonneg (⟨1, -8, 0⟩ : V3 ℝ)
    nlinarith
  · rw [hv, boxy_dist]
    have ex : (⟨s / 2, s, 0⟩ + V3.smul (τ / L) (V3.smul L ⟨1, -8, 0⟩) : V3 ℝ) = ⟨s / 2 + τ, s - 8 * τ, 0⟩ := by
      ext <;> simp only [V3.smul, V3.add_x, V3.add_y, V3.add_z] <;> field_simp <;> ring
    rw [ex]
    show (s / 2 + τ) ^ 4 + ((s - 8 * τ) / 2) ^ 4 + 0 ^ 4 < 1
    have e2 : (s / 2 + τ) ^ 4 + ((s - 8 * τ) / 2) ^ 4 + 0 ^ 4 =
        s ^ 4 / 8 - 3 / 2 * (s ^ 3 * τ) + 51 / 2 * (s ^ 2 * τ ^ 2) - 126 * (s * τ ^ 3) + 257 * τ ^ 4 := by ring
    rw [e2, hs]
    have g1 : 4 * τ ≤ s ^ 3 * τ := by
      have : (8 / 5 : ℝ) ^ 3 ≤ s ^ 3 := pow_le_pow_left₀ (by norm_num) hs1.le 3
      norm_num at this
      nlinarith
    have g2 : s ^ 2 * τ ^ 2 ≤ 3 * τ / 100 := by
      have : s ^ 2 ≤ (17 / 10 : ℝ) ^ 2 := pow_le_pow_left₀ hs0.le hs2.le 2
      norm_num at this
      nlinarith [mul_pos h0 h0]
    have g3 : 0 ≤ s * τ ^ 3 := by positivity
    have g4 : τ ^ 4 ≤ τ / 100 := by
      have : τ ^ 3 ≤ 1 / 100 := by
        calc τ ^ 3 ≤ (1 / 100) ^ 3 := pow_le_pow_left₀ h0.le h1 3
          _ ≤ 1 / 100 := by norm_num
      nlinarith
    linarith

/-- Non-vacuity of `C38_output_partial`: straight at the centre of the unit ball from twice its radius, with a desired
speed that stays above 1/2; the distance tends to 1 but never reaches it. -/
example : ∃ (x u : ℝ → V3 ℝ) (a : ℝ → Agent ℝ),
    (∀ t, (a t).state.position = x t ∧ (a t).margin = 0 ∧ (a t).state.linearVelocity.z = 0) ∧
    gdist (ball V3.zero) 0 (x 0) = 4 ∧ (∀ t, InPlane (ball V3.zero) (x t) V3.zero) ∧
    (ContinuousCurve fun t => (a t).state.linearVelocity) ∧ ContinuousCurve x ∧
    (∀ t, 0 < t → HasVelocity x (u t) t) ∧
    (∀ t, modulateVelocity [.ellipsoid (ball V3.zero)] (a t) ⟨[("o", 0)], false, [0]⟩ false false false 1 1 =
      .ok ([.ellipsoid (ball V3.zero)], u t)) ∧
    (∀ t M B d, modulationMatrix [.ellipsoid (ball V3.zero)] (a t) (.ellipsoid (ball V3.zero)) = .ok (M, B, d) →
      angle (M.mulVec (a t).state.linearVelocity) (a t).state.linearVelocity = 0) ∧ (∀ t, (u t).x < 0) := by
  let r : ℝ → ℝ := fun t => 1 + Real.exp (-t)
  have hr : ∀ t, 1 < r t := fun t => by have := Real.exp_pos (-t); show 1 < 1 + _; linarith
  have hrd : ∀ t, HasDerivAt r (-Real.exp (-t)) t := by
    intro t
    have h1 : HasDerivAt (fun s : ℝ => Real.exp (-s)) (-Real.exp (-t)) t := by
      simpa using (hasDerivAt_id t).neg.exp
    exact h1.const_add 1
  have hrc : Continuous r := continuous_iff_continuousAt.mpr fun t => (hrd t).continuousAt
  let a : ℝ → Agent ℝ := fun t => agentAt ⟨r t, 0, 0⟩ ⟨-((r t) ^ 2 / (r t + 1)), 0, 0⟩
  have key : ∀ t M B d, modulationMatrix [.ellipsoid (ball V3.zero)] (a t) (.ellipsoid (ball V3.zero)) = .ok (M, B, d) →
      M.mulVec (a t).state.linearVelocity = ⟨-Real.exp (-t), 0, 0⟩ ∧
      angle (M.mulVec (a t).state.linearVelocity) (a t).state.linearVelocity = 0 := by
    intro t M B d hm
    have h1 := hr t
    obtain ⟨M', B', hm', hM⟩ := ball_axis [.ellipsoid (ball V3.zero)] (a t) (r t) rfl rfl h1
    rw [hm] at hm'
    cases hm'
    have e : M.mulVec (a t).state.linearVelocity = ⟨-Real.exp (-t), 0, 0⟩ := by
      show M.mulVec ⟨-((r t) ^ 2 / (r t + 1)), 0, 0⟩ = _
      rw [hM]
      have e2 : Real.exp (-t) = r t - 1 := by simp [r]
      rw [e2]
      ext <;> simp only []
      field_simp
      ring
    refine ⟨e, ?_⟩
    rw [e]
    have hp := Real.exp_pos (-t)
    have hq : 0 < (r t) ^ 2 / (r t + 1) := by positivity
    show angle ⟨-Real.exp (-t), 0, 0⟩ ⟨-((r t) ^ 2 / (r t + 1)), 0, 0⟩ = 0
    have hn : ∀ c : ℝ, 0 < c → V3.norm (⟨-c, 0, 0⟩ : V3 ℝ) = c := by
      intro c hc
      show Real.sqrt (-c * -c + 0 * 0 + 0 * 0) = c
      rw [show -c * -c + 0 * 0 + 0 * 0 = c ^ 2 by ring, Real.sqrt_sq hc.le]
    unfold angle
    rw [hn _ hp, hn _ hq, show V3.dot (⟨-Real.exp (-t), 0, 0⟩ : V3 ℝ) ⟨-((r t) ^ 2 / (r t + 1)), 0, 0⟩ =
      Real.exp (-t) * ((r t) ^ 2 / (r t + 1)) by simp only [V3.dot]; ring, div_self (by positivity), Real.arccos_one]
  refine ⟨fun t => ⟨r t, 0, 0⟩, fun t => ⟨-Real.exp (-t), 0, 0⟩, a, fun t => ⟨rfl, rfl, rfl⟩, ?_, ?_, ?_, ?_, ?_, ?_,
    fun t M B d h => (key t M B d h).2, ?_⟩
  · rw [ball_dist]; simp [r]; norm_num
  · exact fun t => ball_plane _ _
  · refine ⟨?_, continuousOn_const, continuousOn_const⟩
    apply Continuous.continuousOn
    refine Continuous.neg (Continuous.div (hrc.pow 2) (hrc.add continuous_const) fun t => ?_)
    have := hr t; positivity
  · exact ⟨hrc.continuousOn, continuousOn_const, continuousOn_const⟩
  · intro t _
    exact ⟨hrd t, hasDerivAt_const _ _, hasDerivAt_const _ _⟩
  · intro t
    have hm := matrix_ellipsoid [.ellipsoid (ball V3.zero)] (a t) (ball V3.zero) (ref := V3.zero) rfl
    obtain ⟨out, h1, h2, -⟩ := C39_single [.ellipsoid (ball V3.zero)] (a t) ⟨[("o", 0)], false, [0]⟩ false 1 1 0
      (.ellipsoid (ball V3.zero)) _ _ _ rfl rfl ⟨rfl, rfl⟩ (ball_smooth _).unit hm rfl (fun h => by cases h)
    rw [h1, h2 (.inl (key t _ _ _ hm).2), (key t _ _ _ hm).1]
  · intro t
    have := Real.exp_pos (-t)
    show -Real.exp (-t) < 0
    linarith

end DOA.Props
