import Mathlib.MeasureTheory.Integral.IntervalIntegral.FundThmCalculus
import Verif.Props.Curvature
import Verif.Props.Convergence

/-!
# C38: the small-angle branch of `modulate_velocity` lets an agent in

Around a ball whose normals are exact, the velocity `M v` keeps the agent outside (`C38_never_enters_partial`). The
velocity that `modulate_velocity` returns does not: for deflections below 1E-4 it mixes in a positive multiple of the
desired velocity itself (Combine), and an agent whose desired velocity grazes the ball, slightly inward, spirals through
the surface.
-/

set_option linter.unusedSectionVars false
set_option linter.unusedSimpArgs false

namespace DOA.Props
open DOA DOA.Spec DOA.Ellipsoid DOA.Modulation

/-- The output of `modulate_velocity` near one static obstacle, inside the small-angle branch. -/
theorem small_form (h : Heap ℝ) (a : Agent ℝ) (E : Env) (critical power : ℝ) (p : Ptr)
    (o : Obj ℝ) (M B : M3 ℝ) (d : ℝ) (hl : E.list = [p]) (hp : h[p]? = some o) (hst : Static o)
    (hq : o.base.orientation.norm = 1) (hm : modulationMatrix h a o = .ok (M, B, d)) {v : V3 ℝ}
    (hav : a.state.linearVelocity = v) (hv : v.z = 0) (hv0 : v ≠ V3.zero) (hu0 : M.mulVec v ≠ V3.zero)
    (h0 : 0 < angle (M.mulVec v) v) (h1 : angle (M.mulVec v) v < 1 / 10000) :
    modulateVelocity h a E false false false critical power = .ok (h,
      V3.smul (angle (M.mulVec v) v / Real.sin (angle (M.mulVec v) v)) (M.mulVec v) +
      V3.smul (V3.norm (M.mulVec v) / V3.norm v *
        (1 - angle (M.mulVec v) v / Real.sin (angle (M.mulVec v) v) * Real.cos (angle (M.mulVec v) v))) v) := by
  have hits : E.list.mapM (itemOf h a) = .ok [⟨o.base, M, B, d⟩] := by
    rw [hl, mapM_ok]; exact .cons (itemOf_ok hp hm) .nil
  have hmod := modulate_plain h a E false critical power _ (by rw [hl]; simp) (by intro h; cases h) hits
  rw [combine_eq] at hmod
  have hov : obsVel a.state.position [⟨o.base, M, B, d⟩] critical power = V3.zero := by
    unfold obsVel
    apply lsum_zero
    intro i hi
    simp only [List.mem_singleton] at hi
    subst hi
    exact obstacleVelocity_static hst.1 hst.2 _ _ _
  have hpairs : pairs [⟨o.base, M, B, d⟩] critical power = [(M, 1)] := by
    simp [pairs, weightOf_single]
  rw [hov, hpairs, V3.sub_zero', V3.add_zero', hav] at hmod
  obtain ⟨-, -, h3⟩ := core_single hv (M := M) fun c hc hne => matrix_not_opposite hq hm _ c hc hne
  have hnu := V3.norm_pos hu0
  have hnv := V3.norm_pos hv0
  have hs : 0 < Real.sin (angle (M.mulVec v) v) :=
    Real.sin_pos_of_pos_of_lt_pi h0 (by linarith [Real.two_le_pi])
  rw [hmod, h3 h0 h1, V3.normalized_of_ne hv0, V3.normalized_of_ne hu0]
  congr 2
  ext <;> simp only [V3.smul, V3.add_x, V3.add_y, V3.add_z, V3.sub_x, V3.sub_y, V3.sub_z] <;> field_simp <;> ring

namespace Graze

/-! ### the velocities in the frame of the radius -/

/-- the inward part of the desired velocity -/
noncomputable def ε : ℝ := 1 / 20000

/-- eigenvalue along the radius at distance `r` of the centre -/
noncomputable def ra (r : ℝ) : ℝ := max 0 (1 - 1 / r ^ 2)
/-- eigenvalue across the radius -/
noncomputable def rb (r : ℝ) : ℝ := 1 + min 1 (1 / r ^ 2)
/-- length of `M v`, for `v` of length `√(ε² + 1)` -/
noncomputable def nu (r : ℝ) : ℝ := √((ra r * ε) ^ 2 + rb r ^ 2)
noncomputable def nv : ℝ := √(ε ^ 2 + 1)
/-- the deflection -/
noncomputable def th (r : ℝ) : ℝ := Real.arccos ((ra r * ε ^ 2 + rb r) / (nu r * nv))
noncomputable def al (r : ℝ) : ℝ := th r / Real.sin (th r)
noncomputable def be (r : ℝ) : ℝ := nu r / nv * (1 - al r * Real.cos (th r))
/-- the returned velocity: inward and across -/
noncomputable def inw (r : ℝ) : ℝ := (al r * ra r + be r) * ε
noncomputable def acr (r : ℝ) : ℝ := al r * rb r + be r

theorem ra_nonneg (r : ℝ) : 0 ≤ ra r := le_max_left _ _

theorem rb_pos {r : ℝ} (hr : 0 < r) : 1 < rb r := by
  have : 0 < min 1 (1 / r ^ 2) := lt_min one_pos (by positivity)
  unfold rb; linarith

/-- the difference of the eigenvalues -/
theorem ra_lt {r : ℝ} (hr : 0 < r) : ra r < rb r ∧ rb r - ra r ≤ rb r := by
  refine ⟨?_, by linarith [ra_nonneg r]⟩
  have h1 := rb_pos hr
  refine max_lt (by linarith) ?_
  have : 0 < 1 / r ^ 2 := by positivity
  linarith

theorem nv_pos : 0 < nv := by unfold nv; positivity
theorem nu_pos {r : ℝ} (hr : 0 < r) : 0 < nu r := by
  have := rb_pos hr
  unfold nu
  exact Real.sqrt_pos.mpr (by positivity)

theorem sq_nu (r : ℝ) : nu r ^ 2 = (ra r * ε) ^ 2 + rb r ^ 2 := Real.sq_sqrt (by positivity)
theorem sq_nv : nv ^ 2 = ε ^ 2 + 1 := Real.sq_sqrt (by positivity)

/-- sine and cosine of the deflection -/
theorem cos_th {r : ℝ} (hr : 0 < r) : Real.cos (th r) = (ra r * ε ^ 2 + rb r) / (nu r * nv) ∧
    Real.sin (th r) = ε * (rb r - ra r) / (nu r * nv) := by
  have h1 := nu_pos hr
  have h2 := nv_pos
  have h3 := rb_pos hr
  have h4 := ra_nonneg r
  have hsq : (nu r * nv) ^ 2 = (ra r * ε ^ 2 + rb r) ^ 2 + (ε * (rb r - ra r)) ^ 2 := by
    rw [mul_pow, sq_nu, sq_nv]; ring
  have hε : 0 < ε := by norm_num [ε]
  have hle : ra r * ε ^ 2 + rb r ≤ nu r * nv := by
    apply le_of_sq_le_sq _ (by positivity)
    rw [hsq]; nlinarith [sq_nonneg (ε * (rb r - ra r))]
  have hc : Real.cos (th r) = (ra r * ε ^ 2 + rb r) / (nu r * nv) := by
    unfold th
    rw [Real.cos_arccos]
    · have : 0 ≤ (ra r * ε ^ 2 + rb r) / (nu r * nv) := by positivity
      linarith
    · rw [div_le_one (by positivity)]; exact hle
  refine ⟨hc, ?_⟩
  have hs0 : 0 ≤ Real.sin (th r) := Real.sin_nonneg_of_nonneg_of_le_pi (Real.arccos_nonneg _) (Real.arccos_le_pi _)
  have h5 := (ra_lt hr).1
  have h6 : 0 ≤ ε * (rb r - ra r) / (nu r * nv) := by
    have : 0 < rb r - ra r := by linarith
    positivity
  rw [← Real.sqrt_sq hs0, ← Real.sqrt_sq h6]
  congr 1
  have := Real.sin_sq_add_cos_sq (th r)
  rw [hc] at this
  have e1 : Real.sin (th r) ^ 2 = 1 - ((ra r * ε ^ 2 + rb r) / (nu r * nv)) ^ 2 := by linarith
  rw [e1, div_pow, div_pow, eq_div_iff (by positivity), sub_mul, div_mul_cancel₀ _ (by positivity), hsq]
  ring

/-- the deflection is in the small-angle branch -/
theorem th_small {r : ℝ} (hr : 0 < r) : 0 < th r ∧ th r < 1 / 10000 := by
  obtain ⟨hc, hs⟩ := cos_th hr
  have h1 := nu_pos hr
  have h2 := nv_pos
  have h3 := rb_pos hr
  have h4 := ra_nonneg r
  obtain ⟨h5, h6⟩ := ra_lt hr
  have hε : 0 < ε := by norm_num [ε]
  have h7 : 0 < rb r - ra r := by linarith
  have hs0 : 0 < Real.sin (th r) := by rw [hs]; positivity
  have hc0 : 0 < Real.cos (th r) := by rw [hc]; positivity
  have ht0 : 0 ≤ th r := Real.arccos_nonneg _
  have ht1 : 0 < th r := lt_of_le_of_ne ht0 (by intro h; rw [← h, Real.sin_zero] at hs0; exact lt_irrefl _ hs0)
  have ht2 : th r ≤ Real.pi / 2 := by
    by_contra hcon
    have := Real.cos_neg_of_pi_div_two_lt_of_lt (not_le.mp hcon)
      (by have := Real.arccos_le_pi ((ra r * ε ^ 2 + rb r) / (nu r * nv)); have h8 := Real.pi_pos; unfold th; linarith)
    linarith
  refine ⟨ht1, ?_⟩
  have hsε : Real.sin (th r) ≤ ε := by
    rw [hs, div_le_iff₀ (by positivity)]
    have a1 : rb r ≤ nu r := by
      apply le_of_sq_le_sq _ h1.le
      rw [sq_nu]; nlinarith [sq_nonneg (ra r * ε)]
    have a2 : 1 ≤ nv := by
      apply le_of_sq_le_sq _ h2.le
      rw [sq_nv]; nlinarith
    have a3 : rb r - ra r ≤ nu r * nv := by nlinarith
    exact mul_le_mul_of_nonneg_left a3 hε.le
  have h9 := Real.mul_le_sin ht0 ht2
  have h10 := Real.pi_lt_d2
  have h11 := Real.pi_pos
  have : th r ≤ Real.pi / 2 * ε := by
    have := mul_le_mul_of_nonneg_left (h9.trans hsε) (by positivity : 0 ≤ Real.pi / 2)
    have e : Real.pi / 2 * (2 / Real.pi * th r) = th r := by field_simp
    linarith
  have : Real.pi / 2 * ε < 1 / 10000 := by unfold ε; linarith
  linarith

theorem al_pos {r : ℝ} (hr : 0 < r) : 0 < al r := by
  obtain ⟨h1, h2⟩ := th_small hr
  have := Real.sin_pos_of_pos_of_lt_pi h1 (by linarith [Real.two_le_pi])
  unfold al; positivity

theorem be_pos {r : ℝ} (hr : 0 < r) : 0 < be r := by
  obtain ⟨h1, h2⟩ := th_small hr
  have hs := Real.sin_pos_of_pos_of_lt_pi h1 (by linarith [Real.two_le_pi])
  have hc : 0 < Real.cos (th r) := Real.cos_pos_of_mem_Ioo ⟨by linarith [Real.two_le_pi], by linarith [Real.two_le_pi]⟩
  have htan := Real.lt_tan h1 (by linarith [Real.two_le_pi])
  rw [Real.tan_eq_sin_div_cos, lt_div_iff₀ hc] at htan
  have h3 := nu_pos hr
  have h4 := nv_pos
  unfold be al
  have : 0 < 1 - th r / Real.sin (th r) * Real.cos (th r) := by
    rw [div_mul_eq_mul_div, sub_pos, div_lt_one hs]; exact htan
  positivity

theorem inw_pos {r : ℝ} (hr : 0 < r) : 0 < inw r := by
  have h1 := al_pos hr
  have h2 := be_pos hr
  have h3 := ra_nonneg r
  have hε : 0 < ε := by norm_num [ε]
  unfold inw; positivity

/-! ### the velocity that is returned -/

theorem ball_disc : Disc (ball V3.zero) 0 1 := by
  refine ⟨ball_smooth _, ?_, ?_, ?_, rfl⟩
  · exact ⟨rfl, rfl, rfl, fun v hv => by cases hv; rfl, rfl, rfl, rfl⟩
  · simp [halfLengths, ball, Ellipsoid.ofBase, V3.const, V3.zero, Base.mkRef]
  · simp [halfLengths, ball, Ellipsoid.ofBase, V3.const, V3.zero, Base.mkRef]

/-- the modulation matrix of the unit ball at distance `r` in direction `(c, s)` -/
theorem ball_matrix (h : Heap ℝ) (a : Agent ℝ) (r c s : ℝ) (hr : 0 < r) (hcs : c ^ 2 + s ^ 2 = 1)
    (hm : a.margin = 0) (hx : a.state.position = ⟨r * c, r * s, 0⟩) :
    ∃ M B d, modulationMatrix h a (.ellipsoid (ball V3.zero)) = .ok (M, B, d) ∧
      ∀ p q : ℝ, M.mulVec ⟨p * c - q * s, p * s + q * c, 0⟩ =
        ⟨ra r * p * c - rb r * q * s, ra r * p * s + rb r * q * c, 0⟩ := by
  have hd : gdist (ball V3.zero) a.margin a.state.position = r ^ 2 := by
    rw [hm, hx, ball_dist]
    show (r * c) ^ 2 + (r * s) ^ 2 + 0 ^ 2 = r ^ 2
    linear_combination r ^ 2 * hcs
  have hxz : a.state.position.z = 0 := by rw [hx]
  have hdisc : Disc (ball V3.zero) a.margin 1 := by rw [hm]; exact ball_disc
  obtain ⟨M, B, n, k, h1, h2, h3, h4, h5, h6⟩ := matrix_form h a (ball V3.zero) 1 hdisc.smooth V3.zero rfl
    (by
      have : gdist (ball V3.zero) a.margin V3.zero = 0 := gdist_centre hdisc.smooth
      rw [this, hd]; positivity) (Or.inl (hdisc.inPlane hxz))
  refine ⟨M, B, _, h1, fun p q => ?_⟩
  have hsl : ∀ u : V3 ℝ, u.z = 0 → k * V3.dot n u = 2 * (r * c * u.x + r * s * u.y) := by
    intro u hu
    have := (h4 u).unique (hdisc.slope hxz hu)
    have e : (ball V3.zero).base.position = (V3.zero : V3 ℝ) := rfl
    rw [this, hx, e]
    simp [V3.zero]
  rw [h6, hd, hx]
  have hx0 : (⟨r * c, r * s, 0⟩ : V3 ℝ) - V3.zero = ⟨r * c, r * s, 0⟩ := by ext <;> simp [V3.zero]
  rw [hx, hx0] at h5
  rw [hx0]
  have a1 := hsl ⟨p * c - q * s, p * s + q * c, 0⟩ rfl
  have a2 := hsl ⟨r * c, r * s, 0⟩ rfl
  simp only at a1 a2
  have e1 : V3.dot n ⟨p * c - q * s, p * s + q * c, 0⟩ / V3.dot n ⟨r * c, r * s, 0⟩ = p / r := by
    rw [div_eq_div_iff h5.ne' hr.ne']
    apply mul_left_cancel₀ h3.ne'
    linear_combination r * a1 - p * a2
  rw [e1]
  ext
  · simp only [V3.smul, V3.sub_x, ra, rb]
    field_simp
    ring
  · simp only [V3.smul, V3.sub_y, ra, rb]
    field_simp
    ring
  · simp [V3.smul]

/-- The velocity that `modulate_velocity` returns for a grazing velocity. -/
theorem output (r c s q : ℝ) (hr : 0 < r) (hq : 0 < q) (hcs : c ^ 2 + s ^ 2 = 1) :
    modulateVelocity [.ellipsoid (ball V3.zero)]
      (agentAt ⟨r * c, r * s, 0⟩ ⟨-(q * ε) * c - q * s, -(q * ε) * s + q * c, 0⟩) (envOf [0]) false false false 1 2 =
    .ok ([.ellipsoid (ball V3.zero)], ⟨-(q * inw r) * c - q * acr r * s, -(q * inw r) * s + q * acr r * c, 0⟩) := by
  set v : V3 ℝ := ⟨-(q * ε) * c - q * s, -(q * ε) * s + q * c, 0⟩ with hv
  set a := agentAt ⟨r * c, r * s, 0⟩ v with ha
  obtain ⟨M, B, d, hm, hM⟩ := ball_matrix [.ellipsoid (ball V3.zero)] a r c s hr hcs rfl rfl
  have hu := hM (-(q * ε)) q
  rw [← hv] at hu
  have hnv : V3.norm v = q * nv := by
    have e : V3.sqNorm v = (q * nv) ^ 2 := by
      rw [mul_pow, sq_nv]
      simp only [V3.sqNorm, V3.dot, hv]
      linear_combination (q ^ 2 * ε ^ 2 + q ^ 2) * hcs
    have := nv_pos
    rw [V3.norm, e, sqrt_real, Real.sqrt_sq (by positivity)]
  have hnu : V3.norm (M.mulVec v) = q * nu r := by
    have e : V3.sqNorm (M.mulVec v) = (q * nu r) ^ 2 := by
      rw [mul_pow, sq_nu, hu]
      simp only [V3.sqNorm, V3.dot]
      linear_combination (q ^ 2 * (ra r * ε) ^ 2 + q ^ 2 * rb r ^ 2) * hcs
    have := nu_pos hr
    rw [V3.norm, e, sqrt_real, Real.sqrt_sq (by positivity)]
  have hang : angle (M.mulVec v) v = th r := by
    unfold angle th
    congr 1
    rw [hnv, hnu]
    have e : V3.dot (M.mulVec v) v = q ^ 2 * (ra r * ε ^ 2 + rb r) := by
      rw [hu]
      simp only [V3.dot, hv]
      linear_combination (q ^ 2 * (ra r * ε ^ 2 + rb r)) * hcs
    have h1 := nu_pos hr
    have h2 := nv_pos
    rw [e]
    field_simp
  have hnu0 := nu_pos hr
  have hnv0 := nv_pos
  have hv0 : v ≠ V3.zero := by
    intro h0; rw [h0, V3.norm_eq_zero.mpr rfl] at hnv
    have : 0 < q * nv := by positivity
    linarith
  have hu0 : M.mulVec v ≠ V3.zero := by
    intro h0; rw [h0, V3.norm_eq_zero.mpr rfl] at hnu
    have : 0 < q * nu r := by positivity
    linarith
  obtain ⟨t0, t1⟩ := th_small hr
  rw [small_form [.ellipsoid (ball V3.zero)] a (envOf [0]) 1 2 0 (.ellipsoid (ball V3.zero)) M B d rfl rfl ⟨rfl, rfl⟩
    (ball_smooth V3.zero).unit hm (v := v) rfl rfl hv0 hu0 (by rw [hang]; exact t0) (by rw [hang]; exact t1), hang, hnu, hnv, hu]
  have e3 : q * nu r / (q * nv) = nu r / nv := by field_simp
  rw [e3]
  congr 2
  ext
  · simp only [V3.smul, V3.add_x, hv, inw, acr, be, al]; ring
  · simp only [V3.smul, V3.add_y, hv, inw, acr, be, al]; ring
  · simp [V3.smul, hv]

/-! ### the spiral -/

/-- distance of the centre at time `t` -/
noncomputable def rad (t : ℝ) : ℝ := 11 / 10 - Real.arctan t / 10

theorem rad_pos (t : ℝ) : 0 < rad t := by
  have h1 := Real.arctan_lt_pi_div_two t
  have h2 := Real.pi_lt_d2
  unfold rad; linarith

theorem rad_deriv (t : ℝ) : HasDerivAt rad (-(1 / (1 + t ^ 2) / 10)) t :=
  ((Real.hasDerivAt_arctan t).div_const 10).const_sub _

theorem rad_cont : Continuous rad := by unfold rad; fun_prop

/-- speed across the radius that makes the agent sink at the rate of `rad` -/
noncomputable def speed (t : ℝ) : ℝ := 1 / (1 + t ^ 2) / 10 / inw (rad t)

theorem speed_pos (t : ℝ) : 0 < speed t := by
  have := inw_pos (rad_pos t)
  unfold speed; positivity

theorem ra_cont : Continuous fun t => ra (rad t) := by
  unfold ra
  exact continuous_const.max (continuous_const.sub (continuous_const.div (rad_cont.pow 2)
    fun t => (pow_pos (rad_pos t) 2).ne'))

theorem rb_cont : Continuous fun t => rb (rad t) := by
  unfold rb
  exact continuous_const.add (continuous_const.min (continuous_const.div (rad_cont.pow 2)
    fun t => (pow_pos (rad_pos t) 2).ne'))

theorem nu_cont : Continuous fun t => nu (rad t) := by
  have h1 := ra_cont
  have h2 := rb_cont
  unfold nu
  exact Continuous.sqrt (((h1.mul continuous_const).pow 2).add (h2.pow 2))

theorem th_cont : Continuous fun t => th (rad t) := by
  unfold th
  exact Real.continuous_arccos.comp (((ra_cont.mul continuous_const).add rb_cont).div (nu_cont.mul continuous_const)
    fun t => (mul_pos (nu_pos (rad_pos t)) nv_pos).ne')

theorem al_cont : Continuous fun t => al (rad t) := by
  unfold al
  refine th_cont.div (Real.continuous_sin.comp th_cont) fun t => ?_
  obtain ⟨h1, h2⟩ := th_small (rad_pos t)
  exact (Real.sin_pos_of_pos_of_lt_pi h1 (by linarith [Real.two_le_pi])).ne'

theorem be_cont : Continuous fun t => be (rad t) := by
  unfold be
  exact (nu_cont.div_const _).mul (continuous_const.sub (al_cont.mul (Real.continuous_cos.comp th_cont)))

theorem inw_cont : Continuous fun t => inw (rad t) := by
  unfold inw
  exact ((al_cont.mul ra_cont).add be_cont).mul continuous_const

theorem acr_cont : Continuous fun t => acr (rad t) := by
  unfold acr
  exact (al_cont.mul rb_cont).add be_cont

theorem speed_cont : Continuous speed := by
  unfold speed
  refine Continuous.div ((continuous_const.div (by fun_prop) fun t => ?_).div_const _) inw_cont
    fun t => (inw_pos (rad_pos t)).ne'
  positivity

/-- angular velocity -/
noncomputable def turn (t : ℝ) : ℝ := speed t * acr (rad t) / rad t

theorem turn_cont : Continuous turn := (speed_cont.mul acr_cont).div rad_cont fun t => (rad_pos t).ne'

/-- direction of the agent at time `t` -/
noncomputable def dir (t : ℝ) : ℝ := ∫ s in (0 : ℝ)..t, turn s

theorem dir_deriv (t : ℝ) : HasDerivAt dir (turn t) t := (turn_cont.integral_hasStrictDerivAt 0 t).hasDerivAt

theorem dir_cont : Continuous dir := continuous_iff_continuousAt.mpr fun t => (dir_deriv t).continuousAt

noncomputable def path (t : ℝ) : V3 ℝ := ⟨rad t * Real.cos (dir t), rad t * Real.sin (dir t), 0⟩

/-- the desired velocity -/
noncomputable def wish (t : ℝ) : V3 ℝ :=
  ⟨-(speed t * ε) * Real.cos (dir t) - speed t * Real.sin (dir t),
    -(speed t * ε) * Real.sin (dir t) + speed t * Real.cos (dir t), 0⟩

/-- the velocity -/
noncomputable def vel (t : ℝ) : V3 ℝ :=
  ⟨-(speed t * inw (rad t)) * Real.cos (dir t) - speed t * acr (rad t) * Real.sin (dir t),
    -(speed t * inw (rad t)) * Real.sin (dir t) + speed t * acr (rad t) * Real.cos (dir t), 0⟩

theorem path_vel (t : ℝ) : HasVelocity path (vel t) t := by
  have hi := (inw_pos (rad_pos t)).ne'
  have hr := (rad_pos t).ne'
  have e1 : speed t * inw (rad t) = 1 / (1 + t ^ 2) / 10 := by unfold speed; field_simp
  have e2 : rad t * turn t = speed t * acr (rad t) := by unfold turn; field_simp
  refine ⟨?_, ?_, hasDerivAt_const t 0⟩
  · refine ((rad_deriv t).mul (dir_deriv t).cos).congr_deriv ?_
    simp only [vel]
    rw [e1, ← e2]
    ring
  · refine ((rad_deriv t).mul (dir_deriv t).sin).congr_deriv ?_
    simp only [vel]
    rw [e1, ← e2]
    ring

end Graze

open Graze in
/-- C38 is false for the velocity that `modulate_velocity` returns, even around a ball, where all normals are exact: an
agent outside of the static unit ball, with a continuous desired velocity in the plane, that follows the returned
velocity at all times enters the ball. -/
theorem C38_negation_output : ∃ (h : Heap ℝ) (env : Env) (x u : ℝ → V3 ℝ) (a : ℝ → Agent ℝ),
    env.list = [0] ∧ h[0]? = some (.ellipsoid (ball V3.zero)) ∧ Smooth (ball V3.zero) 0 1 ∧
    Static (.ellipsoid (ball V3.zero)) ∧ CentredBall (ball V3.zero) 0 V3.zero ∧
    (∀ t, (a t).state.position = x t ∧ (a t).margin = 0) ∧ (∀ t, InPlane (ball V3.zero) (x t) V3.zero) ∧
    ContinuousCurve (fun t => (a t).state.linearVelocity) ∧ ContinuousCurve x ∧ (∀ t, HasVelocity x (u t) t) ∧
    (∀ t, modulateVelocity h (a t) env false false false 1 2 = .ok (h, u t)) ∧
    1 < gdist (ball V3.zero) 0 (x 0) ∧ ∃ t, 0 ≤ t ∧ gdist (ball V3.zero) 0 (x t) < 1 := by
  have hcos : Continuous fun t => Real.cos (dir t) := Real.continuous_cos.comp dir_cont
  have hsin : Continuous fun t => Real.sin (dir t) := Real.continuous_sin.comp dir_cont
  have hd : ∀ t, gdist (ball V3.zero) 0 (path t) = rad t ^ 2 := by
    intro t
    rw [ball_dist]
    show (rad t * Real.cos (dir t)) ^ 2 + (rad t * Real.sin (dir t)) ^ 2 + 0 ^ 2 = _
    linear_combination rad t ^ 2 * Real.sin_sq_add_cos_sq (dir t)
  refine ⟨[.ellipsoid (ball V3.zero)], envOf [0], path, vel, fun t => agentAt (path t) (wish t), rfl, rfl, ball_smooth _,
    ⟨rfl, rfl⟩, ⟨?_, rfl, rfl, rfl⟩, fun t => ⟨rfl, rfl⟩, fun t => ball_disc.inPlane rfl, ⟨?_, ?_, continuousOn_const⟩,
    ⟨?_, ?_, continuousOn_const⟩, path_vel, fun t => ?_, ?_, Real.tan 1.2, ?_, ?_⟩
  · simp [ball, Ellipsoid.ofBase, V3.const]
  · exact ((((speed_cont.mul continuous_const).neg.mul hcos).sub (speed_cont.mul hsin))).continuousOn
  · exact ((((speed_cont.mul continuous_const).neg.mul hsin).add (speed_cont.mul hcos))).continuousOn
  · exact (rad_cont.mul hcos).continuousOn
  · exact (rad_cont.mul hsin).continuousOn
  · exact output (rad t) _ _ (speed t) (rad_pos t) (speed_pos t) (by rw [add_comm]; exact Real.sin_sq_add_cos_sq _)
  · rw [hd]; norm_num [rad]
  · have := Real.pi_gt_d2
    exact (Real.tan_pos_of_pos_of_lt_pi_div_two (by norm_num) (by linarith)).le
  · have := Real.pi_gt_d2
    rw [hd, rad, Real.arctan_tan (by linarith) (by linarith)]
    norm_num

end DOA.Props
