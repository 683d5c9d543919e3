import Verif.Props.Convergence
import Verif.Lemmas.EllipseStep
import Verif.Lemmas.FpStep

/-!
# C84 the control loop around an ellipse leads the agent to its target
-/

set_option linter.unusedSectionVars false
set_option linter.unusedSimpArgs false

namespace DOA.Props
open DOA DOA.Spec DOA.Ellipsoid DOA.Modulation Filter Topology

/-- The control loop with repulsion around an ellipse, or a rounded rectangle, with its centre as reference point. The
half lengths in the plane are between `l` and `L`; `κ` depends on their ratio. `Kept` bounds the constants of the loop from
above; the time step is short (`short`), and there is no repulsion at the target. -/
structure EllipseLoop (c : Loop ℝ) (E : Env) (e : Ellipsoid ℝ) (p : Ptr) (m l L κ : ℝ) (k : ℕ) (D R : ℝ) (x0 : V3 ℝ) : Prop where
  setup : LoopSetup c E e p m l k e.base.position
  between : Between e m l L
  aspect : Aspect l L κ k
  rep : c.addRepulsion = true
  flat : c.target.z = 0
  kept : Kept c e.base.position x0 l L κ k D R
  short : 5 * κ * (c.dt * (c.gain * R)) ≤ l
  target : 11 / 10 < gdist e m c.target

section
variable {c : Loop ℝ} {E : Env} {e : Ellipsoid ℝ} {p : Ptr} {m l L κ D R : ℝ} {k : ℕ} {x0 : V3 ℝ}

/-- outside the obstacle one is at least `l` away from its centre -/
theorem inner_radius (hc : LoopSetup c E e p m l k e.base.position) (hb : Between e m l L) {x : V3 ℝ} (hx : x.z = 0)
    (h1 : 1 < gdist e m x) : l < V3.norm (x - e.base.position) := by
  have hl := hb.pos
  have hk := hc.smooth.curv.2.1
  set y := e.base.pose.inverse.apply x with hy
  have hyz : y.z = 0 := flat_apply (flat_inversePose hc.plane.pose) hx
  have hxy : x = e.base.pose.apply y := (Pose.apply_apply_inverse (unit' hc.smooth) x).symm
  have h2 : x - e.base.position = e.base.pose.orientation.rotate y := by
    rw [hxy]
    show e.base.pose.orientation.rotate y + e.base.pose.position - e.base.pose.position = _
    v3_ring
  have h3 := Quat.sqNorm_rotate (unit' hc.smooth) y
  rw [← h2] at h3
  have hd := dist_apply hc.smooth y
  rw [← hxy] at hd
  by_contra hn
  have h4 : V3.sqNorm y ≤ l ^ 2 := by
    rw [← h3, ← V3.norm_sq, sq]
    exact mul_self_le_mul_self (V3.norm_nonneg _) (not_lt.mp hn)
  set H := halfLengths e (V3.const m) with hH
  have h5 : ∀ a b : ℝ, l ≤ b → (a / b) ^ 2 ≤ a ^ 2 / l ^ 2 := by
    intro a b hab
    rw [div_pow]
    exact div_le_div_of_nonneg_left (sq_nonneg a) (by positivity) (pow_le_pow_left₀ hl.le hab 2)
  have hsq : V3.sqNorm y = y.x ^ 2 + y.y ^ 2 := by simp only [V3.sqNorm, V3.dot, hyz]; ring
  have h6 : (y.x / H.x) ^ 2 + (y.y / H.y) ^ 2 ≤ 1 := by
    have a1 := h5 y.x H.x hb.x_ge
    have a2 := h5 y.y H.y hb.y_ge
    have a3 : y.x ^ 2 / l ^ 2 + y.y ^ 2 / l ^ 2 ≤ 1 := by
      rw [← add_div, div_le_one (by positivity), ← hsq]; exact h4
    linarith
  have h7 : ∀ a : ℝ, a ^ 2 ≤ 1 → a ^ (2 * k) ≤ a ^ 2 := by
    intro a ha
    rw [pow_mul]
    exact pow_le_of_le_one (sq_nonneg a) ha (by omega)
  have h8 := h7 (y.x / H.x) (by nlinarith [sq_nonneg (y.y / H.y)])
  have h9 := h7 (y.y / H.y) (by nlinarith [sq_nonneg (y.x / H.x)])
  have h10 : level H k k k y = (y.x / H.x) ^ (2 * k) + (y.y / H.y) ^ (2 * k) := by
    simp only [level, hyz]
    rw [zero_div, zero_pow (by omega), add_zero]
  rw [hd, h10] at h1
  linarith

theorem EllipseLoop.centre_z (hc : EllipseLoop c E e p m l L κ k D R x0) : e.base.position.z = 0 := hc.setup.plane.pos

theorem EllipseLoop.T_pos (hc : EllipseLoop c E e p m l L κ k D R x0) : 0 < V3.norm (c.target - e.base.position) :=
  hc.between.pos.trans (inner_radius hc.setup hc.between hc.flat (by linarith [hc.target]))

theorem EllipseLoop.κ_one (hc : EllipseLoop c E e p m l L κ k D R x0) : 1 ≤ κ :=
  aspect_one hc.between.pos (le_trans hc.between.x_ge hc.between.x_le) hc.aspect

theorem EllipseLoop.l_le (hc : EllipseLoop c E e p m l L κ k D R x0) : l ≤ R := by
  have hl := hc.between.pos
  have hL : l ≤ L := le_trans hc.between.x_ge hc.between.x_le
  have h1 := hc.kept.near
  have h2 := hc.kept.far
  have h3 := V3.norm_nonneg (e.base.position - c.target)
  have hκ := hc.κ_one
  have hR := hc.kept.pos
  have hG := hc.kept.gain
  have hdt := hc.kept.dt
  have h4 : 0 ≤ c.dt * (2 * κ * (1 + 1 / 10 ^ 8) * (c.gain * R) + 33 / 10 * L) := by
    have : 0 < L := by linarith
    positivity
  have h5 : l ≤ L * D := by
    have := mul_le_mul hL (show 1 ≤ D by linarith) zero_le_one (by linarith : 0 ≤ L)
    linarith
  have h6 : 3 / 2 * L * D = 3 / 2 * (L * D) := by ring
  linarith

/-- a bound for the speed before it is limited -/
noncomputable def topSpeed (c : Loop ℝ) (e : Ellipsoid ℝ) (κ R : ℝ) : ℝ :=
  3 * κ * (c.gain * R) + 2 * (R + V3.norm (c.target - e.base.position))

set_option maxHeartbeats 1600000 in
/-- One iteration. -/
theorem ell_step (hc : EllipseLoop c E e p m l L κ k D R x0) {η γ : ℝ} (hη : 0 < η)
    (hη1 : 10 * η + 2 * k * (c.dt * c.gain * ((1 + 22 / 10 ^ 8 * κ) * R)) / l < 1)
    (hη2 : η * (2 * k * (c.gain * R)) + 44 / 10 ^ 9 * κ * k * (c.gain * R) < 2 * l)
    (hγ0 : 0 < γ) (hγ1 : γ ≤ 1) (hγ : ∀ w, c.maxVel = some w → γ * topSpeed c e κ R ≤ w)
    {s : Heap ℝ × Agent ℝ} (hs : OnLoop e p m s) (hout : 1 + η ≤ gdist e m s.2.state.position)
    (hR : V3.norm (s.2.state.position - c.target) ≤ R) :
    ∃ s', c.iterate E (c.desired s.2.state.position) s = .ok s' ∧ OnLoop e p m s' ∧
      1 + η ≤ gdist e m s'.2.state.position ∧ V3.norm (s'.2.state.position - c.target) ≤ R ∧
      (∃ μ ν, 0 < μ ∧ γ * c.dt * c.gain ≤ ν ∧ across c e s'.2.state.position = μ * across c e s.2.state.position ∧
        along c e s'.2.state.position = μ * along c e s.2.state.position + ν * V3.norm (c.target - e.base.position)) ∧
      ∃ lam ε w, γ * c.dt * c.gain * (1 - 1 / (1 + η)) ≤ lam ∧ lam ≤ 1 ∧ lam * R ≤ 21 / 50 * l ∧
        |ε| ≤ 3 * c.dt * c.gain * (V3.norm (c.target - e.base.position) * κ / l) * |across c e s.2.state.position| ∧
        0 ≤ w ∧ (11 / 10 ≤ gdist e m s.2.state.position → w = 0) ∧
        along c e s'.2.state.position = along c e s.2.state.position +
          lam * (V3.norm (c.target - e.base.position) - along c e s.2.state.position) + ε +
          w * along c e s.2.state.position := by
  have hflat := hs.flat
  have hl := hc.between.pos
  have hT := hc.T_pos
  have hκ := hc.κ_one
  have hlR := hc.l_le
  have hG := hc.kept.gain
  have hdt := hc.kept.dt
  have hR0 := hc.kept.pos
  set x := s.2.state.position with hx
  set v := c.desired x with hv
  have hout1 : 1 < gdist e m x := by linarith
  have hvz : v.z = 0 := desired_flat c hc.flat hflat
  obtain ⟨h1, hset, hon⟩ := withState_onLoop hs (s.2.state.setLinearVelocity v) hs.flat
  set a1 : Agent ℝ := { s.2 with state := s.2.state.setLinearVelocity v } with ha1
  have hpos : a1.state.position = x := rfl
  have hmar : a1.margin = m := hs.margin
  have hvel : a1.state.linearVelocity = v := rfl
  obtain ⟨M, B, n, c', hm, hn, -, -, hsl, hM⟩ := planar_form h1 a1 e k l L κ (by rw [hmar]; exact hc.setup.smooth)
    (by rw [hmar]; exact hc.between) hc.aspect hc.setup.ref (by rw [hpos]; exact hc.setup.inPlane hflat)
    (by rw [hpos, hmar]; linarith)
  have hMe : M = (ellItem e e.base.position x m).matrix := by
    have := matrix_ellipsoid h1 a1 e hc.setup.ref
    rw [hm] at this
    simp only [Res.ok.injEq, Prod.mk.injEq] at this
    rw [this.1, hmar, hpos]
    rfl
  rw [hpos, hmar] at hM
  rw [hpos] at hsl
  have hMv := hM v
  have hM2 := (matrix_facts hc.setup hc.between hc.aspect hflat hout1).2.1 v
  rw [← hMe] at hM2
  set d := gdist e m x with hd
  have hd0 : 0 < d := by linarith
  have hδ0 : 0 < 1 / d := by positivity
  have hδ1 : 1 / d ≤ 1 := by rw [div_le_one hd0]; exact hout1.le
  have hδη : 1 / d ≤ 1 / (1 + η) := div_le_div_of_nonneg_left zero_le_one (by linarith) hout
  set r := x - e.base.position with hr
  set τ := c.target - e.base.position with hτ
  set T := V3.norm τ with hTd
  have hrz : r.z = 0 := by simp [hr, hflat, hc.centre_z]
  have hτz : τ.z = 0 := by simp [hτ, hc.flat, hc.centre_z]
  have hlr : l < V3.norm r := inner_radius hc.setup hc.between hflat hout1
  rw [min_eq_right hδ1, max_eq_right (by linarith), show 1 + 1 / d - (1 - 1 / d) = 2 * (1 / d) by ring] at hMv
  have hMz : (M.mulVec v).z = 0 := by rw [hMv]; simp [V3.smul, hvz, hrz]
  obtain ⟨α, β, hmod, hα1, hα2, hβ0, hβW, hβn, -⟩ := single_form h1 a1 E c.critical c.power p (.ellipsoid e) M B _
    hc.setup.list hon.obj hc.setup.static hc.setup.smooth.unit hm hvel hvz hMz
  -- the error of the interpolation
  obtain ⟨out, ho1, -, ho2⟩ := C39_single h1 a1 E false c.critical c.power p (.ellipsoid e) M B _
    hc.setup.list hon.obj hc.setup.static hc.setup.smooth.unit hm (by rw [hvel]; exact hvz) (by intro h; cases h)
  rw [hmod] at ho1
  simp only [Res.ok.injEq, Prod.mk.injEq, true_and] at ho1
  rw [hvel, ← ho1] at ho2
  -- the repulsion
  obtain ⟨kr, hrep, hk0, hk1⟩ := single_push h1 a1 E c.addRepulsion c.critical c.power p e _ hc.setup.list hon.obj
    hc.setup.ref (by
      rw [hpos, hmar]
      intro hn
      rw [V3.norm_smul, abs_of_pos (by positivity)]
      have h3 : 1 < 2 / d := by rw [lt_div_iff₀ hd0]; linarith
      have h4 : (1 : ℝ) ≤ k := by exact_mod_cast hc.setup.smooth.curv.2.1
      have h5 := hc.kept.push
      have h6 : 1 / 10000 < l := by linarith
      have h7 : V3.norm r ≤ 2 / d * V3.norm r := le_mul_of_one_le_left (V3.norm_nonneg _) h3.le
      linarith) hmod
  rw [hpos] at hrep hk0 hk1
  rw [hmar] at hk0 hk1
  rw [← hr] at hrep
  rw [← hd] at hk0 hk1
  have hquiet : 11 / 10 ≤ d → kr = 0 := fun h => hk0 (Or.inr h)
  have hkn : 0 ≤ kr := by
    by_cases h : 11 / 10 ≤ d
    · rw [hquiet h]
    · rw [hk1 hc.rep (not_le.mp h)]; positivity
  have hk2 : kr ≤ 2 := by
    by_cases h : 11 / 10 ≤ d
    · rw [hquiet h]; norm_num
    · rw [hk1 hc.rep (not_le.mp h), div_le_iff₀ hd0]; linarith
  have hrn : V3.norm r ≤ R + T := by
    have e1 : r = (x - c.target) + τ := by rw [hr, hτ]; v3_ring
    rw [e1]
    exact (norm_add_le _ _).trans (add_le_add hR le_rfl)
  have hvr : v = V3.smul c.gain (τ - r) := by
    rw [hv, Loop.desired, hτ, hr]
    ext <;> simp only [V3.smul, V3.sub_x, V3.sub_y, V3.sub_z] <;> ring
  have hvn : V3.norm v = c.gain * V3.norm (x - c.target) := by
    rw [hv, Loop.desired, V3.norm_smul, abs_neg, abs_of_pos hG]
  have hnD : V3.norm v ≤ c.gain * R := by
    rw [hvn]; exact mul_le_mul_of_nonneg_left hR hG.le
  have hτr : V3.norm (τ - r) ≤ R := by
    have e1 : τ - r = V3.smul (-1) (x - c.target) := by rw [hτ, hr]; v3_ring
    rw [e1, V3.norm_smul, abs_neg, abs_one, one_mul]; exact hR
  have hβκ : β ≤ 2 / 10 ^ 8 * κ := by
    by_cases h : V3.norm v = 0
    · rw [hβn h]; positivity
    · have hvp : 0 < V3.norm v := lt_of_le_of_ne (V3.norm_nonneg _) (Ne.symm h)
      have h3 : β * V3.norm v ≤ 2 / 10 ^ 8 * κ * V3.norm v := by
        have := mul_le_mul_of_nonneg_left hM2 (by norm_num : (0 : ℝ) ≤ 1 / 10 ^ 8)
        norm_num at this hβW ⊢
        linarith
      exact le_of_mul_le_mul_right h3 hvp
  -- the limit of the speed
  have hW : V3.norm (V3.smul α (M.mulVec v) + V3.smul β v + V3.smul kr r) ≤ topSpeed c e κ R := by
    have b1 := norm_add_le (V3.smul α (M.mulVec v) + V3.smul β v) (V3.smul kr r)
    have b2 := norm_add_le (V3.smul α (M.mulVec v)) (V3.smul β v)
    rw [V3.norm_smul, V3.norm_smul, abs_of_nonneg hβ0, abs_of_nonneg (by linarith)] at b2
    rw [V3.norm_smul kr, abs_of_nonneg hkn] at b1
    have b3 : α * V3.norm (M.mulVec v) ≤ (1 + 1 / 10 ^ 8) * (2 * κ * V3.norm v) :=
      mul_le_mul hα2 hM2 (V3.norm_nonneg _) (by norm_num)
    have b4 : kr * V3.norm r ≤ 2 * (R + T) := mul_le_mul hk2 hrn (V3.norm_nonneg _) (by norm_num)
    have b5 : κ * V3.norm v ≤ κ * (c.gain * R) := mul_le_mul_of_nonneg_left hnD (by linarith)
    have b6 : β * V3.norm v ≤ 2 / 10 ^ 8 * (κ * V3.norm v) := by
      have := mul_le_mul_of_nonneg_right hβκ (V3.norm_nonneg v)
      linarith
    have b7 : 0 ≤ κ * V3.norm v := mul_nonneg (by linarith) (V3.norm_nonneg _)
    unfold topSpeed
    rw [← hτ, ← hTd]
    norm_num at b3 b6
    linarith
  obtain ⟨g, hg0, hg1, hlim⟩ := limit_lower c hγ0 hγ1 (V3.smul α (M.mulVec v) + V3.smul β v + V3.smul kr r) (by
    intro w hw
    exact le_trans (mul_le_mul_of_nonneg_left hW hγ0.le) (hγ w hw))
  have hg : 0 < g := lt_of_lt_of_le hγ0 hg0
  have hoz : (V3.smul α (M.mulVec v) + V3.smul β v + V3.smul kr r).z = 0 := by simp [V3.smul, hMz, hvz, hrz]
  obtain ⟨h2, hset2, hon2⟩ := withState_onLoop hon (a1.state.setPosition (x +
    V3.smul c.dt (V3.smul g (V3.smul α (M.mulVec v) + V3.smul β v + V3.smul kr r)))) (by
      show (x + _).z = 0
      rw [V3.add_z]
      simp only [V3.smul] at hoz ⊢
      rw [hflat, hoz]; simp)
  -- the distances
  have hform : V3.smul α (M.mulVec v) + V3.smul β v + V3.smul kr r =
      (ellItem e e.base.position x m).matrix.mulVec (c.desired x) +
        (V3.smul α (M.mulVec v) + V3.smul β v - M.mulVec v) + V3.smul kr r := by
    rw [← hMe, ← hv]; v3_ring
  have hρ : (11 / 10 ≤ gdist e m x ∧ V3.smul kr r = V3.zero) ∨
      (gdist e m x ≤ 11 / 10 ∧ V3.smul kr r = V3.smul (2 / gdist e m x) (x - e.base.position)) := by
    by_cases h : 11 / 10 ≤ d
    · refine Or.inl ⟨h, ?_⟩
      rw [hquiet h]
      ext <;> simp [V3.smul, V3.zero]
    · refine Or.inr ⟨(not_le.mp h).le, ?_⟩
      rw [hk1 hc.rep (not_le.mp h)]
  have herr : V3.norm (V3.smul α (M.mulVec v) + V3.smul β v - M.mulVec v) ≤
      1 / 10 ^ 8 * V3.norm ((ellItem e e.base.position x m).matrix.mulVec (c.desired x)) := by
    rw [← hMe]; exact ho2
  have hgap := relaxed_gap hc.setup hc.between hc.aspect hc.kept hη hη1 hη2 hflat hout hR hg hg1 herr hρ
  have hrad := relaxed_radius hc.setup hc.between hc.aspect hc.kept hflat hout1 hR hg hg1 herr hρ
  rw [← hform] at hgap hrad
  -- the frame
  have ht : 0 < c.dt * g := mul_pos hdt hg
  have hshort : 5 * κ * (c.dt * g * (c.gain * R)) ≤ l := by
    refine le_trans ?_ hc.short
    have h3 : c.dt * g ≤ c.dt := mul_le_of_le_one_right hdt.le hg1
    have := mul_le_mul_of_nonneg_right h3 (by positivity : 0 ≤ c.gain * R)
    exact mul_le_mul_of_nonneg_left this (by linarith)
  obtain ⟨q1, q2, q3, q4, q5⟩ := EllipseStep.signs (σ := EllipseStep.quot n r τ) hG ht hα1 hα2 hβ0 hκ hβκ hδ0.le hδ1 hkn hl hlR
    (EllipseStep.quot_bound hn hsl hl hlr.le hτr) hshort
  have hnew : x + V3.smul c.dt (V3.smul g (V3.smul α (M.mulVec v) + V3.smul β v + V3.smul kr r)) - e.base.position =
      V3.smul (EllipseStep.mu (EllipseStep.quot n r τ) c.gain α β (1 / d) kr (c.dt * g)) r +
        V3.smul (EllipseStep.nu c.gain α β (1 / d) (c.dt * g)) τ := by
    rw [← EllipseStep.step_form hsl.1.ne', ← hvr, ← hMv, hr]
    v3_ring
  have hal : along c e (x + V3.smul c.dt (V3.smul g (V3.smul α (M.mulVec v) + V3.smul β v + V3.smul kr r))) =
      EllipseStep.mu (EllipseStep.quot n r τ) c.gain α β (1 / d) kr (c.dt * g) * along c e x +
        EllipseStep.nu c.gain α β (1 / d) (c.dt * g) * T := by
    unfold along
    rw [hnew, ← hr, ← hτ, ← hTd]
    have e1 : ∀ a b : ℝ, V3.dot (V3.smul a r + V3.smul b τ) τ = a * V3.dot r τ + b * V3.dot τ τ := by
      intro a b; simp only [V3.dot, V3.smul, V3.add_x, V3.add_y, V3.add_z]; ring
    have e2 : V3.dot τ τ = T * T := (V3.norm_sq τ).symm
    rw [e1, e2]
    field_simp
  have hac : across c e (x + V3.smul c.dt (V3.smul g (V3.smul α (M.mulVec v) + V3.smul β v + V3.smul kr r))) =
      EllipseStep.mu (EllipseStep.quot n r τ) c.gain α β (1 / d) kr (c.dt * g) * across c e x := by
    unfold across
    rw [hnew, ← hr, ← hτ, ← hTd]
    have e1 : ∀ a b : ℝ, turn (V3.smul a r + V3.smul b τ) τ = a * turn r τ := by
      intro a b; simp only [turn, V3.smul, V3.add_x, V3.add_y, V3.add_z]; ring
    rw [e1]
    ring
  have hγt : γ * c.dt * c.gain ≤ c.dt * g * c.gain := by
    apply mul_le_mul_of_nonneg_right _ hG.le
    rw [mul_comm]; exact mul_le_mul_of_nonneg_left hg0 hdt.le
  refine ⟨_, ?_, hon2, hgap.le, hrad.le, ⟨_, _, q1, hγt.trans q2, hac, hal⟩, c.dt * g * c.gain * (α * (1 - 1 / d) + β),
    2 * (c.dt * g) * α * (1 / d) * c.gain * (T - EllipseStep.quot n r τ * along c e x), c.dt * g * kr, ?_, q3, q4, ?_,
    mul_nonneg ht.le hkn, ?_, ?_⟩
  · unfold Loop.iterate
    rw [show Agent.setLinearVelocity s.1 s.2 v = .ok (h1, a1) from hset]
    simp only [Res.ok_bind, hc.setup.notLocal, hc.setup.notPlanar, hrep, hlim]
    exact hset2
  · refine le_trans ?_ q5
    exact mul_le_mul hγt (by linarith) (by
      rw [sub_nonneg, div_le_one (by linarith)]; linarith) (by positivity)
  · have h3 := EllipseStep.quot_along hn hsl hl hlr.le hrz hτz hT
    have h4 : |2 * (c.dt * g) * α * (1 / d) * c.gain * (T - EllipseStep.quot n r τ * along c e x)| =
        2 * (c.dt * g) * α * (1 / d) * c.gain * |T - EllipseStep.quot n r τ * along c e x| := by
      rw [abs_mul, abs_of_nonneg]
      have : 0 ≤ α := by linarith
      positivity
    rw [h4, mul_assoc (3 * c.dt * c.gain)]
    refine mul_le_mul ?_ h3 (abs_nonneg _) (by positivity)
    have h5 : c.dt * g ≤ c.dt := mul_le_of_le_one_right hdt.le hg1
    have h6 : α * (1 / d) ≤ 1 + 1 / 10 ^ 8 := by
      have := mul_le_mul hα2 hδ1 hδ0.le (by norm_num)
      linarith
    have h7 : c.dt * g * (α * (1 / d)) ≤ c.dt * (1 + 1 / 10 ^ 8) :=
      mul_le_mul h5 h6 (mul_nonneg (by linarith) hδ0.le) hdt.le
    have h8 := mul_le_mul_of_nonneg_right h7 hG.le
    have h9 : 0 ≤ c.dt * c.gain := by positivity
    norm_num at h8
    have h10 : 2 * (c.dt * g) * α * (1 / d) * c.gain = 2 * (c.dt * g * (α * (1 / d)) * c.gain) := by ring
    rw [h10]
    norm_num
    linarith
  · intro h
    rw [hquiet h, mul_zero]
  · show along c e (x + V3.smul c.dt (V3.smul g (V3.smul α (M.mulVec v) + V3.smul β v + V3.smul kr r))) = _
    rw [hal, EllipseStep.step_along]

/-- near the line to the target, and not far in front of it, one is not closer to the obstacle than about as the target -/
theorem near_target (hc : LoopSetup c E e p m l k e.base.position) (hflat : c.target.z = 0) {b : ℝ} (hb0 : 0 ≤ b)
    (hb : b < gdist e m c.target) (hT : 0 < V3.norm (c.target - e.base.position)) :
    ∃ g, 0 < g ∧ ∀ x : V3 ℝ, x.z = 0 → V3.norm (c.target - e.base.position) - g ≤ along c e x → |across c e x| ≤ g →
      b ≤ gdist e m x := by
  have hcz : e.base.position.z = 0 := hc.plane.pos
  have hcont := ((continuous_gdist hc.smooth).tendsto (c.target.x, c.target.y)).eventually_const_lt
    (u := b) (by
      have e0 : (⟨c.target.x, c.target.y, 0⟩ : V3 ℝ) = c.target := by ext <;> simp [hflat]
      rw [e0]; exact hb)
  rw [Metric.eventually_nhds_iff] at hcont
  obtain ⟨ρ, hρ, hball⟩ := hcont
  have near : ∀ y : V3 ℝ, y.z = 0 → V3.norm (y - c.target) < ρ → b < gdist e m y := by
    intro y hy hd
    have e0 : (⟨y.x, y.y, 0⟩ : V3 ℝ) = y := by ext <;> simp [hy]
    have := hball (y := (y.x, y.y)) (by
      obtain ⟨h1, h2⟩ := abs_le_norm (y - c.target)
      rw [Prod.dist_eq, max_lt_iff]
      exact ⟨lt_of_le_of_lt h1 hd, lt_of_le_of_lt h2 hd⟩)
    rw [e0] at this
    exact this
  refine ⟨ρ / 3, by positivity, fun x hx h1 h2 => ?_⟩
  set T := V3.norm (c.target - e.base.position) with hTd
  have key : ∀ y : V3 ℝ, y.z = 0 → T - ρ / 3 ≤ along c e y → along c e y ≤ T → |across c e y| ≤ ρ / 3 → b < gdist e m y := by
    intro y hy a1 a2 a3
    apply near y hy
    apply lt_of_pow_lt_pow_left₀ 2 hρ.le
    rw [← frame_remaining hT hcz hflat hy, ← hTd]
    have b1 : across c e y ^ 2 ≤ (ρ / 3) ^ 2 := sq_le_sq.mpr (by rw [abs_of_pos (by positivity : 0 < ρ / 3)]; exact a3)
    have b2 : (along c e y - T) ^ 2 ≤ (ρ / 3) ^ 2 :=
      sq_le_sq.mpr (by rw [abs_of_pos (by positivity : 0 < ρ / 3), abs_le]; constructor <;> linarith)
    have : (0 : ℝ) < ρ ^ 2 := by positivity
    nlinarith
  by_cases hle : along c e x ≤ T
  · exact (key x hx h1 hle h2).le
  · have hP : T < along c e x := not_le.mp hle
    have hP0 : 0 < along c e x := hT.trans hP
    have hs1 : T / along c e x ≤ 1 := by rw [div_le_one hP0]; exact hP.le
    have hs0 : 0 < T / along c e x := div_pos hT hP0
    set y := e.base.position + V3.smul (T / along c e x) (x - e.base.position) with hy
    have hyr : y - e.base.position = V3.smul (T / along c e x) (x - e.base.position) := by rw [hy]; v3_ring
    have hyz : y.z = 0 := by rw [hy]; simp [V3.smul, hx, hcz]
    have hya : along c e y = T := by
      have : along c e y = T / along c e x * along c e x := by
        unfold along
        rw [hyr]
        have e1 : ∀ (a : ℝ) (u v : V3 ℝ), V3.dot (V3.smul a u) v = a * V3.dot u v := by
          intro a u v; simp only [V3.dot, V3.smul]; ring
        rw [e1, mul_div_assoc]
        rfl
      rw [this]; field_simp
    have hyc : across c e y = T / along c e x * across c e x := by
      have e1 : ∀ (a : ℝ) (u v : V3 ℝ), turn (V3.smul a u) v = a * turn u v := by
        intro a u v; simp only [turn, V3.smul]; ring
      unfold across
      rw [hyr, e1, mul_div_assoc]
    have h3 := key y hyz (by rw [hya]; linarith) (by rw [hya]) (by
      rw [hyc, abs_mul, abs_of_pos hs0]
      exact (mul_le_of_le_one_left (abs_nonneg _) hs1).trans h2)
    have h4 : gdist e m y = (T / along c e x) ^ (2 * k) * gdist e m x :=
      C32_homogeneous_world e (V3.const m) x k hc.smooth.curv hc.smooth.unit hc.smooth.long _
    have h5 : (T / along c e x) ^ (2 * k) ≤ 1 := pow_le_one₀ hs0.le hs1
    have h6 : 0 < (T / along c e x) ^ (2 * k) := by positivity
    have h7 : 0 < gdist e m x := by
      by_contra hn
      have := mul_nonpos_of_nonneg_of_nonpos h6.le (not_lt.mp hn)
      linarith
    have := mul_le_of_le_one_left h7.le h5
    linarith

/-- near the line to the target, and not far in front of it, there is no repulsion -/
theorem EllipseLoop.quiet (hc : EllipseLoop c E e p m l L κ k D R x0) :
    ∃ g, 0 < g ∧ ∀ x : V3 ℝ, x.z = 0 → V3.norm (c.target - e.base.position) - g ≤ along c e x → |across c e x| ≤ g →
      11 / 10 ≤ gdist e m x :=
  near_target hc.setup hc.flat (by norm_num) hc.target hc.T_pos

/-- the limit of the speed does not slow the agent down arbitrarily -/
theorem EllipseLoop.speed (hc : EllipseLoop c E e p m l L κ k D R x0) :
    ∃ γ, 0 < γ ∧ γ ≤ 1 ∧ ∀ w, c.maxVel = some w → γ * topSpeed c e κ R ≤ w := by
  have hκ := hc.κ_one
  have hR := hc.kept.pos
  have hG := hc.kept.gain
  have hT := hc.T_pos
  have hV : 0 < topSpeed c e κ R := by
    unfold topSpeed
    have : 0 < κ := by linarith
    positivity
  cases hm : c.maxVel with
  | none => exact ⟨1, one_pos, le_refl _, fun w hw => by cases hw⟩
  | some w =>
    have hw := hc.kept.maxVel w hm
    refine ⟨min 1 (w / topSpeed c e κ R), lt_min one_pos (div_pos hw hV), min_le_left _ _, ?_⟩
    rintro w' ⟨⟩
    have := mul_le_mul_of_nonneg_right (min_le_right 1 (w / topSpeed c e κ R)) hV.le
    rwa [div_mul_cancel₀ _ hV.ne'] at this

/-- the states of the loop -/
theorem ell_states {s : Heap ℝ × Agent ℝ} (hc : EllipseLoop c E e p m l L κ k D R s.2.state.position) (hs : OnLoop e p m s)
    (hout : 1 < gdist e m s.2.state.position) :
    ∃ (S : ℕ → Heap ℝ × Agent ℝ) (η c0 C g ν0 Rb : ℝ), S 0 = s ∧ 0 < η ∧
      (∀ n, c.run E n s = .ok (S n) ∧ OnLoop e p m (S n) ∧ 1 + η ≤ gdist e m (S n).2.state.position ∧
        V3.norm ((S n).2.state.position - c.target) ≤ R) ∧
      Orbit.Pull l (V3.norm (c.target - e.base.position)) c0 C g g ν0 Rb
        (fun n => along c e (S n).2.state.position) (fun n => across c e (S n).2.state.position) := by
  have hl := hc.between.pos
  have hT := hc.T_pos
  have hG := hc.kept.gain
  have hdt := hc.kept.dt
  have hκ := hc.κ_one
  obtain ⟨η, hη0, hηd, hη1, hη2⟩ := relaxed_eta hl hc.kept (show 0 < gdist e m s.2.state.position - 1 by linarith)
  obtain ⟨γ, hγ0, hγ1, hγ⟩ := hc.speed
  obtain ⟨g, hg0, hg⟩ := hc.quiet
  have key : ∀ n, ∃ s', c.run E n s = .ok s' ∧ OnLoop e p m s' ∧ 1 + η ≤ gdist e m s'.2.state.position ∧
      V3.norm (s'.2.state.position - c.target) ≤ R := by
    intro n
    induction n with
    | zero => exact ⟨s, rfl, hs, by linarith, hc.kept.start.le⟩
    | succ n ih =>
      obtain ⟨s1, h1, h2, h3, h4⟩ := ih
      obtain ⟨s2, k1, k2, k3, k4, -⟩ := ell_step hc hη0 hη1 hη2 hγ0 hγ1 hγ h2 h3 h4
      refine ⟨s2, ?_, k2, k3, k4⟩
      rw [run_succ, h1]; exact k1
  choose S hS using key
  have step : ∀ n, (∃ μ ν, 0 < μ ∧ γ * c.dt * c.gain ≤ ν ∧
        across c e (S (n + 1)).2.state.position = μ * across c e (S n).2.state.position ∧
        along c e (S (n + 1)).2.state.position =
          μ * along c e (S n).2.state.position + ν * V3.norm (c.target - e.base.position)) ∧
      ∃ lam ε w, γ * c.dt * c.gain * (1 - 1 / (1 + η)) ≤ lam ∧ lam ≤ 1 ∧ lam * R ≤ 21 / 50 * l ∧
        |ε| ≤ 3 * c.dt * c.gain * (V3.norm (c.target - e.base.position) * κ / l) * |across c e (S n).2.state.position| ∧
        0 ≤ w ∧ (11 / 10 ≤ gdist e m (S n).2.state.position → w = 0) ∧
        along c e (S (n + 1)).2.state.position = along c e (S n).2.state.position +
          lam * (V3.norm (c.target - e.base.position) - along c e (S n).2.state.position) + ε +
          w * along c e (S n).2.state.position := by
    intro n
    obtain ⟨h1, h2, h3, h4⟩ := hS n
    obtain ⟨s2, k1, -, -, -, k5, k6⟩ := ell_step hc hη0 hη1 hη2 hγ0 hγ1 hγ h2 h3 h4
    have h5 := (hS (n + 1)).1
    rw [run_succ, h1] at h5
    have h6 : Res.ok s2 = Res.ok (S (n + 1)) := by rw [← k1]; exact h5
    cases h6
    exact ⟨k5, k6⟩
  have hS0 : S 0 = s := by have := (hS 0).1; simp only [Loop.run] at this; cases this; rfl
  have hδ : 0 < 1 - 1 / (1 + η) := by
    rw [sub_pos, div_lt_one (by linarith)]; linarith
  refine ⟨S, η, γ * c.dt * c.gain * (1 - 1 / (1 + η)), 3 * c.dt * c.gain * (V3.norm (c.target - e.base.position) * κ / l), g,
    γ * c.dt * c.gain, (V3.norm (c.target - e.base.position) + R) ^ 2, hS0, hη0, hS,
    ⟨⟨hl, hT, by positivity, ?_, ?_, fun n => (step n).1, ?_⟩, by positivity, ?_, hg0, hg0, ?_⟩⟩
  · intro n
    have h1 := inner_radius hc.setup hc.between (hS n).2.1.flat (by linarith [(hS n).2.2.1])
    rw [frame_radius hT hc.centre_z hc.flat (hS n).2.1.flat, ← V3.norm_sq, ← sq]
    exact pow_lt_pow_left₀ h1 hl.le two_ne_zero
  · intro n
    rw [frame_radius hT hc.centre_z hc.flat (hS n).2.1.flat, ← V3.norm_sq, ← sq]
    apply pow_le_pow_left₀ (V3.norm_nonneg _)
    have e1 : (S n).2.state.position - e.base.position = ((S n).2.state.position - c.target) + (c.target - e.base.position) := by
      v3_ring
    rw [e1]
    have := norm_add_le ((S n).2.state.position - c.target) (c.target - e.base.position)
    have := (hS n).2.2.2
    linarith
  · intro n hq hp
    obtain ⟨lam, ε, w, a1, a2, a3, a4, a5, a6, a7⟩ := (step n).2
    have hε : ε = 0 := by
      have : across c e (S n).2.state.position = 0 := hq
      rw [this, abs_zero, mul_zero] at a4
      exact abs_nonpos_iff.mp a4
    have hrem := frame_remaining hT hc.centre_z hc.flat (hS n).2.1.flat
    have hq' : across c e (S n).2.state.position = 0 := hq
    have hp' : along c e (S n).2.state.position < 0 := hp
    have hlam : 0 ≤ lam := le_trans (by positivity) a1
    have hTP : V3.norm (c.target - e.base.position) - along c e (S n).2.state.position ≤ R := by
      refine le_trans ?_ (hS n).2.2.2
      apply abs_le_of_sq_le_sq' _ (V3.norm_nonneg _) |>.2
      rw [← hrem, hq']
      apply le_of_eq; ring
    have b1 := mul_le_mul_of_nonneg_left hTP hlam
    have b2 := mul_nonpos_of_nonneg_of_nonpos a5 hp'.le
    show along c e (S (n + 1)).2.state.position ≤ _
    rw [a7, hε]
    linarith
  · have : 0 < κ := by linarith
    positivity
  · intro n
    obtain ⟨lam, ε, w, a1, a2, a3, a4, a5, a6, a7⟩ := (step n).2
    exact ⟨lam, ε, w, a1, a2, a4, a5, fun h1 h2 => a6 (hg _ (hS n).2.1.flat h1 h2), a7⟩

/-- C84, partial: the control loop with repulsion around an ellipse, or a rounded rectangle, whose reference point is its
centre. From every starting point outside which is not exactly behind the centre, as seen from the target, the agent
reaches the target in the limit; the loop never fails and the agent keeps a positive distance from the obstacle.

Missing: starting points exactly behind the centre (`C84_negation_behind_ellipse`), rounded rectangles without repulsion (for
ellipses see `C84_ellipse_free_partial`), other reference points, several or moving obstacles, targets where there is repulsion. -/
theorem C84_ellipse_partial (s : Heap ℝ × Agent ℝ) (hc : EllipseLoop c E e p m l L κ k D R s.2.state.position)
    (hs : OnLoop e p m s) (hout : 1 < gdist e m s.2.state.position) (hb : ¬ Behind c e s.2.state.position) :
    ∃ S : ℕ → Heap ℝ × Agent ℝ, (∀ n, c.run E n s = .ok (S n)) ∧
      (∃ η, 0 < η ∧ ∀ n, 1 + η ≤ gdist e m (S n).2.state.position) ∧
      ∀ ε, 0 < ε → ∃ N, ∀ n, N ≤ n → V3.norm ((S n).2.state.position - c.target) < ε := by
  obtain ⟨S, η, c0, C, g, ν0, Rb, h0, hη, hS, ho⟩ := ell_states hc hs hout
  refine ⟨S, fun n => (hS n).1, ⟨η, hη, fun n => (hS n).2.2.1⟩, fun ε hε => ?_⟩
  have hlim := ho.converges (by
    rw [← h0, frame_behind hc.T_pos hc.centre_z hc.flat (hS 0).2.1.flat] at hb
    exact hb)
  obtain ⟨N, hN⟩ := Orbit.eventually_le hlim (show 0 < ε ^ 2 by positivity)
  refine ⟨N, fun n hn => ?_⟩
  have := hN n hn
  rw [frame_remaining hc.T_pos hc.centre_z hc.flat (hS n).2.1.flat] at this
  exact lt_of_pow_lt_pow_left₀ 2 hε.le this

/-- C84 is false for starting points exactly behind the centre of an ellipse: the agent stays behind it for ever. -/
theorem C84_negation_behind_ellipse (s : Heap ℝ × Agent ℝ) (hc : EllipseLoop c E e p m l L κ k D R s.2.state.position)
    (hs : OnLoop e p m s) (hout : 1 < gdist e m s.2.state.position) (hb : Behind c e s.2.state.position) (n : ℕ) :
    ∃ s', c.run E n s = .ok s' ∧ Behind c e s'.2.state.position ∧ 1 < gdist e m s'.2.state.position ∧
      V3.norm (c.target - e.base.position) + l < V3.norm (s'.2.state.position - c.target) := by
  obtain ⟨S, η, c0, C, g, ν0, Rb, h0, hη, hS, ho⟩ := ell_states hc hs hout
  rw [← h0, frame_behind hc.T_pos hc.centre_z hc.flat (hS 0).2.1.flat] at hb
  have h1 : across c e (S n).2.state.position = 0 := ho.q_stays hb.1 n
  have h2 : along c e (S n).2.state.position < -l := ho.behind hb.1 hb.2 n
  have hl := hc.between.pos
  have hT := hc.T_pos
  refine ⟨S n, (hS n).1, (frame_behind hT hc.centre_z hc.flat (hS n).2.1.flat).mpr ⟨h1, by linarith⟩,
    by linarith [(hS n).2.2.1], ?_⟩
  have h3 := frame_remaining hT hc.centre_z hc.flat (hS n).2.1.flat
  rw [h1] at h3
  apply lt_of_pow_lt_pow_left₀ 2 (V3.norm_nonneg _)
  rw [← h3]
  nlinarith

end

/-! ### a concrete ellipse -/

/-- The ellipsoid with half lengths 1, 2 and 1 around the origin. -/
def oval : Ellipsoid ℝ := { ball V3.zero with axis := ⟨1, 2, 1⟩ }

theorem oval_smooth : Smooth oval 0 1 :=
  ⟨(ball_smooth V3.zero).curv, (ball_smooth V3.zero).unit, by
    norm_num [AllGt, halfLengths, oval, ball, Ellipsoid.ofBase, V3.const, V3.zero, Base.mkRef], Or.inl rfl⟩

theorem oval_dist (x : V3 ℝ) : gdist oval 0 x = x.x ^ 2 + (x.y / 2) ^ 2 + x.z ^ 2 := by
  have := dist_apply oval_smooth x
  rw [show oval.base.pose.apply x = x from ball_apply V3.zero x] at this
  rw [this]
  simp [level, halfLengths, oval, ball, Ellipsoid.ofBase, V3.const, V3.zero, Base.mkRef]

/-- The loop to (-3, 0, 0) with the speed limited to 1/2. -/
noncomputable def ovalLoop : Loop ℝ := { axisLoop true with maxVel := some (1 / 2) }

/-- The ellipsoid and the envelope of the agent, the agent at `x`. -/
noncomputable def ovalStart (x : V3 ℝ) : Heap ℝ × Agent ℝ :=
  ([.ellipsoid oval, .ellipsoid (ball V3.zero)], { agentAt x V3.zero with envelope := some 1 })

theorem oval_loop (x y : ℝ) (hx : Real.sqrt ((x - -3) * (x - -3) + (y - 0) * (y - 0) + (0 - 0) * (0 - 0)) < 10) :
    EllipseLoop ovalLoop (envOf [0]) oval 0 0 1 2 (5 / 4) 1 2 10 (ovalStart ⟨x, y, 0⟩).2.state.position := by
  have hb : Between oval 0 1 2 := by
    constructor <;> norm_num [halfLengths, oval, ball, Ellipsoid.ofBase, V3.const, V3.zero, Base.mkRef]
  have n1 : V3.norm (oval.base.position - ovalLoop.target) = 3 := by
    show Real.sqrt ((0 - -3) * (0 - -3) + (0 - 0) * (0 - 0) + (0 - 0) * (0 - 0)) = 3
    rw [show ((0 - -3) * (0 - -3) + (0 - 0) * (0 - 0) + (0 - 0) * (0 - 0) : ℝ) = 3 ^ 2 by norm_num, Real.sqrt_sq (by norm_num)]
  refine ⟨⟨rfl, ⟨rfl, rfl⟩, (axis_setup true).plane, oval_smooth, ?_, rfl, rfl, rfl, ?_, ?_⟩, hb, ⟨by norm_num, Or.inl ⟨rfl, by norm_num⟩⟩,
    rfl, rfl, ⟨?_, ?_, ?_, ?_, by norm_num, by norm_num, ?_, hx, ?_, ?_, ?_, by norm_num⟩, ?_, ?_⟩
  · norm_num [Thick, halfLengths, oval, ball, Ellipsoid.ofBase, V3.const, V3.zero, Base.mkRef]
  · norm_num [ovalLoop, axisLoop]
  · rintro v ⟨⟩; norm_num
  · norm_num [ovalLoop, axisLoop]
  · norm_num [ovalLoop, axisLoop]
  · rintro v ⟨⟩; norm_num
  · norm_num [ovalLoop, axisLoop]
  · norm_num [ovalLoop, axisLoop]
  · rw [n1]; norm_num [ovalLoop, axisLoop]
  · norm_num [ovalLoop, axisLoop]
  · norm_num [ovalLoop, axisLoop]
  · norm_num [ovalLoop, axisLoop]
  · rw [oval_dist]; norm_num [ovalLoop, axisLoop]

theorem ovalStart_on (x y : ℝ) : OnLoop oval 0 0 (ovalStart ⟨x, y, 0⟩) :=
  ⟨rfl, ⟨1, ball V3.zero, by decide, rfl, rfl⟩, rfl, rfl⟩

/-- From (2, 1/1000, 0), nearly behind the ellipse, the agent goes round it and arrives at the target. -/
example : ∃ S : ℕ → Heap ℝ × Agent ℝ, (∀ n, ovalLoop.run (envOf [0]) n (ovalStart ⟨2, 1 / 1000, 0⟩) = .ok (S n)) ∧
    ∀ ε, 0 < ε → ∃ N, ∀ n, N ≤ n → V3.norm ((S n).2.state.position - ⟨-3, 0, 0⟩) < ε := by
  obtain ⟨S, h1, -, h3⟩ := C84_ellipse_partial (ovalStart ⟨2, 1 / 1000, 0⟩)
    (oval_loop _ _ (by rw [Real.sqrt_lt' (by norm_num)]; norm_num)) (ovalStart_on _ _)
    (by show 1 < gdist oval 0 ⟨2, 1 / 1000, 0⟩; rw [oval_dist]; norm_num)
    (by
      rintro ⟨k, -, h⟩
      have := congrArg V3.y h
      simp [V3.smul, ovalLoop, axisLoop, ovalStart, agentAt, oval, ball, Ellipsoid.ofBase, Base.mkRef, State.ofPosition,
        Pose.ofPosition, V3.zero, Base.position, Base.pose, State.position] at this)
  exact ⟨S, h1, h3⟩

/-- From (2, 0, 0) it stays behind the ellipse. -/
example (n : ℕ) : ∃ s', ovalLoop.run (envOf [0]) n (ovalStart ⟨2, 0, 0⟩) = .ok s' ∧
    V3.norm (ovalLoop.target - oval.base.position) + 1 < V3.norm (s'.2.state.position - ⟨-3, 0, 0⟩) := by
  obtain ⟨s', h1, -, -, h3⟩ := C84_negation_behind_ellipse (ovalStart ⟨2, 0, 0⟩)
    (oval_loop _ _ (by rw [Real.sqrt_lt' (by norm_num)]; norm_num)) (ovalStart_on _ _)
    (by show 1 < gdist oval 0 ⟨2, 0, 0⟩; rw [oval_dist]; norm_num)
    ⟨2 / 3, by norm_num, by
      ext <;> norm_num [V3.smul, ovalLoop, axisLoop, ovalStart, agentAt, oval, ball, Ellipsoid.ofBase, Base.mkRef,
        State.ofPosition, Pose.ofPosition, V3.zero, Base.position, Base.pose, State.position]⟩ n
  exact ⟨s', h1, h3⟩

end DOA.Props
