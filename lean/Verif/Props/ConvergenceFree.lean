import Verif.Props.ConvergenceEllipse
import Verif.Lemmas.FreeStep
import Verif.Lemmas.OrbitFree

/-!
# C84 the control loop around an ellipse without repulsion
-/

set_option linter.unusedSectionVars false
set_option linter.unusedSimpArgs false

namespace DOA.Props
open DOA DOA.Spec DOA.Ellipsoid DOA.Modulation Filter Topology

/-- The control loop without repulsion around an ellipse with its centre as reference point. The half lengths in the plane
are between `l` and `L`; `κ` depends on their ratio. `γ` bounds how much the limit of the speed shortens the velocity. The time
step is short enough (`short`), and not absurdly short (`long`). The target is outside the ellipse. -/
structure FreeLoop (c : Loop ℝ) (E : Env) (e : Ellipsoid ℝ) (p : Ptr) (m l L κ γ D R : ℝ) (x0 : V3 ℝ) : Prop where
  setup : LoopSetup c E e p m l 1 e.base.position
  between : Between e m l L
  aspect : Aspect l L κ 1
  moderate : κ ≤ 1000
  rep : c.addRepulsion = false
  flat : c.target.z = 0
  kept : Kept c e.base.position x0 l L κ 1 D R
  target : 1 < gdist e m c.target
  γ_pos : 0 < γ
  γ_one : γ ≤ 1
  maxVel : ∀ w, c.maxVel = some w → γ * (3 * κ * (c.gain * R)) ≤ w
  short : 5 * κ * (c.dt * (c.gain * R)) ≤ l
  long : κ * L ^ 2 ≤ 10 ^ 10 * (γ * c.dt * c.gain * l * (l / 2 * (1 - (1 + 1 / 10 ^ 10) / gdist e m c.target)))

section
variable {c : Loop ℝ} {E : Env} {e : Ellipsoid ℝ} {p : Ptr} {m l L κ γ D R : ℝ} {x0 : V3 ℝ}

theorem FreeLoop.centre_z (hc : FreeLoop c E e p m l L κ γ D R x0) : e.base.position.z = 0 := hc.setup.plane.pos

theorem FreeLoop.T_pos (hc : FreeLoop c E e p m l L κ γ D R x0) : 0 < V3.norm (c.target - e.base.position) :=
  hc.between.pos.trans (inner_radius hc.setup hc.between hc.flat hc.target)

theorem FreeLoop.κ_one (hc : FreeLoop c E e p m l L κ γ D R x0) : 1 ≤ κ :=
  aspect_one hc.between.pos (le_trans hc.between.x_ge hc.between.x_le) hc.aspect

theorem FreeLoop.l_le (hc : FreeLoop c E e p m l L κ γ D R x0) : l ≤ R := by
  have hl := hc.between.pos
  have hL : l ≤ L := le_trans hc.between.x_ge hc.between.x_le
  have h1 := hc.kept.near
  have h2 := hc.kept.far
  have h3 := V3.norm_nonneg (e.base.position - c.target)
  have hκ := hc.κ_one
  have hR := hc.kept.pos
  have hG := hc.kept.gain
  have hdt := hc.kept.dt
  have h4 : 0 ≤ c.dt * (2 * κ * (1 + 1 / 10 ^ 8) * (c.gain * R) + 33 / 10 * L) := by
    have : 0 < L := by linarith
    positivity
  have h5 : l ≤ L * D := by
    have := mul_le_mul hL (show 1 ≤ D by linarith) zero_le_one (by linarith : 0 ≤ L)
    linarith
  have h6 : 3 / 2 * L * D = 3 / 2 * (L * D) := by ring
  linarith

/-- close to the surface the agent is not close to the target -/
theorem FreeLoop.far (hc : FreeLoop c E e p m l L κ γ D R x0) {x : V3 ℝ}
    (h1 : ¬ 1 / 10 ^ 10 ≤ gdist e m x - 1) {t : ℝ} (ht : γ * c.dt ≤ t) :
    κ * L ^ 2 ≤ 10 ^ 10 * (t * (c.gain * V3.norm (x - c.target)) * l) := by
  have hl := hc.between.pos
  have hG := hc.kept.gain
  have hdt := hc.kept.dt
  have hγ := hc.γ_pos
  refine hc.long.trans (mul_le_mul_of_nonneg_left ?_ (by norm_num))
  have hT := hc.target
  have hs := slope_level hc.setup.smooth c.target (x - c.target)
  have h2 := gdist_tangent hc.setup.smooth hs
  have h3 := (abs_le.mp (slope_flat hc.setup.smooth hs hc.between (plane_of hc.setup.smooth hc.setup.plane hc.flat).2)).1
  rw [show c.target + (x - c.target) = x by v3_ring] at h2
  rw [max_eq_right hT.le] at h3
  push_cast at h3
  set F := gdist e m c.target with hF
  have hF0 : 0 < F := by linarith
  have h4 : l / 2 * (1 - (1 + 1 / 10 ^ 10) / F) ≤ V3.norm (x - c.target) := by
    have h5 : F - (1 + 1 / 10 ^ 10) ≤ 2 * F * (V3.norm (x - c.target) / l) := by linarith [not_le.mp h1]
    have h6 := mul_le_mul_of_nonneg_left h5 (by positivity : 0 ≤ l / 2 / F)
    have e1 : l / 2 / F * (F - (1 + 1 / 10 ^ 10)) = l / 2 * (1 - (1 + 1 / 10 ^ 10) / F) := by field_simp
    have e2 : l / 2 / F * (2 * F * (V3.norm (x - c.target) / l)) = V3.norm (x - c.target) := by field_simp
    rwa [e1, e2] at h6
  have h5 := mul_le_mul_of_nonneg_left h4 (by positivity : 0 ≤ γ * c.dt * c.gain * l)
  refine h5.trans ?_
  have h6 := mul_le_mul_of_nonneg_right ht (by have := V3.norm_nonneg (x - c.target); positivity :
    0 ≤ c.gain * V3.norm (x - c.target) * l)
  linarith

set_option maxHeartbeats 1600000 in
/-- One iteration. -/
theorem free_step (hc : FreeLoop c E e p m l L κ γ D R x0)
    {s : Heap ℝ × Agent ℝ} (hs : OnLoop e p m s) (hout : 1 < gdist e m s.2.state.position)
    (hR : V3.norm (s.2.state.position - c.target) ≤ R) :
    ∃ s', c.iterate E (c.desired s.2.state.position) s = .ok s' ∧ OnLoop e p m s' ∧
      1 < gdist e m s'.2.state.position ∧ V3.norm (s'.2.state.position - c.target) ≤ R ∧
      (∃ μ ν, 0 < μ ∧ γ * c.dt * c.gain ≤ ν ∧ across c e s'.2.state.position = μ * across c e s.2.state.position ∧
        along c e s'.2.state.position = μ * along c e s.2.state.position + ν * V3.norm (c.target - e.base.position)) ∧
      (0 < along c e s.2.state.position → along c e s.2.state.position ≤ V3.norm (c.target - e.base.position) -
          V3.norm (c.target - e.base.position) * κ / l * |across c e s.2.state.position| →
        gdist e m s.2.state.position ≤ gdist e m s'.2.state.position) ∧
      ∃ lam ε, γ * c.dt * c.gain * (1 - 1 / gdist e m s.2.state.position) ≤ lam ∧ lam ≤ 1 ∧ lam * R ≤ 21 / 50 * l ∧
        |ε| ≤ 3 * c.dt * c.gain * (V3.norm (c.target - e.base.position) * κ / l) * |across c e s.2.state.position| ∧
        along c e s'.2.state.position = along c e s.2.state.position +
          lam * (V3.norm (c.target - e.base.position) - along c e s.2.state.position) + ε := by
  have hflat := hs.flat
  have hl := hc.between.pos
  have hL : 0 < L := lt_of_lt_of_le hl (le_trans hc.between.x_ge hc.between.x_le)
  have hT := hc.T_pos
  have hκ := hc.κ_one
  have hlR := hc.l_le
  have hG := hc.kept.gain
  have hdt := hc.kept.dt
  have hR0 := hc.kept.pos
  have hγ0 := hc.γ_pos
  have hγ1 := hc.γ_one
  set x := s.2.state.position with hx
  set v := c.desired x with hv
  have hvz : v.z = 0 := desired_flat c hc.flat hflat
  obtain ⟨h1, hset, hon⟩ := withState_onLoop hs (s.2.state.setLinearVelocity v) hs.flat
  set a1 : Agent ℝ := { s.2 with state := s.2.state.setLinearVelocity v } with ha1
  have hpos : a1.state.position = x := rfl
  have hmar : a1.margin = m := hs.margin
  have hvel : a1.state.linearVelocity = v := rfl
  obtain ⟨M, B, n, c', hm, hn, hc0, hslope, hsl, hM⟩ := planar_form h1 a1 e 1 l L κ (by rw [hmar]; exact hc.setup.smooth)
    (by rw [hmar]; exact hc.between) hc.aspect hc.setup.ref (by rw [hpos]; exact hc.setup.inPlane hflat)
    (by rw [hpos, hmar]; linarith)
  have hMe : M = (ellItem e e.base.position x m).matrix := by
    have := matrix_ellipsoid h1 a1 e hc.setup.ref
    rw [hm] at this
    simp only [Res.ok.injEq, Prod.mk.injEq] at this
    rw [this.1, hmar, hpos]
    rfl
  rw [hpos, hmar] at hM hslope
  rw [hpos] at hsl
  have hMv := hM v
  have hM2 := (matrix_facts hc.setup hc.between hc.aspect hflat hout).2.1 v
  rw [← hMe] at hM2
  have heuler := FreeStep.euler hc.setup.smooth x
  set d := gdist e m x with hd
  have hd0 : 0 < d := by linarith
  have hδ0 : 0 < 1 / d := by positivity
  have hδ1 : 1 / d ≤ 1 := by rw [div_le_one hd0]; exact hout.le
  set r := x - e.base.position with hr
  set τ := c.target - e.base.position with hτ
  set T := V3.norm τ with hTd
  have hrz : r.z = 0 := by simp [hr, hflat, hc.centre_z]
  have hτz : τ.z = 0 := by simp [hτ, hc.flat, hc.centre_z]
  have hlr : l < V3.norm r := inner_radius hc.setup hc.between hflat hout
  rw [min_eq_right hδ1, max_eq_right (by linarith), show 1 + 1 / d - (1 - 1 / d) = 2 * (1 / d) by ring] at hMv
  have hcr : c' * V3.dot n r = 2 * d := (hslope r).unique heuler
  have hMz : (M.mulVec v).z = 0 := by rw [hMv]; simp [V3.smul, hvz, hrz]
  obtain ⟨α, β, hmod, hα1, hα2, hβ0, hβW, hβn, hang⟩ := single_form h1 a1 E c.critical c.power p (.ellipsoid e) M B _
    hc.setup.list hon.obj hc.setup.static hc.setup.smooth.unit hm hvel hvz hMz
  -- the error of the interpolation
  obtain ⟨out, ho1, -, ho2⟩ := C39_single h1 a1 E false c.critical c.power p (.ellipsoid e) M B _
    hc.setup.list hon.obj hc.setup.static hc.setup.smooth.unit hm (by rw [hvel]; exact hvz) (by intro h; cases h)
  rw [hmod] at ho1
  simp only [Res.ok.injEq, Prod.mk.injEq, true_and] at ho1
  rw [hvel, ← ho1] at ho2
  have hvr : v = V3.smul c.gain (τ - r) := by
    rw [hv, Loop.desired, hτ, hr]
    ext <;> simp only [V3.smul, V3.sub_x, V3.sub_y, V3.sub_z] <;> ring
  have hvn : V3.norm v = c.gain * V3.norm (x - c.target) := by
    rw [hv, Loop.desired, V3.norm_smul, abs_neg, abs_of_pos hG]
  have hnD : V3.norm v ≤ c.gain * R := by
    rw [hvn]; exact mul_le_mul_of_nonneg_left hR hG.le
  have hτr : V3.norm (τ - r) ≤ R := by
    have e1 : τ - r = V3.smul (-1) (x - c.target) := by rw [hτ, hr]; v3_ring
    rw [e1, V3.norm_smul, abs_neg, abs_one, one_mul]; exact hR
  have hβκ : β ≤ 2 / 10 ^ 8 * κ := by
    by_cases h : V3.norm v = 0
    · rw [hβn h]; positivity
    · have hvp : 0 < V3.norm v := lt_of_le_of_ne (V3.norm_nonneg _) (Ne.symm h)
      have h3 : β * V3.norm v ≤ 2 / 10 ^ 8 * κ * V3.norm v := by
        have := mul_le_mul_of_nonneg_left hM2 (by norm_num : (0 : ℝ) ≤ 1 / 10 ^ 8)
        norm_num at this hβW ⊢
        linarith
      exact le_of_mul_le_mul_right h3 hvp
  -- the limit of the speed
  have hW : V3.norm (V3.smul α (M.mulVec v) + V3.smul β v) ≤ 3 * κ * (c.gain * R) := by
    have b2 := norm_add_le (V3.smul α (M.mulVec v)) (V3.smul β v)
    rw [V3.norm_smul, V3.norm_smul, abs_of_nonneg hβ0, abs_of_nonneg (by linarith)] at b2
    have b3 : α * V3.norm (M.mulVec v) ≤ (1 + 1 / 10 ^ 8) * (2 * κ * V3.norm v) :=
      mul_le_mul hα2 hM2 (V3.norm_nonneg _) (by norm_num)
    have b5 : κ * V3.norm v ≤ κ * (c.gain * R) := mul_le_mul_of_nonneg_left hnD (by linarith)
    have b6 : β * V3.norm v ≤ 2 / 10 ^ 8 * (κ * V3.norm v) := by
      have := mul_le_mul_of_nonneg_right hβκ (V3.norm_nonneg v)
      linarith
    have b7 : 0 ≤ κ * V3.norm v := mul_nonneg (by linarith) (V3.norm_nonneg _)
    norm_num at b3 b6
    linarith
  obtain ⟨g, hg0, hg1, hlim⟩ := limit_lower c hγ0 hγ1 (V3.smul α (M.mulVec v) + V3.smul β v) (by
    intro w hw
    exact le_trans (mul_le_mul_of_nonneg_left hW hγ0.le) (hc.maxVel w hw))
  have hg : 0 < g := lt_of_lt_of_le hγ0 hg0
  have hoz : (V3.smul α (M.mulVec v) + V3.smul β v).z = 0 := by simp [V3.smul, hMz, hvz]
  obtain ⟨h2, hset2, hon2⟩ := withState_onLoop hon (a1.state.setPosition (x +
    V3.smul c.dt (V3.smul g (V3.smul α (M.mulVec v) + V3.smul β v)))) (by
      show (x + _).z = 0
      rw [V3.add_z]
      simp only [V3.smul] at hoz ⊢
      rw [hflat, hoz]; simp)
  -- the distance to the target
  have hform : V3.smul α (M.mulVec v) + V3.smul β v =
      (ellItem e e.base.position x m).matrix.mulVec (c.desired x) +
        (V3.smul α (M.mulVec v) + V3.smul β v - M.mulVec v) + V3.zero := by
    rw [← hMe, ← hv]; v3_ring
  have herr : V3.norm (V3.smul α (M.mulVec v) + V3.smul β v - M.mulVec v) ≤
      1 / 10 ^ 8 * V3.norm ((ellItem e e.base.position x m).matrix.mulVec (c.desired x)) := by
    rw [← hMe]; exact ho2
  have hrad := kept_radius hc.setup hc.between hc.aspect hc.kept hflat hout hR hg hg1 herr (fun _ => rfl) (by
    have : V3.norm (V3.zero : V3 ℝ) = 0 := by simp [V3.norm, V3.sqNorm, V3.dot, V3.zero, CMath.sqrt]
    rw [this]; positivity)
  rw [← hform] at hrad
  -- the distance from the obstacle
  have ht : 0 < c.dt * g := mul_pos hdt hg
  have hγt' : γ * c.dt ≤ c.dt * g := by
    rw [mul_comm]; exact mul_le_mul_of_nonneg_left hg0 hdt.le
  have hαδ : 0 ≤ α * (1 - 1 / d) + β := by
    have := mul_nonneg (by linarith : 0 ≤ α) (by linarith : 0 ≤ 1 - 1 / d)
    linarith
  have hnr := hsl.1
  have hdotM : V3.dot n (V3.smul α (M.mulVec v) + V3.smul β v) = (α * (1 - 1 / d) + β) * V3.dot n v := by
    have e1 : ∀ (a b : ℝ) (u w : V3 ℝ), V3.dot n (V3.smul a u + V3.smul b w) = a * V3.dot n u + b * V3.dot n w := by
      intro a b u w; simp only [V3.dot, V3.smul, V3.add_x, V3.add_y, V3.add_z]; ring
    have e2 : V3.dot n (M.mulVec v) = (1 - 1 / d) * V3.dot n v := by
      have e3 : ∀ (a b : ℝ) (u w : V3 ℝ), V3.dot n (V3.smul a u - V3.smul b w) = a * V3.dot n u - b * V3.dot n w := by
        intro a b u w; simp only [V3.dot, V3.smul, V3.sub_x, V3.sub_y, V3.sub_z]; ring
      rw [hMv, e3]
      field_simp
      ring
    rw [e1, e2]; ring
  have e0 : x + V3.smul c.dt (V3.smul g (V3.smul α (M.mulVec v) + V3.smul β v)) =
      x + V3.smul (c.dt * g) (V3.smul α (M.mulVec v) + V3.smul β v) := by
    ext <;> simp only [V3.smul, V3.add_x, V3.add_y, V3.add_z] <;> ring
  have hsu := slope_smul hc.setup.smooth (c.dt * g) (hslope (V3.smul α (M.mulVec v) + V3.smul β v))
  rw [hdotM] at hsu
  have hgrow : 0 ≤ V3.dot n v → d ≤ gdist e m (x + V3.smul c.dt (V3.smul g (V3.smul α (M.mulVec v) + V3.smul β v))) := by
    intro h
    rw [e0]
    refine le_trans ?_ (gdist_tangent hc.setup.smooth hsu)
    have := mul_nonneg ht.le (mul_nonneg hc0.le (mul_nonneg hαδ h))
    linarith
  have hshort : 5 * κ * (c.dt * g * (c.gain * R)) ≤ l := by
    refine le_trans ?_ hc.short
    have h3 : c.dt * g ≤ c.dt := mul_le_of_le_one_right hdt.le hg1
    have := mul_le_mul_of_nonneg_right h3 (by positivity : 0 ≤ c.gain * R)
    exact mul_le_mul_of_nonneg_left this (by linarith)
  have hgap : 1 < gdist e m (x + V3.smul c.dt (V3.smul g (V3.smul α (M.mulVec v) + V3.smul β v))) := by
    by_cases hnv : 0 ≤ V3.dot n v
    · exact lt_of_lt_of_le hout (hgrow hnv)
    · rw [e0]
      refine lt_of_lt_of_le ?_ (FreeStep.quadratic hc.setup.smooth hc.between hc.setup.plane hsu (by
        simp only [V3.smul] at hoz ⊢
        rw [hoz, mul_zero]))
      have h3 := FreeStep.vectors (t := c.dt * g) hn hsl hrz hvz hout hl hL hlr.le hMv (not_le.mp hnv) hκ hc.moderate hα1 hα2 hβ0
        hβκ ht hβW hang (by
          refine le_trans ?_ hshort
          exact mul_le_mul_of_nonneg_left (mul_le_mul_of_nonneg_left hnD ht.le) (by linarith)) (by
          by_cases h : 1 / 10 ^ 10 ≤ d - 1
          · exact Or.inl h
          · right
            rw [hvn]
            exact hc.far h hγt')
      refine lt_of_lt_of_le h3 (le_of_eq ?_)
      have e3 : c' * ((α * (1 - 1 / d) + β) * V3.dot n v) = (α * (1 - 1 / d) + β) * (2 * d * (V3.dot n v / V3.dot n r)) := by
        rw [← hcr]; field_simp
      rw [e3, V3.norm_smul, abs_of_pos ht]
      ring
  -- the frame
  obtain ⟨q1, q2, q3, q4, q5⟩ := EllipseStep.signs (k := 0) (σ := EllipseStep.quot n r τ) hG ht hα1 hα2 hβ0 hκ hβκ hδ0.le hδ1
    (le_refl _) hl hlR (EllipseStep.quot_bound hn hsl hl hlr.le hτr) hshort
  have hnew : x + V3.smul c.dt (V3.smul g (V3.smul α (M.mulVec v) + V3.smul β v)) - e.base.position =
      V3.smul (EllipseStep.mu (EllipseStep.quot n r τ) c.gain α β (1 / d) 0 (c.dt * g)) r +
        V3.smul (EllipseStep.nu c.gain α β (1 / d) (c.dt * g)) τ := by
    rw [← EllipseStep.step_form hsl.1.ne', ← hvr, ← hMv, hr]
    v3_ring
  have hal : along c e (x + V3.smul c.dt (V3.smul g (V3.smul α (M.mulVec v) + V3.smul β v))) =
      EllipseStep.mu (EllipseStep.quot n r τ) c.gain α β (1 / d) 0 (c.dt * g) * along c e x +
        EllipseStep.nu c.gain α β (1 / d) (c.dt * g) * T := by
    unfold along
    rw [hnew, ← hr, ← hτ, ← hTd]
    have e1 : ∀ a b : ℝ, V3.dot (V3.smul a r + V3.smul b τ) τ = a * V3.dot r τ + b * V3.dot τ τ := by
      intro a b; simp only [V3.dot, V3.smul, V3.add_x, V3.add_y, V3.add_z]; ring
    have e2 : V3.dot τ τ = T * T := (V3.norm_sq τ).symm
    rw [e1, e2]
    field_simp
  have hac : across c e (x + V3.smul c.dt (V3.smul g (V3.smul α (M.mulVec v) + V3.smul β v))) =
      EllipseStep.mu (EllipseStep.quot n r τ) c.gain α β (1 / d) 0 (c.dt * g) * across c e x := by
    unfold across
    rw [hnew, ← hr, ← hτ, ← hTd]
    have e1 : ∀ a b : ℝ, turn (V3.smul a r + V3.smul b τ) τ = a * turn r τ := by
      intro a b; simp only [turn, V3.smul, V3.add_x, V3.add_y, V3.add_z]; ring
    rw [e1]
    ring
  have hγt : γ * c.dt * c.gain ≤ c.dt * g * c.gain := mul_le_mul_of_nonneg_right hγt' hG.le
  have hquot := EllipseStep.quot_along hn hsl hl hlr.le hrz hτz hT
  refine ⟨_, ?_, hon2, hgap, hrad.le, ⟨_, _, q1, hγt.trans q2, hac, hal⟩, ?_, c.dt * g * c.gain * (α * (1 - 1 / d) + β),
    2 * (c.dt * g) * α * (1 / d) * c.gain * (T - EllipseStep.quot n r τ * along c e x), ?_, q3, q4, ?_, ?_⟩
  · unfold Loop.iterate
    rw [show Agent.setLinearVelocity s.1 s.2 v = .ok (h1, a1) from hset]
    simp only [Res.ok_bind, hc.setup.notLocal, hc.setup.notPlanar, hc.rep, hmod, hlim]
    exact hset2
  · intro hp1 hp2
    apply hgrow
    have h3 := (abs_le.mp hquot).2
    have h4 : along c e x ≤ EllipseStep.quot n r τ * along c e x := by
      have h5 : T - EllipseStep.quot n r τ * along c e x ≤ T * κ / l * |across c e x| := h3
      linarith
    have h5 : 1 ≤ EllipseStep.quot n r τ := by
      by_contra hn'
      have := mul_lt_mul_of_pos_right (not_le.mp hn') hp1
      linarith
    unfold EllipseStep.quot at h5
    rw [le_div_iff₀ hnr, one_mul] at h5
    have e1 : V3.dot n v = c.gain * (V3.dot n τ - V3.dot n r) := by
      rw [hvr]; simp only [V3.dot, V3.smul, V3.sub_x, V3.sub_y, V3.sub_z]; ring
    rw [e1]
    exact mul_nonneg hG.le (by linarith)
  · refine le_trans ?_ q5
    exact mul_le_mul_of_nonneg_right hγt (by linarith)
  · have h4 : |2 * (c.dt * g) * α * (1 / d) * c.gain * (T - EllipseStep.quot n r τ * along c e x)| =
        2 * (c.dt * g) * α * (1 / d) * c.gain * |T - EllipseStep.quot n r τ * along c e x| := by
      rw [abs_mul, abs_of_nonneg]
      have : 0 ≤ α := by linarith
      positivity
    rw [h4, mul_assoc (3 * c.dt * c.gain)]
    refine mul_le_mul ?_ hquot (abs_nonneg _) (by positivity)
    have h5 : c.dt * g ≤ c.dt := mul_le_of_le_one_right hdt.le hg1
    have h6 : α * (1 / d) ≤ 1 + 1 / 10 ^ 8 := by
      have := mul_le_mul hα2 hδ1 hδ0.le (by norm_num)
      linarith
    have h7 : c.dt * g * (α * (1 / d)) ≤ c.dt * (1 + 1 / 10 ^ 8) :=
      mul_le_mul h5 h6 (mul_nonneg (by linarith) hδ0.le) hdt.le
    have h8 := mul_le_mul_of_nonneg_right h7 hG.le
    have h9 : 0 ≤ c.dt * c.gain := by positivity
    norm_num at h8
    have h10 : 2 * (c.dt * g) * α * (1 / d) * c.gain = 2 * (c.dt * g * (α * (1 / d)) * c.gain) := by ring
    rw [h10]
    norm_num
    linarith
  · show along c e (x + V3.smul c.dt (V3.smul g (V3.smul α (M.mulVec v) + V3.smul β v))) = _
    rw [hal, EllipseStep.step_along]
    ring

/-- the states of the loop -/
theorem free_states {s : Heap ℝ × Agent ℝ} (hc : FreeLoop c E e p m l L κ γ D R s.2.state.position) (hs : OnLoop e p m s)
    (hout : 1 < gdist e m s.2.state.position) :
    ∃ (S : ℕ → Heap ℝ × Agent ℝ) (c0 C B ν0 Rb : ℝ), S 0 = s ∧
      (∀ n, c.run E n s = .ok (S n) ∧ OnLoop e p m (S n) ∧ 1 < gdist e m (S n).2.state.position ∧
        V3.norm ((S n).2.state.position - c.target) ≤ R) ∧
      Orbit.Free l (V3.norm (c.target - e.base.position)) c0 C B ν0 Rb
        (fun n => along c e (S n).2.state.position) (fun n => across c e (S n).2.state.position)
        (fun n => gdist e m (S n).2.state.position) := by
  have hl := hc.between.pos
  have hT := hc.T_pos
  have hG := hc.kept.gain
  have hdt := hc.kept.dt
  have hκ := hc.κ_one
  have hγ := hc.γ_pos
  have key : ∀ n, ∃ s', c.run E n s = .ok s' ∧ OnLoop e p m s' ∧ 1 < gdist e m s'.2.state.position ∧
      V3.norm (s'.2.state.position - c.target) ≤ R := by
    intro n
    induction n with
    | zero => exact ⟨s, rfl, hs, hout, hc.kept.start.le⟩
    | succ n ih =>
      obtain ⟨s1, h1, h2, h3, h4⟩ := ih
      obtain ⟨s2, k1, k2, k3, k4, -⟩ := free_step hc h2 h3 h4
      refine ⟨s2, ?_, k2, k3, k4⟩
      rw [run_succ, h1]; exact k1
  choose S hS using key
  have step : ∀ n, (∃ μ ν, 0 < μ ∧ γ * c.dt * c.gain ≤ ν ∧
        across c e (S (n + 1)).2.state.position = μ * across c e (S n).2.state.position ∧
        along c e (S (n + 1)).2.state.position =
          μ * along c e (S n).2.state.position + ν * V3.norm (c.target - e.base.position)) ∧
      (0 < along c e (S n).2.state.position → along c e (S n).2.state.position ≤ V3.norm (c.target - e.base.position) -
          V3.norm (c.target - e.base.position) * κ / l * |across c e (S n).2.state.position| →
        gdist e m (S n).2.state.position ≤ gdist e m (S (n + 1)).2.state.position) ∧
      ∃ lam ε, γ * c.dt * c.gain * (1 - 1 / gdist e m (S n).2.state.position) ≤ lam ∧ lam ≤ 1 ∧ lam * R ≤ 21 / 50 * l ∧
        |ε| ≤ 3 * c.dt * c.gain * (V3.norm (c.target - e.base.position) * κ / l) * |across c e (S n).2.state.position| ∧
        along c e (S (n + 1)).2.state.position = along c e (S n).2.state.position +
          lam * (V3.norm (c.target - e.base.position) - along c e (S n).2.state.position) + ε := by
    intro n
    obtain ⟨h1, h2, h3, h4⟩ := hS n
    obtain ⟨s2, k1, -, -, -, k5⟩ := free_step hc h2 h3 h4
    have h5 := (hS (n + 1)).1
    rw [run_succ, h1] at h5
    have h6 : Res.ok s2 = Res.ok (S (n + 1)) := by rw [← k1]; exact h5
    cases h6
    exact k5
  have hS0 : S 0 = s := by have := (hS 0).1; simp only [Loop.run] at this; cases this; rfl
  have hκ0 : 0 < κ := by linarith
  refine ⟨S, γ * c.dt * c.gain, 3 * c.dt * c.gain * (V3.norm (c.target - e.base.position) * κ / l),
    V3.norm (c.target - e.base.position) * κ / l,
    γ * c.dt * c.gain, (V3.norm (c.target - e.base.position) + R) ^ 2, hS0, hS,
    ⟨⟨hl, hT, by positivity, ?_, ?_, fun n => (step n).1, ?_⟩, by positivity, by positivity, by positivity,
      fun n => (hS n).2.2.1, ?_, fun n => (step n).2.1, ?_⟩⟩
  · intro n
    have h1 := inner_radius hc.setup hc.between (hS n).2.1.flat (hS n).2.2.1
    rw [frame_radius hT hc.centre_z hc.flat (hS n).2.1.flat, ← V3.norm_sq, ← sq]
    exact pow_lt_pow_left₀ h1 hl.le two_ne_zero
  · intro n
    rw [frame_radius hT hc.centre_z hc.flat (hS n).2.1.flat, ← V3.norm_sq, ← sq]
    apply pow_le_pow_left₀ (V3.norm_nonneg _)
    have e1 : (S n).2.state.position - e.base.position = ((S n).2.state.position - c.target) + (c.target - e.base.position) := by
      v3_ring
    rw [e1]
    have := norm_add_le ((S n).2.state.position - c.target) (c.target - e.base.position)
    have := (hS n).2.2.2
    linarith
  · intro n hq hp
    obtain ⟨lam, ε, a1, a2, a3, a4, a7⟩ := (step n).2.2
    have hε : ε = 0 := by
      have : across c e (S n).2.state.position = 0 := hq
      rw [this, abs_zero, mul_zero] at a4
      exact abs_nonpos_iff.mp a4
    have hrem := frame_remaining hT hc.centre_z hc.flat (hS n).2.1.flat
    have hq' : across c e (S n).2.state.position = 0 := hq
    have hd := (hS n).2.2.1
    have hlam : 0 ≤ lam := by
      refine le_trans (mul_nonneg (by positivity) ?_) a1
      rw [sub_nonneg, div_le_one (by linarith)]; exact hd.le
    have hTP : V3.norm (c.target - e.base.position) - along c e (S n).2.state.position ≤ R := by
      refine le_trans ?_ (hS n).2.2.2
      apply abs_le_of_sq_le_sq' _ (V3.norm_nonneg _) |>.2
      rw [← hrem, hq']
      apply le_of_eq; ring
    have b1 := mul_le_mul_of_nonneg_left hTP hlam
    show along c e (S (n + 1)).2.state.position ≤ _
    rw [a7, hε]
    linarith
  · intro n
    obtain ⟨lam, ε, a1, a2, a3, a4, a7⟩ := (step n).2.2
    exact ⟨lam, ε, a1, a2, a4, a7⟩
  · have hF := hc.target
    obtain ⟨g, hg, h1⟩ := near_target (b := (1 + gdist e m c.target) / 2) hc.setup hc.flat (by linarith) (by linarith) hT
    exact ⟨g, (gdist e m c.target - 1) / 2, hg, by linarith, fun n h2 h3 => by
      have := h1 _ (hS n).2.1.flat h2 h3
      linarith⟩

/-- C84, partial: the control loop without repulsion around an ellipse whose reference point is its centre. From every
starting point outside which is not exactly behind the centre, as seen from the target, the agent reaches the target in the
limit; the loop never fails and the agent keeps a positive distance from the ellipse. The velocities are those which
`modulate_velocity` returns, with the interpolation of small angles: no step leads into the ellipse although that
interpolation mixes in a bit of the desired velocity.

Missing: starting points exactly behind the centre (`C84_negation_behind_free`), rounded rectangles (their sides are flat, so
that the curvature does not make up for the interpolation), very long ellipses, other reference points, several or moving
obstacles. -/
theorem C84_ellipse_free_partial (s : Heap ℝ × Agent ℝ) (hc : FreeLoop c E e p m l L κ γ D R s.2.state.position)
    (hs : OnLoop e p m s) (hout : 1 < gdist e m s.2.state.position) (hb : ¬ Behind c e s.2.state.position) :
    ∃ S : ℕ → Heap ℝ × Agent ℝ, (∀ n, c.run E n s = .ok (S n)) ∧
      (∃ η, 0 < η ∧ ∀ n, 1 + η ≤ gdist e m (S n).2.state.position) ∧
      ∀ ε, 0 < ε → ∃ N, ∀ n, N ≤ n → V3.norm ((S n).2.state.position - c.target) < ε := by
  obtain ⟨S, c0, C, B, ν0, Rb, h0, hS, ho⟩ := free_states hc hs hout
  have hb' := hb
  rw [← h0, frame_behind hc.T_pos hc.centre_z hc.flat (hS 0).2.1.flat] at hb'
  refine ⟨S, fun n => (hS n).1, ho.gap hb', fun ε hε => ?_⟩
  obtain ⟨N, hN⟩ := Orbit.eventually_le (ho.converges hb') (show 0 < ε ^ 2 by positivity)
  refine ⟨N, fun n hn => ?_⟩
  have := hN n hn
  rw [frame_remaining hc.T_pos hc.centre_z hc.flat (hS n).2.1.flat] at this
  exact lt_of_pow_lt_pow_left₀ 2 hε.le this

/-- C84 is false for starting points exactly behind the centre, without repulsion as well: the agent stays behind the ellipse
for ever. -/
theorem C84_negation_behind_free (s : Heap ℝ × Agent ℝ) (hc : FreeLoop c E e p m l L κ γ D R s.2.state.position)
    (hs : OnLoop e p m s) (hout : 1 < gdist e m s.2.state.position) (hb : Behind c e s.2.state.position) (n : ℕ) :
    ∃ s', c.run E n s = .ok s' ∧ Behind c e s'.2.state.position ∧ 1 < gdist e m s'.2.state.position ∧
      V3.norm (c.target - e.base.position) + l < V3.norm (s'.2.state.position - c.target) := by
  obtain ⟨S, c0, C, B, ν0, Rb, h0, hS, ho⟩ := free_states hc hs hout
  rw [← h0, frame_behind hc.T_pos hc.centre_z hc.flat (hS 0).2.1.flat] at hb
  have h1 : across c e (S n).2.state.position = 0 := ho.q_stays hb.1 n
  have h2 : along c e (S n).2.state.position < -l := ho.behind hb.1 hb.2 n
  have hl := hc.between.pos
  have hT := hc.T_pos
  refine ⟨S n, (hS n).1, (frame_behind hT hc.centre_z hc.flat (hS n).2.1.flat).mpr ⟨h1, by linarith⟩,
    (hS n).2.2.1, ?_⟩
  have h3 := frame_remaining hT hc.centre_z hc.flat (hS n).2.1.flat
  rw [h1] at h3
  apply lt_of_pow_lt_pow_left₀ 2 (V3.norm_nonneg _)
  rw [← h3]
  nlinarith

end

/-! ### a concrete ellipse -/

/-- The loop to (-3, 0, 0) with the speed limited to 1/2 and without repulsion. -/
noncomputable def freeLoop : Loop ℝ := { axisLoop false with maxVel := some (1 / 2) }

theorem free_loop (x y : ℝ) (hx : Real.sqrt ((x - -3) * (x - -3) + (y - 0) * (y - 0) + (0 - 0) * (0 - 0)) < 10) :
    FreeLoop freeLoop (envOf [0]) oval 0 0 1 2 (5 / 4) (1 / 75) 2 10 (ovalStart ⟨x, y, 0⟩).2.state.position := by
  obtain ⟨h1, h2, h3, -, -, h4, -, -⟩ := oval_loop x y hx
  obtain ⟨a1, a2, a3, a4, a5, a6, a7, a8, a9, a10⟩ := h1
  obtain ⟨b1, b2, b3, b4, b5, b6, b7, b8, b9, b10, b11, b12⟩ := h4
  refine ⟨⟨a1, a2, a3, a4, a5, a6, a7, a8, a9, a10⟩, h2, h3, by norm_num, rfl, rfl,
    ⟨b1, b2, b3, b4, b5, b6, b7, b8, b9, b10, b11, b12⟩, ?_, by norm_num, by norm_num, ?_, ?_, ?_⟩
  · rw [oval_dist]; norm_num [freeLoop, axisLoop]
  · rintro w ⟨⟩; norm_num [freeLoop, axisLoop]
  · norm_num [freeLoop, axisLoop]
  · rw [oval_dist]; norm_num [freeLoop, axisLoop]

/-- From (2, 1/1000, 0), nearly behind the ellipse, the agent goes round it and arrives at the target. -/
example : ∃ S : ℕ → Heap ℝ × Agent ℝ, (∀ n, freeLoop.run (envOf [0]) n (ovalStart ⟨2, 1 / 1000, 0⟩) = .ok (S n)) ∧
    ∀ ε, 0 < ε → ∃ N, ∀ n, N ≤ n → V3.norm ((S n).2.state.position - ⟨-3, 0, 0⟩) < ε := by
  obtain ⟨S, h1, -, h3⟩ := C84_ellipse_free_partial (ovalStart ⟨2, 1 / 1000, 0⟩)
    (free_loop _ _ (by rw [Real.sqrt_lt' (by norm_num)]; norm_num)) (ovalStart_on _ _)
    (by show 1 < gdist oval 0 ⟨2, 1 / 1000, 0⟩; rw [oval_dist]; norm_num)
    (by
      rintro ⟨k, -, h⟩
      have := congrArg V3.y h
      simp [V3.smul, freeLoop, axisLoop, ovalStart, agentAt, oval, ball, Ellipsoid.ofBase, Base.mkRef, State.ofPosition,
        Pose.ofPosition, V3.zero, Base.position, Base.pose, State.position] at this)
  exact ⟨S, h1, h3⟩

/-- From (2, 0, 0) it stays behind the ellipse. -/
example (n : ℕ) : ∃ s', freeLoop.run (envOf [0]) n (ovalStart ⟨2, 0, 0⟩) = .ok s' ∧
    V3.norm (freeLoop.target - oval.base.position) + 1 < V3.norm (s'.2.state.position - ⟨-3, 0, 0⟩) := by
  obtain ⟨s', h1, -, -, h3⟩ := C84_negation_behind_free (ovalStart ⟨2, 0, 0⟩)
    (free_loop _ _ (by rw [Real.sqrt_lt' (by norm_num)]; norm_num)) (ovalStart_on _ _)
    (by show 1 < gdist oval 0 ⟨2, 0, 0⟩; rw [oval_dist]; norm_num)
    ⟨2 / 3, by norm_num, by
      ext <;> norm_num [V3.smul, freeLoop, axisLoop, ovalStart, agentAt, oval, ball, Ellipsoid.ofBase, Base.mkRef,
        State.ofPosition, Pose.ofPosition, V3.zero, Base.position, Base.pose, State.position]⟩ n
  exact ⟨s', h1, h3⟩

end DOA.Props
