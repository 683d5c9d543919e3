import Verif.Props.MovingLoop
import Verif.Spec.FpLoop

/-!
# One iteration up to small errors

What the exact iteration does if the modulated velocity has a small relative error and the branch at the threshold of the
repulsion may go either way.
-/

set_option linter.unusedSectionVars false
set_option linter.unusedSimpArgs false

namespace DOA.Modulation
open DOA.Spec DOA.Props DOA

/-- the matrix for an ellipsoid with its centre as reference point -/
theorem matrix_facts {c : Loop ℝ} {E : Env} {e : Ellipsoid ℝ} {p : Ptr} {m l L κ : ℝ} {k : ℕ}
    (hc : LoopSetup c E e p m l k e.base.position) (hb : Between e m l L) (hκ : Aspect l L κ k) {x : V3 ℝ} (hx : x.z = 0)
    (h1 : 1 < gdist e m x) :
    (∀ v s, Slope e m x v s → Slope e m x ((ellItem e e.base.position x m).matrix.mulVec v) (max 0 (1 - 1 / gdist e m x) * s)) ∧
    (∀ v, V3.norm ((ellItem e e.base.position x m).matrix.mulVec v) ≤ 2 * κ * V3.norm v) ∧
    (∀ v, (1 - κ / gdist e m x) * V3.sqNorm v ≤ V3.dot v ((ellItem e e.base.position x m).matrix.mulVec v)) := by
  let a : Agent ℝ := ⟨⟨Pose.ofPosition x, V3.zero, V3.zero⟩, m, none, 0⟩
  have hm := matrix_ellipsoid [] a e hc.ref
  have hpl : InPlane e a.state.position e.base.position := hc.inPlane hx
  have hM : modulationProduct e.base.pose.orientation
      (referenceBasis (e.normalToAgent a.state.position a.margin)
        (referenceDirection e.base.pose a.state.position e.base.position))
      (diagonalEigenvalues (gdist e a.margin a.state.position) 1) = (ellItem e e.base.position x m).matrix := rfl
  rw [hM] at hm
  obtain ⟨M1, B1, e1, f1⟩ := C37_impenetrable_partial [] a e k hc.smooth e.base.position hc.ref
    (by show gdist e m e.base.position < gdist e m x; rw [gdist_centre hc.smooth]; linarith) (Or.inl hpl)
  obtain ⟨M2, B2, e2, f2⟩ := C75_speed_partial [] a e k l L κ hc.smooth hb hκ hc.ref hpl
    (by show 0 < gdist e m x; linarith)
  obtain ⟨M3', B3, e3, f3⟩ := C75_forward_partial [] a e k l L κ hc.smooth hb hκ hc.ref hpl
    (by show 1 ≤ gdist e m x; linarith)
  rw [hm] at e1 e2 e3
  simp only [Res.ok.injEq, Prod.mk.injEq] at e1 e2 e3
  obtain ⟨rfl, -⟩ := e1
  obtain ⟨rfl, -⟩ := e2
  obtain ⟨rfl, -⟩ := e3
  exact ⟨f1, f2, f3⟩

theorem _root_.DOA.Kept.pos {c : Loop ℝ} {centre x0 : V3 ℝ} {l L κ T R : ℝ} {k : ℕ} (hK : Kept c centre x0 l L κ k T R) : 0 < R :=
  lt_of_le_of_lt (V3.norm_nonneg _) hK.start

/-- the distance from the target does not grow beyond the bound, with any small push close to the obstacle -/
theorem kept_radius {c : Loop ℝ} {E : Env} {e : Ellipsoid ℝ} {p : Ptr} {m l L κ T R : ℝ} {k : ℕ} {start : V3 ℝ}
    (hc : LoopSetup c E e p m l k e.base.position) (hb : Between e m l L) (hκ : Aspect l L κ k)
    (hK : Kept c e.base.position start l L κ k T R) {x err ρ : V3 ℝ} {g : ℝ} (hx : x.z = 0)
    (h1 : 1 < gdist e m x) (hr : V3.norm (x - c.target) ≤ R) (hg0 : 0 < g) (hg1 : g ≤ 1)
    (herr : V3.norm err ≤ 1 / 10 ^ 8 * V3.norm ((ellItem e e.base.position x m).matrix.mulVec (c.desired x)))
    (hρ : T < gdist e m x → ρ = V3.zero) (hρn : V3.norm ρ ≤ 33 / 10 * L) :
    V3.norm (x + V3.smul c.dt (V3.smul g ((ellItem e e.base.position x m).matrix.mulVec (c.desired x) + err + ρ)) -
      c.target) < R := by
  obtain ⟨-, hM2, hM3⟩ := matrix_facts hc hb hκ hx h1
  have hκ1 : 1 ≤ κ := aspect_one hb.pos (le_trans hb.x_ge hb.x_le) hκ
  have hl := hb.pos
  have hL : 0 < L := lt_of_lt_of_le hl (le_trans hb.x_ge hb.x_le)
  have hR := hK.pos
  obtain ⟨fK, fdt, -, -, fT, fturn, frate, -, fnear, -, -, -⟩ := hK
  have hdes : c.desired x = V3.smul (-c.gain) (x - c.target) := rfl
  have hdn : V3.norm (c.desired x) = c.gain * V3.norm (x - c.target) := by
    rw [hdes, V3.norm_smul, abs_neg, abs_of_pos fK]
  have hMv := hM2 (c.desired x)
  set M := (ellItem e e.base.position x m).matrix with hMdef
  set X := x - c.target with hX
  have hXn := V3.norm_nonneg X
  by_cases hfar : T < gdist e m x
  · -- far away: the agent is drawn to the target
    have hρ0 : ρ = V3.zero := hρ hfar
    have hT0 : 0 < T := by linarith
    set γ := 1 - κ / T with hγ
    have hγ1 : γ ≤ 1 := by have : 0 ≤ κ / T := by positivity
                           linarith
    have hγκ : 1 - κ / T ≤ 1 - κ / gdist e m x := by
      have : κ / gdist e m x ≤ κ / T := div_le_div_of_nonneg_left (by linarith) hT0 hfar.le
      linarith
    set τ := c.dt * g * c.gain with hτ
    have hτ0 : 0 < τ := by positivity
    have hτr : 4 * κ ^ 2 * τ ≤ γ := by
      refine le_trans ?_ frate
      refine mul_le_mul_of_nonneg_left ?_ (by positivity)
      rw [hτ]
      nlinarith [mul_pos fdt fK]
    have hpull := pull hκ1 hτ0.le hγ1 hτr (hM2 X)
      (le_trans (mul_le_mul_of_nonneg_right hγκ (V3.sqNorm_nonneg X)) (hM3 X))
    have e1 : x + V3.smul c.dt (V3.smul g (M.mulVec (c.desired x) + err + ρ)) - c.target =
        (X + V3.smul (-τ) (M.mulVec X)) + V3.smul (c.dt * g) err := by
      rw [hρ0, hdes, V3.add_zero', M3.mulVec_smul, hX, hτ]
      ext <;> simp only [V3.smul, V3.add_x, V3.add_y, V3.add_z, V3.sub_x, V3.sub_y, V3.sub_z] <;> ring
    rw [e1]
    have h2 := norm_add_le (X + V3.smul (-τ) (M.mulVec X)) (V3.smul (c.dt * g) err)
    rw [V3.norm_smul, abs_of_pos (by positivity)] at h2
    have h3 : c.dt * g * V3.norm err ≤ 2 / 10 ^ 8 * κ * (τ * V3.norm X) := by
      have h4 : V3.norm err ≤ 1 / 10 ^ 8 * (2 * κ * (c.gain * V3.norm X)) := by
        rw [hdn] at hMv
        linarith
      have := mul_le_mul_of_nonneg_left h4 (by positivity : 0 ≤ c.dt * g)
      refine le_trans this (le_of_eq ?_)
      rw [hτ]; ring
    rcases hXn.eq_or_lt with h0 | h0
    · rw [← h0] at hpull h3
      linarith
    · have h5 : 0 < τ * V3.norm X := mul_pos hτ0 h0
      have h6 : 2 / 10 ^ 8 * κ * (τ * V3.norm X) < γ / 2 * (τ * V3.norm X) := by
        refine mul_lt_mul_of_pos_right ?_ h5
        linarith
      have h7 : (1 - τ * γ / 2) * V3.norm X = V3.norm X - γ / 2 * (τ * V3.norm X) := by ring
      linarith
  · -- close to the obstacle
    rw [not_lt] at hfar
    have hz := (plane_of hc.smooth hc.plane hx).2
    have hc1 := near_centre hc.smooth hb hz (by linarith) hfar
    have e1 : x + V3.smul c.dt (V3.smul g (M.mulVec (c.desired x) + err + ρ)) - c.target =
        ((x - e.base.position) + (e.base.position - c.target)) +
          V3.smul (c.dt * g) ((M.mulVec (c.desired x) + err) + ρ) := by
      ext <;> simp only [V3.smul, V3.add_x, V3.add_y, V3.add_z, V3.sub_x, V3.sub_y, V3.sub_z] <;> ring
    rw [e1]
    have h2 := norm_add_le ((x - e.base.position) + (e.base.position - c.target))
      (V3.smul (c.dt * g) ((M.mulVec (c.desired x) + err) + ρ))
    have h3 := norm_add_le (x - e.base.position) (e.base.position - c.target)
    have h4 := norm_add_le (M.mulVec (c.desired x) + err) ρ
    have h5 := norm_add_le (M.mulVec (c.desired x)) err
    rw [V3.norm_smul, abs_of_pos (by positivity)] at h2
    have hgR : c.gain * V3.norm X ≤ c.gain * R := mul_le_mul_of_nonneg_left hr fK.le
    have h6 : V3.norm (M.mulVec (c.desired x)) ≤ 2 * κ * (c.gain * R) := by
      rw [hdn] at hMv
      exact le_trans hMv (mul_le_mul_of_nonneg_left hgR (by linarith))
    have h7 : V3.norm ((M.mulVec (c.desired x) + err) + ρ) ≤ 2 * κ * (1 + 1 / 10 ^ 8) * (c.gain * R) + 33 / 10 * L := by
      linarith
    have h8 : c.dt * g * V3.norm ((M.mulVec (c.desired x) + err) + ρ) ≤
        c.dt * (2 * κ * (1 + 1 / 10 ^ 8) * (c.gain * R) + 33 / 10 * L) := by
      refine mul_le_mul ?_ h7 (V3.norm_nonneg _) fdt.le
      nlinarith
    linarith

/-- the distance from the target does not grow beyond the bound -/
theorem relaxed_radius {c : Loop ℝ} {E : Env} {e : Ellipsoid ℝ} {p : Ptr} {m l L κ T R : ℝ} {k : ℕ} {start : V3 ℝ}
    (hc : LoopSetup c E e p m l k e.base.position) (hb : Between e m l L) (hκ : Aspect l L κ k)
    (hK : Kept c e.base.position start l L κ k T R) {x err ρ : V3 ℝ} {g : ℝ} (hx : x.z = 0)
    (h1 : 1 < gdist e m x) (hr : V3.norm (x - c.target) ≤ R) (hg0 : 0 < g) (hg1 : g ≤ 1)
    (herr : V3.norm err ≤ 1 / 10 ^ 8 * V3.norm ((ellItem e e.base.position x m).matrix.mulVec (c.desired x)))
    (hρ : (11 / 10 ≤ gdist e m x ∧ ρ = V3.zero) ∨
      (gdist e m x ≤ 11 / 10 ∧ ρ = V3.smul (2 / gdist e m x) (x - e.base.position))) :
    V3.norm (x + V3.smul c.dt (V3.smul g ((ellItem e e.base.position x m).matrix.mulVec (c.desired x) + err + ρ)) -
      c.target) < R := by
  have hl := hb.pos
  have hL : 0 < L := lt_of_lt_of_le hl (le_trans hb.x_ge hb.x_le)
  have hz := (plane_of hc.smooth hc.plane hx).2
  refine kept_radius hc hb hκ hK hx h1 hr hg0 hg1 herr (fun hfar => ?_) ?_
  · rcases hρ with ⟨-, h⟩ | ⟨h, -⟩
    · exact h
    · exfalso; linarith [hK.far]
  · rcases hρ with ⟨-, h⟩ | ⟨h, h'⟩
    · rw [h]
      have : V3.norm (V3.zero : V3 ℝ) = 0 := by simp [V3.norm, V3.sqNorm, V3.dot, V3.zero, CMath.sqrt]
      rw [this]; positivity
    · have hc2 := near_centre hc.smooth hb hz (by norm_num) h
      rw [h', V3.norm_smul, abs_of_pos (by positivity)]
      have h2 : 2 / gdist e m x ≤ 2 := by
        rw [div_le_iff₀ (by linarith)]; linarith
      have := mul_le_mul h2 hc2 (V3.norm_nonneg _) (by norm_num)
      linarith

/-- the distance from the surface does not shrink below the bound -/
theorem relaxed_gap {c : Loop ℝ} {E : Env} {e : Ellipsoid ℝ} {p : Ptr} {m l L κ T R η : ℝ} {k : ℕ} {start : V3 ℝ}
    (hc : LoopSetup c E e p m l k e.base.position) (hb : Between e m l L) (hκ : Aspect l L κ k)
    (hK : Kept c e.base.position start l L κ k T R) (hη : 0 < η)
    (hη1 : 10 * η + 2 * k * (c.dt * c.gain * ((1 + 22 / 10 ^ 8 * κ) * R)) / l < 1)
    (hη2 : η * (2 * k * (c.gain * R)) + 44 / 10 ^ 9 * κ * k * (c.gain * R) < 2 * l)
    {x err ρ : V3 ℝ} {g : ℝ} (hx : x.z = 0)
    (h1 : 1 + η ≤ gdist e m x) (hr : V3.norm (x - c.target) ≤ R) (hg0 : 0 < g) (hg1 : g ≤ 1)
    (herr : V3.norm err ≤ 1 / 10 ^ 8 * V3.norm ((ellItem e e.base.position x m).matrix.mulVec (c.desired x)))
    (hρ : (11 / 10 ≤ gdist e m x ∧ ρ = V3.zero) ∨
      (gdist e m x ≤ 11 / 10 ∧ ρ = V3.smul (2 / gdist e m x) (x - e.base.position))) :
    1 + η < gdist e m
      (x + V3.smul c.dt (V3.smul g ((ellItem e e.base.position x m).matrix.mulVec (c.desired x) + err + ρ))) := by
  have h1' : 1 < gdist e m x := by linarith
  obtain ⟨hM1, hM2, -⟩ := matrix_facts hc hb hκ hx h1'
  have hκ1 : 1 ≤ κ := aspect_one hb.pos (le_trans hb.x_ge hb.x_le) hκ
  have hl := hb.pos
  have hk1 : (1 : ℝ) ≤ k := by exact_mod_cast hc.smooth.curv.2.1
  have hR := hK.pos
  obtain ⟨fK, fdt, -, -, fT, -, -, -, -, -, -, fpush⟩ := hK
  have hdn : V3.norm (c.desired x) = c.gain * V3.norm (x - c.target) := by
    rw [show c.desired x = V3.smul (-c.gain) (x - c.target) from rfl, V3.norm_smul, abs_neg, abs_of_pos fK]
  have hgR : V3.norm (c.desired x) ≤ c.gain * R := by
    rw [hdn]; exact mul_le_mul_of_nonneg_left hr fK.le
  have hMv := hM2 (c.desired x)
  set M := (ellItem e e.base.position x m).matrix with hMdef
  have herr' : V3.norm err ≤ 2 / 10 ^ 8 * κ * (c.gain * R) := by
    have := mul_le_mul_of_nonneg_left hgR (by linarith : 0 ≤ 2 * κ)
    linarith
  have hsv := slope_level hc.smooth x (c.desired x)
  have hsρ := slope_level hc.smooth x ρ
  generalize dlevel (halfLengths e (V3.const m)) k (e.base.pose.inverse.apply x)
    (e.base.pose.orientation.conjugate.toM3.mulVec (c.desired x)) = s at hsv
  generalize dlevel (halfLengths e (V3.const m)) k (e.base.pose.inverse.apply x)
    (e.base.pose.orientation.conjugate.toM3.mulVec ρ) = σ at hsρ
  have htg : 0 < c.dt * g := mul_pos fdt hg0
  have hstep := step_bound hc.smooth hc.thick htg.le hsv (hM1 _ _ hsv) (le_max_left _ _) hsρ (err := err)
  have e1 : x + V3.smul c.dt (V3.smul g (M.mulVec (c.desired x) + err + ρ)) =
      x + V3.smul (c.dt * g) (M.mulVec (c.desired x) + err + ρ) := by
    ext <;> simp only [V3.smul, V3.add_x, V3.add_y, V3.add_z] <;> ring
  rw [e1]
  refine lt_of_lt_of_le ?_ hstep
  have hinv : 1 / gdist e m x ≤ 1 := by rw [div_le_one (by linarith)]; linarith
  rw [max_eq_right (by linarith : 0 ≤ 1 - 1 / gdist e m x), max_eq_right h1'.le]
  have hvn := V3.norm_nonneg (c.desired x)
  have hen := V3.norm_nonneg err
  have hσ : (11 / 10 ≤ gdist e m x ∧ σ = 0) ∨ (gdist e m x ≤ 11 / 10 ∧ 2 ≤ σ) := by
    rcases hρ with ⟨h, h'⟩ | ⟨h, h'⟩
    · left
      refine ⟨h, ?_⟩
      rw [h'] at hsρ
      have h2 := slope_smul hc.smooth 0 hsρ
      have h3 : V3.smul 0 (V3.zero : V3 ℝ) = V3.zero := by ext <;> simp [V3.smul, V3.zero]
      rw [h3, zero_mul] at h2
      exact hsρ.unique h2
    · right
      refine ⟨h, ?_⟩
      rw [h'] at hsρ
      have h2 := (near_push hc.smooth hc.thick (ref := e.base.position)
        (by rw [gdist_centre hc.smooth]; linarith) h1' h).2 σ hsρ
      rw [gdist_centre hc.smooth] at h2
      linarith
  clear hstep hsρ hsv hM1 hM2 hρ hMv hdn
  generalize gdist e m x = f at *
  generalize V3.norm (c.desired x) = v at *
  generalize V3.norm err = w at *
  have hf0 : 0 < f := by linarith
  -- the two losses
  set t := c.dt * g with ht
  set a := 2 * k * (c.dt * (c.gain * R)) / l with ha
  set b := 2 * k * (c.dt * (2 / 10 ^ 8 * κ * (c.gain * R))) / l with hb'
  have ha0 : 0 ≤ a := by positivity
  have hb0 : 0 ≤ b := by positivity
  have hA : t * ((1 - 1 / f) * (2 * k * f * (v / l))) ≤ g * ((f - 1) * a) := by
    have h2 : t * ((1 - 1 / f) * (2 * k * f * (v / l))) = g * ((f - 1) * (2 * k * (c.dt * v) / l)) := by
      rw [ht]; field_simp
    rw [h2, ha]
    refine mul_le_mul_of_nonneg_left (mul_le_mul_of_nonneg_left ?_ (by linarith)) hg0.le
    exact div_le_div_of_nonneg_right (mul_le_mul_of_nonneg_left (mul_le_mul_of_nonneg_left hgR fdt.le) (by positivity)) hl.le
  have hB : t * (2 * k * f * (w / l)) ≤ g * (f * b) := by
    have h2 : t * (2 * k * f * (w / l)) = g * (f * (2 * k * (c.dt * w) / l)) := by
      rw [ht]; field_simp
    rw [h2, hb']
    refine mul_le_mul_of_nonneg_left (mul_le_mul_of_nonneg_left ?_ hf0.le) hg0.le
    exact div_le_div_of_nonneg_right (mul_le_mul_of_nonneg_left (mul_le_mul_of_nonneg_left herr' fdt.le) (by positivity)) hl.le
  have hab : 10 * η + a + 11 * b < 1 := by
    refine lt_of_le_of_lt (le_of_eq ?_) hη1
    rw [ha, hb']; field_simp; ring
  rcases hσ with ⟨hf, rfl⟩ | ⟨hf, h2σ⟩
  · have h2 : g * ((f - 1) * a) ≤ (f - 1) * a := by
      have : 0 ≤ (f - 1) * a := mul_nonneg (by linarith) ha0
      nlinarith
    have h3 : g * (f * b) ≤ 11 * ((f - 1) * b) := by
      have h4 : 0 ≤ f * b := mul_nonneg hf0.le hb0
      have h5 : g * (f * b) ≤ f * b := by nlinarith
      have h6 : f * b ≤ 11 * (f - 1) * b := mul_le_mul_of_nonneg_right (by linarith) hb0
      linarith
    have h4 : 0 ≤ (f - 1 - 1 / 10) * (1 - a - 11 * b) := mul_nonneg (by linarith) (by linarith)
    linarith
  · have h2 : 0 ≤ (f - 1 - η) * (1 - g * a) := by
      refine mul_nonneg (by linarith) ?_
      have : g * a ≤ a := by nlinarith
      linarith
    have h3 : g * (f * b) ≤ g * (11 / 10 * b) :=
      mul_le_mul_of_nonneg_left (mul_le_mul_of_nonneg_right hf hb0) hg0.le
    have h4 : t * 2 ≤ t * σ := mul_le_mul_of_nonneg_left h2σ htg.le
    have h5 : η * a + 11 / 10 * b < 2 * c.dt := by
      have h6 : η * a + 11 / 10 * b = (η * (2 * k * (c.gain * R)) + 44 / 10 ^ 9 * κ * k * (c.gain * R)) * (c.dt / l) := by
        rw [ha, hb']; field_simp; ring
      rw [h6]
      have h7 := mul_lt_mul_of_pos_right hη2 (div_pos fdt hl)
      refine lt_of_lt_of_le h7 (le_of_eq ?_)
      field_simp
    have h6 : g * (η * a + 11 / 10 * b) < g * (2 * c.dt) := mul_lt_mul_of_pos_left h5 hg0
    have h7 : t * 2 = g * (2 * c.dt) := by rw [ht]; ring
    linarith

/-- there is such a bound, below any given one -/
theorem relaxed_eta {c : Loop ℝ} {centre start : V3 ℝ} {l L κ T R d : ℝ} {k : ℕ} (hl : 0 < l)
    (hK : Kept c centre start l L κ k T R) (hd : 0 < d) :
    ∃ η, 0 < η ∧ η ≤ d ∧ 10 * η + 2 * k * (c.dt * c.gain * ((1 + 22 / 10 ^ 8 * κ) * R)) / l < 1 ∧
      η * (2 * k * (c.gain * R)) + 44 / 10 ^ 9 * κ * k * (c.gain * R) < 2 * l := by
  have hR := hK.pos
  have hg := hK.gain
  have hs := hK.step
  have he := hK.error
  rw [← div_lt_one hl] at hs
  generalize 2 * k * (c.dt * c.gain * ((1 + 22 / 10 ^ 8 * κ) * R)) / l = a at *
  set P := 2 * k * (c.gain * R) with hP
  have hP0 : 0 ≤ P := by positivity
  have he' : 44 / 10 ^ 9 * κ * k * (c.gain * R) < 2 * l := by linarith
  generalize 44 / 10 ^ 9 * κ * k * (c.gain * R) = b at *
  refine ⟨min d (min ((1 - a) / 20) ((2 * l - b) / (2 * (P + 1)))), ?_, min_le_left _ _, ?_, ?_⟩
  · refine lt_min hd (lt_min (by linarith) (div_pos (by linarith) (by linarith)))
  · have : min d (min ((1 - a) / 20) ((2 * l - b) / (2 * (P + 1)))) ≤ (1 - a) / 20 :=
      le_trans (min_le_right _ _) (min_le_left _ _)
    linarith
  · have h1 : min d (min ((1 - a) / 20) ((2 * l - b) / (2 * (P + 1)))) ≤ (2 * l - b) / (2 * (P + 1)) :=
      le_trans (min_le_right _ _) (min_le_right _ _)
    have h2 := mul_le_mul_of_nonneg_right h1 hP0
    have h3 : (2 * l - b) / (2 * (P + 1)) * P < 2 * l - b := by
      rw [div_mul_eq_mul_div, div_lt_iff₀ (by linarith)]
      nlinarith
    linarith

end DOA.Modulation
