import Verif.Lemmas.Oblique
import Verif.Props.HullWall

/-!
# One step of the control loop around an ellipse, in the frame of the line from the centre to the target
-/

set_option linter.unusedSectionVars false
set_option linter.unusedSimpArgs false

namespace DOA.EllipseStep
open DOA DOA.Spec DOA.Props

variable {r τ n : V3 ℝ} {G α β δ k t κ l R : ℝ}

/-- the quotient of the normal components of target and position -/
noncomputable def quot (n r τ : V3 ℝ) : ℝ := V3.dot n τ / V3.dot n r

/-- the factor of the target after the step -/
noncomputable def nu (G α β δ t : ℝ) : ℝ := t * G * (α * (1 + δ) + β)

/-- the factor of the position after the step -/
noncomputable def mu (σ G α β δ k t : ℝ) : ℝ := 1 - nu G α β δ t - 2 * t * α * δ * (G * (σ - 1)) + t * k

theorem step_form (hnr : V3.dot n r ≠ 0) :
    r + V3.smul t (V3.smul α (V3.smul (1 + δ) (V3.smul G (τ - r)) -
      V3.smul (2 * δ * (V3.dot n (V3.smul G (τ - r)) / V3.dot n r)) r) + V3.smul β (V3.smul G (τ - r)) + V3.smul k r) =
    V3.smul (mu (quot n r τ) G α β δ k t) r + V3.smul (nu G α β δ t) τ := by
  have h1 : V3.dot n (V3.smul G (τ - r)) / V3.dot n r = G * (quot n r τ - 1) := by
    unfold quot
    have : V3.dot n (V3.smul G (τ - r)) = G * (V3.dot n τ - V3.dot n r) := by
      simp only [V3.dot, V3.smul, V3.sub_x, V3.sub_y, V3.sub_z]; ring
    rw [this]; field_simp
  rw [h1]
  unfold mu nu
  ext <;> simp only [V3.smul, V3.add_x, V3.add_y, V3.add_z, V3.sub_x, V3.sub_y, V3.sub_z] <;> ring

theorem step_along (σ P T : ℝ) :
    mu σ G α β δ k t * P + nu G α β δ t * T =
      P + t * G * (α * (1 - δ) + β) * (T - P) + 2 * t * α * δ * G * (T - σ * P) + t * k * P := by
  unfold mu nu; ring

theorem abs_dot_unit (hn : V3.norm n = 1) (u : V3 ℝ) : |V3.dot n u| ≤ V3.norm u := by
  apply abs_le_of_sq_le_sq _ (V3.norm_nonneg _)
  have h1 := V3.cauchy_schwarz n u
  rw [(V3.norm_eq_one_iff n).mp hn, one_mul] at h1
  rw [sq (V3.norm u), V3.norm_sq]
  rw [sq]; exact h1

/-- the step turns the agent: `T - σ P` is small near the line -/
theorem quot_along (hn : V3.norm n = 1) (hs : Slanted n r κ) (hl : 0 < l) (hlr : l ≤ V3.norm r) (hrz : r.z = 0) (hτz : τ.z = 0)
    (hT : 0 < V3.norm τ) :
    |V3.norm τ - quot n r τ * (V3.dot r τ / V3.norm τ)| ≤ V3.norm τ * κ / l * |turn r τ / V3.norm τ| := by
  obtain ⟨h0, h1⟩ := hs
  set T := V3.norm τ with hTd
  set P := V3.dot r τ / T with hP
  have hκ : 0 < κ := by
    by_contra hneg
    have := mul_nonpos_of_nonpos_of_nonneg (not_lt.mp hneg) h0.le
    linarith
  have e1 : T - quot n r τ * P = V3.dot n (V3.smul T r - V3.smul P τ) / V3.dot n r := by
    unfold quot
    have : V3.dot n (V3.smul T r - V3.smul P τ) = T * V3.dot n r - P * V3.dot n τ := by
      simp only [V3.dot, V3.smul, V3.sub_x, V3.sub_y, V3.sub_z]; ring
    rw [this]; field_simp
  have e2 : V3.norm (V3.smul T r - V3.smul P τ) = T * |turn r τ / T| := by
    have h2 : V3.norm (V3.smul T r - V3.smul P τ) ^ 2 = (T * |turn r τ / T|) ^ 2 := by
      rw [sq, V3.norm_sq, mul_pow, sq_abs, div_pow, mul_div_cancel₀ _ (by positivity)]
      have h3 : V3.sqNorm (V3.smul T r - V3.smul P τ) = T ^ 2 * V3.sqNorm r - 2 * (P * T) * V3.dot r τ + P ^ 2 * V3.sqNorm τ := by
        simp only [V3.sqNorm, V3.dot, V3.smul, V3.sub_x, V3.sub_y, V3.sub_z]; ring
      have h4 : P * T = V3.dot r τ := by rw [hP]; field_simp
      have h5 : V3.sqNorm τ = T ^ 2 := by rw [← V3.norm_sq, sq]
      have h6 : P ^ 2 * V3.sqNorm τ = V3.dot r τ ^ 2 := by rw [h5, ← mul_pow, h4]
      rw [h3, h4, h6, ← h5]
      simp only [V3.sqNorm, V3.dot, turn, hrz, hτz]; ring
    exact (pow_left_inj₀ (V3.norm_nonneg _) (by positivity) two_ne_zero).mp h2
  have e3 := abs_dot_unit hn (V3.smul T r - V3.smul P τ)
  rw [e2] at e3
  rw [e1, abs_div, abs_of_pos h0, div_le_iff₀ h0]
  have e4 : l ≤ κ * V3.dot n r := hlr.trans h1
  have e5 : 1 ≤ κ / l * V3.dot n r := by rw [div_mul_eq_mul_div, le_div_iff₀ hl]; linarith
  have e6 := mul_le_mul_of_nonneg_left e5 (by positivity : 0 ≤ T * |turn r τ / T|)
  have e7 : T * κ / l * |turn r τ / T| * V3.dot n r = T * |turn r τ / T| * (κ / l * V3.dot n r) := by ring
  rw [e7]
  linarith

theorem quot_bound (hn : V3.norm n = 1) (hs : Slanted n r κ) (hl : 0 < l) (hlr : l ≤ V3.norm r) (hR : V3.norm (τ - r) ≤ R) :
    |quot n r τ - 1| ≤ κ * R / l := by
  obtain ⟨h0, h1⟩ := hs
  have hR0 : 0 ≤ R := (V3.norm_nonneg _).trans hR
  have e1 : quot n r τ - 1 = V3.dot n (τ - r) / V3.dot n r := by
    unfold quot
    have : V3.dot n (τ - r) = V3.dot n τ - V3.dot n r := by simp only [V3.dot, V3.sub_x, V3.sub_y, V3.sub_z]; ring
    rw [this]; field_simp
  have e3 := (abs_dot_unit hn (τ - r)).trans hR
  rw [e1, abs_div, abs_of_pos h0, div_le_iff₀ h0, div_mul_eq_mul_div, le_div_iff₀ hl]
  have e4 : l ≤ κ * V3.dot n r := hlr.trans h1
  have e5 := mul_le_mul e3 e4 hl.le hR0
  linarith

/-- all factors have the right sign for small steps -/
theorem signs {σ : ℝ} (hG : 0 < G) (ht : 0 < t) (hα1 : 1 ≤ α) (hα2 : α ≤ 1 + 1 / 10 ^ 8) (hβ0 : 0 ≤ β) (hκ : 1 ≤ κ)
    (hβ : β ≤ 2 / 10 ^ 8 * κ) (hδ0 : 0 ≤ δ) (hδ1 : δ ≤ 1) (hk : 0 ≤ k) (hl : 0 < l) (hlR : l ≤ R)
    (hσ : |σ - 1| ≤ κ * R / l) (hshort : 5 * κ * (t * (G * R)) ≤ l) :
    0 < mu σ G α β δ k t ∧ t * G ≤ nu G α β δ t ∧ t * G * (α * (1 - δ) + β) ≤ 1 ∧
      t * G * (α * (1 - δ) + β) * R ≤ 21 / 50 * l ∧ t * G * (1 - δ) ≤ t * G * (α * (1 - δ) + β) := by
  have htG : 0 < t * G := mul_pos ht hG
  have hR : 0 < R := lt_of_lt_of_le hl hlR
  -- κ t G ≤ l / (5 R) ≤ 1/5
  have a1 : κ * (t * G) * R ≤ l / 5 := by linarith
  have a2 : κ * (t * G) ≤ 1 / 5 := by
    by_contra hn
    have h1 : 1 / 5 * R < κ * (t * G) * R := mul_lt_mul_of_pos_right (not_le.mp hn) hR
    linarith
  have a3 : t * G ≤ κ * (t * G) := le_mul_of_one_le_left htG.le hκ
  have b1 : α * (1 - δ) ≤ 1 + 1 / 10 ^ 8 := by
    have := mul_le_mul hα2 (by linarith : 1 - δ ≤ 1) (by linarith) (by norm_num)
    linarith
  have b2 : α * (1 + δ) ≤ 2 * (1 + 1 / 10 ^ 8) := by
    have := mul_le_mul hα2 (by linarith : 1 + δ ≤ 2) (by linarith) (by norm_num)
    linarith
  have c1 : t * G * (α * (1 - δ) + β) ≤ 11 / 10 * (κ * (t * G)) := by
    have h1 : α * (1 - δ) + β ≤ 11 / 10 * κ := by norm_num at b1 hβ ⊢; linarith
    have := mul_le_mul_of_nonneg_left h1 htG.le
    linarith
  have c2 : nu G α β δ t ≤ 21 / 10 * (κ * (t * G)) := by
    have h1 : α * (1 + δ) + β ≤ 21 / 10 * κ := by norm_num at b2 hβ ⊢; linarith
    have := mul_le_mul_of_nonneg_left h1 htG.le
    unfold nu
    linarith
  have hnn : 0 ≤ α * (1 - δ) := mul_nonneg (by linarith) (by linarith)
  have hσ' : |2 * t * α * δ * (G * (σ - 1))| ≤ 41 / 100 := by
    have h1 : 2 * t * α * δ * (G * (σ - 1)) = 2 * (α * δ) * (t * G) * (σ - 1) := by ring
    have h2 : α * δ ≤ 1 + 1 / 10 ^ 8 := by
      have := mul_le_mul hα2 hδ1 hδ0 (by norm_num)
      linarith
    have h3 : 0 ≤ α * δ := mul_nonneg (by linarith) hδ0
    rw [h1, abs_mul, abs_of_nonneg (by positivity)]
    have h4 : t * G * |σ - 1| ≤ 1 / 5 := by
      have h5 := mul_le_mul_of_nonneg_left hσ htG.le
      have h6 : t * G * (κ * R / l) = κ * (t * G) * R / l := by ring
      have h7 : κ * (t * G) * R / l ≤ 1 / 5 := by rw [div_le_iff₀ hl]; linarith
      linarith
    have h8 := mul_le_mul h2 h4 (mul_nonneg htG.le (abs_nonneg _)) (by norm_num)
    norm_num at h8 ⊢
    linarith
  refine ⟨?_, ?_, by linarith, ?_, ?_⟩
  · have := (abs_le.mp hσ').2
    have : 0 ≤ t * k := mul_nonneg ht.le hk
    unfold mu
    linarith
  · unfold nu
    apply le_mul_of_one_le_right htG.le
    have : 1 ≤ α * (1 + δ) := one_le_mul_of_one_le_of_one_le hα1 (by linarith)
    linarith
  · have := mul_le_mul_of_nonneg_right c1 hR.le
    linarith
  · apply mul_le_mul_of_nonneg_left _ htG.le
    have : 1 - δ ≤ α * (1 - δ) := le_mul_of_one_le_left (by linarith) hα1
    linarith

end DOA.EllipseStep
