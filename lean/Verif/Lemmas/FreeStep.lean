import Verif.Lemmas.EllipseStep
import Verif.Props.MovingLoop

/-!
# One step of the control loop around an ellipse without repulsion

The velocity that is returned is a combination of the modulated and of the desired velocity, where the part of the latter is
tiny. The agent does not enter the ellipse, unless the steps are absurdly short.
-/

set_option linter.unusedSectionVars false
set_option linter.unusedSimpArgs false

namespace DOA.FreeStep
open DOA DOA.Spec DOA.Props DOA.Modulation DOA.Ellipsoid

/-- The inequality behind the step: `f` the distance, `a` the velocity towards the centre times the distance from it (`N`), `W`
the velocity along the surface, `V`, `M`, `U` the lengths of the desired, the modulated and the returned velocity. -/
theorem scalar {f δ a N W V M U α β κ t l L : ℝ} (hf : 1 < f) (hδ : δ * f = 1) (hl : 0 < l) (hL : 0 < L) (hlN : l ≤ N)
    (ha : 0 < a) (hW0 : 0 ≤ W) (hκ1 : 1 ≤ κ) (hκ2 : κ ≤ 1000) (hα1 : 1 ≤ α) (hα2 : α ≤ 1 + 1 / 10 ^ 8) (hβ0 : 0 ≤ β)
    (hβκ : β ≤ 2 / 10 ^ 8 * κ) (ht : 0 < t) (hVa : a ≤ κ * V) (hV : V ≤ a + W) (hWV : W ≤ V + a)
    (hM : M ≤ (1 - δ) * a + (1 + δ) * W) (hβM : β * V ≤ 1 / 10 ^ 8 * M)
    (hU : (α * (1 + δ) + β) * W - (α * (1 - δ) + β) * a ≤ U)
    (hang : β = 0 ∨ 2 * δ * (a / κ) * W ≤ 1 / 10000 * (V * M)) (hshort : 5 * κ * (t * V) ≤ l)
    (hlong : 1 / 10 ^ 10 ≤ f - 1 ∨ κ * L ^ 2 ≤ 10 ^ 10 * (t * V * l)) :
    1 < f - 2 * t * (a / N) * (α * (f - 1) + β * f) + t ^ 2 * U ^ 2 / L ^ 2 := by
  have hN : 0 < N := lt_of_lt_of_le hl hlN
  have hκ : 0 < κ := by linarith
  have hV0 : 0 < V := by
    by_contra hn
    have := mul_nonpos_of_nonneg_of_nonpos hκ.le (not_lt.mp hn)
    linarith
  set ρ := a / N with hρ
  have hρ0 : 0 < ρ := div_pos ha hN
  have hρl : ρ * l ≤ a := by
    have : ρ * N = a := by rw [hρ]; field_simp
    have := mul_le_mul_of_nonneg_left hlN hρ0.le
    linarith
  have htρ : t * ρ ≤ 1 / 5 := by
    have h1 : 5 * (t * ρ) * l ≤ 1 * l := by
      have h2 := mul_le_mul_of_nonneg_left (hρl.trans hVa) ht.le
      linarith
    have := le_of_mul_le_mul_right h1 hl
    linarith
  have htρ0 : 0 < t * ρ := mul_pos ht hρ0
  have hf1 : 0 < f - 1 := by linarith
  have hgain : 0 ≤ t ^ 2 * U ^ 2 / L ^ 2 := by positivity
  -- the first loss
  have hA : 2 * (t * ρ) * (α * (f - 1)) ≤ 201 / 500 * (f - 1) := by
    have h1 : t * ρ * α ≤ 1 / 5 * (1 + 1 / 10 ^ 8) := mul_le_mul htρ hα2 (by linarith) (by norm_num)
    have h2 := mul_le_mul_of_nonneg_right h1 hf1.le
    norm_num at h2
    linarith
  have hsplit : f - 2 * t * ρ * (α * (f - 1) + β * f) + t ^ 2 * U ^ 2 / L ^ 2 =
      f - 2 * (t * ρ) * (α * (f - 1)) - 2 * (t * ρ) * (β * f) + t ^ 2 * U ^ 2 / L ^ 2 := by ring
  rw [hsplit]
  -- the second loss
  suffices hB : 2 * (t * ρ) * (β * f) ≤ 1 / 10 * (f - 1) ∨
      2 * (t * ρ) * (β * f) < t ^ 2 * U ^ 2 / L ^ 2 ∨ 2 * (t * ρ) * (β * f) < 1 / 2 * (f - 1) by
    rcases hB with h | h | h <;> linarith
  rcases hang with h0 | hang
  · left; rw [h0]; linarith
  have small : ∀ b, b ≤ 1 / 10 * (f - 1) → β * f ≤ b → 2 * (t * ρ) * (β * f) ≤ 1 / 10 * (f - 1) := by
    intro b hb1 hb2
    have h1 := mul_le_mul htρ (hb2.trans hb1) (mul_nonneg hβ0 (by linarith)) (by norm_num)
    linarith
  have hβ5 : β ≤ 2 / 10 ^ 5 := by norm_num at hβκ ⊢; linarith
  by_cases h2 : 2 ≤ f
  · left
    refine small (2 / 10 ^ 5 * f) (by norm_num; linarith) (mul_le_mul_of_nonneg_right hβ5 (by linarith))
  have hf2 : f < 2 := not_le.mp h2
  have hδ0 : 1 / 2 < δ := by
    by_contra hn
    have := mul_le_mul_of_nonneg_right (not_lt.mp hn) (by linarith : 0 ≤ f)
    linarith
  have hδ1 : δ < 1 := by
    by_contra hn
    have := mul_le_mul_of_nonneg_right (not_lt.mp hn) (by linarith : 0 ≤ f)
    linarith
  have hδf : (1 - δ) * f = f - 1 := by linarith
  have hang2 : a * W ≤ κ * (1 / 10000 * (V * M)) := by
    have h3 := mul_le_mul_of_nonneg_left hang hκ.le
    have h4 : κ * (2 * δ * (a / κ) * W) = 2 * δ * (a * W) := by field_simp
    rw [h4] at h3
    have : a * W ≤ 2 * δ * (a * W) := le_mul_of_one_le_left (by positivity) (by linarith)
    linarith
  by_cases hWa : W ≤ a
  · -- straight towards the centre
    left
    have hV2 : V ≤ 2 * a := by linarith
    have h3 : W ≤ 1 / 5000 * κ * M := by
      by_cases hM0 : 0 ≤ M
      · have h4 : a * W ≤ a * (1 / 5000 * κ * M) := by
          have := mul_le_mul_of_nonneg_right hV2 hM0
          have := mul_le_mul_of_nonneg_left this hκ.le
          linarith
        exact le_of_mul_le_mul_left h4 ha
      · exfalso
        have h4 : 0 ≤ a * W := by positivity
        have h5 : V * M < 0 := mul_neg_of_pos_of_neg hV0 (not_le.mp hM0)
        have := mul_neg_of_pos_of_neg hκ h5
        linarith
    have hM0 : 0 ≤ M := by
      by_contra hn
      have := mul_neg_of_pos_of_neg hκ (not_le.mp hn)
      linarith
    have h4 : κ * M ≤ 1000 * M := mul_le_mul_of_nonneg_right hκ2 hM0
    have h5 : (1 + δ) * W ≤ 2 * W := mul_le_mul_of_nonneg_right (by linarith) hW0
    have h6 : M ≤ 2 * ((1 - δ) * a) := by linarith
    have h7 : β * V ≤ 2 / 10 ^ 5 * (1 - δ) * V := by
      have h8 := mul_le_mul_of_nonneg_left hVa (by linarith : 0 ≤ 1 - δ)
      have h9 : (1 - δ) * (κ * V) ≤ (1 - δ) * (1000 * V) :=
        mul_le_mul_of_nonneg_left (mul_le_mul_of_nonneg_right hκ2 hV0.le) (by linarith)
      norm_num at hβM ⊢
      linarith
    have h8 := le_of_mul_le_mul_right h7 hV0
    refine small (2 / 10 ^ 5 * (f - 1)) (by norm_num; linarith) ?_
    have := mul_le_mul_of_nonneg_right h8 (by linarith : 0 ≤ f)
    rw [mul_assoc, hδf] at this
    exact this
  · -- along the surface
    right
    have hWa' : a < W := not_le.mp hWa
    have hWp : 0 < W := by linarith
    have hM2 : M ≤ 2 * W := by
      have := mul_le_mul_of_nonneg_left hWa'.le (by linarith : 0 ≤ 1 - δ)
      linarith
    have h3 : a ≤ 4 / 10000 * κ * W := by
      have h4 : V * M ≤ 2 * W * (2 * W) := by
        refine (mul_le_mul_of_nonneg_left hM2 hV0.le).trans ?_
        exact mul_le_mul_of_nonneg_right (by linarith) (by positivity)
      have h5 := mul_le_mul_of_nonneg_left h4 hκ.le
      have h6 : a * W ≤ (4 / 10000 * κ * W) * W := by linarith
      exact le_of_mul_le_mul_right h6 hWp
    have h4 : a ≤ 2 / 5 * W := by
      have := mul_le_mul_of_nonneg_right hκ2 hWp.le
      linarith
    have h5 : W ≤ 5 / 3 * V := by linarith
    have h6 : β ≤ 4 / 10 ^ 8 := by
      have : β * V ≤ 4 / 10 ^ 8 * V := by norm_num at hβM ⊢; linarith
      exact le_of_mul_le_mul_right this hV0
    -- the loss
    have h7 : 2 * (t * ρ) * (β * f) * l ≤ 64 / 10 ^ 12 * κ * (t * W) := by
      have h8 : β * f ≤ 8 / 10 ^ 8 := by
        have := mul_le_mul h6 hf2.le (by linarith) (by norm_num)
        norm_num at this ⊢
        linarith
      have h9 : t * (ρ * l) ≤ t * (4 / 10000 * κ * W) := mul_le_mul_of_nonneg_left (hρl.trans h3) ht.le
      have h10 := mul_le_mul h9 h8 (mul_nonneg hβ0 (by linarith)) (by positivity)
      norm_num at h10 ⊢
      linarith
    rcases hlong with hlong | hlong
    · right
      have h8 : κ * (t * W) ≤ 1 / 3 * l := by
        have := mul_le_mul_of_nonneg_left h5 (mul_pos hκ ht).le
        linarith
      have h9 : 2 * (t * ρ) * (β * f) * l ≤ 22 / 10 ^ 12 * l := by
        norm_num at h7 ⊢
        linarith
      have h10 := le_of_mul_le_mul_right h9 hl
      norm_num at hlong h10 ⊢
      linarith
    · left
      have hWU : W ≤ U := by
        refine le_trans ?_ hU
        have h8 : (α * (1 - δ) + β) * a ≤ (α * (1 - δ) + β) * (2 / 5 * W) :=
          mul_le_mul_of_nonneg_left h4 (by have := mul_nonneg (by linarith : 0 ≤ α) (by linarith : 0 ≤ 1 - δ); linarith)
        have h9 : 1 ≤ (α * (1 + δ) + β) - (α * (1 - δ) + β) * (2 / 5) := by
          have : (α * (1 + δ) + β) - (α * (1 - δ) + β) * (2 / 5) = α * (3 / 5 + 7 / 5 * δ) + 3 / 5 * β := by ring
          rw [this]
          have : 1 ≤ α * (3 / 5 + 7 / 5 * δ) := one_le_mul_of_one_le_of_one_le hα1 (by linarith)
          linarith
        have := mul_le_mul_of_nonneg_right h9 hWp.le
        linarith
      rw [lt_div_iff₀ (by positivity)]
      have hV3 : V ≤ 7 / 5 * W := by linarith
      have h8 : 64 / 10 ^ 12 * κ * L ^ 2 < t * W * l := by
        have h9 : t * V * l ≤ t * (7 / 5 * W) * l :=
          mul_le_mul_of_nonneg_right (mul_le_mul_of_nonneg_left hV3 ht.le) hl.le
        have : 0 < t * W * l := by positivity
        norm_num at hlong ⊢
        linarith
      have h9 : 2 * (t * ρ) * (β * f) * L ^ 2 * l < t ^ 2 * W ^ 2 * l := by
        have h10 := mul_le_mul_of_nonneg_right h7 (sq_nonneg L)
        have h11 := mul_lt_mul_of_pos_right h8 (mul_pos ht hWp)
        norm_num at h10 h11 ⊢
        linarith
      have h10 := lt_of_mul_lt_mul_right h9 hl.le
      refine lt_of_lt_of_le h10 ?_
      exact mul_le_mul_of_nonneg_left (pow_le_pow_left₀ hW0 hWU 2) (by positivity)

/-- in the plane, the product of `r` with a vector orthogonal to `n` -/
theorem cross_ge {n r w : V3 ℝ} (hn : V3.norm n = 1) (hrz : r.z = 0) (hwz : w.z = 0) (hw : V3.dot n w = 0) :
    V3.dot n r * V3.norm w ≤ |r.x * w.y - r.y * w.x| := by
  apply abs_le_of_sq_le_sq' _ (abs_nonneg _) |>.2
  rw [sq_abs, mul_pow, sq (V3.norm w), V3.norm_sq]
  have h1 := (V3.norm_eq_one_iff n).mp hn
  simp only [V3.sqNorm, V3.dot, hrz, hwz, mul_zero, add_zero] at h1 hw ⊢
  have e1 : n.x * (r.x * w.y - r.y * w.x) = w.y * (n.x * r.x + n.y * r.y) := by linear_combination (-r.y) * hw
  have e2 : n.y * (r.x * w.y - r.y * w.x) = -(w.x * (n.x * r.x + n.y * r.y)) := by linear_combination r.x * hw
  have e3 : (n.x * r.x + n.y * r.y) ^ 2 * (w.x * w.x + w.y * w.y) =
      (n.x * n.x + n.y * n.y) * (r.x * w.y - r.y * w.x) ^ 2 := by
    have h2 : (n.x * n.x + n.y * n.y) * (r.x * w.y - r.y * w.x) ^ 2 =
        (n.x * (r.x * w.y - r.y * w.x)) ^ 2 + (n.y * (r.x * w.y - r.y * w.x)) ^ 2 := by ring
    rw [h2, e1, e2]; ring
  rw [e3]
  have h3 : n.x * n.x + n.y * n.y ≤ 1 := by nlinarith [mul_self_nonneg n.z]
  exact mul_le_of_le_one_left (sq_nonneg _) h3

/-- the step in terms of vectors: the velocity points towards the obstacle -/
theorem vectors {n r v Mv : V3 ℝ} {f α β κ t l L : ℝ} (hn : V3.norm n = 1) (hsl : Slanted n r κ) (hrz : r.z = 0) (hvz : v.z = 0)
    (hf : 1 < f) (hl : 0 < l) (hL : 0 < L) (hlr : l ≤ V3.norm r)
    (hM : Mv = V3.smul (1 + 1 / f) v - V3.smul (2 * (1 / f) * (V3.dot n v / V3.dot n r)) r) (hnv : V3.dot n v < 0)
    (hκ1 : 1 ≤ κ) (hκ2 : κ ≤ 1000) (hα1 : 1 ≤ α) (hα2 : α ≤ 1 + 1 / 10 ^ 8) (hβ0 : 0 ≤ β) (hβκ : β ≤ 2 / 10 ^ 8 * κ)
    (ht : 0 < t) (hβM : β * V3.norm v ≤ 1 / 10 ^ 8 * V3.norm Mv)
    (hang : β = 0 ∨ |v.x * Mv.y - v.y * Mv.x| ≤ 1 / 10000 * (V3.norm v * V3.norm Mv))
    (hshort : 5 * κ * (t * V3.norm v) ≤ l)
    (hlong : 1 / 10 ^ 10 ≤ f - 1 ∨ κ * L ^ 2 ≤ 10 ^ 10 * (t * V3.norm v * l)) :
    1 < f + t * ((α * (1 - 1 / f) + β) * (2 * f * (V3.dot n v / V3.dot n r))) +
      t ^ 2 * V3.norm (V3.smul α Mv + V3.smul β v) ^ 2 / L ^ 2 := by
  obtain ⟨hr0, hr1⟩ := hsl
  have hf0 : 0 < f := by linarith
  have hN : 0 < V3.norm r := lt_of_lt_of_le hl hlr
  have hκ : 0 < κ := by linarith
  set δ := 1 / f with hδ
  have hδf : δ * f = 1 := by rw [hδ]; field_simp
  have hδ0 : 0 < δ := by positivity
  have hδ1 : δ < 1 := by rw [hδ, div_lt_one hf0]; exact hf
  set ρ := -(V3.dot n v / V3.dot n r) with hρ
  have hρ0 : 0 < ρ := by rw [hρ, neg_pos]; exact div_neg_of_neg_of_pos hnv hr0
  have hq : V3.dot n v / V3.dot n r = -ρ := by rw [hρ, neg_neg]
  have hnv' : V3.dot n v = -(ρ * V3.dot n r) := by rw [hρ]; field_simp
  set w := v + V3.smul ρ r with hw
  have hwz : w.z = 0 := by rw [hw]; simp [V3.smul, hvz, hrz]
  have hnw : V3.dot n w = 0 := by
    have : V3.dot n w = V3.dot n v + ρ * V3.dot n r := by rw [hw]; simp only [V3.dot, V3.smul, V3.add_x, V3.add_y, V3.add_z]; ring
    rw [this, hnv']; ring
  have hv : v = w + V3.smul (-ρ) r := by rw [hw]; v3_ring
  rw [hq] at hM ⊢
  have hMw : Mv = V3.smul (1 + δ) w + V3.smul (-((1 - δ) * ρ)) r := by
    rw [hM, hw]
    ext <;> simp only [V3.smul, V3.add_x, V3.add_y, V3.add_z, V3.sub_x, V3.sub_y, V3.sub_z] <;> ring
  have hUw : V3.smul (α * (1 + δ) + β) w = (V3.smul α Mv + V3.smul β v) + V3.smul ((α * (1 - δ) + β) * ρ) r := by
    rw [hMw, hw]
    ext <;> simp only [V3.smul, V3.add_x, V3.add_y, V3.add_z, V3.sub_x, V3.sub_y, V3.sub_z] <;> ring
  have hαδ : 0 ≤ α * (1 - δ) + β := by
    have := mul_nonneg (by linarith : 0 ≤ α) (by linarith : 0 ≤ 1 - δ)
    linarith
  have key := scalar (f := f) (δ := δ) (a := ρ * V3.norm r) (N := V3.norm r) (W := V3.norm w) (V := V3.norm v) (M := V3.norm Mv)
    (U := V3.norm (V3.smul α Mv + V3.smul β v)) (α := α) (β := β) (κ := κ) (t := t) (l := l) (L := L) hf hδf hl hL hlr
    (mul_pos hρ0 hN) (V3.norm_nonneg _) hκ1 hκ2 hα1 hα2 hβ0 hβκ ht ?_ ?_ ?_ ?_ hβM ?_ ?_ hshort hlong
  · have e1 : ρ * V3.norm r / V3.norm r = ρ := by field_simp
    rw [e1] at key
    refine lt_of_lt_of_le key (le_of_eq ?_)
    have e2 : (α * (1 - δ) + β) * (2 * f * -ρ) = -(2 * ρ * (α * (f - δ * f) + β * f)) := by ring
    rw [e2, hδf]
    ring
  · have h1 := EllipseStep.abs_dot_unit hn v
    rw [hnv', abs_neg, abs_of_pos (mul_pos hρ0 hr0)] at h1
    have h2 := mul_le_mul_of_nonneg_left hr1 hρ0.le
    have h3 := mul_le_mul_of_nonneg_left h1 hκ.le
    linarith
  · have := norm_add_le' w (V3.smul (-ρ) r)
    rw [← hv, V3.norm_smul, abs_neg, abs_of_pos hρ0] at this
    linarith
  · have := norm_add_le' v (V3.smul ρ r)
    rw [← hw, V3.norm_smul, abs_of_pos hρ0] at this
    linarith
  · have := norm_add_le' (V3.smul (1 + δ) w) (V3.smul (-((1 - δ) * ρ)) r)
    rw [← hMw, V3.norm_smul, V3.norm_smul, abs_neg, abs_of_pos (by linarith), abs_of_pos (mul_pos (by linarith) hρ0)] at this
    linarith
  · have := norm_add_le' (V3.smul α Mv + V3.smul β v) (V3.smul ((α * (1 - δ) + β) * ρ) r)
    have h0 : 0 ≤ α * (1 + δ) + β := by
      have := mul_nonneg (by linarith : 0 ≤ α) (by linarith : 0 ≤ 1 + δ)
      linarith
    rw [← hUw, V3.norm_smul, V3.norm_smul ((α * (1 - δ) + β) * ρ), abs_of_nonneg h0, abs_of_nonneg (mul_nonneg hαδ hρ0.le)] at this
    linarith
  · rcases hang with h | h
    · exact Or.inl h
    · right
      refine le_trans ?_ h
      have e1 : v.x * Mv.y - v.y * Mv.x = -(2 * δ * ρ * (r.x * w.y - r.y * w.x)) := by
        rw [hMw, hv]
        simp only [V3.smul, V3.add_x, V3.add_y]; ring
      rw [e1, abs_neg, abs_mul, abs_of_pos (by positivity : 0 < 2 * δ * ρ)]
      have h1 := cross_ge hn hrz hwz hnw
      have h2 : ρ * V3.norm r / κ ≤ ρ * V3.dot n r := by
        rw [div_le_iff₀ hκ]
        have := mul_le_mul_of_nonneg_left hr1 hρ0.le
        linarith
      have h3 : 2 * δ * (ρ * V3.norm r / κ) * V3.norm w ≤ 2 * δ * (ρ * V3.dot n r) * V3.norm w :=
        mul_le_mul_of_nonneg_right (mul_le_mul_of_nonneg_left h2 (by positivity)) (V3.norm_nonneg _)
      have h4 := mul_le_mul_of_nonneg_left h1 (by positivity : 0 ≤ 2 * δ * ρ)
      linarith

/-! ### ellipses -/

variable {e : Ellipsoid ℝ} {m l L : ℝ}

/-- the distance from an ellipse grows faster than its slope tells -/
theorem quadratic (sm : Smooth e m 1) (hb : Between e m l L) (hpl : InPlaneZ e.base) {x u : V3 ℝ} {s : ℝ}
    (hs : Slope e m x u s) (hu : u.z = 0) : gdist e m x + s + V3.norm u ^ 2 / L ^ 2 ≤ gdist e m (x + u) := by
  rw [slope_eq sm hs]
  set H := halfLengths e (V3.const m) with hH
  have hl := hb.pos
  set y := e.base.pose.inverse.apply x with hy
  set z := e.base.pose.orientation.conjugate.toM3.mulVec u with hz
  have hyz : e.base.pose.inverse.apply (x + u) = y + z := by
    rw [hy, hz, inverse_apply_eq, inverse_apply_eq, M3.mulVec_add]; v3_ring
  have hzr : z = e.base.pose.orientation.conjugate.rotate u := by rw [hz, Quat.toM3_mulVec]
  obtain ⟨h4, h5⟩ := flat_conj hpl.pose.1 hpl.pose.2.1
  have hzz : z.z = 0 := by rw [hzr]; exact flat_rotate h4 h5 hu
  have hzn : V3.norm u ^ 2 = z.x ^ 2 + z.y ^ 2 := by
    rw [sq, V3.norm_sq, ← Quat.sqNorm_rotate (unit' sm).conjugate u, ← hzr]
    simp only [V3.sqNorm, V3.dot, hzz]; ring
  rw [gdist, gdist, distance_frame e _ _ 1 1 1 sm.curv sm.long, distance_frame e _ _ 1 1 1 sm.curv sm.long, hyz, ← hy, ← hzr]
  have h1 : ∀ a b : ℝ, l ≤ b → b ≤ L → a ^ 2 / L ^ 2 ≤ (a / b) ^ 2 := by
    intro a b hab hbL
    rw [div_pow]
    exact div_le_div_of_nonneg_left (sq_nonneg a) (pow_pos (by linarith) 2) (pow_le_pow_left₀ (by linarith) hbL 2)
  have h2 := h1 z.x H.x hb.x_ge hb.x_le
  have h3 := h1 z.y H.y hb.y_ge hb.y_le
  rw [hzn]
  simp only [level, dlevel, V3.add_x, V3.add_y, V3.add_z, hzz]
  norm_num
  rw [← hH]
  have e1 : ∀ a b c : ℝ, ((a + b) / c) ^ 2 = (a / c) ^ 2 + 2 * (a / c) * (b / c) + (b / c) ^ 2 := by
    intro a b c; rw [add_div]; ring
  rw [e1, e1, add_div]
  linarith

/-- moving away from the centre -/
theorem euler (sm : Smooth e m 1) (x : V3 ℝ) : Slope e m x (x - e.base.position) (2 * gdist e m x) := by
  have h := slope_level sm x (x - e.base.position)
  convert h using 1
  rw [gdist, distance_frame e _ _ 1 1 1 sm.curv sm.long]
  have h1 : e.base.pose.orientation.conjugate.toM3.mulVec (x - e.base.position) = e.base.pose.inverse.apply x := by
    rw [Quat.toM3_mulVec]
    show _ = e.base.pose.orientation.conjugate.rotate x + e.base.pose.orientation.conjugate.rotate (-e.base.pose.position)
    rw [← Quat.rotate_add]
    congr 1
  rw [h1]
  simp only [level, dlevel]
  norm_num
  ring

end DOA.FreeStep
