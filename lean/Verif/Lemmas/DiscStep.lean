import Mathlib.Tactic.Linarith
import Mathlib.Tactic.Ring
import Mathlib.Tactic.Positivity
import Mathlib.Tactic.FieldSimp
import Mathlib.Tactic.NormNum
import Mathlib.Analysis.SpecialFunctions.Sqrt

/-!
# One step around a disc, in components

`s`, `c`: radial and tangential component of the velocity; `δ = 1/d`.  The modulated velocity has the components
`(1-δ)s`, `(1+δ)c`; the output is `α` times that plus `β` times the velocity itself.
-/

namespace DOA.DiscStep

/-- the target comes nearer -/
theorem energy {s c G t α β δ : ℝ} (hG : 0 < G) (ht : 0 ≤ t) (hα : 1 ≤ α) (hα' : α ≤ 1 + 1 / 10 ^ 8) (hβ : 0 ≤ β)
    (hβ' : β ≤ 2 / 10 ^ 8) (hδ : 0 ≤ δ) (hδ' : δ ≤ 1) (hshort : t * G ≤ 2 / 5) :
    (s ^ 2 + c ^ 2) / G ^ 2 - 2 * t / G * (s * ((α * (1 - δ) + β) * s) + c * ((α * (1 + δ) + β) * c)) +
      t ^ 2 * (((α * (1 - δ) + β) * s) ^ 2 + ((α * (1 + δ) + β) * c) ^ 2) ≤
    (s ^ 2 + c ^ 2) / G ^ 2 - t / G * ((1 - δ) * s ^ 2 + c ^ 2) := by
  have htG : 0 ≤ t * G := mul_nonneg ht hG.le
  have key : ∀ k κ : ℝ, 0 ≤ κ → κ ≤ k → t * G * k ≤ 1 → ∀ x : ℝ,
      x ^ 2 / G ^ 2 - 2 * t / G * (x * (k * x)) + t ^ 2 * (k * x) ^ 2 ≤ x ^ 2 / G ^ 2 - t / G * (κ * x ^ 2) := by
    intro k κ h0 h1 h2 x
    have e1 : x ^ 2 / G ^ 2 - t / G * (κ * x ^ 2) - (x ^ 2 / G ^ 2 - 2 * t / G * (x * (k * x)) + t ^ 2 * (k * x) ^ 2) =
        x ^ 2 / G ^ 2 * ((t * G * k) * (1 - t * G * k) + t * G * (k - κ)) := by
      field_simp; ring
    have e2 : 0 ≤ x ^ 2 / G ^ 2 * ((t * G * k) * (1 - t * G * k) + t * G * (k - κ)) := by
      apply mul_nonneg (by positivity)
      have : 0 ≤ t * G * k := mul_nonneg htG (by linarith)
      exact add_nonneg (mul_nonneg this (by linarith)) (mul_nonneg htG (by linarith))
    linarith
  have hs := key (α * (1 - δ) + β) (1 - δ) (by linarith) (by nlinarith) (by
    have : α * (1 - δ) + β ≤ 21 / 10 := by norm_num at hα' hβ'; nlinarith
    calc t * G * (α * (1 - δ) + β) ≤ 2 / 5 * (21 / 10) := mul_le_mul hshort this (by nlinarith) (by norm_num)
      _ ≤ 1 := by norm_num) s
  have hc := key (α * (1 + δ) + β) 1 (by norm_num) (by nlinarith) (by
    have : α * (1 + δ) + β ≤ 21 / 10 := by norm_num at hα' hβ'; nlinarith
    calc t * G * (α * (1 + δ) + β) ≤ 2 / 5 * (21 / 10) := mul_le_mul hshort this (by nlinarith) (by norm_num)
      _ ≤ 1 := by norm_num) c
  have e : (s ^ 2 + c ^ 2) / G ^ 2 = s ^ 2 / G ^ 2 + c ^ 2 / G ^ 2 := by ring
  rw [e]
  linarith

/-- how long the output is -/
theorem speed {s c α β δ W n : ℝ} (hα : 1 ≤ α) (hα' : α ≤ 1 + 1 / 10 ^ 8) (hβ : 0 ≤ β) (hβ' : β * n ≤ 1 / 10 ^ 8 * W)
    (hδ : 0 ≤ δ) (hδ' : δ ≤ 1) (hn : 0 ≤ n) (hn2 : n ^ 2 = s ^ 2 + c ^ 2) (hW : 0 ≤ W)
    (hW2 : W ^ 2 = ((1 - δ) * s) ^ 2 + ((1 + δ) * c) ^ 2) :
    ((α * (1 - δ) + β) * s) ^ 2 + ((α * (1 + δ) + β) * c) ^ 2 ≤ 5 * ((1 - δ) * s ^ 2 + c ^ 2) ∧
    ((α * (1 - δ) + β) * s) ^ 2 + ((α * (1 + δ) + β) * c) ^ 2 ≤ (21 / 10 * n) ^ 2 ∧ W ≤ 2 * n := by
  have hcross : ((1 - δ) * s) * s + ((1 + δ) * c) * c ≤ W * n := by
    apply abs_le_of_sq_le_sq' _ (mul_nonneg hW hn) |>.2
    rw [mul_pow, hW2, hn2]
    nlinarith [sq_nonneg ((1 - δ) * s * c - (1 + δ) * c * s)]
  have h1 : ((α * (1 - δ) + β) * s) ^ 2 + ((α * (1 + δ) + β) * c) ^ 2 ≤ (α * W + β * n) ^ 2 := by
    have e1 : ((α * (1 - δ) + β) * s) ^ 2 + ((α * (1 + δ) + β) * c) ^ 2 =
        α ^ 2 * W ^ 2 + 2 * (α * β) * (((1 - δ) * s) * s + ((1 + δ) * c) * c) + β ^ 2 * n ^ 2 := by
      rw [hW2, hn2]; ring
    rw [e1]
    have := mul_le_mul_of_nonneg_left hcross (by positivity : 0 ≤ 2 * (α * β))
    nlinarith
  have h2 : α * W + β * n ≤ 101 / 100 * W := by norm_num at hα' hβ'; nlinarith
  have h3 : (α * W + β * n) ^ 2 ≤ (101 / 100 * W) ^ 2 :=
    pow_le_pow_left₀ (by positivity) h2 2
  have hWn2 : W ^ 2 ≤ 4 * ((1 - δ) * s ^ 2 + c ^ 2) := by
    rw [hW2]
    have a1 : (1 - δ) * (1 - δ) ≤ 4 * (1 - δ) := by nlinarith
    have a2 : (1 + δ) ^ 2 ≤ 4 := by nlinarith
    have a3 := mul_le_mul_of_nonneg_right a1 (sq_nonneg s)
    have a4 := mul_le_mul_of_nonneg_right a2 (sq_nonneg c)
    nlinarith
  have hWn : W ^ 2 ≤ (2 * n) ^ 2 := by
    rw [mul_pow, hn2]
    have : (1 - δ) * s ^ 2 ≤ s ^ 2 := by nlinarith [sq_nonneg s]
    linarith
  have hWn' : W ≤ 2 * n := abs_le_of_sq_le_sq' hWn (by linarith) |>.2
  refine ⟨by nlinarith, ?_, hWn'⟩
  nlinarith

set_option maxHeartbeats 800000 in
/-- the agent stays outside -/
theorem outside {ρ l s c t α β W n : ℝ} (hl : 0 < l) (hρ : l < ρ) (ht : 0 ≤ t) (hα : 1 ≤ α)
    (hα' : α ≤ 1 + 1 / 10 ^ 8) (hβ : 0 ≤ β) (hβ' : β * n ≤ 1 / 10 ^ 8 * W) (hn : 0 ≤ n) (hn2 : n ^ 2 = s ^ 2 + c ^ 2)
    (hW : 0 ≤ W) (hW2 : W ^ 2 = ((1 - l ^ 2 / ρ ^ 2) * s) ^ 2 + ((1 + l ^ 2 / ρ ^ 2) * c) ^ 2)
    (hsmall : β = 0 ∨ 2 * (l ^ 2 / ρ ^ 2) * (|s| * |c|) ≤ 1 / 10000 * (n * W)) (hshort : 5 * (t * n) ≤ l)
    (hlong : 1 / 10 ^ 7 * l ≤ t * n ∨ l + 1 / 10 ^ 6 * l ≤ ρ) :
    l ^ 2 < (ρ + t * ((α * (1 - l ^ 2 / ρ ^ 2) + β) * s)) ^ 2 + (t * ((α * (1 + l ^ 2 / ρ ^ 2) + β) * c)) ^ 2 := by
  have hρ0 : 0 < ρ := by linarith
  set δ := l ^ 2 / ρ ^ 2 with hδd
  have hδ0 : 0 < δ := by positivity
  have hδ1 : δ < 1 := by
    rw [hδd, div_lt_one (by positivity)]; nlinarith
  have hsn : |s| ≤ n := by
    apply abs_le_of_sq_le_sq' _ hn |>.2
    rw [sq_abs, hn2]; nlinarith [sq_nonneg c]
  have hW2n : W ≤ 2 * n := (speed hα hα' hβ hβ' hδ0.le hδ1.le hn hn2 hW hW2).2.2
  -- it suffices that the radial part stays large
  have suff : l < ρ + t * ((α * (1 - δ) + β) * s) →
      l ^ 2 < (ρ + t * ((α * (1 - δ) + β) * s)) ^ 2 + (t * ((α * (1 + δ) + β) * c)) ^ 2 := by
    intro h
    have := pow_lt_pow_left₀ h hl.le two_ne_zero
    nlinarith [sq_nonneg (t * ((α * (1 + δ) + β) * c))]
  by_cases hs : 0 ≤ s
  · apply suff
    have : 0 ≤ t * ((α * (1 - δ) + β) * s) := by
      apply mul_nonneg ht (mul_nonneg _ hs)
      nlinarith
    linarith
  have hσ : |s| = -s := abs_of_neg (not_le.mp hs)
  set σ := |s| with hσd
  have hσ0 : 0 ≤ σ := abs_nonneg s
  have htσ : t * σ ≤ l / 5 := by nlinarith [mul_le_mul_of_nonneg_left hsn ht]
  have htσ0 : 0 ≤ t * σ := mul_nonneg ht hσ0
  -- the exact part
  have hδb : 1 - δ ≤ 2 * (ρ - l) / l := by
    rw [hδd, le_div_iff₀ hl]
    have e : (1 - l ^ 2 / ρ ^ 2) * l = (ρ - l) * ((ρ + l) * l / ρ ^ 2) := by field_simp; ring
    rw [e]
    have : (ρ + l) * l / ρ ^ 2 ≤ 2 := by
      rw [div_le_iff₀ (by positivity)]; nlinarith
    nlinarith
  have hex : t * (α * (1 - δ)) * σ ≤ 41 / 100 * (ρ - l) := by
    have a1 : (1 - δ) * l ≤ 2 * (ρ - l) := by rwa [le_div_iff₀ hl] at hδb
    have a2 : t * σ * (1 - δ) ≤ 2 / 5 * (ρ - l) := by
      have := mul_le_mul_of_nonneg_right htσ (by linarith : 0 ≤ 1 - δ)
      linarith
    have a3 : 0 ≤ t * σ * (1 - δ) := mul_nonneg htσ0 (by linarith)
    have a4 : α * (t * σ * (1 - δ)) ≤ (1 + 1 / 10 ^ 8) * (t * σ * (1 - δ)) := mul_le_mul_of_nonneg_right hα' a3
    norm_num at a4
    nlinarith
  have hX : ρ + t * ((α * (1 - δ) + β) * s) = ρ - t * (α * (1 - δ)) * σ - t * β * σ := by
    rw [hσ]; ring
  have hβσ : t * β * σ ≤ t * (1 / 10 ^ 8 * W) := by
    have := mul_le_mul_of_nonneg_left (mul_le_mul_of_nonneg_left hsn hβ) ht
    have := mul_le_mul_of_nonneg_left hβ' ht
    nlinarith
  have htW : t * W ≤ 2 * (t * n) := by nlinarith [mul_le_mul_of_nonneg_left hW2n ht]
  rcases hsmall with hβ0 | hsmall
  · apply suff
    rw [hX, hβ0]
    linarith
  by_cases hfar : 2 * l ≤ ρ
  · apply suff
    rw [hX]
    norm_num at hβσ
    linarith
  have hδ4 : 1 / 4 ≤ δ := by
    rw [hδd, div_le_div_iff₀ (by norm_num) (by positivity)]
    have := pow_le_pow_left₀ hρ0.le (not_le.mp hfar).le 2
    linarith [mul_pow 2 l 2]
  by_cases hrad : n ≤ 2 * σ
  · -- mostly radial
    apply suff
    have a1 : |c| * σ ≤ 4 / 10000 * W * σ := by
      have b1 : 1 / 2 * (σ * |c|) ≤ 2 * δ * (σ * |c|) :=
        mul_le_mul_of_nonneg_right (by linarith) (mul_nonneg hσ0 (abs_nonneg c))
      have b2 : n * W ≤ 2 * σ * W := mul_le_mul_of_nonneg_right hrad hW
      linarith
    have hσpos : 0 < σ := by rw [hσ]; linarith [not_le.mp hs]
    have a2 : |c| ≤ 4 / 10000 * W := le_of_mul_le_mul_right a1 hσpos
    have a3 : W ≤ (1 - δ) * σ + 2 * |c| := by
      apply abs_le_of_sq_le_sq' _ (add_nonneg (mul_nonneg (by linarith) hσ0) (by positivity)) |>.2
      rw [hW2]
      have b1 : ((1 - δ) * s) ^ 2 = ((1 - δ) * σ) ^ 2 := by rw [mul_pow, mul_pow, hσd, sq_abs]
      have b2 : ((1 + δ) * c) ^ 2 ≤ (2 * |c|) ^ 2 := by
        rw [mul_pow, mul_pow, sq_abs]
        exact mul_le_mul_of_nonneg_right (by nlinarith) (sq_nonneg c)
      have b3 : 0 ≤ (1 - δ) * σ * (2 * |c|) :=
        mul_nonneg (mul_nonneg (by linarith) hσ0) (by positivity)
      nlinarith
    have a4 : W ≤ 101 / 100 * ((1 - δ) * σ) := by linarith
    have a5 : t * W ≤ 101 / 100 * (t * σ * (1 - δ)) := by nlinarith [mul_le_mul_of_nonneg_left a4 ht]
    have a6 : t * σ * (1 - δ) ≤ 2 / 5 * (ρ - l) := by
      have b1 : (1 - δ) * l ≤ 2 * (ρ - l) := by rwa [le_div_iff₀ hl] at hδb
      have := mul_le_mul_of_nonneg_right htσ (by linarith : 0 ≤ 1 - δ)
      linarith
    rw [hX]
    norm_num at hβσ
    linarith
  · -- mostly tangential
    have hrad := not_le.mp hrad
    have a1 : 3 / 4 * n ^ 2 ≤ c ^ 2 := by
      have b1 : (2 * σ) ^ 2 ≤ n ^ 2 := pow_le_pow_left₀ (by linarith) hrad.le 2
      have b2 : σ ^ 2 = s ^ 2 := sq_abs s
      nlinarith
    have a2 : t * β * σ ≤ 1 / 10 ^ 8 * (t * n) := by
      have b1 : t * β * (2 * σ) ≤ t * β * n := mul_le_mul_of_nonneg_left hrad.le (mul_nonneg ht hβ)
      have b2 := mul_le_mul_of_nonneg_left hβ' ht
      norm_num at b2 ⊢
      nlinarith
    have a3 : 3 / 4 * (t * n) ^ 2 ≤ (t * ((α * (1 + δ) + β) * c)) ^ 2 := by
      have b1 : 1 ≤ (α * (1 + δ) + β) ^ 2 := by
        have : 1 ≤ α * (1 + δ) + β := by nlinarith
        nlinarith
      have b2 : (t * ((α * (1 + δ) + β) * c)) ^ 2 = t ^ 2 * ((α * (1 + δ) + β) ^ 2 * c ^ 2) := by ring
      rw [b2, mul_pow]
      have b3 : c ^ 2 ≤ (α * (1 + δ) + β) ^ 2 * c ^ 2 := by nlinarith [sq_nonneg c]
      nlinarith [mul_le_mul_of_nonneg_left (a1.trans b3) (sq_nonneg t)]
    rcases hlong with hlong | hlong
    · have a4 : l - 1 / 10 ^ 8 * (t * n) ≤ ρ + t * ((α * (1 - δ) + β) * s) := by rw [hX]; linarith
      have a5 : 0 ≤ l - 1 / 10 ^ 8 * (t * n) := by norm_num; linarith
      have a6 := pow_le_pow_left₀ a5 a4 2
      have a7 : 0 < t * n := lt_of_lt_of_le (by positivity) hlong
      have a8 := mul_le_mul_of_nonneg_right hlong a7.le
      have a9 : 0 < l * (t * n) := mul_pos hl a7
      have a10 : (l - 1 / 10 ^ 8 * (t * n)) ^ 2 =
          l ^ 2 - 2 / 10 ^ 8 * (l * (t * n)) + (1 / 10 ^ 8 * (t * n)) ^ 2 := by ring
      have a11 : 0 ≤ (1 / 10 ^ 8 * (t * n)) ^ 2 := sq_nonneg _
      have a12 : 1 / 10 ^ 7 * (l * (t * n)) ≤ (t * n) ^ 2 := by
        rw [sq, ← mul_assoc]; exact a8
      rw [a10] at a6
      linarith
    · apply suff
      rw [hX]
      by_cases hz : 1 / 10 ^ 7 * l ≤ t * n
      · have a4 : l - 1 / 10 ^ 8 * (t * n) < ρ := by
          have : 0 < 1 / 10 ^ 7 * l := by positivity
          norm_num at *; linarith
        norm_num at *
        linarith
      · have hz := not_le.mp hz
        norm_num at *
        linarith

/-- One step in coordinates along and across the line to the target `(T, 0)`: `S` and `Q` are the radial and tangential
part of the velocity, times the distance from the centre. -/
structure Hyps (l T G t α β p q n W : ℝ) : Prop where
  l_pos : 0 < l
  target : l < T
  G_pos : 0 < G
  t_pos : 0 < t
  out : l ^ 2 < p ^ 2 + q ^ 2
  α1 : 1 ≤ α
  α2 : α ≤ 1 + 1 / 10 ^ 8
  β0 : 0 ≤ β
  βW : β * n ≤ 1 / 10 ^ 8 * W
  βn : n = 0 → β = 0
  n0 : 0 ≤ n
  n2 : n ^ 2 = G ^ 2 * ((p - T) ^ 2 + q ^ 2)
  W0 : 0 ≤ W
  W2 : W ^ 2 * (p ^ 2 + q ^ 2) = ((1 - l ^ 2 / (p ^ 2 + q ^ 2)) * (G * (p * T - (p ^ 2 + q ^ 2)))) ^ 2 +
    ((1 + l ^ 2 / (p ^ 2 + q ^ 2)) * (G * T * q)) ^ 2
  small : β = 0 ∨ 2 * (l ^ 2 / (p ^ 2 + q ^ 2)) * (|G * (p * T - (p ^ 2 + q ^ 2))| * |G * T * q|) ≤
    1 / 10000 * (n * W) * (p ^ 2 + q ^ 2)
  short1 : 5 * (t * n) ≤ l
  short2 : 3 * (t * G * (l + T)) ≤ l
  long : 1 / 10 ^ 6 * l ≤ t * G * (T - l)

/-- the velocity along and across -/
noncomputable def up (l T G α β p q : ℝ) : ℝ :=
  (α * (1 + l ^ 2 / (p ^ 2 + q ^ 2)) + β) * (G * (T - p)) -
    2 * α * (l ^ 2 / (p ^ 2 + q ^ 2)) * (G * (p * T - (p ^ 2 + q ^ 2)) / (p ^ 2 + q ^ 2)) * p

noncomputable def uq (l T G α β p q : ℝ) : ℝ :=
  (α * (1 + l ^ 2 / (p ^ 2 + q ^ 2)) + β) * (-(G * q)) -
    2 * α * (l ^ 2 / (p ^ 2 + q ^ 2)) * (G * (p * T - (p ^ 2 + q ^ 2)) / (p ^ 2 + q ^ 2)) * q

noncomputable def drop (l T G p q : ℝ) : ℝ :=
  ((1 - l ^ 2 / (p ^ 2 + q ^ 2)) * (G * (p * T - (p ^ 2 + q ^ 2))) ^ 2 + (G * T * q) ^ 2) / (p ^ 2 + q ^ 2)

set_option maxHeartbeats 800000 in
theorem one_step {l T G t α β p q n W : ℝ} (h : Hyps l T G t α β p q n W) :
    (p + t * up l T G α β p q - T) ^ 2 + (q + t * uq l T G α β p q) ^ 2 ≤
      (p - T) ^ 2 + q ^ 2 - t / G * drop l T G p q ∧
    l ^ 2 < (p + t * up l T G α β p q) ^ 2 + (q + t * uq l T G α β p q) ^ 2 ∧
    up l T G α β p q ^ 2 + uq l T G α β p q ^ 2 ≤ 5 * drop l T G p q ∧
    up l T G α β p q ^ 2 + uq l T G α β p q ^ 2 ≤ (21 / 10 * n) ^ 2 ∧
    (0 ≤ p * T - (p ^ 2 + q ^ 2) →
      p ^ 2 + q ^ 2 ≤ (p + t * up l T G α β p q) ^ 2 + (q + t * uq l T G α β p q) ^ 2) ∧
    (∃ μ ν, 0 < μ ∧ t * G ≤ ν ∧ q + t * uq l T G α β p q = μ * q ∧ p + t * up l T G α β p q = μ * p + ν * T) ∧
    (∀ a, 0 ≤ a → a ^ 2 ≤ p ^ 2 + q ^ 2 → a ^ 2 * (p ^ 2 + q ^ 2) ≤ (p * T) ^ 2 → 0 ≤ p →
      a ^ 2 ≤ (p + t * up l T G α β p q) ^ 2 + (q + t * uq l T G α β p q) ^ 2) := by
  obtain ⟨hl, hT, hG, ht, hout, hα, hα', hβ, hβW, hβn, hn, hn2, hW, hW2, hsmall, hs1, hs2, hlong⟩ := h
  have hR : 0 < p ^ 2 + q ^ 2 := lt_of_le_of_lt (sq_nonneg l) hout
  set R := p ^ 2 + q ^ 2 with hRd
  set ρ := Real.sqrt R with hρd
  have hρ : 0 < ρ := Real.sqrt_pos.mpr hR
  have hρ2 : ρ ^ 2 = R := Real.sq_sqrt hR.le
  have hρl : l < ρ := lt_of_pow_lt_pow_left₀ 2 hρ.le (by rw [hρ2]; exact hout)
  set δ := l ^ 2 / R with hδd
  have hδ0 : 0 < δ := by positivity
  have hδ1 : δ < 1 := by rw [hδd, div_lt_one hR]; exact hout
  set S := G * (p * T - R) with hS
  set s := S / ρ with hs
  set c := -(G * T * q) / ρ with hc
  have hsρ : s * ρ = S := by rw [hs]; field_simp
  have hcρ : c * ρ = -(G * T * q) := by rw [hc]; field_simp
  have hs2' : s ^ 2 = S ^ 2 / R := by rw [hs, div_pow, hρ2]
  have hc2' : c ^ 2 = (G * T * q) ^ 2 / R := by rw [hc, div_pow, hρ2, neg_sq]
  have htG : 0 < t * G := mul_pos ht hG
  have htG6 : t * G ≤ 2 / 5 := by
    have : t * G * (2 * l) ≤ t * G * (l + T) := mul_le_mul_of_nonneg_left (by linarith) htG.le
    have : (6 * (t * G)) * l ≤ 1 * l := by linarith
    have := le_of_mul_le_mul_right this hl
    linarith
  -- lengths
  have hn2' : n ^ 2 = s ^ 2 + c ^ 2 := by
    rw [hn2, hs2', hc2', hS, ← add_div, eq_div_iff hR.ne', hRd]; ring
  have hW2' : W ^ 2 = ((1 - δ) * s) ^ 2 + ((1 + δ) * c) ^ 2 := by
    rw [mul_pow, mul_pow, hs2', hc2']
    rw [mul_div_assoc', mul_div_assoc', ← add_div, eq_div_iff hR.ne', hW2]; ring
  have hdrop : drop l T G p q = (1 - δ) * s ^ 2 + c ^ 2 := by
    unfold drop
    rw [← hRd, ← hδd, ← hS, hs2', hc2', mul_div_assoc', ← add_div]
  -- the components of the output
  have hus : p * up l T G α β p q + q * uq l T G α β p q = ρ * ((α * (1 - δ) + β) * s) := by
    have e1 : ρ * ((α * (1 - δ) + β) * s) = (α * (1 - δ) + β) * S := by rw [← hsρ]; ring
    rw [e1]
    unfold up uq
    rw [← hRd, ← hδd, ← hS]
    have e2 : p * ((α * (1 + δ) + β) * (G * (T - p)) - 2 * α * δ * (S / R) * p) +
        q * ((α * (1 + δ) + β) * (-(G * q)) - 2 * α * δ * (S / R) * q) =
        (α * (1 + δ) + β) * (G * (p * T - (p ^ 2 + q ^ 2))) - 2 * α * δ * (S / R) * (p ^ 2 + q ^ 2) := by ring
    rw [e2, ← hRd, ← hS]
    field_simp
    ring
  have huc : p * uq l T G α β p q - q * up l T G α β p q = ρ * ((α * (1 + δ) + β) * c) := by
    have e1 : ρ * ((α * (1 + δ) + β) * c) = (α * (1 + δ) + β) * (c * ρ) := by ring
    rw [e1, hcρ]
    unfold up uq
    rw [← hRd, ← hδd]
    ring
  set us := (α * (1 - δ) + β) * s with husd
  set uc := (α * (1 + δ) + β) * c with hucd
  set a := up l T G α β p q with ha
  set b := uq l T G α β p q with hb
  have hab : a ^ 2 + b ^ 2 = us ^ 2 + uc ^ 2 := by
    have e : R * (a ^ 2 + b ^ 2) = R * (us ^ 2 + uc ^ 2) := by
      have : R * (us ^ 2 + uc ^ 2) = (ρ * us) ^ 2 + (ρ * uc) ^ 2 := by rw [← hρ2]; ring
      rw [this, ← hus, ← huc, hRd]; ring
    exact mul_left_cancel₀ hR.ne' e
  have hva : (T - p) * a - q * b = (s * us + c * uc) / G := by
    rw [eq_div_iff hG.ne']
    have e : R * (((T - p) * a - q * b) * G) = R * (s * us + c * uc) := by
      have e1 : R * (s * us + c * uc) = (s * ρ) * (ρ * us) + (c * ρ) * (ρ * uc) := by rw [← hρ2]; ring
      rw [e1, hsρ, hcρ, ← hus, ← huc, hS, hRd]; ring
    exact mul_left_cancel₀ hR.ne' e
  have hR' : (p + t * a) ^ 2 + (q + t * b) ^ 2 = (ρ + t * us) ^ 2 + (t * uc) ^ 2 := by
    have e1 : (p + t * a) ^ 2 + (q + t * b) ^ 2 = R + 2 * t * (p * a + q * b) + t ^ 2 * (a ^ 2 + b ^ 2) := by
      rw [hRd]; ring
    rw [e1, hab, hus, ← hρ2]; ring
  have hE' : (p + t * a - T) ^ 2 + (q + t * b) ^ 2 =
      (s ^ 2 + c ^ 2) / G ^ 2 - 2 * t / G * (s * us + c * uc) + t ^ 2 * (us ^ 2 + uc ^ 2) := by
    have e1 : (p + t * a - T) ^ 2 + (q + t * b) ^ 2 =
        ((p - T) ^ 2 + q ^ 2) - 2 * t * ((T - p) * a - q * b) + t ^ 2 * (a ^ 2 + b ^ 2) := by ring
    rw [e1, hab, hva, ← hn2', hn2]
    field_simp
  have hE : (p - T) ^ 2 + q ^ 2 = (s ^ 2 + c ^ 2) / G ^ 2 := by
    rw [← hn2', hn2]; field_simp
  obtain ⟨hsp1, hsp2, hWn⟩ := speed hα hα' hβ hβW hδ0.le hδ1.le hn hn2' hW hW2'
  have hβ2 : β ≤ 2 / 10 ^ 8 := by
    rcases hn.lt_or_eq with h0 | h0
    · have : β * n ≤ 2 / 10 ^ 8 * n := by
        have e : 1 / 10 ^ 8 * W ≤ 1 / 10 ^ 8 * (2 * n) := mul_le_mul_of_nonneg_left hWn (by norm_num)
        linarith
      exact le_of_mul_le_mul_right this h0
    · rw [hβn h0.symm]; norm_num
  refine ⟨?_, ?_, ?_, ?_, ?_, ?_, ?_⟩
  · rw [hE', hE, hdrop]
    exact energy hG ht.le hα hα' hβ hβ2 hδ0.le hδ1.le htG6
  · rw [hR']
    have hδρ : δ = l ^ 2 / ρ ^ 2 := by rw [hδd, hρ2]
    rw [husd, hucd, hδρ]
    refine outside hl hρl ht.le hα hα' hβ hβW hn hn2' hW (by rw [← hδρ]; exact hW2') ?_ hs1 ?_
    · refine hsmall.imp_right fun h => ?_
      rw [← hδρ, hs, hc, abs_div, abs_div, abs_neg, abs_of_pos hρ, div_mul_div_comm, ← sq, hρ2, mul_div_assoc',
        div_le_iff₀ hR]
      exact h
    · by_cases hz : 1 / 10 ^ 7 * l ≤ t * n
      · exact Or.inl hz
      · right
        have hz := not_le.mp hz
        have hpT : G * (T - p) ≤ n := by
          apply abs_le_of_sq_le_sq' _ hn |>.2
          rw [hn2, mul_add, show (G * (T - p)) ^ 2 = G ^ 2 * (p - T) ^ 2 by ring]
          exact le_add_of_nonneg_right (by positivity)
        have hpρ : p ≤ ρ := by
          apply abs_le_of_sq_le_sq' _ hρ.le |>.2
          rw [hρ2, hRd]; exact le_add_of_nonneg_right (sq_nonneg q)
        have h1 : t * G * (T - p) ≤ t * n := by
          have := mul_le_mul_of_nonneg_left hpT ht.le
          linarith
        have h2 : t * G * (T - p) ≤ t * G * (1 / 10 * (T - l)) := by
          norm_num at hz hlong ⊢
          linarith
        have h3 := le_of_mul_le_mul_left h2 htG
        have h4 : t * G * (T - l) ≤ 2 / 5 * (T - l) := mul_le_mul_of_nonneg_right htG6 (by linarith)
        norm_num at hlong ⊢
        linarith
  · rw [hab, hdrop]; exact hsp1
  · rw [hab]; exact hsp2
  · intro h0
    rw [hR', ← hρ2]
    have hk0 : 0 ≤ α * (1 - δ) + β := add_nonneg (mul_nonneg (by linarith) (by linarith)) hβ
    have hs0 : 0 ≤ s := div_nonneg (mul_nonneg hG.le h0) hρ.le
    have hus0 : 0 ≤ t * us := mul_nonneg ht.le (mul_nonneg hk0 hs0)
    have := pow_le_pow_left₀ hρ.le (by linarith : ρ ≤ ρ + t * us) 2
    linarith [sq_nonneg (t * uc)]
  · set y := p * T / R with hy
    have hSR : G * (p * T - R) / R = G * (y - 1) := by
      rw [hy]; field_simp
    refine ⟨1 + t * G * (-(α * (1 - δ)) - 2 * (α * δ) * y - β), t * G * (α * (1 + δ) + β), ?_, ?_, ?_, ?_⟩
    · have hyT : y * l ≤ T := by
        rw [hy, div_mul_eq_mul_div, div_le_iff₀ hR]
        have hpρ : p ≤ ρ := by
          apply abs_le_of_sq_le_sq' _ hρ.le |>.2
          rw [hρ2, hRd]; exact le_add_of_nonneg_right (sq_nonneg q)
        have h1 : p * l ≤ ρ * ρ := by
          calc p * l ≤ ρ * l := mul_le_mul_of_nonneg_right hpρ hl.le
            _ ≤ ρ * ρ := mul_le_mul_of_nonneg_left hρl.le hρ.le
        have h2 : p * l ≤ R := by rw [← hρ2, sq]; exact h1
        calc p * T * l = T * (p * l) := by ring
          _ ≤ T * R := mul_le_mul_of_nonneg_left h2 (by linarith)
      have hα21 : α ≤ 21 / 20 := hα'.trans (by norm_num)
      have hαδ : α * δ ≤ 21 / 20 := by
        have := mul_le_mul hα21 hδ1.le hδ0.le (by norm_num)
        linarith
      have h1 : 2 * (α * δ) * y * l ≤ 21 / 10 * T := by
        have e1 : 2 * (α * δ) * y * l = 2 * (α * δ) * (y * l) := by ring
        have e2 : α * δ ≤ 21 / 20 := hαδ
        have e3 : 0 ≤ α * δ := by positivity
        have e4 : 2 * (α * δ) * (y * l) ≤ 2 * (α * δ) * T := mul_le_mul_of_nonneg_left hyT (by positivity)
        have e5 : 2 * (α * δ) * T ≤ 21 / 10 * T := mul_le_mul_of_nonneg_right (by linarith) (by linarith)
        linarith
      have h2 : (α * (1 - δ) + β) * l ≤ 11 / 10 * l := by
        refine mul_le_mul_of_nonneg_right ?_ hl.le
        have e1 : α * (1 - δ) ≤ 21 / 20 * 1 := mul_le_mul hα21 (by linarith) (by linarith) (by norm_num)
        have e2 : (2 : ℝ) / 10 ^ 8 ≤ 1 / 20 := by norm_num
        linarith
      have h3 : t * G * ((α * (1 - δ) + 2 * (α * δ) * y + β) * l) < l := by
        have e1 : (α * (1 - δ) + 2 * (α * δ) * y + β) * l ≤ 11 / 10 * l + 21 / 10 * T := by linarith
        have e2 := mul_le_mul_of_nonneg_left e1 htG.le
        have e3 : 0 < t * G * (l + T) := mul_pos htG (by linarith)
        have e4 : 0 < t * G * l := mul_pos htG hl
        have e5 : 0 < t * G * T := mul_pos htG (by linarith)
        have e6 : t * G * (11 / 10 * l + 21 / 10 * T) = 11 / 10 * (t * G * l) + 21 / 10 * (t * G * T) := by ring
        have e7 : t * G * (l + T) = t * G * l + t * G * T := by ring
        linarith
      have h4 : 0 < (1 + t * G * (-(α * (1 - δ)) - 2 * (α * δ) * y - β)) * l := by
        have : (1 + t * G * (-(α * (1 - δ)) - 2 * (α * δ) * y - β)) * l =
            l - t * G * ((α * (1 - δ) + 2 * (α * δ) * y + β) * l) := by ring
        linarith
      exact (mul_pos_iff_of_pos_right hl).mp h4
    · have e1 : 1 ≤ α * (1 + δ) := by
        have := mul_le_mul hα (by linarith : 1 ≤ 1 + δ) (by norm_num) (by linarith)
        linarith
      exact le_mul_of_one_le_right htG.le (by linarith)
    · rw [hb]; unfold uq
      rw [← hRd, ← hδd, hSR]
      ring
    · rw [ha]; unfold up
      rw [← hRd, ← hδd, hSR]
      ring
  · intro A hA0 hA hAR hp
    rw [hR']
    have hAρ : A ≤ ρ := by
      apply abs_le_of_sq_le_sq' _ hρ.le |>.2
      rw [hρ2]; exact hA
    have hApT : A * ρ ≤ p * T := by
      apply abs_le_of_sq_le_sq' _ (mul_nonneg hp (by linarith)) |>.2
      rw [mul_pow, hρ2]; exact hAR
    -- `ρ + t us` is between `ρ` and `pT/ρ`
    have hsG : s = G * (p * T / ρ - ρ) := by
      rw [hs, hS, ← hρ2]; field_simp
    have hz : A ≤ p * T / ρ := by rw [le_div_iff₀ hρ]; exact hApT
    set w := t * G * (α * (1 - δ) + β) with hw
    have hw0 : 0 ≤ w := mul_nonneg htG.le (add_nonneg (mul_nonneg (by linarith) (by linarith)) hβ)
    have hw1 : w ≤ 1 := by
      have e0 : α ≤ 11 / 10 := hα'.trans (by norm_num)
      have e1 : α * (1 - δ) ≤ 11 / 10 * 1 := mul_le_mul e0 (by linarith) (by linarith) (by norm_num)
      have e2 : (2 : ℝ) / 10 ^ 8 ≤ 1 / 10 := by norm_num
      have e3 : w ≤ 2 / 5 * (12 / 10) := by
        rw [hw]
        exact mul_le_mul htG6 (by linarith) (add_nonneg (mul_nonneg (by linarith) (by linarith)) hβ) (by norm_num)
      linarith
    have e : ρ + t * us = (1 - w) * ρ + w * (p * T / ρ) := by
      rw [husd, hsG, hw]; ring
    have h1 : A ≤ ρ + t * us := by
      rw [e]
      have := mul_le_mul_of_nonneg_left hAρ (by linarith : 0 ≤ 1 - w)
      have := mul_le_mul_of_nonneg_left hz hw0
      linarith
    have := pow_le_pow_left₀ hA0 h1 2
    linarith [sq_nonneg (t * uc)]

set_option maxHeartbeats 400000 in
/-- One step with an additional push `k` times the position away from the centre. -/
theorem push_step {l T G t α β p q n W k : ℝ} (h : Hyps l T G t α β p q n W) (hk : 0 ≤ k) :
    l ^ 2 < (p + t * (up l T G α β p q + k * p)) ^ 2 + (q + t * (uq l T G α β p q + k * q)) ^ 2 ∧
    (0 ≤ p * T - (p ^ 2 + q ^ 2) → (1 + t * k) * (p ^ 2 + q ^ 2) ≤
      (p + t * (up l T G α β p q + k * p)) ^ 2 + (q + t * (uq l T G α β p q + k * q)) ^ 2) ∧
    (∃ μ ν, 0 < μ ∧ t * G ≤ ν ∧ q + t * (uq l T G α β p q + k * q) = μ * q ∧
      p + t * (up l T G α β p q + k * p) = μ * p + ν * T) ∧
    (p < 0 → p + t * (up l T G α β p q + k * p) ≤ p + 21 / 50 * l) ∧
    Real.sqrt ((p + t * (up l T G α β p q + k * p)) ^ 2 + (q + t * (uq l T G α β p q + k * q)) ^ 2) ≤
      (1 + t * k) * Real.sqrt (p ^ 2 + q ^ 2) + 21 / 50 * l := by
  obtain ⟨-, h2, -, h4, h5, ⟨μ, ν, m1, m2, m3, m4⟩, -⟩ := one_step h
  have ht := h.t_pos
  have hl := h.l_pos
  have hR : 0 < p ^ 2 + q ^ 2 := lt_of_le_of_lt (sq_nonneg l) h.out
  have hn := h.n0
  have hs1 := h.short1
  have hout := h.out
  generalize up l T G α β p q = a at *
  generalize uq l T G α β p q = b at *
  set ρ := Real.sqrt (p ^ 2 + q ^ 2) with hρd
  have hρ : 0 < ρ := Real.sqrt_pos.mpr hR
  have hρ2 : ρ ^ 2 = p ^ 2 + q ^ 2 := Real.sq_sqrt hR.le
  have hρl : l ≤ ρ := by
    apply abs_le_of_sq_le_sq' _ hρ.le |>.2
    rw [hρ2]; exact hout.le
  have htk : 0 ≤ t * k := mul_nonneg ht.le hk
  -- the step without the push is short
  have hd : (t * a) ^ 2 + (t * b) ^ 2 ≤ (21 / 50 * l) ^ 2 := by
    have e1 : (t * a) ^ 2 + (t * b) ^ 2 = t ^ 2 * (a ^ 2 + b ^ 2) := by ring
    have e2 := mul_le_mul_of_nonneg_left h4 (sq_nonneg t)
    have e3 : t ^ 2 * (21 / 10 * n) ^ 2 = (21 / 50 * (5 * (t * n))) ^ 2 := by ring
    have e4 : (21 / 50 * (5 * (t * n))) ^ 2 ≤ (21 / 50 * l) ^ 2 :=
      pow_le_pow_left₀ (by positivity) (mul_le_mul_of_nonneg_left hs1 (by norm_num)) 2
    linarith
  have hdot : |p * (t * a) + q * (t * b)| ≤ ρ * (21 / 50 * l) := by
    apply abs_le_of_sq_le_sq _ (by positivity)
    rw [mul_pow ρ, hρ2]
    have e1 : (p * (t * a) + q * (t * b)) ^ 2 ≤ (p ^ 2 + q ^ 2) * ((t * a) ^ 2 + (t * b) ^ 2) := by
      have : (p ^ 2 + q ^ 2) * ((t * a) ^ 2 + (t * b) ^ 2) - (p * (t * a) + q * (t * b)) ^ 2 =
        (p * (t * b) - q * (t * a)) ^ 2 := by ring
      linarith [sq_nonneg (p * (t * b) - q * (t * a))]
    exact e1.trans (mul_le_mul_of_nonneg_left hd hR.le)
  have hdot' := abs_le.mp hdot
  have hρl' : ρ * (21 / 50 * l) ≤ 21 / 50 * (p ^ 2 + q ^ 2) := by
    have := mul_le_mul_of_nonneg_left hρl hρ.le
    rw [← hρ2, sq]; linarith
  have hexp : (p + t * (a + k * p)) ^ 2 + (q + t * (b + k * q)) ^ 2 =
      ((p + t * a) ^ 2 + (q + t * b) ^ 2) + 2 * (t * k) * ((p ^ 2 + q ^ 2) + (p * (t * a) + q * (t * b))) +
        (t * k) ^ 2 * (p ^ 2 + q ^ 2) := by ring
  have hgain : t * k * (p ^ 2 + q ^ 2) ≤
      2 * (t * k) * ((p ^ 2 + q ^ 2) + (p * (t * a) + q * (t * b))) + (t * k) ^ 2 * (p ^ 2 + q ^ 2) := by
    have e1 : 1 / 2 * (p ^ 2 + q ^ 2) ≤ (p ^ 2 + q ^ 2) + (p * (t * a) + q * (t * b)) := by linarith
    have e2 := mul_le_mul_of_nonneg_left e1 (by linarith : 0 ≤ 2 * (t * k))
    have e3 : 0 ≤ (t * k) ^ 2 * (p ^ 2 + q ^ 2) := by positivity
    linarith
  have hgain0 : 0 ≤ t * k * (p ^ 2 + q ^ 2) := by positivity
  have habs : |t * a| ≤ 21 / 50 * l := by
    apply abs_le_of_sq_le_sq _ (by positivity)
    linarith [sq_nonneg (t * b)]
  refine ⟨?_, ?_, ?_, ?_, ?_⟩
  · rw [hexp]; linarith
  · intro h0
    have := h5 h0
    rw [hexp]; linarith
  · refine ⟨μ + t * k, ν, by linarith, m2, ?_, ?_⟩
    · linear_combination m3
    · linear_combination m4
  · intro hp
    have e1 : t * k * p ≤ 0 := mul_nonpos_of_nonneg_of_nonpos htk hp.le
    have e2 := (abs_le.mp habs).2
    linarith
  · rw [Real.sqrt_le_left (by positivity)]
    have e1 : (p + t * (a + k * p)) ^ 2 + (q + t * (b + k * q)) ^ 2 =
        (1 + t * k) ^ 2 * (p ^ 2 + q ^ 2) + 2 * (1 + t * k) * (p * (t * a) + q * (t * b)) +
          ((t * a) ^ 2 + (t * b) ^ 2) := by ring
    rw [e1, ← hρ2]
    have e2 := mul_le_mul_of_nonneg_left hdot'.2 (by linarith : 0 ≤ 2 * (1 + t * k))
    have e3 : ((1 + t * k) * ρ + 21 / 50 * l) ^ 2 =
        (1 + t * k) ^ 2 * ρ ^ 2 + 2 * (1 + t * k) * (ρ * (21 / 50 * l)) + (21 / 50 * l) ^ 2 := by ring
    rw [e3]
    linarith

end DOA.DiscStep
