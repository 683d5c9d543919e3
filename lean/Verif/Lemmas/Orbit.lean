import Mathlib.Tactic.Linarith
import Mathlib.Tactic.Ring
import Mathlib.Tactic.Positivity
import Mathlib.Tactic.NormNum
import Mathlib.Tactic.FieldSimp
import Mathlib.Tactic.LinearCombination
import Mathlib.Topology.Algebra.Order.LiminfLimsup
import Mathlib.Topology.Order.MonotoneConvergence
import Mathlib.Analysis.SpecificLimits.Basic
import Mathlib.Analysis.SpecialFunctions.Sqrt

/-!
# Sequences of points around a disc

`p`, `q`: the coordinates of the point along and across the line to the target `(T, 0)`; the disc has the radius `l`;
within the radius `a` there is an additional push outwards.
-/

namespace DOA.Orbit

open Filter Topology

/-- The point is moved by positive multiples of itself and of the target. -/
structure Turning (l T ν0 Rb : ℝ) (p q : ℕ → ℝ) : Prop where
  l_pos : 0 < l
  T_pos : 0 < T
  ν_pos : 0 < ν0
  out : ∀ n, l ^ 2 < p n ^ 2 + q n ^ 2
  bounded : ∀ n, p n ^ 2 + q n ^ 2 ≤ Rb
  angle : ∀ n, ∃ μ ν, 0 < μ ∧ ν0 ≤ ν ∧ q (n + 1) = μ * q n ∧ p (n + 1) = μ * p n + ν * T
  back : ∀ n, q n = 0 → p n < 0 → p (n + 1) ≤ p n + 21 / 50 * l

/-- what the steps of the loop around a disc give, see `Props/Convergence.lean` -/
structure Steps (l a T K κ C c ν0 Rb : ℝ) (p q F : ℕ → ℝ) : Prop extends Turning l T ν0 Rb p q where
  l_le : l ≤ a
  target : a < T
  κ_pos : 0 < κ
  c_pos : 0 < c
  grow : ∀ n, 0 ≤ p n * T - (p n ^ 2 + q n ^ 2) → p n ^ 2 + q n ^ 2 ≤ p (n + 1) ^ 2 + q (n + 1) ^ 2
  leave : ∀ n, p n ^ 2 + q n ^ 2 < a ^ 2 → 0 ≤ p n * T - (p n ^ 2 + q n ^ 2) →
    (1 + c) * (p n ^ 2 + q n ^ 2) ≤ p (n + 1) ^ 2 + q (n + 1) ^ 2
  keep : ∀ n, a ^ 2 ≤ p n ^ 2 + q n ^ 2 → a ^ 2 * (p n ^ 2 + q n ^ 2) ≤ (p n * T) ^ 2 → 0 ≤ p n →
    a ^ 2 ≤ p (n + 1) ^ 2 + q (n + 1) ^ 2
  nonneg : ∀ n, 0 ≤ F n
  radial : ∀ n, (1 - l ^ 2 / (p n ^ 2 + q n ^ 2)) * (p n * T - (p n ^ 2 + q n ^ 2)) ^ 2 ≤ K * F n
  nearer : ∀ n, a ^ 2 ≤ p n ^ 2 + q n ^ 2 →
    (p (n + 1) - T) ^ 2 + q (n + 1) ^ 2 ≤ (p n - T) ^ 2 + q n ^ 2 - κ * F n
  step : ∀ n, a ^ 2 ≤ p n ^ 2 + q n ^ 2 → (p (n + 1) - p n) ^ 2 ≤ C * F n

/-- What the steps of the loop around an ellipse give: along the line to the target the point is drawn to the target,
up to the distance from the line, and pushed away from the centre where it is close to it. -/
structure Pull (l T c C g ε ν0 Rb : ℝ) (p q : ℕ → ℝ) : Prop extends Turning l T ν0 Rb p q where
  c_pos : 0 < c
  C_pos : 0 < C
  g_pos : 0 < g
  ε_pos : 0 < ε
  pull : ∀ n, ∃ lam e w, c ≤ lam ∧ lam ≤ 1 ∧ |e| ≤ C * |q n| ∧ 0 ≤ w ∧ (T - g ≤ p n → |q n| ≤ ε → w = 0) ∧
    p (n + 1) = p n + lam * (T - p n) + e + w * p n

variable {l a T K κ C c ν0 Rb g ε : ℝ} {p q F : ℕ → ℝ}

theorem eventually_le {f : ℕ → ℝ} (h : Tendsto f atTop (𝓝 0)) {e : ℝ} (he : 0 < e) : ∃ N, ∀ n, N ≤ n → f n < e :=
  eventually_atTop.mp (h.eventually (gt_mem_nhds he))

theorem Turning.q_stays (h : Turning l T ν0 Rb p q) (hq : q 0 = 0) (n : ℕ) : q n = 0 := by
  induction n with
  | zero => exact hq
  | succ n ih =>
    obtain ⟨μ, ν, -, -, h2, -⟩ := h.angle n
    rw [h2, ih, mul_zero]

theorem Turning.q_ne (h : Turning l T ν0 Rb p q) (hq : q 0 ≠ 0) (n : ℕ) : q n ≠ 0 := by
  induction n with
  | zero => exact hq
  | succ n ih =>
    obtain ⟨μ, ν, h1, -, h2, -⟩ := h.angle n
    rw [h2]; exact mul_ne_zero h1.ne' ih

/-- on the axis, on the side of the target: the point stays there -/
theorem Turning.front (h : Turning l T ν0 Rb p q) (hp : 0 < p 0) (n : ℕ) : 0 < p n := by
  induction n with
  | zero => exact hp
  | succ n ih =>
    obtain ⟨μ, ν, h1, h2, -, h4⟩ := h.angle n
    rw [h4]
    have := h.ν_pos
    exact add_pos (mul_pos h1 ih) (mul_pos (by linarith) h.T_pos)

/-- on the axis, behind the disc: the point stays there -/
theorem Turning.behind (h : Turning l T ν0 Rb p q) (hq : q 0 = 0) (hp : p 0 < 0) (n : ℕ) : p n < -l := by
  have hl := h.l_pos
  have big : ∀ n, l < |p n| := by
    intro n
    have a := h.out n
    rw [h.q_stays hq n] at a
    apply lt_of_pow_lt_pow_left₀ 2 (abs_nonneg _)
    rw [sq_abs]; linarith
  induction n with
  | zero => have := big 0; rw [abs_of_neg hp] at this; linarith
  | succ n ih =>
    have hj := h.back n (h.q_stays hq n) (by linarith)
    have := big (n + 1)
    rw [abs_of_neg (by linarith)] at this
    linarith

/-- the slope `p/|q|` grows at least linearly -/
theorem Turning.slope (h : Turning l T ν0 Rb p q) (hq : q 0 ≠ 0) (n : ℕ) :
    p 0 / |q 0| + n * (ν0 * T / Real.sqrt Rb) ≤ p n / |q n| := by
  have hT := h.T_pos
  have hR : 0 < Rb := lt_of_lt_of_le (lt_of_le_of_lt (sq_nonneg l) (h.out 0)) (h.bounded 0)
  have hs : 0 < Real.sqrt Rb := Real.sqrt_pos.mpr hR
  induction n with
  | zero => simp
  | succ n ih =>
    obtain ⟨μ, ν, h1, h2, h3, h4⟩ := h.angle n
    have hqn := abs_pos.mpr (h.q_ne hq n)
    have hqn1 := abs_pos.mpr (h.q_ne hq (n + 1))
    have e1 : |q (n + 1)| = μ * |q n| := by rw [h3, abs_mul, abs_of_pos h1]
    have e2 : p (n + 1) / |q (n + 1)| = p n / |q n| + ν * T / |q (n + 1)| := by
      rw [e1, h4]; field_simp
    have e3 : |q (n + 1)| ≤ Real.sqrt Rb := by
      apply Real.le_sqrt_of_sq_le
      rw [sq_abs]
      have := h.bounded (n + 1)
      linarith [sq_nonneg (p (n + 1))]
    have e4 : ν0 * T / Real.sqrt Rb ≤ ν * T / |q (n + 1)| := by
      have hν := h.ν_pos
      apply div_le_div₀ (mul_nonneg (by linarith) hT.le) (mul_le_mul_of_nonneg_right h2 hT.le) hqn1 e3
    rw [e2]
    push_cast
    linarith

/-- eventually the point is in every cone around the axis -/
theorem Turning.cone (h : Turning l T ν0 Rb p q) (h0 : ¬(q 0 = 0 ∧ p 0 < 0)) (B : ℝ) (hB : 0 < B) :
    ∃ N, ∀ n, N ≤ n → 0 < p n ∧ B * |q n| ≤ p n := by
  by_cases hq : q 0 = 0
  · have hp : 0 < p 0 := by
      rcases lt_trichotomy (p 0) 0 with h1 | h1 | h1
      · exact absurd ⟨hq, h1⟩ h0
      · exfalso
        have := h.out 0
        rw [hq, h1] at this
        nlinarith [h.l_pos]
      · exact h1
    refine ⟨0, fun n _ => ⟨h.front hp n, ?_⟩⟩
    rw [h.q_stays hq n, abs_zero, mul_zero]
    exact (h.front hp n).le
  · have hT := h.T_pos
    have hR : 0 < Rb := lt_of_lt_of_le (lt_of_le_of_lt (sq_nonneg l) (h.out 0)) (h.bounded 0)
    have hs : 0 < ν0 * T / Real.sqrt Rb := div_pos (mul_pos h.ν_pos hT) (Real.sqrt_pos.mpr hR)
    obtain ⟨N, hN⟩ := exists_nat_gt ((B - p 0 / |q 0|) / (ν0 * T / Real.sqrt Rb))
    refine ⟨N, fun n hn => ?_⟩
    have h1 := h.slope hq n
    have hqn := abs_pos.mpr (h.q_ne hq n)
    have h2 : B ≤ p n / |q n| := by
      rw [div_lt_iff₀ hs] at hN
      have : (N : ℝ) * (ν0 * T / Real.sqrt Rb) ≤ n * (ν0 * T / Real.sqrt Rb) :=
        mul_le_mul_of_nonneg_right (by exact_mod_cast hn) hs.le
      linarith
    rw [le_div_iff₀ hqn] at h2
    exact ⟨lt_of_lt_of_le (mul_pos hB hqn) h2, h2⟩

theorem Turning.q_zero (h : Turning l T ν0 Rb p q) (h0 : ¬(q 0 = 0 ∧ p 0 < 0)) {e : ℝ} (he : 0 < e) :
    ∃ N, ∀ n, N ≤ n → q n ^ 2 < e := by
  have hR : 0 < Rb := lt_of_lt_of_le (lt_of_le_of_lt (sq_nonneg l) (h.out 0)) (h.bounded 0)
  set B := Real.sqrt (Rb / e) + 1 with hB
  have hB0 : 0 < B := by positivity
  obtain ⟨N, hN⟩ := h.cone h0 B hB0
  refine ⟨N, fun n hn => ?_⟩
  obtain ⟨h1, h2⟩ := hN n hn
  have h3 : B ^ 2 * q n ^ 2 ≤ Rb := by
    have := pow_le_pow_left₀ (by positivity) h2 2
    rw [mul_pow, sq_abs] at this
    have := h.bounded n
    linarith [sq_nonneg (q n)]
  have h4 : Rb / e < B ^ 2 := by
    have : Real.sqrt (Rb / e) ^ 2 = Rb / e := Real.sq_sqrt (by positivity)
    have h5 : 0 ≤ Real.sqrt (Rb / e) := Real.sqrt_nonneg _
    rw [hB]; nlinarith
  by_contra hn'
  have h6 := not_lt.mp hn'
  rw [div_lt_iff₀ he] at h4
  have := mul_le_mul_of_nonneg_left h6 (sq_nonneg B)
  linarith

/-- eventually the point is outside the radius `a` -/
theorem Steps.free (h : Steps l a T K κ C c ν0 Rb p q F) (h0 : ¬(q 0 = 0 ∧ p 0 < 0)) :
    ∃ N, ∀ n, N ≤ n → a ^ 2 ≤ p n ^ 2 + q n ^ 2 ∧ 0 < p n := by
  have hl := h.l_pos
  have ha : 0 < a := by linarith [h.l_le]
  have hT := h.T_pos
  have haT := h.target
  -- a narrow cone
  have hd : 0 < T ^ 2 - a ^ 2 := by nlinarith
  obtain ⟨N, hN⟩ := h.cone h0 (a / Real.sqrt (T ^ 2 - a ^ 2)) (div_pos ha (Real.sqrt_pos.mpr hd))
  have hcone : ∀ n, N ≤ n → a ^ 2 * (p n ^ 2 + q n ^ 2) ≤ (p n * T) ^ 2 := by
    intro n hn
    obtain ⟨h1, h2⟩ := hN n hn
    have h3 := pow_le_pow_left₀ (mul_nonneg (div_nonneg ha.le (Real.sqrt_nonneg _)) (abs_nonneg _)) h2 2
    rw [mul_pow, sq_abs, div_pow, Real.sq_sqrt hd.le, div_mul_eq_mul_div, div_le_iff₀ hd] at h3
    nlinarith
  have hkeep : ∀ n, N ≤ n → a ^ 2 ≤ p n ^ 2 + q n ^ 2 → a ^ 2 ≤ p (n + 1) ^ 2 + q (n + 1) ^ 2 :=
    fun n hn h1 => h.keep n h1 (hcone n hn) (hN n hn).1.le
  by_cases hex : ∃ M, N ≤ M ∧ a ^ 2 ≤ p M ^ 2 + q M ^ 2
  · obtain ⟨M, hM, hM'⟩ := hex
    refine ⟨M, fun n hn => ⟨?_, (hN n (by omega)).1⟩⟩
    induction n, hn using Nat.le_induction with
    | base => exact hM'
    | succ n hn ih => exact hkeep n (by omega) ih
  · exfalso
    have hin : ∀ n, N ≤ n → p n ^ 2 + q n ^ 2 < a ^ 2 := fun n hn => by
      by_contra hc
      exact hex ⟨n, hn, not_lt.mp hc⟩
    have hgrow : ∀ j, (1 + c) ^ j * (p N ^ 2 + q N ^ 2) ≤ p (N + j) ^ 2 + q (N + j) ^ 2 := by
      intro j
      induction j with
      | zero => simp
      | succ j ih =>
        have h1 := hin (N + j) (by omega)
        have h2 := hcone (N + j) (by omega)
        have h3 : 0 < p (N + j) ^ 2 + q (N + j) ^ 2 := lt_of_le_of_lt (sq_nonneg l) (h.out _)
        have h4 : (p (N + j) ^ 2 + q (N + j) ^ 2) ^ 2 ≤ (p (N + j) * T) ^ 2 := by
          refine le_trans ?_ h2
          rw [sq]
          exact mul_le_mul_of_nonneg_right h1.le h3.le
        have h5 := abs_le_of_sq_le_sq' h4 (mul_nonneg (hN _ (by omega)).1.le hT.le)
        have h6 := h.leave (N + j) h1 (by linarith [h5.2])
        have h7 := mul_le_mul_of_nonneg_left ih (by linarith [h.c_pos] : 0 ≤ 1 + c)
        have e : (1 + c) ^ (j + 1) * (p N ^ 2 + q N ^ 2) = (1 + c) * ((1 + c) ^ j * (p N ^ 2 + q N ^ 2)) := by ring
        rw [e]
        exact h7.trans h6
    have h3 : 0 < p N ^ 2 + q N ^ 2 := lt_of_le_of_lt (sq_nonneg l) (h.out _)
    obtain ⟨j, hj⟩ := pow_unbounded_of_one_lt (a ^ 2 / (p N ^ 2 + q N ^ 2)) (by linarith [h.c_pos] : 1 < 1 + c)
    rw [div_lt_iff₀ h3] at hj
    have := hgrow j
    have := hin (N + j) (by omega)
    linarith

/-- **convergence, except from the ray behind the disc** -/
theorem Steps.converges (h : Steps l a T K κ C c ν0 Rb p q F) (h0 : ¬(q 0 = 0 ∧ p 0 < 0)) :
    Tendsto (fun n => (p n - T) ^ 2 + q n ^ 2) atTop (𝓝 0) := by
  have hl := h.l_pos
  have hT : l < T := lt_of_le_of_lt h.l_le h.target
  obtain ⟨N0, hN0⟩ := h.free h0
  have hqz : Tendsto (fun n => q n ^ 2) atTop (𝓝 0) := by
    rw [Metric.tendsto_atTop]
    intro e he
    obtain ⟨N, hN⟩ := h.q_zero h0 he
    refine ⟨N, fun n hn => ?_⟩
    rw [Real.dist_eq, sub_zero, abs_of_nonneg (sq_nonneg _)]
    exact hN n hn
  -- the decrease vanishes
  have hF : Tendsto F atTop (𝓝 0) := by
    set E : ℕ → ℝ := fun n => (p (n + N0) - T) ^ 2 + q (n + N0) ^ 2 with hE
    have hnear : ∀ n, E (n + 1) ≤ E n - κ * F (n + N0) := by
      intro n
      have := h.nearer (n + N0) (hN0 (n + N0) (by omega)).1
      simp only [hE]
      rw [show n + 1 + N0 = n + N0 + 1 by omega]
      exact this
    have hanti : Antitone E := antitone_nat_of_succ_le fun n => by
      have := hnear n; have := mul_nonneg h.κ_pos.le (h.nonneg (n + N0)); linarith
    have hb : BddBelow (Set.range E) := ⟨0, by rintro _ ⟨n, rfl⟩; simp only [hE]; positivity⟩
    have hlim := tendsto_atTop_ciInf hanti hb
    have hlim' := hlim.comp (tendsto_add_atTop_nat 1)
    have hd : Tendsto (fun n => κ⁻¹ * (E n - E (n + 1))) atTop (𝓝 0) := by
      have := (hlim.sub hlim').const_mul κ⁻¹
      simpa using this
    rw [← tendsto_add_atTop_iff_nat N0]
    refine squeeze_zero (fun n => h.nonneg _) (fun n => ?_) hd
    have := hnear n
    rw [inv_mul_eq_div, le_div_iff₀ h.κ_pos]
    linarith
  have hrz : Tendsto (fun n => (1 - l ^ 2 / (p n ^ 2 + q n ^ 2)) * (p n * T - (p n ^ 2 + q n ^ 2)) ^ 2) atTop (𝓝 0) := by
    refine squeeze_zero (fun n => ?_) h.radial ?_
    · refine mul_nonneg ?_ (sq_nonneg _)
      have h1 := h.out n
      have h2 : 0 < p n ^ 2 + q n ^ 2 := lt_of_le_of_lt (sq_nonneg l) h1
      rw [sub_nonneg, div_le_one h2]; exact h1.le
    · simpa using hF.const_mul K
  have hsz : Tendsto (fun n => C * F n) atTop (𝓝 0) := by simpa using hF.const_mul C
  set g := T - l with hg
  have hg0 : 0 < g := by linarith
  obtain ⟨N1, h1⟩ := eventually_le hqz (show 0 < min (l / 2 * (g / 2)) (l ^ 2 / 4) by positivity)
  obtain ⟨N2, h2⟩ := eventually_le hsz (show 0 < (g / 4) ^ 2 by positivity)
  set M := max N0 (max N1 N2) with hM
  have hp2 : ∀ n, M ≤ n → l / 2 ≤ p n := by
    intro n hn
    have a1 := lt_of_lt_of_le (h1 n (by omega)) (min_le_right _ _)
    have a2 := h.out n
    apply abs_le_of_sq_le_sq' _ (hN0 n (by omega)).2.le |>.2
    nlinarith
  -- the point keeps a distance from the surface
  obtain ⟨R0, hR0, hR⟩ : ∃ R0, l ^ 2 < R0 ∧ ∀ n, M ≤ n → R0 ≤ p n ^ 2 + q n ^ 2 := by
    refine ⟨min (p M ^ 2 + q M ^ 2) ((l + g / 4) ^ 2), lt_min (h.out M) (by nlinarith), ?_⟩
    intro n hn
    induction n, hn using Nat.le_induction with
    | base => exact min_le_left _ _
    | succ n hn ih =>
      by_cases hp : p n ≤ l + g / 2
      · refine ih.trans (h.grow n ?_)
        have a1 := hp2 n hn
        have a2 := lt_of_lt_of_le (h1 n (by omega)) (min_le_left _ _)
        have a3 : l / 2 * (g / 2) ≤ p n * (T - p n) :=
          mul_le_mul a1 (by linarith) (by linarith) (by linarith)
        nlinarith
      · refine (min_le_right _ _).trans ?_
        have a0 := lt_of_le_of_lt (h.step n (hN0 n (by omega)).1) (h2 n (by omega))
        have a1 := abs_lt.mp (abs_lt_of_sq_lt_sq a0 (by positivity))
        have a2 : l + g / 4 ≤ p (n + 1) := by linarith [not_le.mp hp]
        have := pow_le_pow_left₀ (by positivity) a2 2
        nlinarith [sq_nonneg (q (n + 1))]
  have hR0' : 0 < R0 := lt_of_le_of_lt (sq_nonneg l) hR0
  have hc : 0 < 1 - l ^ 2 / R0 := by rw [sub_pos, div_lt_one hR0']; exact hR0
  -- the radial part of the velocity vanishes
  have hz : Tendsto (fun n => (p n * T - (p n ^ 2 + q n ^ 2)) ^ 2) atTop (𝓝 0) := by
    have hz := hrz.const_mul (1 - l ^ 2 / R0)⁻¹
    rw [mul_zero] at hz
    refine squeeze_zero' (Eventually.of_forall fun n => sq_nonneg _) (eventually_atTop.mpr ⟨M, fun n hn => ?_⟩) hz
    rw [inv_mul_eq_div, le_div_iff₀ hc, mul_comm]
    refine mul_le_mul_of_nonneg_right ?_ (sq_nonneg _)
    have : l ^ 2 / (p n ^ 2 + q n ^ 2) ≤ l ^ 2 / R0 := div_le_div_of_nonneg_left (sq_nonneg l) hR0' (hR n hn)
    linarith
  -- hence the point approaches the target
  have hs : Tendsto (fun n => 4 / l ^ 2 * (2 * (p n * T - (p n ^ 2 + q n ^ 2)) ^ 2 + 2 * (q n ^ 2 * q n ^ 2)) + q n ^ 2)
      atTop (𝓝 0) := by
    have := (((hz.const_mul 2).add ((hqz.mul hqz).const_mul 2)).const_mul (4 / l ^ 2)).add hqz
    simpa using this
  refine squeeze_zero' (Eventually.of_forall fun n => by positivity) (eventually_atTop.mpr ⟨M, fun n hn => ?_⟩) hs
  have a1 := hp2 n hn
  have a2 : (p n * (T - p n)) ^ 2 ≤ 2 * (p n * T - (p n ^ 2 + q n ^ 2)) ^ 2 + 2 * (q n ^ 2 * q n ^ 2) := by
    nlinarith [sq_nonneg (p n * T - (p n ^ 2 + q n ^ 2) - q n ^ 2)]
  have a3 : (l / 2) ^ 2 * (p n - T) ^ 2 ≤ (p n * (T - p n)) ^ 2 := by
    have := pow_le_pow_left₀ (by positivity) a1 2
    nlinarith [mul_le_mul_of_nonneg_right this (sq_nonneg (p n - T))]
  have a4 : (p n - T) ^ 2 = 4 / l ^ 2 * ((l / 2) ^ 2 * (p n - T) ^ 2) := by field_simp; ring
  have a5 := mul_le_mul_of_nonneg_left (a3.trans a2) (by positivity : 0 ≤ 4 / l ^ 2)
  linarith

/-- **convergence around an ellipse** -/
theorem Pull.converges (h : Pull l T c C g ε ν0 Rb p q) (h0 : ¬(q 0 = 0 ∧ p 0 < 0)) :
    Tendsto (fun n => (p n - T) ^ 2 + q n ^ 2) atTop (𝓝 0) := by
  have hc := h.c_pos
  have hC := h.C_pos
  have hg := h.g_pos
  have hc1 : c ≤ 1 := by
    obtain ⟨lam, e, w, h1, h2, -⟩ := h.pull 0
    linarith
  have hqs : ∀ e, 0 < e → ∃ N, ∀ n, N ≤ n → |q n| < e := by
    intro e he
    obtain ⟨N, hN⟩ := h.toTurning.q_zero h0 (show 0 < e ^ 2 by positivity)
    exact ⟨N, fun n hn => abs_lt_of_sq_lt_sq (hN n hn) he.le⟩
  -- the point gets near the target and stays there
  obtain ⟨N, hN⟩ : ∃ N, ∀ n, N ≤ n → T - g ≤ p n ∧ |q n| ≤ ε := by
    obtain ⟨N1, h1⟩ := hqs ε h.ε_pos
    obtain ⟨N2, h2⟩ := hqs (c * g / (2 * C)) (by positivity)
    obtain ⟨N3, h3⟩ := h.toTurning.cone h0 1 one_pos
    set M := max N1 (max N2 N3) with hM
    have he : ∀ n, M ≤ n → C * |q n| ≤ c * g / 2 := by
      intro n hn
      have := h2 n (by omega)
      rw [lt_div_iff₀ (by positivity)] at this
      linarith
    have up : ∀ n, M ≤ n → p n < T - g → p n + c * g / 2 ≤ p (n + 1) := by
      intro n hn hp
      obtain ⟨lam, e, w, k1, k2, k3, k4, -, k6⟩ := h.pull n
      have a1 := (abs_le.mp k3).1
      have a2 := he n hn
      have a3 : c * g ≤ lam * (T - p n) := mul_le_mul k1 (by linarith) hg.le (by linarith)
      have a4 := mul_nonneg k4 (h3 n (by omega)).1.le
      rw [k6]; linarith
    have stay : ∀ n, M ≤ n → T - g ≤ p n → T - g ≤ p (n + 1) := by
      intro n hn hp
      obtain ⟨lam, e, w, k1, k2, k3, k4, k5, k6⟩ := h.pull n
      have a1 := (abs_le.mp k3).1
      have a2 := he n hn
      rw [k6, k5 hp (h1 n (by omega)).le, zero_mul, add_zero]
      have a3 : (1 - lam) * (T - p n) ≤ (1 - c) * g := by
        have b1 : (1 - lam) * (T - p n) ≤ (1 - lam) * g := mul_le_mul_of_nonneg_left (by linarith) (by linarith)
        have b2 : (1 - lam) * g ≤ (1 - c) * g := mul_le_mul_of_nonneg_right (by linarith) hg.le
        linarith
      have a4 : 0 < c * g := mul_pos hc hg
      linarith
    by_cases hex : ∃ n, M ≤ n ∧ T - g ≤ p n
    · obtain ⟨K, hK, hK'⟩ := hex
      refine ⟨K, fun n hn => ⟨?_, (h1 n (by omega)).le⟩⟩
      induction n, hn using Nat.le_induction with
      | base => exact hK'
      | succ n hn ih => exact stay n (by omega) ih
    · exfalso
      have hlt : ∀ n, M ≤ n → p n < T - g := fun n hn => by
        by_contra hc'
        exact hex ⟨n, hn, not_lt.mp hc'⟩
      have hgrow : ∀ j : ℕ, p M + j * (c * g / 2) ≤ p (M + j) := by
        intro j
        induction j with
        | zero => simp
        | succ j ih =>
          have := up (M + j) (by omega) (hlt _ (by omega))
          rw [← add_assoc M]
          push_cast
          linarith
      obtain ⟨j, hj⟩ := exists_nat_gt ((T - g - p M) / (c * g / 2))
      rw [div_lt_iff₀ (by positivity)] at hj
      have := hgrow j
      have := hlt (M + j) (by omega)
      linarith
  -- there it is drawn to it
  have hpz : ∀ e, 0 < e → ∃ N, ∀ n, N ≤ n → |p n - T| < e := by
    intro e he
    obtain ⟨N1, h1⟩ := hqs (c * (e / 2) / C) (by positivity)
    set M := max N N1 with hM
    have step : ∀ n, M ≤ n → |p (n + 1) - T| - e / 2 ≤ (1 - c) * (|p n - T| - e / 2) := by
      intro n hn
      obtain ⟨lam, e', w, k1, k2, k3, k4, k5, k6⟩ := h.pull n
      have a1 := hN n (by omega)
      have a2 := h1 n (by omega)
      rw [lt_div_iff₀ (by positivity)] at a2
      rw [k6, k5 a1.1 a1.2, zero_mul, add_zero]
      have a3 : p n + lam * (T - p n) + e' - T = (1 - lam) * (p n - T) + e' := by ring
      rw [a3]
      have a4 := abs_add_le ((1 - lam) * (p n - T)) e'
      rw [abs_mul, abs_of_nonneg (by linarith : 0 ≤ 1 - lam)] at a4
      have a5 : (1 - lam) * |p n - T| ≤ (1 - c) * |p n - T| := mul_le_mul_of_nonneg_right (by linarith) (abs_nonneg _)
      linarith
    have all : ∀ j : ℕ, |p (M + j) - T| - e / 2 ≤ (1 - c) ^ j * |p M - T| := by
      intro j
      induction j with
      | zero => simp only [add_zero, pow_zero, one_mul]; linarith
      | succ j ih =>
        have := step (M + j) (by omega)
        have b := mul_le_mul_of_nonneg_left ih (by linarith : 0 ≤ 1 - c)
        rw [← add_assoc, pow_succ]
        linarith
    have hlim : Tendsto (fun j : ℕ => (1 - c) ^ j * |p M - T|) atTop (𝓝 0) := by
      have := (tendsto_pow_atTop_nhds_zero_of_lt_one (by linarith : 0 ≤ 1 - c) (by linarith)).mul_const |p M - T|
      simpa using this
    obtain ⟨J, hJ⟩ := eventually_le hlim (show 0 < e / 2 by positivity)
    refine ⟨M + J, fun n hn => ?_⟩
    have b1 := hJ (n - M) (by omega)
    have b2 := all (n - M)
    rw [show M + (n - M) = n by omega] at b2
    linarith
  rw [Metric.tendsto_atTop]
  intro e he
  obtain ⟨N1, h1⟩ := hpz (Real.sqrt (e / 2)) (Real.sqrt_pos.mpr (by positivity))
  obtain ⟨N2, h2⟩ := h.toTurning.q_zero h0 (show 0 < e / 2 by positivity)
  refine ⟨max N1 N2, fun n hn => ?_⟩
  rw [Real.dist_eq, sub_zero, abs_of_nonneg (by positivity)]
  have a1 := h1 n (le_trans (le_max_left _ _) hn)
  have a2 := h2 n (le_trans (le_max_right _ _) hn)
  have a3 := pow_lt_pow_left₀ a1 (abs_nonneg _) two_ne_zero
  rw [sq_abs, Real.sq_sqrt (by positivity)] at a3
  linarith

end DOA.Orbit
