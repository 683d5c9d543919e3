import Verif.Lemmas.Combine
import Mathlib.Analysis.SpecialFunctions.Trigonometric.Bounds
import Mathlib.Analysis.Complex.Norm

/-!
# Several obstacles: how far the interpolation is from the velocity of one of them
-/

set_option linter.unusedSectionVars false
set_option linter.unusedSimpArgs false

namespace DOA.Modulation
open DOA

/-- The exact form of `reconstruct`: the exponential map of the sphere at `(1,0,0)`. -/
noncomputable def expMap (s : V2 ℝ) : V3 ℝ :=
  ⟨Real.cos s.norm, Real.sin s.norm / s.norm * s.x, Real.sin s.norm / s.norm * s.y⟩

theorem V2.norm_sq' (s : V2 ℝ) : s.x ^ 2 + s.y ^ 2 = s.norm ^ 2 := by
  have := V2.norm_sq s
  simp only [V2.sqNorm] at this
  nlinarith

theorem V2.norm_zero_iff {s : V2 ℝ} (h : s.norm = 0) : s.x = 0 ∧ s.y = 0 := by
  have := V2.norm_sq' s
  rw [h] at this
  constructor <;> nlinarith [sq_nonneg s.x, sq_nonneg s.y]

/-- the exponential map does not increase distances -/
theorem expMap_lip (s t : V2 ℝ) : V3.sqNorm (expMap s - expMap t) ≤ (s.x - t.x) ^ 2 + (s.y - t.y) ^ 2 := by
  have hs := V2.norm_sq' s
  have ht := V2.norm_sq' t
  have cs := Real.sin_sq_add_cos_sq s.norm
  have ct := Real.sin_sq_add_cos_sq t.norm
  rcases eq_or_ne s.norm 0 with h0 | h0
  · obtain ⟨h1, h2⟩ := V2.norm_zero_iff h0
    have hb := Real.one_sub_sq_div_two_le_cos (x := t.norm)
    have e : V3.sqNorm (expMap s - expMap t) = (1 - Real.cos t.norm) ^ 2 +
        (Real.sin t.norm / t.norm) ^ 2 * (t.norm ^ 2) := by
      rw [← ht]
      simp only [V3.sqNorm, V3.dot, expMap, h0, h1, h2, Real.cos_zero, V3.sub_x, V3.sub_y, V3.sub_z]
      ring
    rw [e, h1, h2]
    rcases eq_or_ne t.norm 0 with g0 | g0
    · rw [g0]; simp; positivity
    · rw [div_pow, div_mul_cancel₀ _ (pow_ne_zero 2 g0)]
      nlinarith
  rcases eq_or_ne t.norm 0 with g0 | g0
  · obtain ⟨h1, h2⟩ := V2.norm_zero_iff g0
    have hb := Real.one_sub_sq_div_two_le_cos (x := s.norm)
    have e : V3.sqNorm (expMap s - expMap t) = (1 - Real.cos s.norm) ^ 2 +
        (Real.sin s.norm / s.norm) ^ 2 * (s.norm ^ 2) := by
      rw [← hs]
      simp only [V3.sqNorm, V3.dot, expMap, g0, h1, h2, Real.cos_zero, V3.sub_x, V3.sub_y, V3.sub_z]
      ring
    rw [e, h1, h2, div_pow, div_mul_cancel₀ _ (pow_ne_zero 2 h0)]
    nlinarith
  · set n := s.norm
    set m := t.norm
    have hn : 0 < n := lt_of_le_of_ne (V2.norm_nonneg s) (Ne.symm h0)
    have hm : 0 < m := lt_of_le_of_ne (V2.norm_nonneg t) (Ne.symm g0)
    obtain ⟨c, hc⟩ : ∃ c, s.x * t.x + s.y * t.y = n * m * c := ⟨(s.x * t.x + s.y * t.y) / (n * m), by field_simp⟩
    have hc2 : c ^ 2 ≤ 1 := by
      have h1 : (n * m) ^ 2 * c ^ 2 ≤ (n * m) ^ 2 * 1 := by
        have : (s.x * t.x + s.y * t.y) ^ 2 ≤ (s.x ^ 2 + s.y ^ 2) * (t.x ^ 2 + t.y ^ 2) := by
          nlinarith [sq_nonneg (s.x * t.y - s.y * t.x)]
        rw [hc, hs, ht] at this
        nlinarith
      exact le_of_mul_le_mul_left h1 (by positivity)
    have hcl : -1 ≤ c := by nlinarith
    have hcu : c ≤ 1 := by nlinarith
    have e1 : V3.sqNorm (expMap s - expMap t) = 2 - 2 * (Real.cos n * Real.cos m + Real.sin n * Real.sin m * c) := by
      have hx : V3.sqNorm (expMap s - expMap t) = (Real.cos n - Real.cos m) ^ 2 +
          (Real.sin n / n) ^ 2 * (s.x ^ 2 + s.y ^ 2) + (Real.sin m / m) ^ 2 * (t.x ^ 2 + t.y ^ 2) -
          2 * (Real.sin n / n) * (Real.sin m / m) * (s.x * t.x + s.y * t.y) := by
        simp only [V3.sqNorm, V3.dot, expMap, V3.sub_x, V3.sub_y, V3.sub_z]
        ring
      rw [hx, hs, ht, hc, div_pow, div_pow, div_mul_cancel₀ _ (pow_ne_zero 2 h0), div_mul_cancel₀ _ (pow_ne_zero 2 g0)]
      have : 2 * (Real.sin n / n) * (Real.sin m / m) * (n * m * c) = 2 * (Real.sin n * Real.sin m * c) := by
        field_simp
      rw [this]
      linear_combination cs + ct
    have e2 : (s.x - t.x) ^ 2 + (s.y - t.y) ^ 2 = n ^ 2 + m ^ 2 - 2 * (n * m * c) := by
      linear_combination hs + ht - 2 * hc
    have b1 := Real.one_sub_sq_div_two_le_cos (x := n - m)
    have b2 := Real.one_sub_sq_div_two_le_cos (x := n + m)
    rw [Real.cos_sub] at b1
    rw [Real.cos_add] at b2
    rw [e1, e2]
    nlinarith [mul_nonneg (by linarith : 0 ≤ 1 + c) (sub_nonneg.mpr b1),
      mul_nonneg (by linarith : 0 ≤ 1 - c) (sub_nonneg.mpr b2)]

/-- the small-angle branch is off by at most 1E-8 -/
theorem reconstruct_exp (s : V2 ℝ) : V3.norm (reconstruct s - expMap s) ≤ 1 / 10 ^ 8 := by
  have hn0 := V2.norm_nonneg s
  have hs := V2.norm_sq' s
  unfold reconstruct
  have e : ((lit 1 10000 : ℝ)) = 1 / 10000 := by simp
  simp only [e]
  split
  · rename_i hlt
    show Real.sqrt _ ≤ _
    rw [Real.sqrt_le_left (by norm_num)]
    rcases eq_or_ne s.norm 0 with h0 | h0
    · obtain ⟨h1, h2⟩ := V2.norm_zero_iff h0
      simp [V3.sqNorm, V3.dot, expMap, h0, h1, h2, V3.zero]
    · have hpos : 0 < s.norm := lt_of_le_of_ne hn0 (Ne.symm h0)
      have e1 : V3.sqNorm ((⟨1, s.x, s.y⟩ : V3 ℝ) - expMap s) = (1 - Real.cos s.norm) ^ 2 +
          (s.norm - Real.sin s.norm) ^ 2 := by
        have : V3.sqNorm ((⟨1, s.x, s.y⟩ : V3 ℝ) - expMap s) = (1 - Real.cos s.norm) ^ 2 +
          (1 - Real.sin s.norm / s.norm) ^ 2 * (s.x ^ 2 + s.y ^ 2) := by
          simp only [V3.sqNorm, V3.dot, expMap, V3.sub_x, V3.sub_y, V3.sub_z]; ring
        rw [this, hs]
        field_simp
      rw [e1]
      generalize s.norm = n at *
      have b1 := Real.one_sub_sq_div_two_le_cos (x := n)
      have b2 := Real.cos_le_one n
      have b3 := Real.sin_gt_sub_cube hpos
      have b4 := Real.sin_le hpos.le
      have hn2 : n ^ 2 ≤ 1 / 10 ^ 8 := by nlinarith
      have c1 : (1 - Real.cos n) ^ 2 ≤ (n ^ 2 / 2) ^ 2 := by
        apply pow_le_pow_left₀ (by linarith); linarith
      have c2 : (n - Real.sin n) ^ 2 ≤ (n ^ 2 / 4) ^ 2 := by
        apply pow_le_pow_left₀ (by linarith)
        have : n ^ 3 ≤ n ^ 2 := by nlinarith [sq_nonneg n]
        linarith
      have c3 : (n ^ 2) ^ 2 ≤ (1 / 10 ^ 8) ^ 2 := pow_le_pow_left₀ (by positivity) hn2 2
      nlinarith
  · have : (⟨CMath.cos s.norm, CMath.sin s.norm / s.norm * s.x, CMath.sin s.norm / s.norm * s.y⟩ : V3 ℝ) - expMap s =
      V3.zero := by
      ext <;> simp [expMap, V3.zero]
    rw [this, V3.norm_eq_zero.mpr rfl]
    norm_num

/-- the position in angle space that `modulate_velocity` assigns to one matrix -/
noncomputable def angleOf (rv : V3 ℝ) (M : M3 ℝ) : V2 ℝ :=
  (angleTerm (dsFrame rv.normalized).transpose rv.normalized rv M 1).2

theorem angleTerm_eq (rv : V3 ℝ) (M : M3 ℝ) (w : ℝ) :
    angleTerm (dsFrame rv.normalized).transpose rv.normalized rv M w =
      (V3.norm (M.mulVec rv) * w, ⟨(angleOf rv M).x * w, (angleOf rv M).y * w⟩) := by
  simp only [angleOf, angleTerm, V2.scale, mul_one]

theorem V2.norm_normalized_le (s : V2 ℝ) : (V2.normalized s).norm ≤ 1 := by
  have hs := V2.norm_sq' s
  have h0 := V2.norm_nonneg s
  rw [V2.normalized]
  split
  · rename_i h
    have e : V2.norm (⟨s.x / CMath.sqrt s.sqNorm, s.y / CMath.sqrt s.sqNorm⟩ : V2 ℝ) = 1 := by
      have hp : 0 < s.norm := Real.sqrt_pos.mpr h
      show Real.sqrt (s.x / s.norm * (s.x / s.norm) + s.y / s.norm * (s.y / s.norm)) = 1
      rw [Real.sqrt_eq_one]
      field_simp
      linarith
    rw [e]
  · rename_i h
    have : s.norm = 0 := by
      have : s.sqNorm = 0 := le_antisymm (not_lt.mp h) (V2.sqNorm_nonneg s)
      show Real.sqrt s.sqNorm = 0
      rw [this, Real.sqrt_zero]
    linarith

theorem V2.norm_scale (s : V2 ℝ) (c : ℝ) : (V2.scale s c).norm = s.norm * |c| := by
  have h1 := V2.norm_sq' (V2.scale s c)
  have h2 := V2.norm_sq' s
  have : (V2.scale s c).norm ^ 2 = (s.norm * |c|) ^ 2 := by
    rw [← h1, mul_pow, ← h2, sq_abs]; simp only [V2.scale]; ring
  exact (pow_left_inj₀ (V2.norm_nonneg _) (mul_nonneg (V2.norm_nonneg _) (abs_nonneg _)) two_ne_zero).mp this

theorem angleOf_le (rv : V3 ℝ) (M : M3 ℝ) : (angleOf rv M).norm ≤ Real.pi := by
  unfold angleOf angleTerm
  simp only []
  rw [V2.norm_scale, V2.norm_scale, abs_one, mul_one, safeAcos_eq, abs_of_nonneg (Real.arccos_nonneg _)]
  have h1 := V2.norm_normalized_le ⟨((dsFrame rv.normalized).transpose.mulVec (M.mulVec rv).normalized).y,
    ((dsFrame rv.normalized).transpose.mulVec (M.mulVec rv).normalized).z⟩
  have h2 := Real.arccos_le_pi (V3.dot (M.mulVec rv).normalized rv.normalized)
  have h3 := Real.arccos_nonneg (V3.dot (M.mulVec rv).normalized rv.normalized)
  have h4 := V2.norm_nonneg (V2.normalized ⟨((dsFrame rv.normalized).transpose.mulVec (M.mulVec rv).normalized).y,
    ((dsFrame rv.normalized).transpose.mulVec (M.mulVec rv).normalized).z⟩)
  nlinarith [Real.pi_pos]

/-- the exponential map recovers the velocity of one matrix -/
theorem expMap_angleOf {rv : V3 ℝ} {M : M3 ℝ} (hz : rv.z = 0) (hrv : rv ≠ V3.zero) (hne : M.mulVec rv ≠ V3.zero)
    (hopp : ∀ c : ℝ, 0 < c → M.mulVec rv ≠ V3.smul (-c) rv) :
    M.mulVec rv = V3.smul (V3.norm (M.mulVec rv)) ((dsFrame rv.normalized).mulVec (expMap (angleOf rv M))) := by
  have hv := V3.norm_normalized hrv
  have hvz : rv.normalized.z = 0 := by rw [V3.normalized_of_ne hrv]; simp [V3.smul, hz]
  have hu := V3.norm_normalized hne
  set u := (M.mulVec rv).normalized with hudef
  set v := rv.normalized with hvdef
  have hdec := frame_decomp (u := u) hv hvz
  have hsq := comp_sq hv hvz hu
  set ty := ((dsFrame v).transpose.mulVec u).y with hty
  set tz := ((dsFrame v).transpose.mulVec u).z with htz
  set d := V3.dot u v with hd
  have hd2 : d * d ≤ 1 := by nlinarith [mul_self_nonneg ty, mul_self_nonneg tz]
  have hdl : -1 ≤ d := by nlinarith
  have hdu : d ≤ 1 := by nlinarith
  have hcos : Real.cos (Real.arccos d) = d := Real.cos_arccos hdl hdu
  have hsin : Real.sin (Real.arccos d) = Real.sqrt (1 - d ^ 2) := Real.sin_arccos d
  have hang : angleOf rv M = V2.scale (V2.normalized ⟨ty, tz⟩) (Real.arccos d) := by
    unfold angleOf angleTerm
    simp only [safeAcos_eq]
    simp only [V2.scale, mul_one]
    rfl
  have key : expMap (angleOf rv M) = ⟨d, ty, tz⟩ := by
    rw [hang]
    by_cases hpos : 0 < ty * ty + tz * tz
    · have hn : V2.normalized ⟨ty, tz⟩ = ⟨ty / Real.sin (Real.arccos d), tz / Real.sin (Real.arccos d)⟩ := by
        rw [V2.normalized, if_pos (by simpa only [V2.sqNorm] using hpos)]
        simp only [V2.sqNorm, hsq, sqrt_real, hsin]
        rw [show 1 - d * d = 1 - d ^ 2 by ring]
      have hs0 : 0 < Real.sin (Real.arccos d) := by
        rw [hsin]; apply Real.sqrt_pos.mpr; nlinarith
      have hθ : 0 < Real.arccos d := by
        rcases lt_or_eq_of_le (Real.arccos_nonneg d) with h | h
        · exact h
        · rw [← h, Real.sin_zero] at hs0; exact absurd hs0 (lt_irrefl _)
      have hs2 : Real.sin (Real.arccos d) ^ 2 = ty ^ 2 + tz ^ 2 := by
        rw [hsin, Real.sq_sqrt (by nlinarith)]; linarith
      have hnorm : V2.norm (V2.scale (V2.normalized ⟨ty, tz⟩) (Real.arccos d)) = Real.arccos d := by
        rw [V2.norm_scale, abs_of_pos hθ, hn]
        have : V2.norm (⟨ty / Real.sin (Real.arccos d), tz / Real.sin (Real.arccos d)⟩ : V2 ℝ) = 1 := by
          show Real.sqrt (ty / _ * (ty / _) + tz / _ * (tz / _)) = 1
          rw [Real.sqrt_eq_one]
          field_simp
          linarith
        rw [this, one_mul]
      unfold expMap
      rw [hnorm, hcos, hn]
      simp only [V2.scale]
      congr 1 <;> field_simp
    · have h0 : ty * ty + tz * tz = 0 := le_antisymm (not_lt.mp hpos) (by nlinarith [mul_self_nonneg ty, mul_self_nonneg tz])
      have hty0 : ty = 0 := by nlinarith [mul_self_nonneg ty, mul_self_nonneg tz]
      have htz0 : tz = 0 := by nlinarith [mul_self_nonneg ty, mul_self_nonneg tz]
      have hd1 : d = 1 := by
        rcases eq_or_ne d 1 with h | h
        · exact h
        · exfalso
          have hm1 : d = -1 := by
            have h1 : (d - 1) * (d + 1) = 0 := by rw [h0] at hsq; linarith
            rcases mul_eq_zero.mp h1 with h2 | h2
            · exact absurd (by linarith) h
            · linarith
          rw [hty0, htz0, hm1] at hdec
          have h3 : u = V3.smul (-1) v := by
            rw [hdec, dsFrame_planar hv hvz]
            ext <;> simp [M3.mulVec, V3.smul]
          refine hopp (V3.norm (M.mulVec rv) / V3.norm rv) (div_pos (V3.norm_pos hne) (V3.norm_pos hrv)) ?_
          have h4 : M.mulVec rv = V3.smul (V3.norm (M.mulVec rv)) u := (V3.norm_smul_normalized (M.mulVec rv)).symm
          rw [h3, hvdef, V3.normalized_of_ne hrv] at h4
          generalize V3.norm (M.mulVec rv) = c at h4 ⊢
          rw [h4]
          ext <;> simp [V3.smul] <;> ring
      rw [hty0, htz0, hd1]
      have : V2.scale (V2.normalized (⟨0, 0⟩ : V2 ℝ)) (Real.arccos 1) = ⟨0, 0⟩ := by
        rw [Real.arccos_one]; simp [V2.scale]
      rw [this]
      have hn0 : V2.norm (⟨0, 0⟩ : V2 ℝ) = 0 := by simp [V2.norm, V2.sqNorm]
      unfold expMap
      rw [hn0]
      simp
  rw [key, ← hdec, hudef, V3.norm_smul_normalized]

theorem V3.norm_add_le' (u v : V3 ℝ) : V3.norm (u + v) ≤ V3.norm u + V3.norm v := by
  have h1 := V3.cauchy_schwarz u v
  rw [← V3.norm_sq, ← V3.norm_sq] at h1
  have hu := V3.norm_nonneg u
  have hv := V3.norm_nonneg v
  have h2 : V3.dot u v ≤ V3.norm u * V3.norm v :=
    le_of_abs_le (abs_le_of_sq_le_sq (by nlinarith) (mul_nonneg hu hv))
  have h3 : V3.norm (u + v) * V3.norm (u + v) ≤ (V3.norm u + V3.norm v) * (V3.norm u + V3.norm v) := by
    have e1 : V3.sqNorm (u + v) = V3.sqNorm u + 2 * V3.dot u v + V3.sqNorm v := by
      simp only [V3.sqNorm, V3.dot, V3.add_x, V3.add_y, V3.add_z]; ring
    rw [V3.norm_sq, e1, ← V3.norm_sq u, ← V3.norm_sq v]
    linarith
  nlinarith [V3.norm_nonneg (u + v)]

/-- a weighted sum of deviations from one member -/
theorem weighted_dev {β : Type} (l1 l2 : List β) (x : β) (w : β → ℝ) (g : β → ℝ) (C : ℝ)
    (hw : ∀ y ∈ l1 ++ x :: l2, 0 ≤ w y) (hsum : ((l1 ++ x :: l2).map w).sum = 1)
    (hg : ∀ y ∈ l1 ++ x :: l2, |g y - g x| ≤ C) :
    |((l1 ++ x :: l2).map fun y => g y * w y).sum - g x| ≤ C * (1 - w x) := by
  have key : ∀ l : List β, (∀ y ∈ l, 0 ≤ w y) → (∀ y ∈ l, |g y - g x| ≤ C) →
      |(l.map fun y => g y * w y).sum - g x * (l.map w).sum| ≤ C * (l.map w).sum := by
    intro l
    induction l with
    | nil => intro _ _; simp
    | cons y l ih =>
      intro h1 h2
      have h3 := ih (fun z hz => h1 z (List.mem_cons_of_mem _ hz)) (fun z hz => h2 z (List.mem_cons_of_mem _ hz))
      have h4 := mul_le_mul_of_nonneg_right (h2 y List.mem_cons_self) (h1 y List.mem_cons_self)
      have h5 : |(g y - g x) * w y| = |g y - g x| * w y := by rw [abs_mul, abs_of_nonneg (h1 y List.mem_cons_self)]
      simp only [List.map_cons, List.sum_cons]
      have e : g y * w y + (l.map fun y => g y * w y).sum - g x * (w y + (l.map w).sum) =
          (g y - g x) * w y + ((l.map fun y => g y * w y).sum - g x * (l.map w).sum) := by ring
      rw [e]
      have := abs_add_le ((g y - g x) * w y) ((l.map fun y => g y * w y).sum - g x * (l.map w).sum)
      rw [h5] at this
      linarith
  have h1 := key l1 (fun y hy => hw y (by simp [hy])) (fun y hy => hg y (by simp [hy]))
  have h2 := key l2 (fun y hy => hw y (by simp [hy])) (fun y hy => hg y (by simp [hy]))
  simp only [List.map_append, List.map_cons, List.sum_append, List.sum_cons] at hsum ⊢
  have e : (l1.map fun y => g y * w y).sum + (g x * w x + (l2.map fun y => g y * w y).sum) - g x =
      ((l1.map fun y => g y * w y).sum - g x * (l1.map w).sum) +
        ((l2.map fun y => g y * w y).sum - g x * (l2.map w).sum) := by
    have : g x = g x * ((l1.map w).sum + (w x + (l2.map w).sum)) := by rw [hsum, mul_one]
    linear_combination -this
  rw [e]
  have h3 := abs_add_le ((l1.map fun y => g y * w y).sum - g x * (l1.map w).sum)
    ((l2.map fun y => g y * w y).sum - g x * (l2.map w).sum)
  have h4 : 1 - w x = (l1.map w).sum + (l2.map w).sum := by linarith
  rw [h4]
  linarith

/-- Several matrices: the interpolated velocity is near the velocity of a member whose weight is near one. -/
theorem core_near {rv : V3 ℝ} (hz : rv.z = 0) (l1 l2 : List (M3 ℝ × ℝ)) (x : M3 ℝ × ℝ)
    (hw : ∀ y ∈ l1 ++ x :: l2, 0 ≤ y.2) (hsum : ((l1 ++ x :: l2).map (·.2)).sum = 1) {K : ℝ}
    (hK : ∀ y ∈ l1 ++ x :: l2, V3.norm (y.1.mulVec rv) ≤ K)
    (hopp : ∀ c : ℝ, 0 < c → rv ≠ V3.zero → x.1.mulVec rv ≠ V3.smul (-c) rv) :
    V3.norm (core rv (l1 ++ x :: l2) - x.1.mulVec rv) ≤ 1 / 10 ^ 8 * K + (1 + 4 * Real.pi) * ((1 - x.2) * K) := by
  have hx : x ∈ l1 ++ x :: l2 := by simp
  have hK0 : 0 ≤ K := le_trans (V3.norm_nonneg _) (hK x hx)
  have hw1 : x.2 ≤ 1 := by
    have h1 : ∀ l : List (M3 ℝ × ℝ), (∀ y ∈ l, 0 ≤ y.2) → 0 ≤ (l.map (·.2)).sum := by
      intro l hl
      apply List.sum_nonneg
      intro z hz
      obtain ⟨y, hy, rfl⟩ := List.mem_map.mp hz
      exact hl y hy
    have h2 := h1 l1 (fun y hy => hw y (by simp [hy]))
    have h3 := h1 l2 (fun y hy => hw y (by simp [hy]))
    simp only [List.map_append, List.map_cons, List.sum_append, List.sum_cons] at hsum
    linarith
  have hpi := Real.pi_pos
  -- the parts of the sums
  have hW : |((l1 ++ x :: l2).map fun y => V3.norm (y.1.mulVec rv) * y.2).sum - V3.norm (x.1.mulVec rv)| ≤
      K * (1 - x.2) := by
    refine weighted_dev l1 l2 x (·.2) (fun y => V3.norm (y.1.mulVec rv)) K hw hsum ?_
    intro y hy
    rw [abs_le]
    have h1 := hK y hy
    have h2 := hK x hx
    have h3 := V3.norm_nonneg (y.1.mulVec rv)
    have h4 := V3.norm_nonneg (x.1.mulVec rv)
    constructor <;> linarith
  have comp_le : ∀ s : V2 ℝ, |s.x| ≤ s.norm ∧ |s.y| ≤ s.norm := by
    intro s
    have := V2.norm_sq' s
    exact ⟨abs_le_of_sq_le_sq (by nlinarith [sq_nonneg s.y]) (V2.norm_nonneg s),
      abs_le_of_sq_le_sq (by nlinarith [sq_nonneg s.x]) (V2.norm_nonneg s)⟩
  have hSx : |((l1 ++ x :: l2).map fun y => (angleOf rv y.1).x * y.2).sum - (angleOf rv x.1).x| ≤
      2 * Real.pi * (1 - x.2) := by
    refine weighted_dev l1 l2 x (·.2) (fun y => (angleOf rv y.1).x) _ hw hsum ?_
    intro y hy
    have h1 := (comp_le (angleOf rv y.1)).1.trans (angleOf_le rv y.1)
    have h2 := (comp_le (angleOf rv x.1)).1.trans (angleOf_le rv x.1)
    rw [abs_le] at *
    constructor <;> linarith
  have hSy : |((l1 ++ x :: l2).map fun y => (angleOf rv y.1).y * y.2).sum - (angleOf rv x.1).y| ≤
      2 * Real.pi * (1 - x.2) := by
    refine weighted_dev l1 l2 x (·.2) (fun y => (angleOf rv y.1).y) _ hw hsum ?_
    intro y hy
    have h1 := (comp_le (angleOf rv y.1)).2.trans (angleOf_le rv y.1)
    have h2 := (comp_le (angleOf rv x.1)).2.trans (angleOf_le rv x.1)
    rw [abs_le] at *
    constructor <;> linarith
  have hcore : core rv (l1 ++ x :: l2) = V3.smul ((l1 ++ x :: l2).map fun y => V3.norm (y.1.mulVec rv) * y.2).sum
      ((dsFrame rv.normalized).mulVec (reconstruct
        ⟨((l1 ++ x :: l2).map fun y => (angleOf rv y.1).x * y.2).sum,
         ((l1 ++ x :: l2).map fun y => (angleOf rv y.1).y * y.2).sum⟩)) := by
    unfold core
    simp only [angleTerm_eq, List.map_map, Function.comp_def]
  have hW0 : 0 ≤ ((l1 ++ x :: l2).map fun y => V3.norm (y.1.mulVec rv) * y.2).sum := by
    apply List.sum_nonneg
    intro z hz
    obtain ⟨y, hy, rfl⟩ := List.mem_map.mp hz
    exact mul_nonneg (V3.norm_nonneg _) (hw y hy)
  have hWK : ((l1 ++ x :: l2).map fun y => V3.norm (y.1.mulVec rv) * y.2).sum ≤ K := by
    have h1 := hK x hx
    have h2 : ∀ l : List (M3 ℝ × ℝ), (∀ y ∈ l, 0 ≤ y.2) → (∀ y ∈ l, V3.norm (y.1.mulVec rv) ≤ K) →
        (l.map fun y => V3.norm (y.1.mulVec rv) * y.2).sum ≤ K * (l.map (·.2)).sum := by
      intro l
      induction l with
      | nil => intro _ _; simp
      | cons y l ih =>
        intro g1 g2
        simp only [List.map_cons, List.sum_cons]
        have := mul_le_mul_of_nonneg_right (g2 y List.mem_cons_self) (g1 y List.mem_cons_self)
        have := ih (fun z hz => g1 z (List.mem_cons_of_mem _ hz)) (fun z hz => g2 z (List.mem_cons_of_mem _ hz))
        linarith
    have h3 := h2 _ hw hK
    rw [hsum, mul_one] at h3
    exact h3
  rw [hcore]
  generalize ((l1 ++ x :: l2).map fun y => V3.norm (y.1.mulVec rv) * y.2).sum = W at *
  generalize ((l1 ++ x :: l2).map fun y => (angleOf rv y.1).x * y.2).sum = Sx at *
  generalize ((l1 ++ x :: l2).map fun y => (angleOf rv y.1).y * y.2).sum = Sy at *
  clear hcore hw hK hsum
  have hw0 : 0 ≤ (1 - x.2) * K := mul_nonneg (by linarith) hK0
  rcases eq_or_ne rv V3.zero with hrv | hrv
  · -- nothing moves
    have h0 : ∀ M : M3 ℝ, M.mulVec rv = V3.zero := by intro M; rw [hrv]; ext <;> simp [M3.mulVec, V3.zero]
    have hn0 : rv.normalized = V3.zero := by rw [hrv]; simp [V3.normalized, V3.sqNorm, V3.dot, V3.zero]
    rw [hn0, dsFrame_zero, h0]
    have : V3.smul W ((⟨V3.zero, V3.zero, V3.zero⟩ : M3 ℝ).mulVec (reconstruct ⟨Sx, Sy⟩)) - V3.zero = V3.zero := by
      ext <;> simp [M3.mulVec, V3.zero, V3.smul]
    rw [this, V3.norm_eq_zero.mpr rfl]
    positivity
  have hv := V3.norm_normalized hrv
  have hvz : rv.normalized.z = 0 := by rw [V3.normalized_of_ne hrv]; simp [V3.smul, hz]
  set F := dsFrame rv.normalized with hF
  have hiso : ∀ r, V3.norm (F.mulVec r) = V3.norm r := by
    intro r
    show Real.sqrt _ = Real.sqrt _
    rw [hF, sqNorm_frame hv hvz]
  have hexp1 : ∀ s, V3.norm (expMap s) = 1 := by
    intro s
    rw [V3.norm_eq_one_iff]
    have h1 := V2.norm_sq' s
    have h2 := Real.sin_sq_add_cos_sq s.norm
    rcases eq_or_ne s.norm 0 with h0 | h0
    · obtain ⟨g1, g2⟩ := V2.norm_zero_iff h0
      simp [V3.sqNorm, V3.dot, expMap, h0, g1, g2]
    · have : V3.sqNorm (expMap s) = Real.cos s.norm ^ 2 + (Real.sin s.norm / s.norm) ^ 2 * (s.x ^ 2 + s.y ^ 2) := by
        simp only [V3.sqNorm, V3.dot, expMap]; ring
      rw [this, h1, div_pow, div_mul_cancel₀ _ (pow_ne_zero 2 h0)]
      linarith
  have hrec := reconstruct_exp ⟨Sx, Sy⟩
  set R := reconstruct ⟨Sx, Sy⟩ with hR
  have hRn : V3.norm (V3.smul W (F.mulVec (R - expMap ⟨Sx, Sy⟩))) ≤ 1 / 10 ^ 8 * K := by
    rw [V3.norm_smul, abs_of_nonneg hW0, hiso]
    have := mul_le_mul hWK hrec (V3.norm_nonneg _) hK0
    linarith
  rcases eq_or_ne (x.1.mulVec rv) V3.zero with hx0 | hx0
  · rw [hx0]
    rw [hx0, V3.norm_eq_zero.mpr rfl, sub_zero, abs_of_nonneg hW0] at hW
    have e : V3.smul W (F.mulVec R) - V3.zero = V3.smul W (F.mulVec (R - expMap ⟨Sx, Sy⟩)) +
        V3.smul W (F.mulVec (expMap ⟨Sx, Sy⟩)) := by
      ext <;> simp only [V3.smul, M3.mulVec, V3.sub_x, V3.sub_y, V3.sub_z, V3.add_x, V3.add_y, V3.add_z, V3.zero] <;> ring
    rw [e]
    have h1 := V3.norm_add_le' (V3.smul W (F.mulVec (R - expMap ⟨Sx, Sy⟩))) (V3.smul W (F.mulVec (expMap ⟨Sx, Sy⟩)))
    have h2 : V3.norm (V3.smul W (F.mulVec (expMap ⟨Sx, Sy⟩))) = W := by
      rw [V3.norm_smul, abs_of_nonneg hW0, hiso, hexp1, mul_one]
    rw [h2] at h1
    have := mul_nonneg hpi.le hw0
    nlinarith
  · have hex := expMap_angleOf hz hrv hx0 (fun c hc => hopp c hc hrv)
    set mx := V3.norm (x.1.mulVec rv) with hmx
    have hd : V3.norm (expMap ⟨Sx, Sy⟩ - expMap (angleOf rv x.1)) ≤ 4 * Real.pi * (1 - x.2) := by
      show Real.sqrt _ ≤ _
      have h0 : 0 ≤ 1 - x.2 := by linarith
      rw [Real.sqrt_le_left (by positivity)]
      refine (expMap_lip _ _).trans ?_
      have h1 := sq_le_sq' (abs_le.mp hSx).1 (abs_le.mp hSx).2
      have h2 := sq_le_sq' (abs_le.mp hSy).1 (abs_le.mp hSy).2
      have h3 : 0 ≤ (Real.pi * (1 - x.2)) ^ 2 := sq_nonneg _
      nlinarith
    have e : V3.smul W (F.mulVec R) - V3.smul mx (F.mulVec (expMap (angleOf rv x.1))) =
        V3.smul W (F.mulVec (R - expMap ⟨Sx, Sy⟩)) +
        (V3.smul W (F.mulVec (expMap ⟨Sx, Sy⟩ - expMap (angleOf rv x.1))) +
          V3.smul (W - mx) (F.mulVec (expMap (angleOf rv x.1)))) := by
      ext <;> simp only [V3.smul, M3.mulVec, V3.sub_x, V3.sub_y, V3.sub_z, V3.add_x, V3.add_y, V3.add_z] <;> ring
    rw [hex, e]
    have h1 := V3.norm_add_le' (V3.smul W (F.mulVec (R - expMap ⟨Sx, Sy⟩)))
      (V3.smul W (F.mulVec (expMap ⟨Sx, Sy⟩ - expMap (angleOf rv x.1))) +
          V3.smul (W - mx) (F.mulVec (expMap (angleOf rv x.1))))
    have h2 := V3.norm_add_le' (V3.smul W (F.mulVec (expMap ⟨Sx, Sy⟩ - expMap (angleOf rv x.1))))
          (V3.smul (W - mx) (F.mulVec (expMap (angleOf rv x.1))))
    have h3 : V3.norm (V3.smul W (F.mulVec (expMap ⟨Sx, Sy⟩ - expMap (angleOf rv x.1)))) ≤
        4 * Real.pi * ((1 - x.2) * K) := by
      rw [V3.norm_smul, abs_of_nonneg hW0, hiso]
      have := mul_le_mul hWK hd (V3.norm_nonneg _) hK0
      linarith
    have h4 : V3.norm (V3.smul (W - mx) (F.mulVec (expMap (angleOf rv x.1)))) ≤ (1 - x.2) * K := by
      rw [V3.norm_smul, hiso, hexp1, mul_one]
      linarith
    linarith

/-- If no member turns the velocity, the result is the weighted mean. -/
theorem core_parallel {rv : V3 ℝ} (hz : rv.z = 0) (l : List (M3 ℝ × ℝ)) (c : M3 ℝ × ℝ → ℝ)
    (hc : ∀ y ∈ l, 0 ≤ c y ∧ y.1.mulVec rv = V3.smul (c y) rv) :
    core rv l = V3.smul ((l.map fun y => c y * y.2).sum) rv := by
  rcases eq_or_ne rv V3.zero with h0 | h0
  · have hs0 : ∀ r : ℝ, V3.smul r (V3.zero : V3 ℝ) = V3.zero := by intro r; ext <;> simp [V3.smul, V3.zero]
    rw [h0, hs0, core, V3.normalized_zero, dsFrame_zero]
    ext <;> simp [V3.smul, M3.mulVec, V3.zero]
  have hn := V3.norm_normalized h0
  have hnz : rv.normalized.z = 0 := by rw [V3.normalized_of_ne h0]; simp [V3.smul, hz]
  have hpos := V3.norm_pos h0
  have hang : ∀ y ∈ l, angleTerm (dsFrame rv.normalized).transpose rv.normalized rv y.1 y.2 =
      (c y * V3.norm rv * y.2, ⟨0, 0⟩) := by
    intro y hy
    obtain ⟨h1, h2⟩ := hc y hy
    have hflat : ((dsFrame rv.normalized).transpose.mulVec (V3.smul (c y) rv).normalized).y = 0 ∧
        ((dsFrame rv.normalized).transpose.mulVec (V3.smul (c y) rv).normalized).z = 0 := by
      have : ∃ r, (V3.smul (c y) rv).normalized = V3.smul r rv.normalized := by
        rcases eq_or_ne (V3.smul (c y) rv) V3.zero with h3 | h3
        · exact ⟨0, by rw [h3, V3.normalized_zero]; ext <;> simp [V3.smul, V3.zero]⟩
        · rw [V3.normalized_of_ne h3, V3.normalized_of_ne h0]
          refine ⟨1 / V3.norm (V3.smul (c y) rv) * c y * V3.norm rv, ?_⟩
          ext <;> simp only [V3.smul] <;> field_simp
      obtain ⟨r, hr⟩ := this
      rw [hr, dsFrame_planar hn hnz]
      constructor
      · simp [M3.transpose, M3.mulVec, V3.smul, hnz]; ring
      · simp [M3.transpose, M3.mulVec, V3.smul, hnz]
    rw [angleTerm_eq, h2, V3.norm_smul, abs_of_nonneg h1]
    have ha : angleOf rv y.1 = ⟨0, 0⟩ := by
      unfold angleOf angleTerm
      simp only []
      rw [h2, hflat.1, hflat.2]
      have : V2.normalized (⟨0, 0⟩ : V2 ℝ) = ⟨0, 0⟩ := by simp [V2.normalized, V2.sqNorm]
      rw [this]
      simp [V2.scale]
    rw [ha]; simp
  unfold core
  simp only []
  rw [List.map_congr_left hang]
  simp only [List.map_map]
  have e1 : ∀ l : List (M3 ℝ × ℝ), (l.map ((fun t : ℝ × V2 ℝ => t.2.x) ∘ fun y => (c y * V3.norm rv * y.2, (⟨0, 0⟩ : V2 ℝ)))).sum = 0 := by
    intro l; induction l with
    | nil => rfl
    | cons a l ih => rw [List.map_cons, List.sum_cons, ih]; simp
  have e2 : ∀ l : List (M3 ℝ × ℝ), (l.map ((fun t : ℝ × V2 ℝ => t.2.y) ∘ fun y => (c y * V3.norm rv * y.2, (⟨0, 0⟩ : V2 ℝ)))).sum = 0 := by
    intro l; induction l with
    | nil => rfl
    | cons a l ih => rw [List.map_cons, List.sum_cons, ih]; simp
  have e3 : ∀ l : List (M3 ℝ × ℝ), (l.map ((fun t : ℝ × V2 ℝ => t.1) ∘ fun y => (c y * V3.norm rv * y.2, (⟨0, 0⟩ : V2 ℝ)))).sum =
      (l.map fun y => c y * y.2).sum * V3.norm rv := by
    intro l; induction l with
    | nil => simp
    | cons a l ih => rw [List.map_cons, List.sum_cons, ih, List.map_cons, List.sum_cons]; simp only [Function.comp]; ring
  rw [e1, e2, e3]
  have e4 : (dsFrame rv.normalized).mulVec (reconstruct ⟨0, 0⟩) = rv.normalized := by
    rw [dsFrame_planar hn hnz]
    have : reconstruct (⟨0, 0⟩ : V2 ℝ) = ⟨1, 0, 0⟩ := by simp [reconstruct, V2.norm, V2.sqNorm]
    rw [this]
    ext <;> simp [M3.mulVec]
  rw [e4, V3.normalized_of_ne h0]
  ext <;> simp only [V3.smul] <;> field_simp

end DOA.Modulation
