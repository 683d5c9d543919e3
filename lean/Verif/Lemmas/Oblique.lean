import Verif.Lemmas.Euler

/-! The modulation matrix as a combination of the oblique projection along the reference direction and its
complement: bounds of its norm and of its quadratic form, by the angle between normal and reference
direction. -/

set_option linter.unusedSectionVars false
set_option linter.unusedSimpArgs false

namespace DOA
open DOA.Spec DOA.Props DOA.Ellipsoid DOA.Modulation

/-! ### vectors -/

theorem gram_nonneg {n r : V3 ℝ} (hn : V3.sqNorm n = 1) (hr : V3.sqNorm r = 1) (v : V3 ℝ) :
    0 ≤ V3.sqNorm v * (1 - V3.dot n r ^ 2) - V3.dot n v ^ 2 - V3.dot r v ^ 2 +
      2 * V3.dot n r * V3.dot n v * V3.dot r v := by
  have h : V3.dot n (V3.cross r v) ^ 2 = V3.sqNorm n * V3.sqNorm r * V3.sqNorm v
      + 2 * V3.dot n r * V3.dot n v * V3.dot r v - V3.sqNorm v * V3.dot n r ^ 2
      - V3.sqNorm r * V3.dot n v ^ 2 - V3.sqNorm n * V3.dot r v ^ 2 := by
    simp only [V3.sqNorm, V3.dot, V3.cross]; ring
  rw [hn, hr] at h
  nlinarith [sq_nonneg (V3.dot n (V3.cross r v))]

/-- the complement of the projection along `r` onto the plane with normal `n` -/
theorem norm_oblique_le {n r : V3 ℝ} (hn : V3.sqNorm n = 1) (hr : V3.sqNorm r = 1) (hc : 0 < V3.dot n r)
    (v : V3 ℝ) : V3.norm (v - V3.smul (V3.dot n v / V3.dot n r) r) ≤ V3.norm v / V3.dot n r := by
  have hg := gram_nonneg hn hr v
  set c := V3.dot n r
  set a := V3.dot n v
  rw [V3.norm, CMath.sqrt]
  refine Real.sqrt_le_iff.mpr ⟨div_nonneg (V3.norm_nonneg v) hc.le, ?_⟩
  have e1 : V3.sqNorm (v - V3.smul (a / c) r) = V3.sqNorm v - 2 * (a / c) * V3.dot r v + (a / c) ^ 2 * V3.sqNorm r := by
    simp only [V3.sqNorm, V3.dot, V3.smul, V3.sub_x, V3.sub_y, V3.sub_z]; ring
  rw [e1, hr, div_pow (V3.norm v) c, sq (V3.norm v), V3.norm_sq, le_div_iff₀ (by positivity)]
  have e2 : (V3.sqNorm v - 2 * (a / c) * V3.dot r v + (a / c) ^ 2 * 1) * c ^ 2 =
      V3.sqNorm v * c ^ 2 - 2 * a * c * V3.dot r v + a ^ 2 := by
    field_simp
  rw [e2]
  nlinarith [sq_nonneg (V3.dot r v)]

theorem dot_mul_dot_le {n r : V3 ℝ} (hn : V3.sqNorm n = 1) (hr : V3.sqNorm r = 1) (v : V3 ℝ) :
    V3.dot n v * V3.dot r v ≤ V3.sqNorm v * ((1 + V3.dot n r) / 2) := by
  have h1 := V3.cauchy_schwarz (n + r) v
  have e1 : V3.sqNorm (n + r) = 2 + 2 * V3.dot n r := by
    have : V3.sqNorm (n + r) = V3.sqNorm n + V3.sqNorm r + 2 * V3.dot n r := by
      simp only [V3.sqNorm, V3.dot, V3.add_x, V3.add_y, V3.add_z]; ring
    rw [this, hn, hr]; ring
  have e2 : V3.dot (n + r) v = V3.dot n v + V3.dot r v := by
    simp only [V3.dot, V3.add_x, V3.add_y, V3.add_z]; ring
  rw [e1, e2] at h1
  nlinarith [sq_nonneg (V3.dot n v - V3.dot r v)]

theorem norm_add_le' (u v : V3 ℝ) : V3.norm (u + v) ≤ V3.norm u + V3.norm v := by
  have h2 := V3.dot_le_norm u v
  have hu := V3.norm_nonneg u
  have hv := V3.norm_nonneg v
  have h3 : V3.norm (u + v) * V3.norm (u + v) ≤ (V3.norm u + V3.norm v) * (V3.norm u + V3.norm v) := by
    have e1 : V3.sqNorm (u + v) = V3.sqNorm u + 2 * V3.dot u v + V3.sqNorm v := by
      simp only [V3.sqNorm, V3.dot, V3.add_x, V3.add_y, V3.add_z]; ring
    rw [V3.norm_sq, e1, ← V3.norm_sq u, ← V3.norm_sq v]
    linarith
  nlinarith [V3.norm_nonneg (u + v)]

/-! ### the matrix -/

/-- The reference direction and the normal enclose an angle with cosine at least `1/κ`. -/
def Slanted (n u : V3 ℝ) (κ : ℝ) : Prop := 0 < V3.dot n u ∧ V3.norm u ≤ κ * V3.dot n u

theorem matrix_form (h : Heap ℝ) (a : Agent ℝ) (e : Ellipsoid ℝ) (k : ℕ) (sm : Smooth e a.margin k) (ref : V3 ℝ)
    (href : e.base.refPos = some ref) (hin : gdist e a.margin ref < gdist e a.margin a.state.position)
    (hs : InPlane e a.state.position ref ∨ CentredBall e a.margin ref) :
    ∃ M B n c, modulationMatrix h a (.ellipsoid e) = .ok (M, B, gdist e a.margin a.state.position) ∧
      V3.norm n = 1 ∧ 0 < c ∧ (∀ u, Slope e a.margin a.state.position u (c * V3.dot n u)) ∧
      0 < V3.dot n (a.state.position - ref) ∧
      ∀ v, M.mulVec v = V3.smul (1 + min 1 (1 / gdist e a.margin a.state.position)) v -
        V3.smul ((1 + min 1 (1 / gdist e a.margin a.state.position) -
          max 0 (1 - 1 / gdist e a.margin a.state.position)) *
            (V3.dot n v / V3.dot n (a.state.position - ref))) (a.state.position - ref) := by
  obtain ⟨M, B, hm, hr⟩ := C36_reference h a e k sm ref href hin
  obtain ⟨M', B', hm', ht⟩ := C36_tangent_partial h a e k sm ref href hin hs
  rw [hm] at hm'
  simp only [Res.ok.injEq, Prod.mk.injEq] at hm'
  obtain ⟨rfl, -, -⟩ := hm'
  obtain ⟨y, w, c⟩ := coord sm hin
  obtain ⟨hn1, c0, hc0, hsl, htan⟩ := normal_facts sm c.y0
  have hq := unit' sm
  set n0 := e.normalToAgent (e.base.pose.apply y) a.margin with hn0
  set n := e.base.pose.orientation.rotate n0 with hn
  have hslope : ∀ u, Slope e a.margin a.state.position u (c0 * V3.dot n u) := by
    intro u
    have h1 := hsl (e.base.pose.orientation.conjugate.rotate u)
    rw [Quat.rotate_rotate_conjugate hq, ← c.hx] at h1
    have e1 : V3.dot n u = V3.dot n0 (e.base.pose.orientation.conjugate.rotate u) := by
      conv_lhs => rw [← Quat.rotate_rotate_conjugate hq u]
      rw [hn, Quat.dot_rotate hq]
    rw [e1]; exact h1
  have hpos : 0 < V3.dot n (a.state.position - ref) := by
    have h1 := htan w
    rw [← c.hx, ← c.href] at h1
    have e1 : a.state.position - ref = e.base.pose.orientation.rotate (y - w) := by
      have h1 := c.hx
      have h2 := c.href
      rw [h1, h2]
      show e.base.pose.apply y - e.base.pose.apply w = e.base.pose.orientation.rotate (y - w)
      rw [Quat.rotate_sub]
      simp only [Pose.apply]
      v3_ring
    rw [e1, hn, Quat.dot_rotate hq]
    have e2 : V3.dot n0 (w - y) = -V3.dot n0 (y - w) := by
      rw [V3.dot_sub, V3.dot_sub]; ring
    rw [e2] at h1
    have : 0 < c0 * V3.dot n0 (y - w) := by linarith
    exact pos_of_mul_pos_right this hc0.le
  refine ⟨M, B, n, c0, hm, by rw [hn, Quat.norm_rotate hq]; exact hn1, hc0, hslope, hpos, fun v => ?_⟩
  set t := V3.dot n v / V3.dot n (a.state.position - ref) with htt
  have h0 : V3.dot n (v - V3.smul t (a.state.position - ref)) = 0 := by
    rw [V3.dot_sub, V3.dot_smul, htt, div_mul_cancel₀ _ hpos.ne', sub_self]
  have h1 := ht (v - V3.smul t (a.state.position - ref)) (by
    have := hslope (v - V3.smul t (a.state.position - ref))
    rwa [h0, mul_zero] at this)
  have e1 : v = (v - V3.smul t (a.state.position - ref)) + V3.smul t (a.state.position - ref) := by v3_ring
  conv_lhs => rw [e1, M3.mulVec_add, h1, M3.mulVec_smul, hr]
  ext <;> simp only [V3.smul, V3.add_x, V3.add_y, V3.add_z, V3.sub_x, V3.sub_y, V3.sub_z] <;> ring

/-- The norm of the matrix. -/
theorem form_norm {n u v : V3 ℝ} {κ p q : ℝ} (hn : V3.norm n = 1) (hu : Slanted n u κ) (hp : 0 ≤ p) (hq : 0 ≤ q) :
    V3.norm (V3.smul p v - V3.smul ((p - q) * (V3.dot n v / V3.dot n u)) u) ≤ (p + q) * κ * V3.norm v := by
  obtain ⟨h0, hκ⟩ := hu
  have hu0 : u ≠ V3.zero := by
    rintro rfl
    simp [V3.dot, V3.zero] at h0
  have hup := V3.norm_pos hu0
  have hvn := V3.norm_nonneg v
  rw [V3.norm_eq_one_iff] at hn
  set r := V3.smul (1 / V3.norm u) u with hr
  have hr1 : V3.sqNorm r = 1 := by
    rw [← V3.norm_eq_one_iff, hr, V3.norm_smul, abs_of_pos (by positivity), one_div_mul_cancel hup.ne']
  have hur : u = V3.smul (V3.norm u) r := by
    rw [hr]; ext <;> simp only [V3.smul] <;> field_simp
  have hnr : V3.dot n u = V3.norm u * V3.dot n r := by
    conv_lhs => rw [hur, V3.dot_smul]
  have hc : 0 < V3.dot n r := by
    rw [hnr] at h0; exact pos_of_mul_pos_right h0 hup.le
  have hcκ : 1 / V3.dot n r ≤ κ := by
    rw [div_le_iff₀ hc]
    rw [hnr] at hκ
    have : V3.norm u * 1 ≤ V3.norm u * (κ * V3.dot n r) := by linarith
    exact le_of_mul_le_mul_left this hup
  have e1 : V3.smul p v - V3.smul ((p - q) * (V3.dot n v / V3.dot n u)) u =
      V3.smul p (v - V3.smul (V3.dot n v / V3.dot n r) r) + V3.smul q (V3.smul (V3.dot n v / V3.dot n r) r) := by
    rw [hnr]
    conv_lhs => rw [hur]
    have : V3.norm (V3.smul (V3.norm u) r) = V3.norm u := by rw [← hur]
    rw [this]
    ext <;> simp only [V3.smul, V3.add_x, V3.add_y, V3.add_z, V3.sub_x, V3.sub_y, V3.sub_z] <;> field_simp <;> ring
  have h1 := norm_oblique_le hn hr1 hc v
  have h2 : V3.norm (V3.smul (V3.dot n v / V3.dot n r) r) ≤ V3.norm v / V3.dot n r := by
    rw [V3.norm_smul, (V3.norm_eq_one_iff r).mpr hr1, mul_one, abs_div, abs_of_pos hc]
    refine div_le_div_of_nonneg_right ?_ hc.le
    have h3 := V3.cauchy_schwarz n v
    rw [hn, one_mul, ← V3.norm_sq] at h3
    exact abs_le_of_sq_le_sq (by nlinarith) hvn
  have h3 : V3.norm v / V3.dot n r ≤ κ * V3.norm v := by
    have := mul_le_mul_of_nonneg_right hcκ hvn
    refine le_trans (le_of_eq ?_) this
    ring
  rw [e1]
  refine le_trans (norm_add_le' _ _) ?_
  rw [V3.norm_smul, V3.norm_smul, abs_of_nonneg hp, abs_of_nonneg hq]
  have h4 := mul_le_mul_of_nonneg_left (le_trans h1 h3) hp
  have h5 := mul_le_mul_of_nonneg_left (le_trans h2 h3) hq
  linarith

/-- The quadratic form of the matrix. -/
theorem form_quad {n u v : V3 ℝ} {κ p q : ℝ} (hn : V3.norm n = 1) (hu : Slanted n u κ) (hpq : q ≤ p) :
    (p - (p - q) * ((1 + κ) / 2)) * V3.sqNorm v ≤
      V3.dot v (V3.smul p v - V3.smul ((p - q) * (V3.dot n v / V3.dot n u)) u) := by
  obtain ⟨h0, hκ⟩ := hu
  have hu0 : u ≠ V3.zero := by
    rintro rfl
    simp [V3.dot, V3.zero] at h0
  have hup := V3.norm_pos hu0
  have hvn := V3.sqNorm_nonneg v
  rw [V3.norm_eq_one_iff] at hn
  set r := V3.smul (1 / V3.norm u) u with hr
  have hr1 : V3.sqNorm r = 1 := by
    rw [← V3.norm_eq_one_iff, hr, V3.norm_smul, abs_of_pos (by positivity), one_div_mul_cancel hup.ne']
  have hur : u = V3.smul (V3.norm u) r := by
    rw [hr]; ext <;> simp only [V3.smul] <;> field_simp
  have hnr : V3.dot n u = V3.norm u * V3.dot n r := by
    conv_lhs => rw [hur, V3.dot_smul]
  have hvr : V3.dot v u = V3.norm u * V3.dot r v := by
    conv_lhs => rw [hur, V3.dot_smul]
    rw [V3.dot_comm v r]
  have hc : 0 < V3.dot n r := by
    rw [hnr] at h0; exact pos_of_mul_pos_right h0 hup.le
  have hcκ : 1 / V3.dot n r ≤ κ := by
    rw [div_le_iff₀ hc]
    rw [hnr] at hκ
    have : V3.norm u * 1 ≤ V3.norm u * (κ * V3.dot n r) := by linarith
    exact le_of_mul_le_mul_left this hup
  rw [V3.dot_sub, V3.dot_smul, V3.dot_smul, V3.dot_self_eq, hvr, hnr]
  have e1 : (p - q) * (V3.dot n v / (V3.norm u * V3.dot n r)) * (V3.norm u * V3.dot r v) =
      (p - q) * ((V3.dot n v * V3.dot r v) / V3.dot n r) := by field_simp
  rw [e1]
  have h1 : V3.dot n v * V3.dot r v / V3.dot n r ≤ V3.sqNorm v * ((1 + κ) / 2) := by
    rw [div_le_iff₀ hc]
    refine le_trans (dot_mul_dot_le hn hr1 v) ?_
    have : 1 ≤ κ * V3.dot n r := by rwa [div_le_iff₀ hc] at hcκ
    nlinarith
  have h2 := mul_le_mul_of_nonneg_left h1 (sub_nonneg.mpr hpq)
  nlinarith

/-! ### planar ellipsoids -/

/-- The half lengths in the plane are between `l` and `L`. -/
structure Between (e : Ellipsoid ℝ) (m l L : ℝ) : Prop where
  pos : 0 < l
  x_ge : l ≤ (halfLengths e (V3.const m)).x
  y_ge : l ≤ (halfLengths e (V3.const m)).y
  x_le : (halfLengths e (V3.const m)).x ≤ L
  y_le : (halfLengths e (V3.const m)).y ≤ L

/-- What `κ` has to be for an ellipsoid whose reference point is its centre: `(l² + L²)/(2lL)` for exponent 1 and `√2`
for the rounded cubes with larger exponents. -/
def Aspect (l L κ : ℝ) (k : ℕ) : Prop := 0 < κ ∧ ((k = 1 ∧ l ^ 2 + L ^ 2 ≤ 2 * κ * (l * L)) ∨ (k ≠ 1 ∧ 2 ≤ κ ^ 2))

theorem dlevel_flat {L y v : V3 ℝ} {k : ℕ} {l : ℝ} (hk : 1 ≤ k) (hl : 0 < l) (hx : l ≤ L.x) (hy : l ≤ L.y)
    (hz : y.z = 0) : |dlevel L k y v| ≤ 2 * k * max 1 (level L k k k y) * (V3.norm v / l) := by
  set F := max 1 (level L k k k y) with hF
  have hF1 : 1 ≤ F := le_max_left _ _
  have hG := grad_sq_le (a := y.x / L.x) (b := y.y / L.y) (c := y.z / L.z) hk hF1
    (show level L k k k y ≤ F from le_max_right _ _)
  have hz0 : (y.z / L.z) ^ (2 * k - 1) = 0 := by rw [hz, zero_div, zero_pow (by omega)]
  rw [hz0] at hG
  set g : V3 ℝ := ⟨(y.x / L.x) ^ (2 * k - 1), (y.y / L.y) ^ (2 * k - 1), 0⟩ with hg'
  set w : V3 ℝ := ⟨v.x / L.x, v.y / L.y, 0⟩ with hw
  have hdl : dlevel L k y v = 2 * k * V3.dot g w := by
    unfold dlevel
    rw [hz0]
    simp only [V3.dot, hg', hw]
    push_cast
    ring
  have hgn : V3.norm g ≤ F := by
    rw [V3.norm, CMath.sqrt]
    refine Real.sqrt_le_iff.mpr ⟨by linarith, ?_⟩
    simp only [V3.sqNorm, V3.dot, hg']
    nlinarith
  have hwn : V3.norm w ≤ V3.norm v / l := by
    have h0 : 0 ≤ V3.norm v / l := div_nonneg (V3.norm_nonneg v) hl.le
    rw [V3.norm, CMath.sqrt]
    refine Real.sqrt_le_iff.mpr ⟨h0, ?_⟩
    rw [div_pow, sq (V3.norm v), V3.norm_sq]
    simp only [V3.sqNorm, V3.dot, hw]
    have key : ∀ a b : ℝ, l ≤ b → a / b * (a / b) ≤ a * a / l ^ 2 := by
      intro a b hb
      rw [div_mul_div_comm]
      refine div_le_div_of_nonneg_left (mul_self_nonneg a) (by positivity) ?_
      nlinarith
    have k1 := key v.x L.x hx
    have k2 := key v.y L.y hy
    have k3 : 0 ≤ v.z * v.z / l ^ 2 := by have := mul_self_nonneg v.z; positivity
    rw [add_div, add_div]
    linarith
  have hdot : |V3.dot g w| ≤ F * (V3.norm v / l) := by
    have h1 := V3.cauchy_schwarz g w
    rw [← V3.norm_sq, ← V3.norm_sq] at h1
    have h2 : |V3.dot g w| ≤ V3.norm g * V3.norm w := by
      refine abs_le_of_sq_le_sq ?_ (mul_nonneg (V3.norm_nonneg g) (V3.norm_nonneg w))
      nlinarith
    exact le_trans h2 (mul_le_mul hgn hwn (V3.norm_nonneg w) (by linarith))
  rw [hdl, abs_mul, abs_of_nonneg (by positivity : (0 : ℝ) ≤ 2 * k), mul_assoc (2 * (k : ℝ)) F]
  exact mul_le_mul_of_nonneg_left hdot (by positivity)

/-- In the plane of the obstacle the slope is bounded by the half lengths of the plane alone. -/
theorem slope_flat {e : Ellipsoid ℝ} {m : ℝ} {k : ℕ} (sm : Smooth e m k) {x u : V3 ℝ} {s l L : ℝ}
    (hs : Slope e m x u s) (hb : Between e m l L) (hz : (e.base.pose.inverse.apply x).z = 0) :
    |s| ≤ 2 * k * max 1 (gdist e m x) * (V3.norm u / l) := by
  rw [slope_eq sm hs]
  have hn : V3.norm (e.base.pose.orientation.conjugate.rotate u) = V3.norm u :=
    Quat.norm_rotate (unit' sm).conjugate u
  have hg : gdist e m x = level (halfLengths e (V3.const m)) k k k (e.base.pose.inverse.apply x) := by
    rw [gdist, Ellipsoid.distance_frame e _ _ k k k sm.curv sm.long]
  rw [hg, ← hn]
  exact dlevel_flat sm.curv.2.1 hb.pos hb.x_ge hb.y_ge hz

theorem rearrange {a b : ℝ} (ha : 0 ≤ a) (hb : 0 ≤ b) (j : ℕ) :
    a * b ^ j + a ^ j * b ≤ a ^ (j + 1) + b ^ (j + 1) := by
  have h : 0 ≤ (a - b) * (a ^ j - b ^ j) := by
    rcases le_total a b with h | h
    · exact mul_nonneg_of_nonpos_of_nonpos (by linarith) (by linarith [pow_le_pow_left₀ ha h j])
    · exact mul_nonneg (by linarith) (by linarith [pow_le_pow_left₀ hb h j])
  rw [pow_succ, pow_succ]
  nlinarith

theorem kantorovich {P Q X Y l L κ : ℝ} (hP : 0 ≤ P) (hQ : 0 ≤ Q) (hl : 0 < l) (hX : l ≤ X) (hY : l ≤ Y)
    (hXL : X ≤ L) (hYL : Y ≤ L) (h : l ^ 2 + L ^ 2 ≤ 2 * κ * (l * L)) :
    (P / X ^ 2 + Q / Y ^ 2) * (P * X ^ 2 + Q * Y ^ 2) ≤ κ ^ 2 * (P + Q) ^ 2 := by
  have hL : 0 < L := by linarith
  have key : ∀ R Z : ℝ, 0 ≤ R → l ≤ Z → Z ≤ L → R * Z ^ 2 + l ^ 2 * L ^ 2 * (R / Z ^ 2) ≤ (l ^ 2 + L ^ 2) * R := by
    intro R Z hR h1 h2
    have hZ : 0 < Z := by linarith
    have h3 : (Z ^ 2 - l ^ 2) * (Z ^ 2 - L ^ 2) ≤ 0 :=
      mul_nonpos_of_nonneg_of_nonpos (by nlinarith) (by nlinarith)
    have h4 : (Z ^ 2 + l ^ 2 * L ^ 2 / Z ^ 2) ≤ l ^ 2 + L ^ 2 := by
      rw [← sub_nonneg]
      have : l ^ 2 + L ^ 2 - (Z ^ 2 + l ^ 2 * L ^ 2 / Z ^ 2) = -((Z ^ 2 - l ^ 2) * (Z ^ 2 - L ^ 2)) / Z ^ 2 := by
        field_simp; ring
      rw [this]
      exact div_nonneg (by linarith) (by positivity)
    have h5 := mul_le_mul_of_nonneg_right h4 hR
    refine le_trans (le_of_eq ?_) h5
    ring
  have k1 := key P X hP hX hXL
  have k2 := key Q Y hQ hY hYL
  set A := P * X ^ 2 + Q * Y ^ 2 with hA
  set B := P / X ^ 2 + Q / Y ^ 2 with hB
  have hA0 : 0 ≤ A := by positivity
  have hX0 : 0 < X := by linarith
  have hY0 : 0 < Y := by linarith
  have hB0 : 0 ≤ B := by positivity
  have h1 : A + l ^ 2 * L ^ 2 * B ≤ 2 * κ * (l * L) * (P + Q) := by
    have := mul_le_mul_of_nonneg_right h (add_nonneg hP hQ)
    rw [hA, hB]; linarith
  have h0 : 0 ≤ A + l ^ 2 * L ^ 2 * B := by positivity
  have h2 := mul_self_le_mul_self h0 h1
  have h3 : (l * L) ^ 2 * (B * A) ≤ (l * L) ^ 2 * (κ ^ 2 * (P + Q) ^ 2) := by
    nlinarith [sq_nonneg (A - l ^ 2 * L ^ 2 * B)]
  exact le_of_mul_le_mul_left h3 (by positivity)

/-- The angle between normal and reference direction of an ellipsoid whose reference point is its centre. -/
theorem slanted {e : Ellipsoid ℝ} {m : ℝ} {k : ℕ} (sm : Smooth e m k) {x n : V3 ℝ} {l L κ c : ℝ}
    (hb : Between e m l L) (hκ : Aspect l L κ k) (hz : (e.base.pose.inverse.apply x).z = 0) (hn : V3.norm n = 1)
    (hc : 0 < c) (hs : ∀ u, Slope e m x u (c * V3.dot n u)) (hd : 0 < gdist e m x) :
    Slanted n (x - e.base.position) κ := by
  have hq := unit' sm
  have hk := sm.curv.2.1
  set y := e.base.pose.inverse.apply x with hy
  have hyx : e.base.pose.orientation.conjugate.rotate (x - e.base.position) = y := by
    rw [Quat.rotate_sub, hy]
    simp only [Pose.apply, Pose.inverse, Quat.rotate_neg]
    show _ - e.base.pose.orientation.conjugate.rotate e.base.pose.position = _
    v3_ring
  have hg : gdist e m x = level (halfLengths e (V3.const m)) k k k y := by
    rw [gdist, Ellipsoid.distance_frame e _ _ k k k sm.curv sm.long]
  have h1 := slope_eq sm (hs (x - e.base.position))
  have h2 := slope_eq sm (hs n)
  rw [hyx, ← hy] at h1
  rw [← hy, V3.dot_self_eq, (V3.norm_eq_one_iff n).mp hn, mul_one] at h2
  have hny : V3.norm (x - e.base.position) = V3.norm y := by rw [← hyx, Quat.norm_rotate hq.conjugate]
  have hn' : V3.norm (e.base.pose.orientation.conjugate.rotate n) = 1 := by rw [Quat.norm_rotate hq.conjugate, hn]
  generalize e.base.pose.orientation.conjugate.rotate n = ν at h2 hn'
  have hex := sm.exact_
  obtain ⟨bl, bx, by', bX, bY⟩ := hb
  rw [hg] at hd
  set Λ := halfLengths e (V3.const m) with hΛ
  have hX : 0 < Λ.x := by linarith
  have hY : 0 < Λ.y := by linarith
  set P := y.x / Λ.x with hP
  set Q := y.y / Λ.y with hQ
  have hlev : level Λ k k k y = P ^ (2 * k) + Q ^ (2 * k) := by
    unfold level
    rw [hz, zero_div, zero_pow (by omega), add_zero]
  have hdl : dlevel Λ k y y = 2 * k * level Λ k k k y := by
    unfold dlevel level
    have key : ∀ t : ℝ, t ^ (2 * k) = t ^ (2 * k - 1) * t := by
      intro t; rw [← pow_succ]; congr 1; omega
    rw [key, key, key]
    push_cast; ring
  rw [hdl] at h1
  set g : V3 ℝ := ⟨P ^ (2 * k - 1) / Λ.x, Q ^ (2 * k - 1) / Λ.y, 0⟩ with hgr
  have hcg : c = 2 * k * V3.dot g ν := by
    rw [h2]
    unfold dlevel
    have hz0 : (y.z / Λ.z) ^ (2 * k - 1) = 0 := by rw [hz, zero_div, zero_pow (by omega)]
    rw [hz0]
    simp only [V3.dot, hgr]
    push_cast; ring
  have hk0 : (0 : ℝ) < 2 * k := by have : (1 : ℝ) ≤ k := by exact_mod_cast hk
                                   linarith
  have hcle : c ≤ 2 * k * V3.norm g := by
    rw [hcg]
    refine mul_le_mul_of_nonneg_left ?_ hk0.le
    have := V3.dot_le_norm g ν
    rwa [hn', mul_one] at this
  have hgy : V3.norm g * V3.norm y ≤ κ * level Λ k k k y := by
    have hκ0 := hκ.1
    refine abs_le_of_sq_le_sq' ?_ (by positivity) |>.2
    rw [mul_pow, sq (V3.norm g), sq (V3.norm y), V3.norm_sq, V3.norm_sq]
    have eg : V3.sqNorm g = (P ^ (2 * k - 1)) ^ 2 / Λ.x ^ 2 + (Q ^ (2 * k - 1)) ^ 2 / Λ.y ^ 2 := by
      simp only [V3.sqNorm, V3.dot, hgr]; field_simp; ring
    have ey : V3.sqNorm y = P ^ 2 * Λ.x ^ 2 + Q ^ 2 * Λ.y ^ 2 := by
      simp only [V3.sqNorm, V3.dot, hz, hP, hQ]; field_simp; ring
    rw [eg, ey, hlev, mul_pow]
    rcases hκ.2 with ⟨rfl, h3⟩ | ⟨hk1, h3⟩
    · have := kantorovich (sq_nonneg P) (sq_nonneg Q) bl bx by' bX bY h3
      simpa using this
    · have heq : Λ.x = Λ.y := (hex.resolve_left hk1).1
      rw [← heq]
      have e1 : ((P ^ (2 * k - 1)) ^ 2 / Λ.x ^ 2 + (Q ^ (2 * k - 1)) ^ 2 / Λ.x ^ 2) *
          (P ^ 2 * Λ.x ^ 2 + Q ^ 2 * Λ.x ^ 2) =
          ((P ^ 2) ^ (2 * k - 1) + (Q ^ 2) ^ (2 * k - 1)) * (P ^ 2 + Q ^ 2) := by
        rw [← pow_mul, ← pow_mul, ← pow_mul, ← pow_mul, Nat.mul_comm (2 * k - 1) 2]
        field_simp
      rw [e1]
      have h4 := rearrange (sq_nonneg P) (sq_nonneg Q) (2 * k - 1)
      have e2 : ∀ t : ℝ, (t ^ 2) ^ (2 * k - 1) * t ^ 2 = (t ^ (2 * k)) ^ 2 := by
        intro t; rw [← pow_succ, ← pow_mul, ← pow_mul]; congr 1; omega
      have e3 : ∀ t : ℝ, (t ^ 2) ^ (2 * k - 1 + 1) = (t ^ (2 * k)) ^ 2 := by
        intro t; rw [← pow_mul, ← pow_mul]; congr 1; omega
      rw [e3, e3] at h4
      have hp0 : 0 ≤ P ^ (2 * k) := (even_two_mul k).pow_nonneg P
      have hq0 : 0 ≤ Q ^ (2 * k) := (even_two_mul k).pow_nonneg Q
      have h5 : ((P ^ 2) ^ (2 * k - 1) + (Q ^ 2) ^ (2 * k - 1)) * (P ^ 2 + Q ^ 2) =
          (P ^ (2 * k)) ^ 2 + (Q ^ (2 * k)) ^ 2 + (P ^ 2 * (Q ^ 2) ^ (2 * k - 1) + (P ^ 2) ^ (2 * k - 1) * Q ^ 2) := by
        rw [← e2 P, ← e2 Q]; ring
      rw [h5]
      have h6 := mul_le_mul_of_nonneg_right h3 (sq_nonneg (P ^ (2 * k) + Q ^ (2 * k)))
      nlinarith [mul_nonneg hp0 hq0]
  refine ⟨?_, ?_⟩
  · have : 0 < c * V3.dot n (x - e.base.position) := by rw [h1]; positivity
    exact pos_of_mul_pos_right this hc.le
  · rw [hny]
    have h3 : c * V3.norm y ≤ c * (κ * V3.dot n (x - e.base.position)) := by
      have h4 := mul_le_mul_of_nonneg_right hcle (V3.norm_nonneg y)
      have h5 := mul_le_mul_of_nonneg_left hgy hk0.le
      have h6 : κ * (c * V3.dot n (x - e.base.position)) = κ * (2 * k * level Λ k k k y) := by rw [h1]
      linarith
    exact le_of_mul_le_mul_left h3 hc

end DOA
