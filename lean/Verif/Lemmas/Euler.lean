import Verif.Props.Trajectory
import Verif.Lemmas.Convex

/-! Steps of finite length: the distance function lies above its tangents, and its slope is bounded by
the smallest half length. -/

set_option linter.unusedSectionVars false
set_option linter.unusedSimpArgs false

namespace DOA
open DOA.Spec DOA.Props DOA.Ellipsoid DOA.Modulation

/-- the slope is the derivative of the level function -/
theorem slope_eq {e : Ellipsoid ℝ} {m : ℝ} {k : ℕ} (sm : Smooth e m k) {x u : V3 ℝ} {s : ℝ}
    (hs : Slope e m x u s) :
    s = dlevel (halfLengths e (V3.const m)) k (e.base.pose.inverse.apply x)
      (e.base.pose.orientation.conjugate.rotate u) := by
  rw [← Quat.toM3_mulVec]
  exact hs.unique (slope_level sm x u)

/-- a step changes the distance at least as much as its slope says -/
theorem gdist_tangent {e : Ellipsoid ℝ} {m : ℝ} {k : ℕ} (sm : Smooth e m k) {x u : V3 ℝ} {s : ℝ}
    (hs : Slope e m x u s) : gdist e m x + s ≤ gdist e m (x + u) := by
  have h := Ellipsoid.level_tangent (halfLengths e (V3.const m)) k k k (e.base.pose.inverse.apply x)
    (e.base.pose.inverse.apply (x + u))
  rw [gdist, gdist, Ellipsoid.distance_frame e _ _ k k k sm.curv sm.long,
    Ellipsoid.distance_frame e _ _ k k k sm.curv sm.long, slope_eq sm hs]
  have e1 : e.base.pose.inverse.apply (x + u) - e.base.pose.inverse.apply x =
      e.base.pose.orientation.conjugate.rotate u := by
    unfold Pose.apply
    rw [Quat.rotate_add]
    show _ + Quat.rotate e.base.pose.orientation.conjugate u + _ - _ = _
    v3_ring
  rw [e1] at h
  unfold dlevel
  linarith

theorem slope_add {e : Ellipsoid ℝ} {m : ℝ} {k : ℕ} (sm : Smooth e m k) {x u v : V3 ℝ} {s t : ℝ}
    (hs : Slope e m x u s) (ht : Slope e m x v t) : Slope e m x (u + v) (s + t) := by
  rw [slope_eq sm hs, slope_eq sm ht]
  have h := slope_level sm x (u + v)
  rw [Quat.toM3_mulVec, Quat.rotate_add] at h
  convert h using 1
  unfold dlevel
  simp only [V3.add_x, V3.add_y, V3.add_z]
  ring

theorem slope_smul {e : Ellipsoid ℝ} {m : ℝ} {k : ℕ} (sm : Smooth e m k) {x u : V3 ℝ} {s : ℝ} (c : ℝ)
    (hs : Slope e m x u s) : Slope e m x (V3.smul c u) (c * s) := by
  rw [slope_eq sm hs]
  have h := slope_level sm x (V3.smul c u)
  rw [Quat.toM3_mulVec, Quat.rotate_smul] at h
  convert h using 1
  unfold dlevel
  simp only [V3.smul]
  ring

theorem pow_pred_le {s F : ℝ} {k : ℕ} (hs : 0 ≤ s) (h1 : 1 ≤ F) (hF : s ^ k ≤ F) :
    s ^ (k - 1) ≤ F := by
  rcases le_total s 1 with h | h
  · exact le_trans (pow_le_one₀ hs h) h1
  · exact le_trans (pow_le_pow_right₀ h (Nat.sub_le k 1)) hF

/-- the sum of the squares of the partial derivatives, in units of the half lengths -/
theorem grad_sq_le {a b c F : ℝ} {k : ℕ} (hk : 1 ≤ k) (h1 : 1 ≤ F)
    (hF : a ^ (2 * k) + b ^ (2 * k) + c ^ (2 * k) ≤ F) :
    (a ^ (2 * k - 1)) ^ 2 + (b ^ (2 * k - 1)) ^ 2 + (c ^ (2 * k - 1)) ^ 2 ≤ F ^ 2 := by
  have ha : 0 ≤ a ^ (2 * k) := (even_two_mul k).pow_nonneg a
  have hb : 0 ≤ b ^ (2 * k) := (even_two_mul k).pow_nonneg b
  have hc : 0 ≤ c ^ (2 * k) := (even_two_mul k).pow_nonneg c
  have key : ∀ t : ℝ, t ^ (2 * k) ≤ F → (t ^ (2 * k - 1)) ^ 2 ≤ t ^ (2 * k) * F := by
    intro t ht
    have h2 : (t ^ (2 * k - 1)) ^ 2 = t ^ (2 * k) * (t ^ 2) ^ (k - 1) := by
      rw [← pow_mul, ← pow_mul, ← pow_add]
      congr 1
      omega
    rw [h2]
    refine mul_le_mul_of_nonneg_left ?_ ((even_two_mul k).pow_nonneg t)
    exact pow_pred_le (sq_nonneg t) h1 (by rwa [← pow_mul])
  have k1 := key a (by linarith)
  have k2 := key b (by linarith)
  have k3 := key c (by linarith)
  nlinarith

/-- the slope is at most `2k max(1,d) |u| / l`, where `l` is at most every half length -/
theorem slope_bound {e : Ellipsoid ℝ} {m : ℝ} {k : ℕ} (sm : Smooth e m k) {x u : V3 ℝ} {s l : ℝ}
    (hs : Slope e m x u s) (hl : 0 < l) (hx : l ≤ (halfLengths e (V3.const m)).x)
    (hy : l ≤ (halfLengths e (V3.const m)).y) (hz : l ≤ (halfLengths e (V3.const m)).z) :
    |s| ≤ 2 * k * max 1 (gdist e m x) * (V3.norm u / l) := by
  rw [slope_eq sm hs]
  have hq := unit' sm
  have hn : V3.norm (e.base.pose.orientation.conjugate.rotate u) = V3.norm u := Quat.norm_rotate hq.conjugate u
  have hg : gdist e m x = level (halfLengths e (V3.const m)) k k k (e.base.pose.inverse.apply x) := by
    rw [gdist, Ellipsoid.distance_frame e _ _ k k k sm.curv sm.long]
  rw [hg, ← hn]
  generalize e.base.pose.orientation.conjugate.rotate u = v
  generalize e.base.pose.inverse.apply x = y
  generalize halfLengths e (V3.const m) = L at *
  set F := max 1 (level L k k k y) with hF
  have hF1 : 1 ≤ F := le_max_left _ _
  have hk := sm.curv.2.1
  have hG := grad_sq_le (a := y.x / L.x) (b := y.y / L.y) (c := y.z / L.z) hk hF1
    (show level L k k k y ≤ F from le_max_right _ _)
  set g : V3 ℝ := ⟨(y.x / L.x) ^ (2 * k - 1), (y.y / L.y) ^ (2 * k - 1), (y.z / L.z) ^ (2 * k - 1)⟩ with hg'
  set w : V3 ℝ := ⟨v.x / L.x, v.y / L.y, v.z / L.z⟩ with hw
  have hdl : dlevel L k y v = 2 * k * V3.dot g w := by
    unfold dlevel
    simp only [V3.dot, hg', hw]
    push_cast
    ring
  have hgn : V3.norm g ≤ F := by
    rw [V3.norm, CMath.sqrt]
    refine Real.sqrt_le_iff.mpr ⟨by linarith, ?_⟩
    simp only [V3.sqNorm, V3.dot, hg']
    nlinarith
  have hwn : V3.norm w ≤ V3.norm v / l := by
    have h0 : 0 ≤ V3.norm v / l := div_nonneg (V3.norm_nonneg v) hl.le
    rw [V3.norm, CMath.sqrt]
    refine Real.sqrt_le_iff.mpr ⟨h0, ?_⟩
    rw [div_pow, sq (V3.norm v), V3.norm_sq]
    simp only [V3.sqNorm, V3.dot, hw]
    have key : ∀ a b : ℝ, l ≤ b → a / b * (a / b) ≤ a * a / l ^ 2 := by
      intro a b hb
      rw [div_mul_div_comm]
      refine div_le_div_of_nonneg_left (mul_self_nonneg a) (by positivity) ?_
      nlinarith
    have k1 := key v.x L.x hx
    have k2 := key v.y L.y hy
    have k3 := key v.z L.z hz
    rw [add_div, add_div]
    linarith
  have hdot : |V3.dot g w| ≤ F * (V3.norm v / l) := by
    have h1 := V3.cauchy_schwarz g w
    rw [← V3.norm_sq, ← V3.norm_sq] at h1
    have h2 : |V3.dot g w| ≤ V3.norm g * V3.norm w := by
      refine abs_le_of_sq_le_sq ?_ (mul_nonneg (V3.norm_nonneg g) (V3.norm_nonneg w))
      nlinarith
    exact le_trans h2 (mul_le_mul hgn hwn (V3.norm_nonneg w) (by linarith))
  rw [hdl, abs_mul, abs_of_nonneg (by positivity : (0 : ℝ) ≤ 2 * k), mul_assoc (2 * (k : ℝ)) F]
  exact mul_le_mul_of_nonneg_left hdot (by positivity)

end DOA
