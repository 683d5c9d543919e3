import Verif.Model.Modulation
import Verif.Lemmas.Geom
import Verif.Lemmas.Ellipsoid
import Mathlib.Tactic.Positivity
import Mathlib.Tactic.NormNum

/-! Algebra of the modulation matrices over `ℝ`. -/

set_option linter.unusedSectionVars false
set_option linter.unusedSimpArgs false

namespace DOA

namespace M3

/-- componentwise scaling -/
def had (d v : V3 ℝ) : V3 ℝ := ⟨d.x * v.x, d.y * v.y, d.z * v.z⟩

theorem mulVec_add (m : M3 ℝ) (u v : V3 ℝ) : m.mulVec (u + v) = m.mulVec u + m.mulVec v := by v3_ring
theorem mulVec_sub (m : M3 ℝ) (u v : V3 ℝ) : m.mulVec (u - v) = m.mulVec u - m.mulVec v := by v3_ring
theorem mulVec_smul (m : M3 ℝ) (s : ℝ) (v : V3 ℝ) : m.mulVec (V3.smul s v) = V3.smul s (m.mulVec v) := by
  v3_ring
theorem mul_mulVec (m n : M3 ℝ) (v : V3 ℝ) : (m.mul n).mulVec v = m.mulVec (n.mulVec v) := by v3_ring
theorem mulDiag_mulVec (m : M3 ℝ) (d v : V3 ℝ) : (m.mulDiag d).mulVec v = m.mulVec (had d v) := by
  ext <;> simp only [mulDiag, mulVec, had] <;> ring
theorem mulVec_cols (m : M3 ℝ) (v : V3 ℝ) :
    m.mulVec v = V3.smul v.x m.c0 + V3.smul v.y m.c1 + V3.smul v.z m.c2 := by v3_ring

theorem inverse_mulVec_mulVec {m : M3 ℝ} (h : m.det ≠ 0) (v : V3 ℝ) :
    m.inverse.mulVec (m.mulVec v) = v := by
  have hi : 1 / m.det * m.det = 1 := one_div_mul_cancel h
  simp only [inverse]
  generalize 1 / m.det = i at hi
  simp only [det] at hi
  ext <;> simp only [mulVec]
  · linear_combination v.x * hi
  · linear_combination v.y * hi
  · linear_combination v.z * hi

theorem mulVec_inverse_mulVec {m : M3 ℝ} (h : m.det ≠ 0) (v : V3 ℝ) :
    m.mulVec (m.inverse.mulVec v) = v := by
  have hi : 1 / m.det * m.det = 1 := one_div_mul_cancel h
  simp only [inverse]
  generalize 1 / m.det = i at hi
  simp only [det] at hi
  ext <;> simp only [mulVec]
  · linear_combination v.x * hi
  · linear_combination v.y * hi
  · linear_combination v.z * hi

/-- extensionality by action -/
theorem ext_mulVec {m n : M3 ℝ} (h : ∀ v, m.mulVec v = n.mulVec v) : m = n := by
  have hx := h ⟨1, 0, 0⟩
  have hy := h ⟨0, 1, 0⟩
  have hz := h ⟨0, 0, 1⟩
  simp only [mulVec, V3.mk.injEq, mul_one, mul_zero, add_zero, zero_add] at hx hy hz
  ext
  · exact hx.1
  · exact hx.2.1
  · exact hx.2.2
  · exact hy.1
  · exact hy.2.1
  · exact hy.2.2
  · exact hz.1
  · exact hz.2.1
  · exact hz.2.2

end M3

namespace Quat

theorem inverse_of_unit {q : Quat ℝ} (h : IsUnit q) : q.inverse = q.conjugate := by
  have h1 : q.sqNorm = 1 := h
  unfold inverse
  rw [h1, if_pos one_pos]
  ext <;> simp [conjugate]

end Quat

namespace Modulation

/-- What the modulation matrix does to a vector, in the frame of the obstacle. -/
theorem modulationProduct_mulVec {q : Quat ℝ} (hq : q.IsUnit) (b : M3 ℝ) (d v : V3 ℝ) :
    (modulationProduct q b d).mulVec v =
      q.rotate (b.mulVec (M3.had d (b.inverse.mulVec (q.conjugate.rotate v)))) := by
  simp only [modulationProduct, M3.mul_mulVec, M3.mulDiag_mulVec, Quat.toM3_mulVec,
    Quat.inverse_of_unit hq]

/-- the frame version -/
noncomputable def frameAct (b : M3 ℝ) (d v : V3 ℝ) : V3 ℝ := b.mulVec (M3.had d (b.inverse.mulVec v))

theorem modulationProduct_frame {q : Quat ℝ} (hq : q.IsUnit) (b : M3 ℝ) (d v : V3 ℝ) :
    (modulationProduct q b d).mulVec (q.rotate v) = q.rotate (frameAct b d v) := by
  rw [modulationProduct_mulVec hq, Quat.rotate_conjugate_rotate hq, frameAct]

theorem frameAct_col {b : M3 ℝ} (h : b.det ≠ 0) (d c : V3 ℝ) :
    frameAct b d (b.mulVec c) = b.mulVec (M3.had d c) := by
  rw [frameAct, M3.inverse_mulVec_mulVec h]

theorem mulVec_unit0 (b : M3 ℝ) (s : ℝ) : b.mulVec ⟨s, 0, 0⟩ = V3.smul s b.c0 := by
  ext <;> simp [M3.mulVec, V3.smul] <;> ring

theorem frameAct_c0 {b : M3 ℝ} (h : b.det ≠ 0) (d : V3 ℝ) (s : ℝ) :
    frameAct b d (V3.smul s b.c0) = V3.smul d.x (V3.smul s b.c0) := by
  rw [← mulVec_unit0, frameAct_col h]
  ext <;> simp [M3.had, M3.mulVec, V3.smul] <;> ring

/-- with equal second and third eigenvalue, the span of the last two columns is scaled -/
theorem frameAct_c12 {b : M3 ℝ} (h : b.det ≠ 0) {d : V3 ℝ} (hd : d.y = d.z) (s t : ℝ) :
    frameAct b d (V3.smul s b.c1 + V3.smul t b.c2) = V3.smul d.y (V3.smul s b.c1 + V3.smul t b.c2) := by
  have : V3.smul s b.c1 + V3.smul t b.c2 = b.mulVec ⟨0, s, t⟩ := by v3_ring
  rw [this, frameAct_col h, ← M3.mulVec_smul]
  congr 1
  ext <;> simp [M3.had, V3.smul, hd]

/-- determinant of the reference basis -/
theorem det_referenceBasis (n r : V3 ℝ) :
    (referenceBasis n r).det = -(V3.cross (tangentVector n) r).sqNorm := by
  simp only [referenceBasis, M3.det, V3.sqNorm, V3.dot, V3.cross]; ring

theorem dot_tangent (n : V3 ℝ) : V3.dot n (tangentVector n) = 0 := by
  unfold tangentVector
  simp only
  split <;> exact V3.dot_cross_self _ _

/-- When the third column of the reference basis is tangent to the surface as well, the component
along the normal is scaled by the first eigenvalue only. -/
theorem dot_frameAct {n r d v : V3 ℝ} (hdet : (referenceBasis n r).det ≠ 0)
    (h3 : V3.dot n (V3.cross (tangentVector n) r) = 0) :
    V3.dot n (frameAct (referenceBasis n r) d v) = d.x * V3.dot n v := by
  obtain ⟨c, rfl⟩ : ∃ c, (referenceBasis n r).mulVec c = v := ⟨_, M3.mulVec_inverse_mulVec hdet v⟩
  rw [frameAct_col hdet]
  have ht := dot_tangent n
  simp only [referenceBasis, M3.mulVec_cols, V3.dot_add, V3.dot_smul, ht, h3, M3.had]
  ring

/-- ... and every tangent vector is scaled by the second. -/
theorem frameAct_tangent {n r d u : V3 ℝ} (hdet : (referenceBasis n r).det ≠ 0)
    (h3 : V3.dot n (V3.cross (tangentVector n) r) = 0) (hr : V3.dot n r ≠ 0) (hd : d.y = d.z)
    (hu : V3.dot n u = 0) :
    frameAct (referenceBasis n r) d u = V3.smul d.y u := by
  obtain ⟨c, rfl⟩ : ∃ c, (referenceBasis n r).mulVec c = u := ⟨_, M3.mulVec_inverse_mulVec hdet u⟩
  have ht := dot_tangent n
  have hc : c.x = 0 := by
    simp only [referenceBasis, M3.mulVec_cols, V3.dot_add, V3.dot_smul, ht, h3] at hu
    have : c.x * V3.dot n r = 0 := by linarith
    exact (mul_eq_zero.mp this).resolve_right hr
  rw [frameAct_col hdet, ← M3.mulVec_smul]
  congr 1
  ext <;> simp [M3.had, V3.smul, hc, hd]

/-! ### the tangent vector in special positions -/

theorem tangent_planar {n : V3 ℝ} (hn : V3.norm n = 1) (hz : n.z = 0) :
    tangentVector n = ⟨n.y, -n.x, 0⟩ := by
  have e : V3.cross n V3.unitZ = ⟨n.y, -n.x, 0⟩ := by
    ext <;> simp [V3.cross, V3.unitZ]
  have hs := (V3.norm_eq_one_iff n).mp hn
  have : V3.norm (V3.cross n V3.unitZ) = 1 := by
    rw [V3.norm_eq_one_iff, e]
    simp only [V3.sqNorm, V3.dot, hz] at hs ⊢
    linarith
  unfold tangentVector
  simp only [this, lit_real]
  rw [if_neg (by norm_num), e]

/-- in the planar situation the third column is vertical -/
theorem cross_tangent_planar {n r : V3 ℝ} (hn : V3.norm n = 1) (hz : n.z = 0) (hr : r.z = 0) :
    V3.cross (tangentVector n) r = ⟨0, 0, V3.dot n r⟩ := by
  rw [tangent_planar hn hz]
  ext <;> (simp [V3.cross, V3.dot, hz, hr]; try ring)

/-- regularity in the planar situation -/
theorem det_planar {n r : V3 ℝ} (hn : V3.norm n = 1) (hz : n.z = 0) (hr : r.z = 0)
    (h : V3.dot n r ≠ 0) : (referenceBasis n r).det ≠ 0 := by
  rw [det_referenceBasis, cross_tangent_planar hn hz hr]
  simpa [V3.sqNorm, V3.dot] using h

theorem h3_planar {n r : V3 ℝ} (hn : V3.norm n = 1) (hz : n.z = 0) (hr : r.z = 0) :
    V3.dot n (V3.cross (tangentVector n) r) = 0 := by
  rw [cross_tangent_planar hn hz hr]; simp [V3.dot, hz]

/-- norm of the tangent vector is never 0 for a unit normal -/
theorem tangent_ne_zero {n : V3 ℝ} (hn : V3.norm n = 1) : V3.sqNorm (tangentVector n) ≠ 0 := by
  have hs := (V3.norm_eq_one_iff n).mp hn
  unfold tangentVector
  simp only
  split
  · rename_i h
    have h1 : V3.sqNorm (V3.cross n V3.unitZ) = n.x ^ 2 + n.y ^ 2 := by
      simp only [V3.sqNorm, V3.dot, V3.cross, V3.unitZ]; ring
    have h2 : V3.sqNorm (V3.cross n V3.unitY) = n.x ^ 2 + n.z ^ 2 := by
      simp only [V3.sqNorm, V3.dot, V3.cross, V3.unitY]; ring
    have h3 : V3.norm (V3.cross n V3.unitZ) * V3.norm (V3.cross n V3.unitZ) < 1 / 10000 := by
      rw [lit_real] at h
      push_cast at h
      nlinarith [V3.norm_nonneg (V3.cross n V3.unitZ)]
    rw [V3.norm_sq, h1] at h3
    rw [h2]
    simp only [V3.sqNorm, V3.dot] at hs
    nlinarith
  · rename_i h
    intro h0
    apply h
    rw [V3.norm, h0, lit_real]
    norm_num

/-- the radial situation: the reference direction is the normal -/
theorem det_radial {n : V3 ℝ} (hn : V3.norm n = 1) : (referenceBasis n n).det ≠ 0 := by
  have hs := (V3.norm_eq_one_iff n).mp hn
  rw [det_referenceBasis, V3.sqNorm_cross, hs, V3.dot_comm, dot_tangent]
  simpa using tangent_ne_zero hn

theorem h3_radial (n : V3 ℝ) : V3.dot n (V3.cross (tangentVector n) n) = 0 := V3.dot_cross_self' _ _

end Modulation
end DOA
