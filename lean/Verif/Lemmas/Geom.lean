import Verif.Model.Pose
import Verif.Model.RealInst
import Mathlib.Tactic.Ring
import Mathlib.Tactic.Linarith
import Mathlib.Tactic.LinearCombination
import Mathlib.Tactic.FieldSimp

/-! Vector, matrix and quaternion algebra over `ℝ`. -/

namespace DOA

/-- proves vector identities coordinatewise -/
macro "v3_ring" : tactic => `(tactic| (ext <;> simp only [V3.add_x, V3.add_y, V3.add_z, V3.sub_x,
  V3.sub_y, V3.sub_z, V3.neg_x, V3.neg_y, V3.neg_z, V3.cross, V3.smul, V3.dot, V3.zero, V3.sdiv,
  M3.mulVec, M3.mul, M3.transpose, M3.mulDiag, V3.unitX, V3.unitY, V3.unitZ] <;> ring))

namespace V3

@[simp] theorem add_zero' (v : V3 ℝ) : v + zero = v := by v3_ring
@[simp] theorem zero_add' (v : V3 ℝ) : zero + v = v := by v3_ring
theorem add_comm' (v w : V3 ℝ) : v + w = w + v := by v3_ring
theorem add_assoc' (u v w : V3 ℝ) : u + v + w = u + (v + w) := by v3_ring
@[simp] theorem sub_self' (v : V3 ℝ) : v - v = zero := by v3_ring
@[simp] theorem add_sub_cancel' (v w : V3 ℝ) : v + w - w = v := by v3_ring
@[simp] theorem sub_zero' (v : V3 ℝ) : v - zero = v := by v3_ring

theorem dot_comm (v w : V3 ℝ) : dot v w = dot w v := by simp only [dot]; ring
theorem dot_add (u v w : V3 ℝ) : dot u (v + w) = dot u v + dot u w := by simp [dot]; ring
theorem dot_sub (u v w : V3 ℝ) : dot u (v - w) = dot u v - dot u w := by simp [dot]; ring
theorem dot_smul (u : V3 ℝ) (s : ℝ) (v : V3 ℝ) : dot u (smul s v) = s * dot u v := by
  simp [dot, smul]; ring
theorem smul_dot (u : V3 ℝ) (s : ℝ) (v : V3 ℝ) : dot (smul s u) v = s * dot u v := by
  simp [dot, smul]; ring
theorem dot_cross_self (u v : V3 ℝ) : dot u (cross u v) = 0 := by simp [dot, cross]; ring
theorem dot_cross_self' (u v : V3 ℝ) : dot v (cross u v) = 0 := by simp [dot, cross]; ring

theorem sqNorm_nonneg (v : V3 ℝ) : 0 ≤ sqNorm v := by
  simp only [sqNorm, dot]; nlinarith [mul_self_nonneg v.x, mul_self_nonneg v.y, mul_self_nonneg v.z]

theorem sqNorm_eq_zero {v : V3 ℝ} : sqNorm v = 0 ↔ v = zero := by
  constructor
  · intro h
    simp only [sqNorm, dot] at h
    have hx : v.x * v.x = 0 := by
      nlinarith [mul_self_nonneg v.x, mul_self_nonneg v.y, mul_self_nonneg v.z]
    have hy : v.y * v.y = 0 := by
      nlinarith [mul_self_nonneg v.x, mul_self_nonneg v.y, mul_self_nonneg v.z]
    have hz : v.z * v.z = 0 := by
      nlinarith [mul_self_nonneg v.x, mul_self_nonneg v.y, mul_self_nonneg v.z]
    ext
    · exact mul_self_eq_zero.mp hx
    · exact mul_self_eq_zero.mp hy
    · exact mul_self_eq_zero.mp hz
  · rintro rfl; simp [sqNorm, dot, zero]

theorem sqNorm_pos {v : V3 ℝ} (h : v ≠ zero) : 0 < sqNorm v :=
  lt_of_le_of_ne (sqNorm_nonneg v) (fun h0 => h (sqNorm_eq_zero.mp h0.symm))

theorem norm_nonneg (v : V3 ℝ) : 0 ≤ norm v := Real.sqrt_nonneg _
theorem norm_sq (v : V3 ℝ) : norm v * norm v = sqNorm v := Real.mul_self_sqrt (sqNorm_nonneg v)
theorem norm_pos {v : V3 ℝ} (h : v ≠ zero) : 0 < norm v := Real.sqrt_pos.mpr (sqNorm_pos h)
theorem norm_eq_zero {v : V3 ℝ} : norm v = 0 ↔ v = zero := by
  constructor
  · intro h; by_contra hne; exact (norm_pos hne).ne' h
  · rintro rfl; simp [norm, sqNorm, dot, zero]

theorem norm_eq_one_iff (v : V3 ℝ) : norm v = 1 ↔ sqNorm v = 1 := by
  constructor
  · intro h; rw [← norm_sq, h]; ring
  · intro h; simp [norm, h]

theorem norm_smul (s : ℝ) (v : V3 ℝ) : norm (smul s v) = |s| * norm v := by
  have : sqNorm (smul s v) = s ^ 2 * sqNorm v := by simp [sqNorm, dot, smul]; ring
  simp only [norm, sqrt_real]
  rw [this, Real.sqrt_mul (sq_nonneg s), Real.sqrt_sq_eq_abs]

theorem normalized_of_ne {v : V3 ℝ} (h : v ≠ zero) : normalized v = smul (1 / norm v) v := by
  unfold normalized
  rw [if_pos (sqNorm_pos h)]
  ext <;> simp only [sdiv, smul, norm] <;> ring

theorem normalized_zero : normalized (zero : V3 ℝ) = zero := by
  simp [normalized, sqNorm, dot, zero]

theorem norm_normalized {v : V3 ℝ} (h : v ≠ zero) : norm (normalized v) = 1 := by
  rw [normalized_of_ne h, norm_smul, abs_of_nonneg (by have := norm_nonneg v; positivity)]
  exact one_div_mul_cancel (norm_pos h).ne'

/-- the vector is its norm times its normalisation -/
theorem norm_smul_normalized (v : V3 ℝ) : smul (norm v) (normalized v) = v := by
  by_cases h : v = zero
  · subst h; rw [normalized_zero]; v3_ring
  · rw [normalized_of_ne h]
    have := (norm_pos h).ne'
    ext <;> simp only [smul] <;> field_simp

theorem dot_self_eq (v : V3 ℝ) : dot v v = sqNorm v := rfl

theorem cauchy_schwarz (u v : V3 ℝ) : dot u v * dot u v ≤ sqNorm u * sqNorm v := by
  simp only [sqNorm, dot]
  nlinarith [mul_self_nonneg (u.x * v.y - u.y * v.x), mul_self_nonneg (u.y * v.z - u.z * v.y),
    mul_self_nonneg (u.x * v.z - u.z * v.x)]

theorem dot_le_norm (u v : V3 ℝ) : dot u v ≤ norm u * norm v := by
  have h := cauchy_schwarz u v
  rw [← norm_sq u, ← norm_sq v] at h
  nlinarith [norm_nonneg u, norm_nonneg v, mul_nonneg (norm_nonneg u) (norm_nonneg v)]

/-- Lagrange's identity. -/
theorem sqNorm_cross (u v : V3 ℝ) : sqNorm (cross u v) = sqNorm u * sqNorm v - dot u v * dot u v := by
  simp only [sqNorm, dot, cross]; ring

end V3

namespace Quat

/-- squared norm one -/
def IsUnit (q : Quat ℝ) : Prop := sqNorm q = 1

theorem isUnit_iff_norm (q : Quat ℝ) : IsUnit q ↔ norm q = 1 := by
  unfold IsUnit norm
  constructor
  · intro h; simp [h]
  · intro h
    have := Real.sqrt_eq_iff_mul_self_eq_of_pos (x := sqNorm q) (y := 1) one_pos
    rw [sqrt_real] at h
    rw [this] at h; linarith

theorem sqNorm_nonneg (q : Quat ℝ) : 0 ≤ sqNorm q := by
  simp only [sqNorm]
  nlinarith [mul_self_nonneg q.x, mul_self_nonneg q.y, mul_self_nonneg q.z, mul_self_nonneg q.w]

theorem sqNorm_eq_zero {q : Quat ℝ} (h : sqNorm q = 0) : q = ⟨0, 0, 0, 0⟩ := by
  simp only [sqNorm] at h
  have hx : q.x * q.x = 0 := by
    nlinarith [mul_self_nonneg q.x, mul_self_nonneg q.y, mul_self_nonneg q.z, mul_self_nonneg q.w]
  have hy : q.y * q.y = 0 := by
    nlinarith [mul_self_nonneg q.x, mul_self_nonneg q.y, mul_self_nonneg q.z, mul_self_nonneg q.w]
  have hz : q.z * q.z = 0 := by
    nlinarith [mul_self_nonneg q.x, mul_self_nonneg q.y, mul_self_nonneg q.z, mul_self_nonneg q.w]
  have hw : q.w * q.w = 0 := by
    nlinarith [mul_self_nonneg q.x, mul_self_nonneg q.y, mul_self_nonneg q.z, mul_self_nonneg q.w]
  ext
  · exact mul_self_eq_zero.mp hw
  · exact mul_self_eq_zero.mp hx
  · exact mul_self_eq_zero.mp hy
  · exact mul_self_eq_zero.mp hz

theorem sqNorm_pos {q : Quat ℝ} (h : q ≠ ⟨0, 0, 0, 0⟩) : 0 < sqNorm q :=
  lt_of_le_of_ne (sqNorm_nonneg q) (fun h0 => h (sqNorm_eq_zero h0.symm))

theorem norm_sq (q : Quat ℝ) : norm q * norm q = sqNorm q := Real.mul_self_sqrt (sqNorm_nonneg q)

theorem normalized_isUnit {q : Quat ℝ} (h : q ≠ ⟨0, 0, 0, 0⟩) : IsUnit (normalized q) := by
  have hp := sqNorm_pos h
  unfold IsUnit normalized
  rw [if_pos hp]
  have hs : 0 < Real.sqrt (sqNorm q) := Real.sqrt_pos.mpr hp
  have h2 : Real.sqrt (sqNorm q) * Real.sqrt (sqNorm q) = sqNorm q := Real.mul_self_sqrt hp.le
  simp only [sqrt_real]
  generalize Real.sqrt (sqNorm q) = s at hs h2
  have : sqNorm (⟨q.w / s, q.x / s, q.y / s, q.z / s⟩ : Quat ℝ) = sqNorm q / (s * s) := by
    simp only [sqNorm]; field_simp
  rw [this, h2, div_self hp.ne']

theorem sqNorm_mul (a b : Quat ℝ) : sqNorm (mul a b) = sqNorm a * sqNorm b := by
  simp only [sqNorm, mul]; ring

theorem sqNorm_conjugate (a : Quat ℝ) : sqNorm (conjugate a) = sqNorm a := by
  simp only [sqNorm, conjugate]; ring

theorem IsUnit.mul {a b : Quat ℝ} (ha : IsUnit a) (hb : IsUnit b) : IsUnit (mul a b) := by
  unfold IsUnit; rw [sqNorm_mul, ha, hb, one_mul]

theorem IsUnit.conjugate {a : Quat ℝ} (ha : IsUnit a) : IsUnit (conjugate a) := by
  unfold IsUnit; rw [sqNorm_conjugate, ha]

theorem isUnit_one : IsUnit one := by simp [IsUnit, sqNorm, one]

/-- The vector part of `q v q*`. -/
def sandwich (q : Quat ℝ) (v : V3 ℝ) : V3 ℝ := (mul (mul q ⟨0, v.x, v.y, v.z⟩) (conjugate q)).vec

theorem rotate_eq_sandwich {q : Quat ℝ} (h : IsUnit q) (v : V3 ℝ) : rotate q v = sandwich q v := by
  have h' : q.x * q.x + q.y * q.y + q.z * q.z + q.w * q.w = 1 := h
  ext <;> simp only [rotate, sandwich, mul, conjugate, vec, V3.cross, V3.smul, V3.add_x, V3.add_y,
    V3.add_z]
  · linear_combination -v.x * h'
  · linear_combination -v.y * h'
  · linear_combination -v.z * h'

theorem sandwich_mul (a b : Quat ℝ) (v : V3 ℝ) :
    sandwich (mul a b) v = sandwich a (sandwich b v) := by
  ext <;> simp only [sandwich, mul, conjugate, vec] <;> ring

theorem rotate_mul {a b : Quat ℝ} (ha : IsUnit a) (hb : IsUnit b) (v : V3 ℝ) :
    rotate (mul a b) v = rotate a (rotate b v) := by
  rw [rotate_eq_sandwich (ha.mul hb), rotate_eq_sandwich hb, rotate_eq_sandwich ha, sandwich_mul]

theorem mul_assoc' (a b c : Quat ℝ) : mul (mul a b) c = mul a (mul b c) := by
  ext <;> simp only [mul] <;> ring

@[simp] theorem mul_one' (a : Quat ℝ) : mul a one = a := by ext <;> simp [mul, one]
@[simp] theorem one_mul' (a : Quat ℝ) : mul one a = a := by ext <;> simp [mul, one]

theorem mul_conjugate {a : Quat ℝ} (ha : IsUnit a) : mul a (conjugate a) = one := by
  have h' : a.x * a.x + a.y * a.y + a.z * a.z + a.w * a.w = 1 := ha
  ext <;> simp only [mul, conjugate, one]
  · linear_combination h'
  all_goals ring

theorem conjugate_mul_self {a : Quat ℝ} (ha : IsUnit a) : mul (conjugate a) a = one := by
  have h' : a.x * a.x + a.y * a.y + a.z * a.z + a.w * a.w = 1 := ha
  ext <;> simp only [mul, conjugate, one]
  · linear_combination h'
  all_goals ring

@[simp] theorem conjugate_conjugate (a : Quat ℝ) : conjugate (conjugate a) = a := by
  ext <;> simp [conjugate]

theorem conjugate_mul (a b : Quat ℝ) : conjugate (mul a b) = mul (conjugate b) (conjugate a) := by
  ext <;> simp only [mul, conjugate] <;> ring

@[simp] theorem rotate_one (v : V3 ℝ) : rotate one v = v := by
  ext <;> simp [rotate, one, vec, V3.cross, V3.smul]

theorem rotate_conjugate_rotate {q : Quat ℝ} (h : IsUnit q) (v : V3 ℝ) :
    rotate (conjugate q) (rotate q v) = v := by
  rw [← rotate_mul h.conjugate h, conjugate_mul_self h, rotate_one]

theorem rotate_rotate_conjugate {q : Quat ℝ} (h : IsUnit q) (v : V3 ℝ) :
    rotate q (rotate (conjugate q) v) = v := by
  rw [← rotate_mul h h.conjugate, mul_conjugate h, rotate_one]

theorem rotate_add (q : Quat ℝ) (v w : V3 ℝ) : rotate q (v + w) = rotate q v + rotate q w := by
  ext <;> simp only [rotate, vec, V3.cross, V3.smul, V3.add_x, V3.add_y, V3.add_z] <;> ring

theorem rotate_sub (q : Quat ℝ) (v w : V3 ℝ) : rotate q (v - w) = rotate q v - rotate q w := by
  ext <;> simp only [rotate, vec, V3.cross, V3.smul, V3.add_x, V3.add_y, V3.add_z, V3.sub_x,
    V3.sub_y, V3.sub_z] <;> ring

theorem rotate_neg (q : Quat ℝ) (v : V3 ℝ) : rotate q (-v) = -rotate q v := by
  ext <;> simp only [rotate, vec, V3.cross, V3.smul, V3.add_x, V3.add_y, V3.add_z, V3.neg_x,
    V3.neg_y, V3.neg_z] <;> ring

theorem rotate_smul (q : Quat ℝ) (s : ℝ) (v : V3 ℝ) : rotate q (V3.smul s v) = V3.smul s (rotate q v) := by
  ext <;> simp only [rotate, vec, V3.cross, V3.smul, V3.add_x, V3.add_y, V3.add_z] <;> ring

@[simp] theorem rotate_zero (q : Quat ℝ) : rotate q V3.zero = V3.zero := by
  ext <;> simp [rotate, vec, V3.cross, V3.smul, V3.zero]

theorem dot_rotate {q : Quat ℝ} (h : IsUnit q) (v w : V3 ℝ) :
    V3.dot (rotate q v) (rotate q w) = V3.dot v w := by
  have e : V3.dot (sandwich q v) (sandwich q w) = sqNorm q * sqNorm q * V3.dot v w := by
    simp only [V3.dot, sandwich, mul, conjugate, vec, sqNorm]; ring
  rw [rotate_eq_sandwich h, rotate_eq_sandwich h, e, h]; ring

theorem cross_rotate {q : Quat ℝ} (h : IsUnit q) (v w : V3 ℝ) :
    V3.cross (rotate q v) (rotate q w) = rotate q (V3.cross v w) := by
  have e : V3.cross (sandwich q v) (sandwich q w) = V3.smul (sqNorm q) (sandwich q (V3.cross v w)) := by
    ext <;> simp only [V3.cross, sandwich, mul, conjugate, vec, sqNorm, V3.smul] <;> ring
  rw [rotate_eq_sandwich h, rotate_eq_sandwich h, rotate_eq_sandwich h, e, h]
  ext <;> simp [V3.smul]

theorem sqNorm_rotate {q : Quat ℝ} (h : IsUnit q) (v : V3 ℝ) :
    V3.sqNorm (rotate q v) = V3.sqNorm v := dot_rotate h v v

theorem norm_rotate {q : Quat ℝ} (h : IsUnit q) (v : V3 ℝ) : V3.norm (rotate q v) = V3.norm v := by
  unfold V3.norm; rw [sqNorm_rotate h]

/-- the rotation matrix acts as the quaternion does -/
theorem toM3_mulVec (q : Quat ℝ) (v : V3 ℝ) : (toM3 q).mulVec v = rotate q v := by
  ext <;> simp only [toM3, M3.mulVec, rotate, vec, V3.cross, V3.smul, V3.add_x, V3.add_y, V3.add_z,
    lit_real] <;> push_cast <;> ring

theorem rotate_injective {q : Quat ℝ} (h : IsUnit q) {v w : V3 ℝ} (e : rotate q v = rotate q w) :
    v = w := by
  rw [← rotate_conjugate_rotate h v, e, rotate_conjugate_rotate h]

end Quat

namespace Pose

theorem apply_inverse_apply {p : Pose ℝ} (h : p.orientation.IsUnit) (v : V3 ℝ) :
    p.inverse.apply (p.apply v) = v := by
  simp only [apply, inverse]
  rw [← Quat.rotate_add]
  have : p.orientation.rotate v + p.position + -p.position = p.orientation.rotate v := by
    ext <;> simp
  rw [this, Quat.rotate_conjugate_rotate h]

theorem apply_apply_inverse {p : Pose ℝ} (h : p.orientation.IsUnit) (v : V3 ℝ) :
    p.apply (p.inverse.apply v) = v := by
  simp only [apply, inverse]
  rw [← Quat.rotate_add, Quat.rotate_rotate_conjugate h]
  ext <;> simp

theorem inverse_isUnit {p : Pose ℝ} (h : p.orientation.IsUnit) : p.inverse.orientation.IsUnit :=
  h.conjugate

theorem fixOrientation_eq (q : Quat ℝ) (h : q.norm < 1 + 1 / 10000) :
    Pose.fixOrientation q = if q.normalized.w < 0 then
      ⟨-q.normalized.w, -q.normalized.x, -q.normalized.y, -q.normalized.z⟩ else q.normalized := by
  have hc : q.norm - 1 < lit 1 10000 := by rw [lit_real]; push_cast; linarith
  simp only [Pose.fixOrientation, if_pos hc]

theorem fixOrientation_unit (q : Quat ℝ) (h0 : q ≠ ⟨0, 0, 0, 0⟩) (h : q.norm < 1 + 1 / 10000) :
    (Pose.fixOrientation q).IsUnit := by
  have hu := Quat.normalized_isUnit h0
  rw [fixOrientation_eq q h]
  split
  · simpa [Quat.IsUnit, Quat.sqNorm] using hu
  · exact hu

theorem fixOrientation_w (q : Quat ℝ) : 0 ≤ (Pose.fixOrientation q).w := by
  unfold Pose.fixOrientation
  generalize (if q.norm - 1 < lit 1 10000 then q.normalized else q) = q1
  by_cases h : q1.w < 0
  · simp only [if_pos h]; linarith
  · simp only [if_neg h]; linarith

end Pose
end DOA
