import Verif.Lemmas.Geom

/-!
# Properties C19-C21: poses
-/

namespace DOA.Props
open DOA DOA.Pose

/-! ## C19 composition -/

/-- C19: applying a product is applying one after the other. -/
theorem C19_compose (p q : Pose ℝ) (hp : p.orientation.norm = 1) (hq : q.orientation.norm = 1)
    (v : V3 ℝ) : (p.mul q).apply v = p.apply (q.apply v) := by
  rw [← Quat.isUnit_iff_norm] at hp hq
  simp only [Pose.mul, Pose.mulAssign, Pose.apply]
  rw [Quat.rotate_mul hp hq, Quat.rotate_add]
  ext <;> simp <;> ring

/-- C19: associativity. -/
theorem C19_assoc (p q r : Pose ℝ) (hp : p.orientation.norm = 1) (hq : q.orientation.norm = 1) :
    (p.mul q).mul r = p.mul (q.mul r) := by
  rw [← Quat.isUnit_iff_norm] at hp hq
  simp only [Pose.mul, Pose.mulAssign]
  rw [Quat.rotate_mul hp hq, Quat.rotate_add, Quat.mul_assoc']
  ext <;> simp <;> ring

/-- C19: the default pose is neutral. -/
theorem C19_neutral (p : Pose ℝ) (v : V3 ℝ) :
    Pose.default.mul p = p ∧ p.mul Pose.default = p ∧ (Pose.default : Pose ℝ).apply v = v := by
  refine ⟨?_, ?_, ?_⟩
  · ext <;> simp [Pose.mul, Pose.mulAssign, Pose.default, V3.zero]
  · ext <;> simp [Pose.mul, Pose.mulAssign, Pose.default]
  · ext <;> simp [Pose.apply, Pose.default, V3.zero]

/-- C19: the assignment operator agrees with the product, also when the argument is the object. This
holds in every arithmetic. -/
theorem C19_mul_assign {α : Type} [Add α] [Sub α] [Mul α] (p q : Pose α) :
    p.mulAssign q = p.mul q ∧ p.mulAssignSelf = p.mul p := ⟨rfl, rfl⟩

/-- C19: a pose acts as "rotate, then translate by the position". -/
theorem C19_apply (p : Pose ℝ) (v : V3 ℝ) :
    (p.apply v).x = (p.orientation.rotate v).x + p.position.x ∧
    (p.apply v).y = (p.orientation.rotate v).y + p.position.y ∧
    (p.apply v).z = (p.orientation.rotate v).z + p.position.z := ⟨rfl, rfl, rfl⟩

/-- A half turn about x at (1,2,3), as a non-trivial pose used in the examples. -/
def halfTurn : Pose ℝ := ⟨⟨1, 2, 3⟩, ⟨0, 1, 0, 0⟩⟩

theorem halfTurn_unit : halfTurn.orientation.norm = 1 := by
  simp [halfTurn, Quat.norm, Quat.sqNorm]

example : (halfTurn.mul halfTurn).apply ⟨5, 6, 7⟩ = halfTurn.apply (halfTurn.apply ⟨5, 6, 7⟩) :=
  C19_compose _ _ halfTurn_unit halfTurn_unit _

example : halfTurn.apply ⟨5, 6, 7⟩ = ⟨6, -4, -4⟩ := by
  ext <;> norm_num [halfTurn, Pose.apply, Quat.rotate, Quat.vec, V3.cross, V3.smul]

/-! ## C20 unit orientation -/

/-- The public ways to obtain and change a pose (constructors and modifiers of Pose.hpp); `arg` says
which quaternions are allowed as constructor arguments. -/
inductive PoseReach (arg : Quat ℝ → Prop) : Pose ℝ → Prop
  | default : PoseReach arg Pose.default
  | ofPosition (v) : PoseReach arg (Pose.ofPosition v)
  | mk2 (v q) : arg q → PoseReach arg (Pose.mk2 v q)
  | mk7 (px py pz qw qx qy qz) : arg ⟨qw, qx, qy, qz⟩ →
      PoseReach arg (Pose.mk7 px py pz qw qx qy qz)
  | setPosition (p v) : PoseReach arg p → PoseReach arg (p.setPosition v)
  | setOrientation (p q) : PoseReach arg p → q ≠ ⟨0, 0, 0, 0⟩ → PoseReach arg (p.setOrientation q)
  | mulAssign (p q) : PoseReach arg p → PoseReach arg q → PoseReach arg (p.mulAssign q)
  | mulAssignSelf (p) : PoseReach arg p → PoseReach arg p.mulAssignSelf
  | mul (p q) : PoseReach arg p → PoseReach arg q → PoseReach arg (p.mul q)
  | inverse (p) : PoseReach arg p → PoseReach arg p.inverse

/-- C20, the part that holds: if constructor arguments are non-zero and have norm below 1.0001, every
pose obtained from the constructors by any sequence of modifiers has an orientation of norm 1.
Full statement (false, see `C20_negation`): the same without the bound on the norm. -/
theorem C20_unit_partial (p : Pose ℝ)
    (h : PoseReach (fun q => q ≠ ⟨0, 0, 0, 0⟩ ∧ q.norm < 1 + 1 / 10000) p) :
    p.orientation.norm = 1 := by
  rw [← Quat.isUnit_iff_norm]
  induction h with
  | default => exact Quat.isUnit_one
  | ofPosition v => exact Quat.isUnit_one
  | mk2 v q h => exact fixOrientation_unit q h.1 h.2
  | mk7 px py pz qw qx qy qz h => exact fixOrientation_unit _ h.1 h.2
  | setPosition p v _ ih => exact ih
  | setOrientation p q _ h ih => exact Quat.normalized_isUnit h
  | mulAssign p q _ _ ih1 ih2 => exact ih1.mul ih2
  | mulAssignSelf p _ ih => exact ih.mul ih
  | mul p q _ _ ih1 ih2 => exact ih1.mul ih2
  | inverse p _ ih => exact ih.conjugate

/-- C20: both constructors with an orientation yield `w ≥ 0`, for every argument. -/
theorem C20_constructor_w_nonneg (v : V3 ℝ) (q : Quat ℝ) (px py pz qw qx qy qz : ℝ) :
    0 ≤ (Pose.mk2 v q).orientation.w ∧ 0 ≤ (Pose.mk7 px py pz qw qx qy qz).orientation.w :=
  ⟨fixOrientation_w q, fixOrientation_w _⟩

/-- C20: the constructors build the rotation that the given quaternion stands for,
`v ↦ q v q* / |q|²` (so the sign change does not matter and the arguments are in w,x,y,z order). -/
theorem C20_constructor_rotation (t : V3 ℝ) (q : Quat ℝ) (h0 : q ≠ ⟨0, 0, 0, 0⟩)
    (h : q.norm < 1 + 1 / 10000) (v : V3 ℝ) :
    (Pose.mk2 t q).apply v =
      V3.smul (1 / q.sqNorm) (((q.mul ⟨0, v.x, v.y, v.z⟩).mul q.conjugate).vec) + t ∧
    (Pose.mk7 t.x t.y t.z q.w q.x q.y q.z) = Pose.mk2 t q := by
  refine ⟨?_, rfl⟩
  have hp := Quat.sqNorm_pos h0
  have hs : 0 < Real.sqrt q.sqNorm := Real.sqrt_pos.mpr hp
  have h2 : Real.sqrt q.sqNorm * Real.sqrt q.sqNorm = q.sqNorm := Real.mul_self_sqrt hp.le
  have hrot : (Pose.fixOrientation q).rotate v =
      V3.smul (1 / q.sqNorm) (((q.mul ⟨0, v.x, v.y, v.z⟩).mul q.conjugate).vec) := by
    rw [Quat.rotate_eq_sandwich (fixOrientation_unit q h0 h), fixOrientation_eq q h]
    have hn : q.normalized = ⟨q.w / Real.sqrt q.sqNorm, q.x / Real.sqrt q.sqNorm,
        q.y / Real.sqrt q.sqNorm, q.z / Real.sqrt q.sqNorm⟩ := by
      unfold Quat.normalized; rw [if_pos hp]; rfl
    rw [hn]
    conv_rhs => rw [← h2]
    generalize Real.sqrt q.sqNorm = s at hs
    split <;>
    · ext <;> simp only [Quat.sandwich, Quat.mul, Quat.conjugate, Quat.vec, V3.smul] <;>
        field_simp <;> ring
  simp only [Pose.apply, Pose.mk2, hrot]

/-- C20 is false: the constructor keeps a quaternion of norm 2 as it is (`norm - 1 < 1e-4` instead of
`abs(norm - 1) > 1e-4`), and the resulting pose does not preserve distances. -/
theorem C20_negation : ∃ (v : V3 ℝ) (q : Quat ℝ), q ≠ ⟨0, 0, 0, 0⟩ ∧
    (Pose.mk2 v q).orientation.norm = 2 ∧
    ((Pose.mk2 v q).apply ⟨1, 0, 0⟩ - (Pose.mk2 v q).apply ⟨0, 0, 0⟩).norm ≠ 1 := by
  have hs : Real.sqrt (2 * 2) = 2 := Real.sqrt_mul_self (by norm_num)
  have hn : Quat.norm (⟨0, 0, 0, 2⟩ : Quat ℝ) = 2 := by
    simp [Quat.norm, Quat.sqNorm, hs]
  have hfix : Pose.fixOrientation (⟨0, 0, 0, 2⟩ : Quat ℝ) = ⟨0, 0, 0, 2⟩ := by
    unfold Pose.fixOrientation
    rw [hn]
    norm_num
  refine ⟨⟨0, 0, 0⟩, ⟨0, 0, 0, 2⟩, by simp, ?_, ?_⟩
  · simp only [Pose.mk2, hfix]; exact hn
  · simp only [Pose.mk2, hfix]
    rw [Ne, V3.norm_eq_one_iff]
    norm_num [Pose.apply, Quat.rotate, Quat.vec, V3.cross, V3.smul, V3.sqNorm, V3.dot]

example : PoseReach (fun q => q ≠ ⟨0, 0, 0, 0⟩ ∧ q.norm < 1 + 1 / 10000)
    ((Pose.mk7 1 2 3 0 (1/2) 0 0).mul (Pose.ofPosition ⟨1, 1, 1⟩)).inverse := by
  refine .inverse _ (.mul _ _ (.mk7 _ _ _ _ _ _ _ ⟨by simp, ?_⟩) (.ofPosition _))
  have : Real.sqrt (1 / 2 * (1 / 2)) = 1 / 2 := Real.sqrt_mul_self (by norm_num)
  simp only [Quat.norm, Quat.sqNorm, sqrt_real]
  norm_num at this ⊢
  rw [this]; norm_num

/-! ## C21 inverse and isometry -/

/-- C21: the inverse undoes the pose, on both sides. -/
theorem C21_inverse_apply (p : Pose ℝ) (hp : p.orientation.norm = 1) (v : V3 ℝ) :
    p.inverse.apply (p.apply v) = v ∧ p.apply (p.inverse.apply v) = v := by
  rw [← Quat.isUnit_iff_norm] at hp
  exact ⟨Pose.apply_inverse_apply hp v, Pose.apply_apply_inverse hp v⟩

/-- C21: the inverse is the two-sided group inverse. -/
theorem C21_inverse_mul (p : Pose ℝ) (hp : p.orientation.norm = 1) :
    p.inverse.mul p = Pose.default ∧ p.mul p.inverse = Pose.default := by
  rw [← Quat.isUnit_iff_norm] at hp
  constructor
  · simp only [Pose.mul, Pose.mulAssign, Pose.inverse, Quat.conjugate_mul_self hp, Pose.default]
    rw [Quat.rotate_neg]
    ext <;> simp [V3.zero]
  · simp only [Pose.mul, Pose.mulAssign, Pose.inverse, Quat.mul_conjugate hp, Pose.default]
    rw [Quat.rotate_rotate_conjugate hp]
    ext <;> simp [V3.zero]

/-- C21: double inverse. -/
theorem C21_inverse_inverse (p : Pose ℝ) (hp : p.orientation.norm = 1) : p.inverse.inverse = p := by
  rw [← Quat.isUnit_iff_norm] at hp
  have e : p.inverse.inverse.position = p.position := by
    simp only [Pose.inverse, Quat.conjugate_conjugate]
    rw [← Quat.rotate_neg, Quat.rotate_rotate_conjugate hp]
    ext <;> simp
  have e2 : p.inverse.inverse.orientation = p.orientation := by
    simp [Pose.inverse]
  exact Pose.ext e e2

/-- C21: inverse of a product. -/
theorem C21_inverse_of_product (p q : Pose ℝ) (hp : p.orientation.norm = 1)
    (hq : q.orientation.norm = 1) : (p.mul q).inverse = q.inverse.mul p.inverse := by
  rw [← Quat.isUnit_iff_norm] at hp hq
  have e2 : (p.mul q).inverse.orientation = (q.inverse.mul p.inverse).orientation := by
    simp [Pose.inverse, Pose.mul, Pose.mulAssign, Quat.conjugate_mul]
  have e1 : (p.mul q).inverse.position = (q.inverse.mul p.inverse).position := by
    simp only [Pose.inverse, Pose.mul, Pose.mulAssign, Quat.conjugate_mul]
    rw [Quat.rotate_mul hq.conjugate hp.conjugate]
    have : -(p.position + p.orientation.rotate q.position)
        = -p.position + -(p.orientation.rotate q.position) := by
      ext <;> simp <;> ring
    rw [this, Quat.rotate_add, ← Quat.rotate_neg, Quat.rotate_conjugate_rotate hp, Quat.rotate_add,
      V3.add_comm']
  exact Pose.ext e1 e2

/-- C21: poses preserve distances, and orientation (they map cross products to cross products). -/
theorem C21_isometry (p : Pose ℝ) (hp : p.orientation.norm = 1) (v w u : V3 ℝ) :
    (p.apply v - p.apply w).norm = (v - w).norm ∧
    V3.cross (p.apply v - p.apply u) (p.apply w - p.apply u) =
      p.orientation.rotate (V3.cross (v - u) (w - u)) := by
  rw [← Quat.isUnit_iff_norm] at hp
  have e : ∀ v w, p.apply v - p.apply w = p.orientation.rotate (v - w) := by
    intro v w
    rw [Quat.rotate_sub]
    ext <;> simp [Pose.apply]
  refine ⟨?_, ?_⟩
  · rw [e, Quat.norm_rotate hp]
  · rw [e, e, Quat.cross_rotate hp]

example : halfTurn.inverse.apply (halfTurn.apply ⟨1, 5, 2⟩) = ⟨1, 5, 2⟩ :=
  (C21_inverse_apply _ halfTurn_unit _).1

end DOA.Props
