import Mathlib.Data.Real.Basic
import Mathlib.Analysis.SpecialFunctions.Pow.Real
import Mathlib.Analysis.SpecialFunctions.Trigonometric.Inverse
import Mathlib.Analysis.SpecialFunctions.Complex.Arg
import Verif.Model.Scalar

/-!
# Interpretation over the real numbers

Totalised points, which differ from C: `x / 0 = 0`, `sqrt x = 0` for `x < 0`, `acos` constant outside
`[-1,1]`, `pow` of a negative base with a non-integer exponent, `pow 0 y = 0` for `y < 0`,
`atan2 0 0 = 0` (this one agrees with C).  Theorems over `ℝ` carry guards against the others.
-/

namespace DOA

noncomputable instance : CMath ℝ where
  sqrt := Real.sqrt
  sin := Real.sin
  cos := Real.cos
  acos := Real.arccos
  exp := Real.exp
  atan2 y x := Complex.arg ⟨x, y⟩
  pow := fun x y => x ^ y
  pi := Real.pi
  lit m n := (m : ℝ) / (n : ℝ)
  isNaN _ := false

@[simp] theorem sqrt_real (x : ℝ) : CMath.sqrt x = Real.sqrt x := rfl
@[simp] theorem sin_real (x : ℝ) : CMath.sin x = Real.sin x := rfl
@[simp] theorem cos_real (x : ℝ) : CMath.cos x = Real.cos x := rfl
@[simp] theorem acos_real (x : ℝ) : CMath.acos x = Real.arccos x := rfl
@[simp] theorem exp_real (x : ℝ) : CMath.exp x = Real.exp x := rfl
@[simp] theorem atan2_real (y x : ℝ) : CMath.atan2 y x = Complex.arg ⟨x, y⟩ := rfl
@[simp] theorem pow_real (x y : ℝ) : CMath.pow x y = x ^ y := rfl
@[simp] theorem pi_real : (CMath.pi : ℝ) = Real.pi := rfl
@[simp] theorem lit_real (m : Int) (n : Nat) : (lit m n : ℝ) = (m : ℝ) / (n : ℝ) := rfl
@[simp] theorem isNaN_real (x : ℝ) : CMath.isNaN x = false := rfl

@[simp] theorem absS_real (x : ℝ) : absS x = |x| := by
  unfold absS
  split
  · rw [abs_of_neg (by assumption)]
  · rw [abs_of_nonneg (not_lt.mp (by assumption))]

@[simp] theorem maxS_real (a b : ℝ) : maxS a b = max a b := by
  unfold maxS
  split
  · rw [max_eq_right (le_of_lt (by assumption))]
  · rw [max_eq_left (not_lt.mp (by assumption))]

end DOA
