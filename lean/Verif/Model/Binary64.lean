import Mathlib.Data.Int.Log
import Verif.Model.Fp

/-!
# IEEE 754 arithmetic

Rounding to nearest, ties to even, with `p` bits, gradual underflow down to multiples of `2 ^ emin` and overflow from
`2 ^ emax` on; libm correctly rounded.  `binary64` is the arithmetic of `double`.
-/

namespace DOA

noncomputable section

/-- nearest integer, ties to even -/
def rne (t : ℝ) : ℤ :=
  if t - ⌊t⌋ < 1 / 2 then ⌊t⌋
  else if 1 / 2 < t - ⌊t⌋ then ⌊t⌋ + 1
  else if Even ⌊t⌋ then ⌊t⌋ else ⌊t⌋ + 1

/-- A binary format. -/
structure Format where
  /-- number of bits of the significand -/
  p : ℕ
  /-- exponent of the smallest positive number -/
  emin : ℤ
  /-- everything is below `2 ^ emax` -/
  emax : ℤ

namespace Format

/-- exponent of the last bit of `x` -/
def expo (f : Format) (x : ℝ) : ℤ := max (Int.log 2 x + 1 - f.p) f.emin

/-- the rounded value of `x ≥ 0` if there were no overflow -/
def nearest (f : Format) (x : ℝ) : ℝ := rne (x / 2 ^ f.expo x) * 2 ^ f.expo x

/-- rounding `x ≥ 0` -/
def rndPos (f : Format) (x : ℝ) : Dbl := if f.nearest x < 2 ^ f.emax then .fin (f.nearest x) else .pinf

/-- rounding -/
def rnd (f : Format) (x : ℝ) : Dbl := if x < 0 then -f.rndPos (-x) else f.rndPos x

/-- the arithmetic of the format, libm correctly rounded -/
def arith (f : Format) : Arith where
  rnd := f.rnd
  sin x := f.rnd (Real.sin x)
  cos x := f.rnd (Real.cos x)
  acos x := f.rnd (Real.arccos x)
  exp x := f.rnd (Real.exp x)
  atan2 y x := f.rnd (Complex.arg ⟨x, y⟩)
  pow x y := f.rnd (x ^ y)

/-- `double` -/
def binary64 : Format := ⟨53, -1074, 1024⟩

/-- at least as good as `double` -/
structure Wide (f : Format) : Prop where
  p : 53 ≤ f.p
  emin : f.emin + f.p ≤ 0
  emax : f.p < f.emax

end Format
end
end DOA
