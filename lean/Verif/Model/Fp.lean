import Verif.Model.Dbl

/-!
# Doubles with rounding

Finite precision arithmetic as a further interpretation of the generic model: the result of every operation on ideal
doubles (`Dbl.lean`) is rounded by a function `rnd`, which may also overflow to an infinity; the functions of libm, which are not
correctly rounded in general, are arbitrary functions.  What is known about them is a hypothesis of the theorems:
`Arith.Sound` and `Arith.Within` below.  `Binary64.lean` shows that rounding to nearest, ties to even, with 53 bits, gradual
underflow and overflow has these properties.

As in `Dbl` there is only one zero.
-/

namespace DOA

/-- A finite precision arithmetic: rounding, and the functions of libm on finite arguments where the exact result is
finite. -/
structure Arith where
  rnd : ℝ → Dbl
  sin : ℝ → Dbl
  cos : ℝ → Dbl
  acos : ℝ → Dbl
  exp : ℝ → Dbl
  atan2 : ℝ → ℝ → Dbl
  pow : ℝ → ℝ → Dbl

namespace Arith

/-- Rounding an ideal double: infinities and NaN stay what they are. -/
def round (A : Arith) : Dbl → Dbl
  | .fin r => A.rnd r
  | d => d

/-- What is assumed about rounding regardless of the precision.  All of it holds for every rounding mode of IEEE 754
binary64. -/
structure Sound (A : Arith) : Prop where
  /-- monotone; in particular never NaN -/
  mono : ∀ x y : ℝ, x ≤ y → A.rnd x ≤ A.rnd y
  /-- integers up to 2^53 are doubles -/
  int : ∀ n : ℤ, |n| ≤ 2 ^ 53 → A.rnd n = .fin n
  /-- doubles are not rounded again -/
  idem : ∀ x r : ℝ, A.rnd x = .fin r → A.rnd r = .fin r
  /-- a double with the other sign is a double -/
  odd : ∀ x r : ℝ, A.rnd x = .fin r → A.rnd (-r) = .fin (-r)
  /-- what does not vanish loses at most half of its value -/
  half : ∀ x : ℝ, 0 < x → A.rnd x = .fin 0 ∨ .fin (x / 2) ≤ A.rnd x

/-- `d` is a finite double and approximates `x` up to `δ`, relatively or absolutely. -/
def Near (δ x : ℝ) (d : Dbl) : Prop := ∃ r, d = .fin r ∧ |r - x| ≤ δ * (1 + |x|)

/-- The arithmetic has precision `δ` for numbers up to `1/δ`. -/
structure Within (δ : ℝ) (A : Arith) : Prop extends A.Sound where
  near : ∀ x, |x| ≤ 1 / δ → Near δ x (A.rnd x)
  near_sin : ∀ x, |x| ≤ 1 / δ → Near δ (Real.sin x) (A.sin x)
  near_cos : ∀ x, |x| ≤ 1 / δ → Near δ (Real.cos x) (A.cos x)
  near_acos : ∀ x, |x| ≤ 1 → Near δ (Real.arccos x) (A.acos x)
  near_exp : ∀ x, |x| ≤ 1 / δ → Real.exp x ≤ 1 / δ → Near δ (Real.exp x) (A.exp x)
  near_atan2 : ∀ y x, |y| ≤ 1 / δ → |x| ≤ 1 / δ → Near δ (Complex.arg ⟨x, y⟩) (A.atan2 y x)
  /-- positive base or natural exponent -/
  near_pow : ∀ x y : ℝ, (0 < x ∨ ∃ n : ℕ, y = n) → |x| ≤ 1 / δ → |y| ≤ 1 / δ → |x ^ y| ≤ 1 / δ → Near δ (x ^ y) (A.pow x y)

end Arith

/-- A `double` of the arithmetic `A`. -/
structure Fp (A : Arith) where
  v : Dbl

namespace Fp
variable {A : Arith}

noncomputable section
open Classical

instance : Inhabited (Fp A) := ⟨⟨.nan⟩⟩
instance : Zero (Fp A) := ⟨⟨0⟩⟩
instance : One (Fp A) := ⟨⟨1⟩⟩
instance : Neg (Fp A) := ⟨fun a => ⟨-a.v⟩⟩
instance : Add (Fp A) := ⟨fun a b => ⟨A.round (a.v + b.v)⟩⟩
instance : Sub (Fp A) := ⟨fun a b => ⟨A.round (a.v - b.v)⟩⟩
instance : Mul (Fp A) := ⟨fun a b => ⟨A.round (a.v * b.v)⟩⟩
instance : Div (Fp A) := ⟨fun a b => ⟨A.round (a.v / b.v)⟩⟩
instance : LT (Fp A) := ⟨fun a b => a.v < b.v⟩
instance : LE (Fp A) := ⟨fun a b => a.v ≤ b.v⟩
instance : DecidableLT (Fp A) := fun a b => propDecidable (a < b)
instance : DecidableLE (Fp A) := fun a b => propDecidable (a ≤ b)

/-- A function of libm with ideal version `f` and finite part `g`: where the ideal result is exceptional, or the argument is
not finite, it is that of the C standard. -/
def libm1 (f : Dbl → Dbl) (g : ℝ → Dbl) (x : Fp A) : Fp A :=
  match x.v, f x.v with
  | .fin a, .fin _ => ⟨g a⟩
  | _, d => ⟨A.round d⟩

/-- The same for two arguments. -/
def libm2 (f : Dbl → Dbl → Dbl) (g : ℝ → ℝ → Dbl) (x y : Fp A) : Fp A :=
  match x.v, y.v, f x.v y.v with
  | .fin a, .fin b, .fin _ => ⟨g a b⟩
  | _, _, d => ⟨A.round d⟩

instance : CMath (Fp A) where
  sqrt x := ⟨A.round (CMath.sqrt x.v)⟩
  sin := libm1 CMath.sin A.sin
  cos := libm1 CMath.cos A.cos
  acos := libm1 CMath.acos A.acos
  exp := libm1 CMath.exp A.exp
  atan2 := libm2 CMath.atan2 A.atan2
  pow := libm2 CMath.pow A.pow
  pi := ⟨A.rnd Real.pi⟩
  lit m n := ⟨A.rnd ((m : ℝ) / (n : ℝ))⟩
  isNaN x := CMath.isNaN x.v

end
end Fp

end DOA
