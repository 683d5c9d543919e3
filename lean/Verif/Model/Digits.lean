import Mathlib.Data.Int.Log
import Verif.Model.Print
import Verif.Model.Dbl

/-!
# Digits of printed numbers

`os << x` for a `double`, as in all `operator<<` and `print` functions (State/Pose.hpp:75-90, State/State.hpp:87-97,
Obstacle.hpp:453-462, Ellipsoid.hpp:245-255, Agent.hpp:205-211). No function of the library changes the format of the
stream, so that it is the default one: `printf("%.6g", x)`.

Not represented: the sign of a zero and of a NaN. The padding of `transpose()` is left out as in `Model/Print.lean`.
-/

namespace DOA.Digits

variable {K : Type} [Field K] [LinearOrder K] [IsStrictOrderedRing K] [FloorRing K]

/-- The natural number nearest to `a ≥ 0`; in the middle the even one. -/
def roundEven (a : K) : Nat :=
  let n := ⌊a⌋₊
  let r := a - n
  if r < 1 / 2 then n else if 1 / 2 < r then n + 1 else if n % 2 = 0 then n else n + 1

/-- The six significant digits `m` of `a > 0` and the decimal exponent `X` of the first one: the number is rounded to
`m * 10 ^ (X - 5)`. -/
def decimal (a : K) : Nat × Int :=
  let X := Int.log 10 a
  let m := roundEven (a / (10 : K) ^ (X - 5))
  if m = 1000000 then (100000, X + 1) else (m, X)

/-- The digits of `n`; `fuel` bounds their number. -/
def natAux : Nat → Nat → List Char
  | 0, _ => []
  | fuel + 1, n => if n < 10 then [Nat.digitChar n] else natAux fuel (n / 10) ++ [Nat.digitChar (n % 10)]

/-- `n` without leading zeros. -/
def nat (n : Nat) : List Char := natAux (n + 1) n

/-- The last `k` digits of `n`. -/
def padded : Nat → Nat → List Char
  | 0, _ => []
  | k + 1, n => padded k (n / 10) ++ [Nat.digitChar (n % 10)]

/-- Remove zeros at the end (`%g` without `#`). -/
def strip (l : List Char) : List Char := (l.reverse.dropWhile (· == '0')).reverse

/-- The decimal point and the digits after it, nothing if they are all zero. -/
def fraction (l : List Char) : List Char := if strip l = [] then [] else '.' :: strip l

/-- The notation without exponent. -/
def fixed (m : Nat) (X : Int) : List Char :=
  let p := (5 - X).toNat
  nat (m / 10 ^ p) ++ fraction (padded p (m % 10 ^ p))

/-- The exponent: sign and at least two digits. -/
def exponent (X : Int) : List Char :=
  'e' :: (if X < 0 then '-' else '+') :: (if X.natAbs < 10 then '0' :: nat X.natAbs else nat X.natAbs)

/-- The notation with exponent. -/
def scientific (m : Nat) (X : Int) : List Char :=
  nat (m / 10 ^ 5) ++ fraction (padded 5 (m % 10 ^ 5)) ++ exponent X

/-- `%.6g` of a positive number. -/
def positive (a : K) : List Char :=
  let d := decimal a
  if -4 ≤ d.2 ∧ d.2 < 6 then fixed d.1 d.2 else scientific d.1 d.2

/-- `%.6g` -/
def format (x : K) : List Char :=
  if x = 0 then ['0'] else if x < 0 then '-' :: positive (-x) else positive x

/-- The exceptional values. -/
noncomputable def formatDbl : Dbl → List Char
  | .fin r => format r
  | .pinf => "inf".toList
  | .ninf => "-inf".toList
  | .nan => "nan".toList

/-- The characters that reach the stream, `f` being the conversion of numbers. -/
def render {α : Type} (f : α → List Char) (t : Print.Text α) : List Char :=
  t.flatMap fun
    | .chr c => [c]
    | .num a => f a

end DOA.Digits
