import Mathlib.Algebra.Order.Field.Basic

/-!
# Reading numbers

The value of a decimal numeral (as understood by `strtod`), written without reference to the way numbers are printed.
-/

namespace DOA.Spec

variable {K : Type} [Field K]

/-- The value of a sequence of digits. -/
def natVal (l : List Char) : Nat := l.foldl (fun n c => 10 * n + (c.toNat - 48)) 0

/-- The rest of a numeral whose digits have the value `v`: nothing or an exponent. -/
def readExp (v : K) : List Char → Option K
  | [] => some v
  | 'e' :: '+' :: e => if e ≠ [] ∧ e.all Char.isDigit then some (v * 10 ^ natVal e) else none
  | 'e' :: '-' :: e => if e ≠ [] ∧ e.all Char.isDigit then some (v / 10 ^ natVal e) else none
  | _ => none

/-- What follows the digits before the point. -/
def readFrac (n : Nat) : List Char → Option K
  | '.' :: r =>
    let f := r.takeWhile Char.isDigit
    if f = [] then none else readExp ((n : K) + (natVal f : K) / 10 ^ f.length) (r.dropWhile Char.isDigit)
  | r => readExp (n : K) r

/-- A numeral without sign. -/
def readAbs (l : List Char) : Option K :=
  let i := l.takeWhile Char.isDigit
  if i = [] then none else readFrac (natVal i) (l.dropWhile Char.isDigit)

/-- The value of a decimal numeral; `none` if the text is not a numeral. -/
def readNumber : List Char → Option K
  | '-' :: l => (readAbs l).map (- ·)
  | l => readAbs l

/-- Decimal numbers with at most six significant digits. -/
def Short (v : K) : Prop := ∃ (k j : ℤ), |k| < 1000000 ∧ v = k * 10 ^ j

end DOA.Spec
