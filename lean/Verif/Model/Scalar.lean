/-!
# Scalars

The C++ code computes with `double` throughout.  The model is generic in the scalar type `α`; the
operations it needs are the standard notation classes plus `CMath`, the part of `<cmath>` (and the
numeric literals) that the code uses.  Instances: `ℝ` (`RealInst.lean`), ideal doubles with
infinities and NaN (`Dbl.lean`) and hardware `Float` (`FloatInst.lean`, tests only).
-/

namespace DOA

/-- The `<cmath>` functions used by the code base, and literals.
`lit m n` stands for the C++ literal with value `m / n` (e.g. `1E-4` is `lit 1 10000`). -/
class CMath (α : Type) where
  sqrt : α → α
  sin : α → α
  cos : α → α
  acos : α → α
  exp : α → α
  /-- C argument order: `atan2 y x`. -/
  atan2 : α → α → α
  pow : α → α → α
  pi : α
  lit : Int → Nat → α
  /-- `std::isnan`, used through Eigen's `hasNaN`. -/
  isNaN : α → Bool

export CMath (lit)

/-- `std::abs` on doubles. -/
def absS {α : Type} [Neg α] [Zero α] [LT α] [DecidableLT α] (x : α) : α :=
  if x < 0 then -x else x

/-- `std::max(a, b)`: returns `b` if `a < b`, else `a` (so `a` if the comparison involves NaN). -/
def maxS {α : Type} [LT α] [DecidableLT α] (a b : α) : α :=
  if a < b then b else a

end DOA
