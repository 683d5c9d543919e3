import Verif.Model.Scalar

/-!
# Interpretation over hardware doubles (tests only)

`Float` operations are opaque to the kernel; this instance is used by `#guard` tests only.
-/

namespace DOA

instance : CMath Float where
  sqrt := Float.sqrt
  sin := Float.sin
  cos := Float.cos
  acos := Float.acos
  exp := Float.exp
  atan2 := Float.atan2
  pow := Float.pow
  pi := 3.141592653589793
  lit m n := Float.ofInt m / Float.ofNat n
  isNaN := Float.isNaN

instance : One Float := ⟨1.0⟩
instance : Zero Float := ⟨0.0⟩

end DOA
