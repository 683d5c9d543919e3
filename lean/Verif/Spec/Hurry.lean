import Verif.Spec.Faster

/-! # The same wish, in a hurry -/

namespace DOA.Spec
open DOA

/-- All objects of the memory are at rest. -/
def AllStatic (h : Heap ℝ) : Prop := ∀ o ∈ h,
  o.base.state.linearVelocity = V3.zero ∧ o.base.state.angularVelocity = V3.zero

/-- The loop `c` with another gain and another time step. -/
noncomputable def retimed (c : Loop ℝ) (gain dt : ℝ) : Loop ℝ := { c with gain := gain, dt := dt }

end DOA.Spec
