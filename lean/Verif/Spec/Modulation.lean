import Verif.Model.Agent
import Verif.Spec.Ellipsoid
import Mathlib.Analysis.Calculus.Deriv.Basic
import Verif.Model.RealInst

/-!
# Specification: what the modulation is supposed to do

Directions are judged by the change of the distance function only, not by the normals the code
computes.
-/

namespace DOA.Spec
open DOA

/-- The distance of the point `x` to the obstacle for an agent with safety margin `m`. -/
noncomputable def gdist (e : Ellipsoid ℝ) (m : ℝ) (x : V3 ℝ) : ℝ := e.distanceToPoint x (V3.const m)

/-- Moving from `x` with velocity `u`, the distance to the obstacle changes at rate `s`. -/
def Slope (e : Ellipsoid ℝ) (m : ℝ) (x u : V3 ℝ) (s : ℝ) : Prop :=
  HasDerivAt (fun t : ℝ => gdist e m (x + V3.smul t u)) s 0

/-- Obstacles whose normals are exact: curvature 1, or the same curvature and length on all axes. All
half lengths (margins included) are above the threshold `1E-4` of the code. -/
structure Smooth (e : Ellipsoid ℝ) (m : ℝ) (k : ℕ) : Prop where
  curv : HasCurv e k k k
  unit : e.base.orientation.norm = 1
  long : AllGt (halfLengths e (V3.const m)) (1 / 10000)
  exact_ : k = 1 ∨ ((halfLengths e (V3.const m)).x = (halfLengths e (V3.const m)).y ∧
    (halfLengths e (V3.const m)).y = (halfLengths e (V3.const m)).z)

/-- The agent and the reference point lie in the x-y plane of the obstacle. -/
def InPlane (e : Ellipsoid ℝ) (x ref : V3 ℝ) : Prop :=
  (∃ a b, x = e.base.pose.apply ⟨a, b, 0⟩) ∧ ∃ a b, ref = e.base.pose.apply ⟨a, b, 0⟩

/-- The obstacle is a ball and the reference point is its centre. -/
def CentredBall (e : Ellipsoid ℝ) (m : ℝ) (ref : V3 ℝ) : Prop :=
  e.curv = ⟨1, 1, 1⟩ ∧ (halfLengths e (V3.const m)).x = (halfLengths e (V3.const m)).y ∧
    (halfLengths e (V3.const m)).y = (halfLengths e (V3.const m)).z ∧ ref = e.base.position

/-- The angle between two vectors, in `[0, π]`. -/
noncomputable def angle (u v : V3 ℝ) : ℝ := Real.arccos (V3.dot u v / (V3.norm u * V3.norm v))

end DOA.Spec
