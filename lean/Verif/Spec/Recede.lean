import Verif.Spec.Continuity
import Verif.Spec.Origin

/-!
# An obstacle that goes away
-/

namespace DOA.Modulation
open DOA DOA.Spec

/-- The obstacle with its reference point, carried away by `t`. -/
def away (er : Ellipsoid ℝ × V3 ℝ) (t : V3 ℝ) : Ellipsoid ℝ × V3 ℝ :=
  ({ er.1 with base := movedBase t er.1.base }, er.2 + t)

/-- The obstacle with its centre at the origin. -/
def centred (e : Ellipsoid ℝ) : Ellipsoid ℝ :=
  { e with base := { e.base with state := { e.base.state with pose := ⟨V3.zero, e.base.state.pose.orientation⟩ } } }

/-- The result for the obstacles `its` is not at a tie: either the agent is brought to a standstill, or the direction of the
result is determined and its angle is not at the threshold of the code.  (The second half of `Settled`.) -/
def Outcome (x v : V3 ℝ) (its : List (Item ℝ)) (c p : ℝ) : Prop :=
  let ws := weightObstacles (its.map (·.dist)) c p
  let rv := (relativeVelocities x v its ws).1
  (∀ i ∈ its, i.matrix.mulVec rv = V3.zero) ∨
  (rv ≠ V3.zero ∧ (∀ i ∈ its, Definite (dsFrame rv.normalized).transpose rv.normalized rv i.matrix) ∧
    (((its.zip ws).foldl (fun (acc : ℝ × V2 ℝ) y =>
      let t := angleTerm (dsFrame rv.normalized).transpose rv.normalized rv y.1.matrix y.2
      (acc.1 + t.1, acc.2.add t.2)) (0, V2.zero)).2).norm ≠ 1 / 10000)

end DOA.Modulation
