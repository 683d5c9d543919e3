import Verif.Model.Guard
import Verif.Spec.Alike

/-!
# Agents that differ only in how they are turned (C108)
-/

namespace DOA.Spec

/-- Two agents at the same place with the same velocity, margin, look-ahead time and envelope. The orientations and the angular
velocities may differ. -/
structure SameMotion {α : Type} (a a' : Agent α) : Prop where
  position : a.state.pose.position = a'.state.pose.position
  velocity : a.state.linearVelocity = a'.state.linearVelocity
  margin : a.margin = a'.margin
  deltaT : a.deltaT = a'.deltaT
  envelope : a.envelope = a'.envelope

/-- Two situations with the same obstacles and envelopes, and agents that differ only in how they are turned. -/
def SameSetting {α : Type} (s s' : Heap α × Agent α) : Prop := s.1 = s'.1 ∧ SameMotion s.2 s'.2

/-- The two agents are turned in the same way, and turn at the same rate. -/
def SameTurn {α : Type} (a a' : Agent α) : Prop :=
  a.state.pose.orientation = a'.state.pose.orientation ∧ a.state.angularVelocity = a'.state.angularVelocity

/-- Two situations of the guard program in which the orientations of the platforms agree. Everything else about how the
agents are turned may differ. -/
structure SameDuo {α : Type} (s s' : Duo α) : Prop where
  heap : s.heap = s'.heap
  platform : SameMotion s.platform s'.platform
  guard : SameMotion s.guard s'.guard
  orientation : s.platform.state.pose.orientation = s'.platform.state.pose.orientation

section
variable {α : Type} [Add α] [Sub α] [Mul α] [Div α] [Neg α] [Zero α] [One α] [LE α] [LT α] [DecidableLE α] [DecidableLT α] [CMath α]

/-- A control loop that turns the agent at the beginning of every iteration, with `set_orientation` and
`set_angular_velocity`; the values are arbitrary. -/
def runTurning (c : Loop α) (E : Env) (turn : Nat → Quat α × V3 α) : Nat → Heap α × Agent α → Res (Heap α × Agent α)
  | 0, s => .ok s
  | n + 1, s => do
    let s1 ← s.2.setOrientation s.1 (turn n).1
    let s2 ← s1.2.setAngularVelocity s1.1 (turn n).2
    let s' ← c.iterate E (c.desired s2.2.state.position) s2
    runTurning c E turn n s'

end

end DOA.Spec
