import Verif.Model.Loop

/-! # Agents at the same place with different pasts -/

namespace DOA.Spec
open DOA

variable {α : Type}

/-- Two agents that differ at most in their linear velocities. -/
def SamePlace (a b : Agent α) : Prop := b = { a with state := { a.state with linearVelocity := b.state.linearVelocity } }

/-- A part of the life of an agent: iterations of a control loop of the tests, with any constants, among any obstacles. -/
inductive Stage (α : Type) where
  | plain (c : Loop α) (e : Env) (n : Nat)
  | mixed (c : Loop α) (e : Env) (n : Nat) (previous : V3 α)
  | wall (c : Loop α) (e : Env) (n : Nat)

namespace Stage
variable [Add α] [Sub α] [Mul α] [Div α] [Neg α] [Zero α] [One α] [LE α] [LT α] [DecidableLE α] [DecidableLT α] [CMath α]

/-- The constants of the loop. -/
def loop : Stage α → Loop α
  | plain c _ _ => c
  | mixed c _ _ _ => c
  | wall c _ _ => c

/-- What the agent does in it. -/
def live : Stage α → Heap α × Agent α → Res (Heap α × Agent α)
  | plain c e n, s => c.run e n s
  | mixed c e n p, s => c.runMixed e n (some p) s
  | wall c e n, s => c.runWall e n s

end Stage

/-- A life: one stage after the other. -/
def life [Add α] [Sub α] [Mul α] [Div α] [Neg α] [Zero α] [One α] [LE α] [LT α] [DecidableLE α] [DecidableLT α] [CMath α]
    (l : List (Stage α)) (s : Heap α × Agent α) : Res (Heap α × Agent α) := l.foldlM (fun s g => g.live s) s

end DOA.Spec
