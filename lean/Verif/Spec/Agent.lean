import Verif.Model.Agent
import Verif.Model.RealInst
import Verif.Spec.Ellipsoid

/-!
# Specification of the agent and its envelope
-/

namespace DOA.Spec
open DOA

section
variable {α : Type} [Add α] [Sub α] [Mul α] [Div α] [Neg α] [Zero α] [One α]
  [LE α] [LT α] [DecidableLE α] [DecidableLT α] [CMath α]

/-- A public member function that changes an agent. -/
inductive AgentCall (α : Type) where
  | setPose (p : Pose α)
  | setPosition (v : V3 α)
  | setOrientation (q : Quat α)
  | setLinearVelocity (v : V3 α)
  | setAngularVelocity (v : V3 α)
  | transform (p : Pose α)
  | setSafetyMargin (m : α)

/-- The calls that change the state (pose or velocities). -/
def AgentCall.isState : AgentCall α → Bool
  | .setSafetyMargin _ => false
  | _ => true

/-- Perform one call. -/
def runCall (s : Heap α × Agent α) : AgentCall α → Res (Heap α × Agent α)
  | .setPose p => Agent.setPose s.1 s.2 p
  | .setPosition v => Agent.setPosition s.1 s.2 v
  | .setOrientation q => Agent.setOrientation s.1 s.2 q
  | .setLinearVelocity v => Agent.setLinearVelocity s.1 s.2 v
  | .setAngularVelocity v => Agent.setAngularVelocity s.1 s.2 v
  | .transform p => Agent.transform s.1 s.2 p
  | .setSafetyMargin m => .ok (s.1, s.2.setSafetyMargin m)

/-- Perform a sequence of calls. -/
def runCalls (s : Heap α × Agent α) : List (AgentCall α) → Res (Heap α × Agent α)
  | [] => .ok s
  | c :: cs => runCall s c >>= fun s' => runCalls s' cs

/-- What a client expects of the state and the margin after a call. -/
def expected (x : State α × α) : AgentCall α → State α × α
  | .setPose p => (⟨p, x.1.linearVelocity, x.1.angularVelocity⟩, x.2)
  | .setPosition v => (⟨⟨v, x.1.pose.orientation⟩, x.1.linearVelocity, x.1.angularVelocity⟩, x.2)
  | .setOrientation q => (⟨⟨x.1.pose.position, q.normalized⟩, x.1.linearVelocity, x.1.angularVelocity⟩, x.2)
  | .setLinearVelocity v => (⟨x.1.pose, v, x.1.angularVelocity⟩, x.2)
  | .setAngularVelocity w => (⟨x.1.pose, x.1.linearVelocity, w⟩, x.2)
  | .transform p => (⟨p.mul x.1.pose, x.1.linearVelocity, x.1.angularVelocity⟩, x.2)
  | .setSafetyMargin m => (x.1, m)

/-- The margin in force at the last call that changed the state: `(current margin, that margin)`. -/
def shown (x : α × Option α) : AgentCall α → α × Option α
  | .setSafetyMargin m => (m, x.2)
  | _ => (x.1, some x.1)

/-- `none` if no call changed the state. -/
def shownMargin (m : α) (cs : List (AgentCall α)) : Option α := (cs.foldl shown (m, none)).2

end

/-- The ellipsoid that should surround an agent at `pos` with velocity `v` and margin `margin`. -/
structure EnvelopeOf (pos v : V3 ℝ) (margin : ℝ) (env : Ellipsoid ℝ) : Prop where
  /-- at rest: a ball around the agent -/
  rest : v = V3.zero → env.base.position = pos ∧
    env.axis = ⟨max (1 / 10) margin, max (1 / 10) margin, max (1 / 10) margin⟩
  /-- moving: centred 1/2 ahead, longer by 1/2 in the first axis -/
  moving : v ≠ V3.zero → env.base.position = pos + V3.smul (1 / (2 * V3.norm v)) v ∧
    env.axis = ⟨1 / 2 + max (1 / 10) margin, max (1 / 10) margin, max (1 / 10) margin⟩
  /-- the first axis points along the horizontal part of the velocity -/
  rotated : ZRotated env
  heading : v.x ^ 2 + v.y ^ 2 ≠ 0 → env.base.pose.orientation.rotate ⟨1, 0, 0⟩ =
    ⟨v.x / √(v.x ^ 2 + v.y ^ 2), v.y / √(v.x ^ 2 + v.y ^ 2), 0⟩
  ref : env.base.refPos = some env.base.position
  margin_zero : env.base.margin = ⟨0, 0, 0⟩
  curvature : env.curv = ⟨1, 1, 1⟩
  /-- it contains the position of the agent -/
  contains : env.pointIsInside pos = true

end DOA.Spec
