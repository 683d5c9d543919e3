import Verif.Model.Dispatch

/-!
# Agent (src/Agent.cpp, include/.../Agent.hpp)

The envelope is a shared object: it lives in the heap.
-/

namespace DOA

variable {α : Type} [Add α] [Sub α] [Mul α] [Div α] [Neg α] [Zero α] [One α]
  [LE α] [LT α] [DecidableLE α] [DecidableLT α] [CMath α]

/-- class `Agent` (include/.../Agent.hpp:21-24). `envelope = none` is the null `shared_ptr`. -/
structure Agent (α : Type) where
  state : State α
  margin : α
  envelope : Option Ptr
  deltaT : α
  deriving Repr

namespace Agent

/-- The envelope created by the constructors: `Ellipsoid("envelope", State(position))`
(src/Agent.cpp:8, 14). -/
def newEnvelope (pos : V3 α) : Obj α :=
  .ellipsoid (Ellipsoid.ofBase (Base.mkState "envelope" (State.ofPosition pos) (V3.const 0)))

/-- `Agent(state, safety_margin)` (src/Agent.cpp:11-15); `Agent(safety_margin)` (src/Agent.cpp:5-9) is
the case `state = State.default`. -/
def mk2 (h : Heap α) (state : State α) (margin : α) : Heap α × Agent α :=
  (h ++ [newEnvelope state.position],
   { state := state, margin := margin, envelope := some h.length, deltaT := lit 1 2 })

/-- Copy constructor (src/Agent.cpp:17-19): the envelope stays null. -/
def copy (a : Agent α) : Agent α :=
  { state := a.state, margin := a.margin, envelope := none, deltaT := a.deltaT }

/-- Implicit copy assignment (no user declaration in Agent.hpp): member-wise, shares the envelope. -/
def assign (_self a : Agent α) : Agent α := a

/-- `std::max(0.1, safety_margin)` (src/Agent.cpp:23, 39). -/
def effMargin (a : Agent α) : α := maxS (lit 1 10) a.margin

/-- The ellipsoid parameters written by `update_envelope` (src/Agent.cpp:21-35) into `e`. -/
def envelopeFor (a : Agent α) (e : Ellipsoid α) : Ellipsoid α :=
  let margin := a.effMargin
  let pos := a.state.position
  let nv := a.state.linearVelocity.normalized
  let center := pos + V3.smul a.deltaT nv
  let cosTheta := V3.dot nv V3.unitX
  let sinTheta := V3.dot nv V3.unitY
  let theta := CMath.atan2 sinTheta cosTheta
  { base := ((e.base.setPosition center).setRef center).setOrientation (Quat.ofAngleZ theta),
    axis := ⟨V3.norm (center - pos) + margin, margin, margin⟩,
    curv := e.curv }

/-- `update_envelope` (src/Agent.cpp:21-35).  The envelope is always an `Ellipsoid`: no member gives
out a non-const pointer to it. -/
def updateEnvelope (h : Heap α) (a : Agent α) : Res (Heap α) :=
  match a.envelope with
  | none => .ub .nullDeref
  | some p => do
    let o ← h.deref p
    match o with
    | .ellipsoid e => .ok (h.set p (.ellipsoid (a.envelopeFor e)))
    | _ => .ub .dangling

/-- `get_envelope()` (Agent.hpp:54-57). -/
def getEnvelope (h : Heap α) (a : Agent α) : Res (Obj α) :=
  match a.envelope with
  | none => .ub .nullDeref
  | some p => h.deref p

/-- `set_safety_margin` (Agent.hpp:126-129): no envelope update. -/
def setSafetyMargin (a : Agent α) (m : α) : Agent α := { a with margin := m }

/-- The body shared by the state setters: change the state, then `update_envelope()`. -/
def withState (h : Heap α) (a : Agent α) (s : State α) : Res (Heap α × Agent α) := do
  let a' := { a with state := s }
  let h' ← a'.updateEnvelope h
  .ok (h', a')

/-- `set_pose` (Agent.hpp:135-139). -/
def setPose (h : Heap α) (a : Agent α) (p : Pose α) := withState h a (a.state.setPose p)
/-- `set_position` (Agent.hpp:145-149). -/
def setPosition (h : Heap α) (a : Agent α) (v : V3 α) := withState h a (a.state.setPosition v)
/-- `set_orientation` (Agent.hpp:155-159). -/
def setOrientation (h : Heap α) (a : Agent α) (q : Quat α) :=
  withState h a (a.state.setOrientation q)
/-- `set_linear_velocity` (Agent.hpp:165-169). -/
def setLinearVelocity (h : Heap α) (a : Agent α) (v : V3 α) :=
  withState h a (a.state.setLinearVelocity v)
/-- `set_angular_velocity` (Agent.hpp:175-179). -/
def setAngularVelocity (h : Heap α) (a : Agent α) (v : V3 α) :=
  withState h a (a.state.setAngularVelocity v)
/-- `transform` (Agent.hpp:185-188). -/
def transform (h : Heap α) (a : Agent α) (p : Pose α) := setPose h a (p.mul a.state.pose)
/-- `transformed` (Agent.hpp:195-200). -/
def transformed (h : Heap α) (a : Agent α) (p : Pose α) : Res (Heap α × Agent α) :=
  transform h a.copy p

/-- The disc used by `in_obstacle` (src/Agent.cpp:39-41). -/
def safetyEnvelope (a : Agent α) : Ellipsoid α :=
  { Ellipsoid.ofBase (Base.mkState "envelope" (State.ofPosition a.state.position) (V3.const 0)) with
    axis := ⟨a.effMargin, a.effMargin, a.effMargin⟩ }

/-- `in_obstacle` (src/Agent.cpp:37-43). -/
def inObstacle (h : Heap α) (a : Agent α) (o : Obj α) : Res Bool :=
  h.isIntersecting (.ellipsoid a.safetyEnvelope) o

/-- The body of the loop of `exist_path` (src/Agent.cpp:51-53) for one obstacle.
`(A && B) || (!A && !B)` with the short-circuits of C++: `A` is evaluated first, then `B` if `A`
holds, ... The functions are pure, so only the *definedness* depends on the order; `A` and `B` are
both evaluated in every path.  `path_exists &= x || !o->is_closed()` evaluates `is_closed` only if
`x` is false. -/
def pathTest (h : Heap α) (pos target : V3 α) (o : Obj α) : Res Bool := do
  let a ← h.pointIsInside o target
  let b ← h.pointIsInside o pos
  let reachable := (a && b) || (!a && !b)
  if reachable then .ok true
  else do
    let c ← o.isClosed
    .ok (!c)

/-- `exist_path` (src/Agent.cpp:45-56). -/
def existPath (h : Heap α) (a : Agent α) (target : V3 α) (obstacles : List Ptr) : Res Bool :=
  obstacles.foldlM (fun acc q => do
    let o ← h.deref q
    let b ← pathTest h a.state.position target o
    .ok (acc && b)) true

end Agent
end DOA
