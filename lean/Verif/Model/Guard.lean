import Verif.Model.Loop

/-!
# The program tests/testGuardAvoidance.cpp

A guard stands on a platform. The guard has its own environment; its velocity is the command of the platform,
which has another environment. The random numbers are parameters.
-/

namespace DOA

variable {α : Type} [Add α] [Sub α] [Mul α] [Div α] [Neg α] [Zero α] [One α]
  [LE α] [LT α] [DecidableLE α] [DecidableLT α] [CMath α]

/-- The constants of the loop of testGuardAvoidance.cpp. -/
structure GuardLoop (α : Type) where
  /-- Gain, target and options of the guard (lines 26-37, 57, 80-85). -/
  guard : Loop α
  /-- Speed limit and options of the platform (lines 33-36, 92; its gain and target are not used). -/
  platform : Loop α
  /-- `guard_fixed_transform` (line 65) -/
  transform : V3 α

/-- The random numbers of one iteration (lines 96, 100). -/
structure Noise (α : Type) where
  platform : V3 α
  guard : α

/-- The variables of the program: the heap, the platform and the guard. -/
structure Duo (α : Type) where
  heap : Heap α
  platform : Agent α
  guard : Agent α

namespace GuardLoop
open Modulation

/-- One iteration (tests/testGuardAvoidance.cpp:73-101). -/
def iterate (c : GuardLoop α) (ep eg : Env) (n : Noise α) (s : Duo α) : Res (Duo α) := do
  let x := s.platform.state.position
  let y := s.guard.state.position
  let s1 ← s.guard.setLinearVelocity s.heap (c.guard.desired y)
  let r1 ← modulateVelocity s1.1 s1.2 eg c.guard.isLocal c.guard.addRepulsion c.guard.planar
    c.guard.critical c.guard.power
  let w := c.guard.limit r1.2
  let s2 ← s.platform.setLinearVelocity r1.1 ⟨w.x, w.y, 0⟩
  let r2 ← modulateVelocity s2.1 s2.2 ep c.platform.isLocal c.platform.addRepulsion c.platform.planar
    c.platform.critical c.platform.power
  let s3 ← s2.2.setPosition r2.1 (x + V3.smul c.platform.dt (c.platform.limit r2.2) + n.platform)
  let z := s3.2.state.pose.apply c.transform
  let s4 ← s1.2.setPosition s3.1 ⟨z.x, z.y, y.z + c.guard.dt * w.z + n.guard⟩
  .ok ⟨s4.1, s3.2, s4.2⟩

/-- `n` iterations; `noise i` are the random numbers of iteration `i`. -/
def run (c : GuardLoop α) (ep eg : Env) (noise : Nat → Noise α) : Nat → Duo α → Res (Duo α)
  | 0, s => .ok s
  | n + 1, s => do
    let s' ← c.run ep eg noise n s
    c.iterate ep eg (noise n) s'

end GuardLoop

/-! ## The values of the program -/

namespace Guard

/-- `position_o1`, `orientation_o1` (lines 40-41). -/
def place : State α := State.mk2 V3.zero (Quat.ofAngleZ 0)

/-- `ptrE1` (lines 42-44). -/
def platformObstacle : Ellipsoid α :=
  { Ellipsoid.ofBase (Base.mkState "platform_obstacle" place (V3.const (lit 5 10))) with
    axis := ⟨1, 1, 1⟩, curv := ⟨lit 2 1, lit 2 1, lit 2 1⟩ }

/-- `ptrE2` (lines 47-49). -/
def guardObstacle : Ellipsoid α :=
  { Ellipsoid.ofBase (Base.mkState "guard_obstacle" place ⟨lit 5 10, 1, lit 2 10⟩) with
    axis := ⟨lit 5 10, lit 5 10, 1⟩, curv := ⟨lit 2 1, lit 2 1, lit 2 1⟩ }

/-- The heap after line 49: object 0 is `ptrE1`, object 1 is `ptrE2`. -/
def heap : Heap α := [.ellipsoid platformObstacle, .ellipsoid guardObstacle]

/-- `platform_env` (lines 51-52). -/
def platformEnv (h : Heap α) : Res Env := (Env.mk' true).addObstacle h 0

/-- `guard_env` (lines 53-54). -/
def guardEnv (h : Heap α) : Res Env := (Env.mk' true).addObstacle h 1

/-- The constants (lines 26-37, 57, 65); `t` is the noise of the target. -/
def loop (t : V3 α) : GuardLoop α :=
  { guard := { gain := 1, dt := lit 1 100, target := ⟨lit 5 1 + t.x, t.y, lit 4 10 + t.z⟩, maxVel := some (lit 100 1),
               isLocal := false, addRepulsion := true, planar := true, critical := 1, power := lit 2 1 }
    platform := { gain := 1, dt := lit 1 100, target := V3.zero, maxVel := some (lit 100 1),
                  isLocal := false, addRepulsion := true, planar := false, critical := 1, power := lit 2 1 }
    transform := ⟨0, 1, lit 2 10⟩ }

/-- The two agents (lines 60-68); `q` is the noise of the position of the platform (its height has none). -/
def start (q : V3 α) : Duo α :=
  let a := Agent.mk2 heap (State.ofPosition ⟨-lit 5 1 + q.x, -1 + q.y, 0⟩) 0
  let b := Agent.mk2 a.1 (State.ofPosition (a.2.state.pose.apply ⟨0, 1, lit 2 10⟩)) 0
  ⟨b.1, a.2, b.2⟩

/-- The program up to iteration `n` (lines 19-101). -/
def program (t q : V3 α) (noise : Nat → Noise α) (n : Nat) : Res (Duo α) := do
  let ep ← platformEnv (heap (α := α))
  let eg ← guardEnv (heap (α := α))
  (loop t).run ep eg noise n (start q)

end Guard
end DOA
