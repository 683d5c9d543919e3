import Verif.Model.Configuration

/-!
# The programs tests/testWall.cpp, testSingleConfiguration.cpp and test3D.cpp

The figures are left out. The values returned by `rand()` are parameters.
-/

namespace DOA

variable {α : Type} [Add α] [Sub α] [Mul α] [Div α] [Neg α] [Zero α] [One α]
  [LE α] [LT α] [DecidableLE α] [DecidableLT α] [CMath α]

/-! ## tests/testWall.cpp -/

namespace Wall

/-- `Ellipsoid(name, State(position), 0.1)` followed by `set_axis_lengths` (tests/testWall.cpp:45-63). -/
def obstacle (name : String) (s : State α) (axis : V3 α) : Ellipsoid α :=
  { Ellipsoid.ofBase (Base.mkState name s (V3.const (lit 1 10))) with axis := axis }

/-- The obstacles (tests/testWall.cpp:34-63). -/
def obstacles : List (Ellipsoid α) :=
  [obstacle "w1" (State.ofPosition ⟨0, lit 8 1, 0⟩) ⟨lit 9 1, 1, 0⟩,
   obstacle "w2" (State.ofPosition ⟨0, -lit 8 1, 0⟩) ⟨lit 9 1, 1, 0⟩,
   obstacle "w3" (State.ofPosition ⟨lit 4 1, 0, 0⟩) ⟨1, lit 4 1, 0⟩,
   obstacle "w4" (State.ofPosition ⟨-lit 8 1, 0, 0⟩) ⟨1, lit 9 1, 0⟩,
   obstacle "w5" (State.ofPosition ⟨-lit 2 1, -lit 6 1, 0⟩) ⟨1, lit 3 1, 0⟩,
   obstacle "desk" (State.mk2 ⟨-lit 35 10, lit 25 10, 0⟩ (Quat.ofAngleZ (-lit 6 10))) ⟨lit 5 10, lit 3 1, 0⟩,
   obstacle "chair" (State.ofPosition ⟨-lit 3 1, lit 15 10, 0⟩) ⟨1, 1, 0⟩,
   obstacle "table" (State.ofPosition ⟨lit 5 1, 0, 0⟩) ⟨lit 2 1, lit 2 1, 0⟩]

/-- The heap after line 63. -/
def heap : Heap α := obstacles.map .ellipsoid

/-- The environment (tests/testWall.cpp:65-73). -/
def env (h : Heap α) : Res Env := [0, 1, 2, 3, 4, 5, 6, 7].foldlM (fun e p => e.addObstacle h p) (Env.mk' true)

/-- The agent (tests/testWall.cpp:94-97). -/
def start : Heap α × Agent α := Agent.mk2 heap (State.ofPosition ⟨-lit 5 1, -lit 5 1, 0⟩) (lit 1 10)

/-- The control loop (tests/testWall.cpp:22-28, 76, 120-127). -/
def loop : Loop α :=
  { gain := 1, dt := lit 1 100, target := ⟨lit 5 1, lit 8 1, 0⟩, maxVel := some (lit 100 1),
    isLocal := false, addRepulsion := true, planar := false, critical := 1, power := lit 2 1 }

/-- The program up to iteration `n` (tests/testWall.cpp:18-146). -/
def program (n : Nat) : Res (Heap α × Agent α) := do
  let e ← env (heap (α := α))
  (loop : Loop α).runWall e n start

end Wall

/-! ## tests/testSingleConfiguration.cpp -/

namespace Single

/-- `Environment env(aggregated)` and the calls of `add_obstacle` (tests/testSingleConfiguration.cpp:27, 35-43); the
obstacles are made as in testConfiguration.cpp. -/
def env (h : Heap α) : Res Env := [0, 1, 2].foldlM (fun e p => e.addObstacle h p) (Env.mk' true)

/-- The program up to iteration `n` (tests/testSingleConfiguration.cpp:16-84); agent, target and constants are those of
testConfiguration.cpp. `prev` is the content of `previous_vel` before the loop; it is declared without a value (line 65). -/
def program (m : Nat) (d : Configuration.Draws) (prev : Option (V3 α)) (n : Nat) : Res (Heap α × Agent α) := do
  let e ← env (Configuration.heap (α := α) m d)
  (Configuration.loop m d : Loop α).runMixed e n prev (Configuration.start m d)

end Single

/-! ## tests/test3D.cpp -/

namespace ThreeD

/-- The values of `rand()` for one obstacle (tests/test3D.cpp:39-42). -/
structure Draw where
  x : Nat
  y : Nat
  z : Nat
  angle : Nat
  a : Nat
  b : Nat
  c : Nat

/-- The values of `rand()` for the program (tests/test3D.cpp:37-52). -/
structure Draws where
  obstacle : Fin 3 → Draw
  start : Nat
  target : Nat

/-- One obstacle (tests/test3D.cpp:39-42); `m` is `RAND_MAX`. -/
def obstacle (m : Nat) (name : String) (d : Draw) : Ellipsoid α :=
  { Ellipsoid.ofBase (Base.mkState name
      (State.mk2 ⟨MathTools.randFloat d.x m (lit 3 1) (-lit 3 1), MathTools.randFloat d.y m (lit 3 1) (-lit 3 1),
          MathTools.randFloat d.z m (lit 3 1) (-lit 3 1)⟩
        (Quat.ofAngleZ (MathTools.randFloat d.angle m (lit 2 1) 0 * CMath.pi))) (V3.const 0)) with
    axis := ⟨MathTools.randFloat d.a m (lit 3 1) (lit 2 10), MathTools.randFloat d.b m (lit 3 1) (lit 2 10),
      MathTools.randFloat d.c m (lit 3 1) (lit 2 10)⟩ }

/-- The obstacles. -/
def obstacles (m : Nat) (d : Draws) : List (Ellipsoid α) :=
  [obstacle m "e0" (d.obstacle 0), obstacle m "e1" (d.obstacle 1), obstacle m "e2" (d.obstacle 2)]

/-- The heap after the obstacles have been created. -/
def heap (m : Nat) (d : Draws) : Heap α := (obstacles m d).map .ellipsoid

/-- The environment (tests/test3D.cpp:28, 36-44). -/
def env (h : Heap α) : Res Env := [0, 1, 2].foldlM (fun e p => e.addObstacle h p) (Env.mk' true)

/-- The agent (tests/test3D.cpp:47-49). -/
def start (m : Nat) (d : Draws) : Heap α × Agent α :=
  Agent.mk2 (heap m d) (State.ofPosition ⟨MathTools.randFloat d.start m (lit 5 1) (-lit 5 1), lit 8 1, 0⟩) (lit 1 10)

/-- The control loop (tests/test3D.cpp:21-22, 52, 72-77). -/
def loop (m : Nat) (d : Draws) : Loop α :=
  { gain := 1, dt := lit 1 100, target := ⟨MathTools.randFloat d.target m (lit 5 1) (-lit 5 1), -lit 8 1, 0⟩,
    maxVel := none, isLocal := false, addRepulsion := false, planar := false, critical := 1, power := lit 2 1 }

/-- The program up to iteration `n` (tests/test3D.cpp:17-85); `prev` as in `Single.program` (line 66). -/
def program (m : Nat) (d : Draws) (prev : Option (V3 α)) (n : Nat) : Res (Heap α × Agent α) := do
  let e ← env (heap (α := α) m d)
  (loop m d : Loop α).runMixed e n prev (start m d)

end ThreeD
end DOA
