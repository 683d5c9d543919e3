import Verif.Model.Loop
import Verif.Model.Plotting

/-!
# The program tests/testConfiguration.cpp

One of its simulations: three random ellipsoids, a random start and a random target. The values returned by
`rand()` are parameters.
-/

namespace DOA.Configuration

variable {α : Type} [Add α] [Sub α] [Mul α] [Div α] [Neg α] [Zero α] [One α]
  [LE α] [LT α] [DecidableLE α] [DecidableLT α] [CMath α]

/-- The values of `rand()` for one obstacle (tests/testConfiguration.cpp:42-45). -/
structure Draw where
  x : Nat
  y : Nat
  angle : Nat
  a : Nat
  b : Nat

/-- The values of `rand()` for one simulation (tests/testConfiguration.cpp:40-55). -/
structure Draws where
  obstacle : Fin 3 → Draw
  start : Nat
  target : Nat

/-- One obstacle (tests/testConfiguration.cpp:42-45); `m` is `RAND_MAX`. -/
def obstacle (m : Nat) (name : String) (d : Draw) : Ellipsoid α :=
  { Ellipsoid.ofBase (Base.mkState name
      (State.mk2 ⟨MathTools.randFloat d.x m (lit 3 1) (-lit 3 1), MathTools.randFloat d.y m (lit 3 1) (-lit 3 1), 0⟩
        (Quat.ofAngleZ (MathTools.randFloat d.angle m (lit 2 1) 0 * CMath.pi))) (V3.const 0)) with
    axis := ⟨MathTools.randFloat d.a m (lit 3 1) (lit 2 10), MathTools.randFloat d.b m (lit 3 1) (lit 2 10), 0⟩ }

/-- The obstacles; their names are `"e" + std::to_string(i)`. -/
def obstacles (m : Nat) (d : Draws) : List (Ellipsoid α) :=
  [obstacle m "e0" (d.obstacle 0), obstacle m "e1" (d.obstacle 1), obstacle m "e2" (d.obstacle 2)]

/-- The heap after the obstacles have been created. -/
def heap (m : Nat) (d : Draws) : Heap α := (obstacles m d).map .ellipsoid

/-- `Environment env(aggregated)` and the calls of `add_obstacle` (tests/testConfiguration.cpp:30, 39-47). -/
def env (h : Heap α) : Res Env := [0, 1, 2].foldlM (fun e p => e.addObstacle h p) (Env.mk' false)

/-- The agent (tests/testConfiguration.cpp:50-52). -/
def start (m : Nat) (d : Draws) : Heap α × Agent α :=
  Agent.mk2 (heap m d) (State.ofPosition ⟨MathTools.randFloat d.start m (lit 5 1) (-lit 5 1), lit 8 1, 0⟩) (lit 1 10)

/-- The control loop (tests/testConfiguration.cpp:20-21, 55, 69-79). -/
def loop (m : Nat) (d : Draws) : Loop α :=
  { gain := 1, dt := lit 1 100, target := ⟨MathTools.randFloat d.target m (lit 5 1) (-lit 5 1), -lit 8 1, 0⟩,
    maxVel := none, isLocal := false, addRepulsion := false, planar := false, critical := 1, power := lit 2 1 }

/-- One simulation up to iteration `n`, with the figure that is drawn after it
(tests/testConfiguration.cpp:88; `file` is the name of the file). -/
def program (m : Nat) (d : Draws) (file : String) (n : Nat) : Res ((Heap α × Agent α) × List (Cmd α)) := do
  let e ← env (heap (α := α) m d)
  let s ← (loop m d : Loop α).run e n (start m d)
  let f ← Plotting.plotObstacleConfiguration s.1 e.list file false false
  .ok (s, f)

end DOA.Configuration
