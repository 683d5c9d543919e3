import Verif.Model.Environment
import Verif.Model.Plotting

/-!
# The program tests/testOptimization.cpp

A fixed scene of eight ellipsoids is aggregated and drawn.
-/

namespace DOA.Optimization

variable {α : Type} [Add α] [Sub α] [Mul α] [Div α] [Neg α] [Zero α] [One α]
  [LE α] [LT α] [DecidableLE α] [DecidableLT α] [CMath α]

/-- One ellipsoid: the position in hundredths, the angle in hundredths and the axis lengths in hundredths
(tests/testOptimization.cpp:51-67; `obstacles_safety_margin` is 0). -/
def obstacle (name : String) (x y : Nat) (angle : α) (a b : Nat) : Ellipsoid α :=
  { Ellipsoid.ofBase (Base.mkState name (State.mk2 ⟨lit x 100, lit y 100, 0⟩ (Quat.ofAngleZ angle)) (V3.const 0)) with
    axis := ⟨lit a 100, lit b 100, 0⟩ }

/-- The obstacles (tests/testOptimization.cpp:30-67). -/
def obstacles : List (Ellipsoid α) :=
  [obstacle "e1" 295 250 0 20 75, obstacle "e2" 440 200 0 150 15, obstacle "e3" 30 300 0 20 200,
   obstacle "e4" 100 375 (lit 38 100) 70 30, obstacle "e5" 370 470 (lit 75 100) 65 30,
   obstacle "e6" 460 470 (-lit 75 100) 55 20, obstacle "e7" 200 570 0 200 20, obstacle "e8" 50 350 0 50 50]

/-- The agent is created first, with its envelope (tests/testOptimization.cpp:25-27); then the obstacles. -/
def scene : Heap α × Agent α :=
  let r := Agent.mk2 [] (State.ofPosition ⟨lit 2 1, lit 5 1, 0⟩) 0
  (r.1 ++ obstacles.map .ellipsoid, r.2)

/-- `obstacle_list` (tests/testOptimization.cpp:70-78). -/
def obstacleList : List Ptr := [1, 2, 3, 4, 5, 6, 7, 8]

/-- The rest of the program, for any scene (tests/testOptimization.cpp:80-85). -/
def aggregateAndPlot (h : Heap α) (a : Agent α) (obs : List Ptr) (goal : V3 α) (file : String) (isShow : Bool) :
    Res (List (Cmd α)) := do
  let r ← Aggregation.aggregateObstacles h obs
  Plotting.plotConfiguration r.1 a r.2 goal [] file isShow false

/-- `main`. -/
def program : Res (List (Cmd α)) :=
  aggregateAndPlot (scene (α := α)).1 scene.2 obstacleList ⟨lit 418 100, lit 384 100, 0⟩ "test" true

end DOA.Optimization
