import Verif.Model.Modulation

/-!
# The control loops of the demonstration programs (tests/*.cpp)

All programs run the same loop; they differ in the options, in the limit of the speed and in the
desired velocity. Plotting and the history of positions (write only) are left out. The random initial
positions are parameters.
-/

namespace DOA

variable {α : Type} [Add α] [Sub α] [Mul α] [Div α] [Neg α] [Zero α] [One α]
  [LE α] [LT α] [DecidableLE α] [DecidableLT α] [CMath α]

/-- The constants of a control loop. -/
structure Loop (α : Type) where
  /-- `Kp` -/
  gain : α
  /-- `dt` -/
  dt : α
  /-- `target_position` -/
  target : V3 α
  /-- `max_vel`, absent in testKIT.cpp and testConfiguration.cpp -/
  maxVel : Option α
  isLocal : Bool
  addRepulsion : Bool
  planar : Bool
  critical : α
  power : α

namespace Loop
open Modulation

/-- `-Kp * (current_position - target_position)` (tests/testMovingObstacle.cpp:63,
testKIT.cpp:108, testConfiguration.cpp:74, testWall.cpp:120). -/
def desired (c : Loop α) (x : V3 α) : V3 α := V3.smul (-c.gain) (x - c.target)

/-- `if(modulated_velocity.norm() > max_vel) modulated_velocity = max_vel *
modulated_velocity.normalized();` (tests/testMovingObstacle.cpp:70, testWall.cpp:125). -/
def limit (c : Loop α) (v : V3 α) : V3 α :=
  match c.maxVel with
  | none => v
  | some m => if m < v.norm then V3.smul m v.normalized else v

/-- One iteration with the velocity `v` given to the agent: `set_linear_velocity`, `modulate_velocity`,
limit of the speed, `set_position` (tests/testMovingObstacle.cpp:57-74, testKIT.cpp:105-113,
testConfiguration.cpp:71-79, testWall.cpp:102-128). -/
def iterate (c : Loop α) (e : Env) (v : V3 α) (s : Heap α × Agent α) : Res (Heap α × Agent α) := do
  let x := s.2.state.position
  let s1 ← s.2.setLinearVelocity s.1 v
  let r ← modulateVelocity s1.1 s1.2 e c.isLocal c.addRepulsion c.planar c.critical c.power
  s1.2.setPosition r.1 (x + V3.smul c.dt (c.limit r.2))

/-- `n` iterations of the loop of testKIT.cpp and testConfiguration.cpp. -/
def run (c : Loop α) (e : Env) : Nat → Heap α × Agent α → Res (Heap α × Agent α)
  | 0, s => .ok s
  | n + 1, s => do
    let s' ← c.iterate e (c.desired s.2.state.position) s
    c.run e n s'

/-- The loop of testSingleConfiguration.cpp:65-84 and test3D.cpp:66-85. The velocity given to the agent
mixes in `previous_vel`, which is read before it is ever written (`none`). -/
def runMixed (c : Loop α) (e : Env) : Nat → Option (V3 α) → Heap α × Agent α → Res (Heap α × Agent α)
  | 0, _, s => .ok s
  | n + 1, prev, s =>
    match prev with
    | none => .ub .uninitialised
    | some p => do
      let d := c.desired s.2.state.position
      let s' ← c.iterate e (V3.smul (lit 8 10) d + V3.smul (lit 2 10) p) s
      c.runMixed e n (some d) s'

/-- One iteration of testWall.cpp:100-137: the agent moves only if `exist_path` finds a path. -/
def iterateWall (c : Loop α) (e : Env) (s : Heap α × Agent α) : Res (Heap α × Agent α) := do
  let b ← s.2.existPath s.1 c.target e.list
  if b then do
    let d := c.desired s.2.state.position
    let s1 ← s.2.setLinearVelocity s.1 (V3.smul (lit 9 10) d + V3.smul (lit 1 10) V3.zero)
    c.iterate e d s1
  else s.2.setLinearVelocity s.1 V3.zero

/-- `n` iterations of testWall.cpp:100-137. -/
def runWall (c : Loop α) (e : Env) : Nat → Heap α × Agent α → Res (Heap α × Agent α)
  | 0, s => .ok s
  | n + 1, s => do
    let s' ← c.iterateWall e s
    c.runWall e n s'

/-- One iteration of testMovingObstacle.cpp:54-78: the obstacle called `name` moves to `goal`. -/
def iterateMoving (c : Loop α) (e : Env) (name : String) (goal : V3 α) (s : Heap α × Agent α) :
    Res (Heap α × Agent α) := do
  let x := s.2.state.position
  let p ← e.lookup s.1 name
  let o ← s.1.deref p
  let y := o.position
  let s1 ← s.2.setLinearVelocity s.1 (c.desired x)
  let w := V3.smul (-c.gain) (y - goal)
  let o1 ← s1.1.deref p
  let r ← modulateVelocity (s1.1.set p (o1.mapBase (·.setLinearVelocity w))) s1.2 e
    c.isLocal c.addRepulsion c.planar c.critical c.power
  let s2 ← s1.2.setPosition r.1 (x + V3.smul c.dt (c.limit r.2))
  let o2 ← s2.1.deref p
  let h3 ← Heap.setRef (s2.1.set p (o2.mapBase (·.setPosition (y + V3.smul c.dt w)))) p (y + V3.smul c.dt w)
  .ok (h3, s2.2)

/-- `n` iterations of testMovingObstacle.cpp:54-78. -/
def runMoving (c : Loop α) (e : Env) (name : String) (goal : V3 α) : Nat → Heap α × Agent α → Res (Heap α × Agent α)
  | 0, s => .ok s
  | n + 1, s => do
    let s' ← c.iterateMoving e name goal s
    c.runMoving e name goal n s'

end Loop

/-! ## tests/testMovingObstacle.cpp -/

namespace Moving

/-- The obstacle (tests/testMovingObstacle.cpp:34-37). -/
def obstacle : Ellipsoid α :=
  { Ellipsoid.ofBase (Base.mkState "w1" (State.ofPosition ⟨lit 5 1, 0, 0⟩) ⟨lit 1 10, lit 5 10, 0⟩) with
    axis := ⟨1, 1, 0⟩ }

/-- The environment (tests/testMovingObstacle.cpp:39-40). -/
def env (h : Heap α) : Res Env := [0].foldlM (fun e p => e.addObstacle h p) (Env.mk' true)

/-- The agent (tests/testMovingObstacle.cpp:49-51). -/
def start : Heap α × Agent α := Agent.mk2 [.ellipsoid obstacle] (State.ofPosition ⟨0, 0, 0⟩) (lit 1 10)

/-- The control loop (tests/testMovingObstacle.cpp:22-28, 43, 69). -/
def loop : Loop α :=
  { gain := 1, dt := lit 1 100, target := ⟨0, lit 1 10, 0⟩, maxVel := some (lit 100 1),
    isLocal := false, addRepulsion := true, planar := false, critical := 1, power := lit 2 1 }

/-- The program up to iteration `n` (goal of the obstacle: line 46). -/
def program (n : Nat) : Res (Heap α × Agent α) := do
  let e ← env [.ellipsoid (obstacle : Ellipsoid α)]
  (loop : Loop α).runMoving e "w1" ⟨-lit 5 1, 0, 0⟩ n start

end Moving

/-! ## tests/testKIT.cpp -/

namespace KIT

/-- `Ellipsoid(name, State(position, orientation), 0.0)` followed by `set_axis_lengths`
(tests/testKIT.cpp:54-68). -/
def obstacle (name : String) (pos : V3 α) (angle : α) (axis : V3 α) : Ellipsoid α :=
  { Ellipsoid.ofBase (Base.mkState name (State.mk2 pos (Quat.ofAngleZ angle)) (V3.const 0)) with axis := axis }

/-- The obstacles added to the environment (tests/testKIT.cpp:38-68, 72-77). -/
def obstacles : List (Ellipsoid α) :=
  [obstacle "e1" ⟨lit 295 100, lit 25 10, 0⟩ 0 ⟨lit 2 10, lit 75 100, 0⟩,
   obstacle "e2" ⟨lit 44 10, lit 2 1, 0⟩ 0 ⟨lit 15 10, lit 15 100, 0⟩,
   obstacle "e3" ⟨lit 3 10, lit 3 1, 0⟩ 0 ⟨lit 2 10, lit 2 1, 0⟩,
   obstacle "e4" ⟨1, lit 375 100, 0⟩ (lit 38 100) ⟨lit 7 10, lit 3 10, 0⟩,
   obstacle "e5" ⟨lit 37 10, lit 47 10, 0⟩ (lit 75 100) ⟨lit 55 100, lit 3 10, 0⟩,
   obstacle "e6" ⟨lit 46 10, lit 47 10, 0⟩ (-lit 75 100) ⟨lit 55 100, lit 2 10, 0⟩]

/-- The heap after line 68. -/
def heap : Heap α := obstacles.map .ellipsoid

/-- The environment after `Environment env;` and the calls of `add_obstacle` (tests/testKIT.cpp:71-77). -/
def env (h : Heap α) : Res Env := [0, 1, 2, 3, 4, 5].foldlM (fun e p => e.addObstacle h p) (Env.mk' true)

/-- `Agent agent(agent_state, agent_safety_margin)` (tests/testKIT.cpp:29, 34, 88-89). -/
def start : Heap α × Agent α := Agent.mk2 heap (State.ofPosition ⟨lit 2 1, lit 5 1, 0⟩) (lit 6 10)

/-- The control loop (tests/testKIT.cpp:20-21, 35, 103-113). -/
def loop : Loop α :=
  { gain := 1, dt := lit 1 100, target := ⟨lit 418 100, lit 384 100, 0⟩, maxVel := none,
    isLocal := true, addRepulsion := true, planar := false, critical := 1, power := lit 2 1 }

/-- The program up to iteration `n`. -/
def program (n : Nat) : Res (Heap α × Agent α) := do
  let e ← env (heap (α := α))
  (loop : Loop α).run e n start

end KIT
end DOA
