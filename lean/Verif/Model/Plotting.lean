import Verif.Model.Agent

/-!
# Drawing (Obstacle/*.cpp `draw`, src/Utils/Plotting/PlottingTools.cpp)

The calls of matplotlibcpp are recorded in a list; what matplotlib does with them is not modelled. Output on
`std::cerr` is left out.
-/

set_option linter.unusedSectionVars false

namespace DOA

variable {α : Type} [Add α] [Sub α] [Mul α] [Div α] [Neg α] [Zero α] [One α]
  [LE α] [LT α] [DecidableLE α] [DecidableLT α] [CMath α]

/-- The calls of matplotlibcpp that are used. -/
inductive Cmd (α : Type) where
  /-- `plt::plot(x, y, style)` -/
  | plot (x y : List α) (style : String)
  /-- `plt::text(x, y, s)` -/
  | text (x y : α) (s : String)
  | figure
  | subplot (rows cols i : Nat)
  | xlim (a b : Int)
  | ylim (a b : Int)
  | save (path : String)
  | showWindow
  | close

namespace Plotting

/-- A point in the parametric form of the ellipsoid (src/Obstacle/Ellipsoid.cpp:119-122). -/
def param (l : V3 α) (theta phi : α) : V3 α :=
  ⟨l.x * CMath.sin theta * CMath.cos phi, l.y * CMath.sin theta * CMath.sin phi, l.z * CMath.cos theta⟩

/-- The entries for `x, y, z` and for `x_safety, y_safety, z_safety` of one cell (src/Obstacle/Ellipsoid.cpp:116-138):
`safety_point` is computed, and then `point` is stored in both. -/
def cell (e : Ellipsoid α) (theta phi : α) : V3 α × V3 α :=
  let point := param e.axis theta phi
  let safetyPoint := param (e.axis + e.base.margin) theta phi
  let point := e.base.pose.apply point
  let _safetyPoint := e.base.pose.apply safetyPoint
  (point, point)

/-- The matrices (row `i`: theta, column `j`: phi), both kinds at once (src/Obstacle/Ellipsoid.cpp:93-146). -/
def cells (e : Ellipsoid α) : Res (List (List (V3 α × V3 α))) := do
  let alpha ← MathTools.linspace (-CMath.pi / lit 2 1) (lit 3 1 * CMath.pi / lit 2 1) 100
  .ok (alpha.map fun theta => alpha.map fun phi => cell e theta phi)

/-- The marks at the position and at the reference position; `f` is the vertical coordinate
(src/Obstacle/Ellipsoid.cpp:153-161, 178-186; StarShapeHull.cpp:150-158). -/
def marks (b : Base α) (color : String) (f : V3 α → α) : Res (List (Cmd α)) := do
  let ref ← b.ref
  .ok [if b.name = "" then .plot [b.position.x] [f b.position] (color ++ "o")
       else .text b.position.x (f b.position) b.name,
       .plot [ref.x] [f ref] (color ++ "x")]

/-- `Ellipsoid::draw` (src/Obstacle/Ellipsoid.cpp:91-187). -/
def drawEllipsoid (e : Ellipsoid α) (color axis : String) : Res (List (Cmd α)) := do
  let m ← cells e
  let g := m.map fun row => row.map Prod.fst
  let gs := m.map fun row => row.map Prod.snd
  if axis = "xy" then do
    let r ← Res.index g 0
    let rs ← Res.index gs 0
    let m ← marks e.base color V3.y
    .ok ([.plot (r.map V3.x) (r.map V3.y) (color ++ "-"), .plot (rs.map V3.x) (rs.map V3.y) (color ++ "--")] ++ m)
  else if axis = "xz" then do
    let r ← g.mapM (fun row => Res.index row 0)
    let rs ← gs.mapM (fun row => Res.index row 0)
    let m ← marks e.base color V3.z
    .ok ([.plot (r.map V3.x) (r.map V3.z) (color ++ "-"), .plot (rs.map V3.x) (rs.map V3.z) (color ++ "--")] ++ m)
  else .ok []

/-- `StarShapeHull::draw` (src/Obstacle/StarShapeHull.cpp:135-159); the axis is ignored. -/
def drawHull (k : Hull α) (color : String) : Res (List (Cmd α)) := do
  let r ← (List.range k.resolution).mapM (fun i => Res.index k.cart i)
  let m ← marks k.base color V3.y
  .ok (.plot (r.map V3.x) (r.map V3.y) (color ++ "--") :: m)

/-- Virtual `draw` (Obstacle.cpp:65-68, overrides Ellipsoid.cpp:91-187, StarShapeHull.cpp:135-159,
Aggregate.cpp:92-101). -/
def drawAux : Nat → Heap α → Obj α → String → String → Res (List (Cmd α))
  | 0, _, _, _, _ => .ub .recursion
  | fuel + 1, h, o, color, axis =>
    match o with
    | .plain _ => .ok []
    | .ellipsoid e => drawEllipsoid e color axis
    | .hull k => drawHull k color
    | .aggregate a => do
      let ps ← a.prims.mapM (fun p => do
        let q ← h.deref p
        drawAux fuel h q color axis)
      let ref ← a.base.ref
      let out ← drawHull a.outside "k"
      let ins ← drawHull a.inside "k"
      .ok (ps.flatten ++ [.plot [ref.x] [ref.y] "bx"] ++ out ++ ins)

/-- `o->draw(color, axis)`. -/
def draw (h : Heap α) (o : Obj α) (color axis : String) : Res (List (Cmd α)) := drawAux h.fuel h o color axis

/-- The colours (src/Utils/Plotting/PlottingTools.cpp:7). -/
def colors : List String := ["b", "g", "r", "c", "m", "y"]

/-- The loop of `plot_obstacles` with the index of the next colour (PlottingTools.cpp:8-13). -/
def plotLoop (h : Heap α) (axis : String) : List Ptr → Nat → Res (List (Cmd α))
  | [], _ => .ok []
  | p :: rest, i => do
    let o ← h.deref p
    let c ← Res.index colors i
    let l ← draw h o c axis
    let r ← plotLoop h axis rest ((i + 1) % colors.length)
    .ok (l ++ r)

/-- `plot_obstacles` (PlottingTools.cpp:5-14). -/
def plotObstacles (h : Heap α) (obs : List Ptr) (axis : String) : Res (List (Cmd α)) := plotLoop h axis obs 0

/-- `plot_agent` (PlottingTools.cpp:16-26). -/
def plotAgent (a : Agent α) (axis color : String) : List (Cmd α) :=
  if axis = "xy" then [.plot [a.state.position.x] [a.state.position.y] (color ++ "o")]
  else if axis = "xz" then [.plot [a.state.position.x] [a.state.position.z] (color ++ "o")]
  else []

/-- `plot_agent_trajectory` (PlottingTools.cpp:28-51). -/
def plotTrajectory (goal : V3 α) (hist : List (V3 α)) (axis : String) : List (Cmd α) :=
  if axis = "xy" then [.plot [goal.x] [goal.y] "rx", .plot (hist.map V3.x) (hist.map V3.y) "k-"]
  else if axis = "xz" then [.plot [goal.x] [goal.z] "rx", .plot (hist.map V3.x) (hist.map V3.z) "k-"]
  else []

/-- The end of the three functions (PlottingTools.cpp:80-90, 116-126, 166-176). -/
def finish (savefile : String) (isShow : Bool) : List (Cmd α) :=
  (if savefile ≠ "" then [.save ("/tmp/" ++ savefile ++ ".png")] else [])
    ++ (if isShow then [.showWindow] else []) ++ [.close]

/-- `plot_configuration` with an agent (PlottingTools.cpp:53-91). -/
def plotConfiguration (h : Heap α) (a : Agent α) (obs : List Ptr) (goal : V3 α) (hist : List (V3 α))
    (savefile : String) (isShow is3D : Bool) : Res (List (Cmd α)) := do
  let body ← if is3D then do
      let o1 ← plotObstacles h obs "xy"
      let o2 ← plotObstacles h obs "xz"
      .ok ([.subplot 2 1 1] ++ o1 ++ plotAgent a "xy" "b" ++ plotTrajectory goal hist "xy" ++ [.xlim (-10) 10, .ylim (-10) 10]
        ++ ([.subplot 2 1 2] ++ o2 ++ plotAgent a "xy" "b" ++ plotTrajectory goal hist "xz" ++ [.xlim (-10) 10, .ylim (-10) 10]))
    else do
      let o1 ← plotObstacles h obs "xy"
      .ok (o1 ++ plotAgent a "xy" "b" ++ plotTrajectory goal hist "xy" ++ [.xlim (-10) 10, .ylim (-10) 10])
  .ok ([.figure] ++ body ++ finish savefile isShow)

/-- `plot_configuration` without agent (PlottingTools.cpp:93-127). -/
def plotObstacleConfiguration (h : Heap α) (obs : List Ptr) (savefile : String) (isShow is3D : Bool) :
    Res (List (Cmd α)) := do
  let body ← if is3D then do
      let o1 ← plotObstacles h obs "xy"
      let o2 ← plotObstacles h obs "xz"
      .ok ([.subplot 2 1 1] ++ o1 ++ [.xlim (-10) 10, .ylim (-10) 10]
        ++ ([.subplot 2 1 2] ++ o2 ++ [.xlim (-10) 10, .ylim (-10) 10]))
    else do
      let o1 ← plotObstacles h obs "xy"
      .ok (o1 ++ [.xlim (-10) 10, .ylim (-10) 10])
  .ok ([.figure] ++ body ++ finish savefile isShow)

/-- `plot_guard_configuration` (PlottingTools.cpp:129-177). -/
def plotGuardConfiguration (h : Heap α) (platform guard : Agent α) (obs : List Ptr) (goal : V3 α)
    (hist : List (V3 α)) (savefile : String) (isShow is3D : Bool) : Res (List (Cmd α)) := do
  let body ← if is3D then do
      let o1 ← plotObstacles h obs "xy"
      let o2 ← plotObstacles h obs "xz"
      .ok ([.subplot 2 1 1] ++ o1 ++ plotAgent platform "xy" "b" ++ plotAgent guard "xy" "g"
          ++ plotTrajectory goal hist "xy" ++ [.xlim (-10) 10, .ylim (-10) 10]
        ++ ([.subplot 2 1 2] ++ o2 ++ plotAgent platform "xz" "b" ++ plotAgent guard "xz" "g"
          ++ plotTrajectory goal hist "xz" ++ [.xlim (-10) 10, .ylim (-10) 10]))
    else do
      let o1 ← plotObstacles h obs "xz"
      .ok (o1 ++ plotAgent platform "xz" "b" ++ plotAgent guard "xz" "g" ++ plotTrajectory goal hist "xz"
        ++ [.xlim (-10) 20, .ylim (-10) 10])
  .ok ([.figure] ++ body ++ finish savefile isShow)

end Plotting
end DOA
