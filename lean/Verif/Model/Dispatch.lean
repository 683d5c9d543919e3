import Verif.Model.Ellipsoid
import Verif.Model.Hull

/-!
# Virtual functions of obstacles

`this`/`other` are objects; primitives of aggregates are looked up in the heap.  The first argument
bounds the nesting depth (see `Heap.fuel`); exhausting it means unbounded recursion.
-/

namespace DOA

variable {α : Type} [Add α] [Sub α] [Mul α] [Div α] [Neg α] [Zero α] [One α]
  [LE α] [LT α] [DecidableLE α] [DecidableLT α] [CMath α]

namespace Heap

/-- virtual `set_reference_position` (Obstacle.hpp:448-451, override Aggregate.hpp:119-126). -/
def setRefAux : Nat → Heap α → Ptr → V3 α → Res (Heap α)
  | 0, _, _, _ => .ub .recursion
  | fuel + 1, h, p, v => do
    let o ← h.deref p
    let h1 := h.set p (o.mapBase (·.setRef v))
    match o with
    | .aggregate a => a.prims.foldlM (fun h q => setRefAux fuel h q v) h1
    | _ => .ok h1

/-- `p->set_reference_position(v)`. -/
def setRef (h : Heap α) (p : Ptr) (v : V3 α) : Res (Heap α) := setRefAux h.fuel h p v

/-- virtual `point_is_inside` (Obstacle.cpp:118-122, Ellipsoid.cpp:189-195, StarShapeHull.cpp:161-168,
Aggregate.cpp:103-108).  For an aggregate: `inside = outside_hull...; if(!inside) for(o) inside |= ...`
— without short-circuit. -/
def pointIsInsideAux : Nat → Heap α → Obj α → V3 α → Res Bool
  | 0, _, _, _ => .ub .recursion
  | fuel + 1, h, o, pt =>
    match o with
    | .plain _ => .ok false
    | .ellipsoid e => .ok (e.pointIsInside pt)
    | .hull k => k.pointIsInside pt
    | .aggregate a => do
      let inside ← a.outside.pointIsInside pt
      if inside then .ok true
      else a.prims.foldlM (fun acc q => do
        let oq ← h.deref q
        let b ← pointIsInsideAux fuel h oq pt
        .ok (acc || b)) false

/-- `o.point_is_inside(pt)`. -/
def pointIsInside (h : Heap α) (o : Obj α) (pt : V3 α) : Res Bool := pointIsInsideAux h.fuel h o pt

/-- virtual `is_intersecting_ellipsoid` (Obstacle.cpp:94-98, override Ellipsoid.cpp:197-223). -/
def isIntersectingEllipsoid (o : Obj α) (other : Ellipsoid α) : Res Bool :=
  match o with
  | .ellipsoid e => e.isIntersectingEllipsoid other
  | _ => .ok false

/-- `Obstacle::is_intersecting(const Obstacle&)` and `is_intersecting_aggregate`
(src/Obstacle/Obstacle.cpp:70-85, 100-105).  The loop over the primitives short-circuits. -/
def isIntersectingAux : Nat → Heap α → Obj α → Obj α → Res Bool
  | 0, _, _, _ => .ub .recursion
  | fuel + 1, h, o, other =>
    match other with
    | .ellipsoid e => isIntersectingEllipsoid o e
    | .aggregate a => a.prims.foldlM (fun acc q =>
        if acc then .ok true
        else do
          let oq ← h.deref q
          isIntersectingAux fuel h o oq) false
    | .plain _ => .ok false
    | .hull _ => .ok false

/-- `o.is_intersecting(other)`. -/
def isIntersecting (h : Heap α) (o other : Obj α) : Res Bool := isIntersectingAux h.fuel h o other

/-- `Obstacle::is_intersecting(const std::deque<...>&)` (src/Obstacle/Obstacle.cpp:87-92). -/
def isIntersectingList (h : Heap α) (o : Obj α) (others : List Ptr) : Res Bool :=
  others.foldlM (fun acc q =>
    if acc then .ok true
    else do
      let oq ← h.deref q
      h.isIntersecting o oq) false

/-- virtual `compute_distance_to_point(point, Array3d)` (Obstacle.cpp:49-53, Ellipsoid.cpp:78-89,
StarShapeHull.cpp:121-133, Aggregate.cpp:80-90). -/
def distanceToPoint (h : Heap α) (o : Obj α) (pt margin : V3 α) : Res α :=
  match o with
  | .plain _ => .ok 0
  | .ellipsoid e => .ok (e.distanceToPoint pt margin)
  | .hull k => k.distanceToPoint pt margin
  | .aggregate a => do
    let inside ← h.pointIsInside (.aggregate a) pt
    if inside then a.inside.distanceToPoint pt margin else a.outside.distanceToPoint pt margin

/-- `compute_distance_to_agent` (Obstacle.cpp:60-63), through the overload with a scalar margin
(Obstacle.cpp:55-58). -/
def distanceToAgent (h : Heap α) (o : Obj α) (agentPos : V3 α) (agentMargin : α) : Res α :=
  h.distanceToPoint o agentPos (V3.const agentMargin)

/-- virtual `compute_normal_to_agent` (Obstacle.cpp:43-47, Ellipsoid.cpp:64-76,
StarShapeHull.cpp:111-119, Aggregate.cpp:68-78).  The base class version returns a default
constructed `Eigen::Vector3d`, whose doubles are indeterminate. -/
def normalToAgent (h : Heap α) (o : Obj α) (agentPos : V3 α) (agentMargin : α) : Res (V3 α) :=
  match o with
  | .plain _ => .ub .uninitialised
  | .ellipsoid e => .ok (e.normalToAgent agentPos agentMargin)
  | .hull k => k.normalToAgent agentPos
  | .aggregate a => do
    let inside ← h.pointIsInside (.aggregate a) agentPos
    if inside then a.inside.normalToAgent agentPos else a.outside.normalToAgent agentPos

/-- `get_repulsion_factor` (Obstacle.cpp:107-110). -/
def repulsionFactor (h : Heap α) (o : Obj α) (agentPos : V3 α) (agentMargin factor : α) : Res α := do
  let d ← h.distanceToPoint o agentPos (V3.const agentMargin)
  .ok (factor / d)

/-- virtual `compute_repulsion_vector` (Obstacle.cpp:124-128, Ellipsoid.cpp:253-256,
Aggregate.cpp:110-114; StarShapeHull does not override it). -/
def repulsionVector (h : Heap α) (o : Obj α) (agentPos : V3 α) (agentMargin : α) : Res (V3 α) :=
  match o with
  | .plain _ => .ok V3.zero
  | .ellipsoid e => e.repulsionVector agentPos agentMargin
  | .hull _ => .ok V3.zero
  | .aggregate a => do
    let f ← h.repulsionFactor (.aggregate a) agentPos agentMargin (lit 20 1)
    let ref ← a.base.ref
    let repulsion := V3.smul f (agentPos - ref)
    let inside ← h.pointIsInside (.aggregate a) agentPos
    .ok (if inside then -repulsion else repulsion)

/-- `generate_repulsion` (Obstacle.cpp:130-133). -/
def generateRepulsion (h : Heap α) (o : Obj α) (agentPos : V3 α) (agentMargin threshold : α) :
    Res (V3 α) := do
  let d ← h.distanceToAgent o agentPos agentMargin
  if d < threshold then h.repulsionVector o agentPos agentMargin else .ok V3.zero

end Heap

namespace Obj

/-- virtual `compute_interesection_points` (Obstacle.cpp:135-139, override Ellipsoid.cpp:258-289). -/
def intersectionPoints (o : Obj α) : Oracle α := fun x1 x2 =>
  match o with
  | .ellipsoid e => e.intersectionPoints x1 x2
  | _ => (false, V3.zero, V3.zero)

/-- virtual `is_closed` (Obstacle.hpp:469-472, StarShapeHull.cpp:170-174, Aggregate.hpp:145-148). -/
def isClosed (o : Obj α) : Res Bool :=
  match o with
  | .hull k => k.isClosed
  | .aggregate a => a.outside.isClosed
  | _ => .ok true

end Obj

namespace Heap

/-- `shift_reference_point` (src/Obstacle/Obstacle.cpp:141-154). -/
def shiftReferencePoint (h : Heap α) (p : Ptr) (agentPos agentVel : V3 α) : Res (Heap α) := do
  let o ← h.deref p
  let x1 := agentPos
  let x2 := x1 + agentVel
  let r := o.intersectionPoints x1 x2
  if r.1 then
    h.setRef p ((r.2.1 + r.2.2).sdiv (lit 2 1))
  else .ok h

/-! ### Aggregate (src/Obstacle/Aggregate.cpp) -/

/-- `update_hull` (src/Obstacle/Aggregate.cpp:44-48). -/
def updateHull (h : Heap α) (p : Ptr) : Res (Heap α) := do
  let o ← h.deref p
  match o with
  | .aggregate a =>
    let prims ← a.prims.mapM h.deref
    let oracles := prims.map Obj.intersectionPoints
    let ref ← a.base.ref
    let inside ← a.inside.compute oracles ref
    let outside ← a.outside.compute oracles ref
    .ok (h.set p (.aggregate { a with inside := inside, outside := outside }))
  | _ => .ub .dangling

/-- The comparison passed to `std::sort` (src/Obstacle/Aggregate.cpp:17, 53). -/
abbrev namedBefore (l r : Ptr × Obj α) : Bool := decide (l.2.name < r.2.name)

/-- `std::sort` of the primitives by `get_name()` (src/Obstacle/Aggregate.cpp:17, 53). -/
def sortByName (h : Heap α) (ps : List Ptr) : Res (List (Ptr × Obj α)) := do
  let os ← ps.mapM fun p => do
    let o ← h.deref p
    .ok (p, o)
  .ok (MathTools.sortBy namedBefore os)

/-- The name accumulated at src/Obstacle/Aggregate.cpp:19-24, 55-60. -/
def aggregateName (names : List String) : String :=
  names.foldl (fun acc n => acc ++ ("_" ++ n)) "aggregate"

/-- The common part of the constructor from a list and of `add_primitive`
(src/Obstacle/Aggregate.cpp:16-29 and 52-65): `ps` is the unsorted list of primitives. -/
def installPrims (h : Heap α) (p : Ptr) (ps : List Ptr) (update : Bool) : Res (Heap α) := do
  let o ← h.deref p
  match o with
  | .aggregate a =>
    let sorted ← h.sortByName ps
    let sum := (sorted.map (fun x => x.2.position)).foldl (fun acc v => acc + v) V3.zero
    let name := aggregateName (sorted.map (fun x => x.2.name))
    let position := sum.sdiv (MathTools.ofInt sorted.length)
    let a' : Aggregate α :=
      { a with prims := sorted.map (·.1), base := (a.base.setName name).setPosition position }
    let h1 : Heap α := h.set p (.aggregate a')
    let h2 ← h1.setRef p position
    if update then h2.updateHull p else .ok h2
  | _ => .ub .dangling

/-- `add_primitive(primitive, update_hull)` (src/Obstacle/Aggregate.cpp:50-66). -/
def addPrimitive (h : Heap α) (p prim : Ptr) (update : Bool) : Res (Heap α) := do
  let o ← h.deref p
  match o with
  | .aggregate a => h.installPrims p (a.prims ++ [prim]) update
  | _ => .ub .dangling

/-- `std::make_shared<Aggregate>()`: allocate an empty aggregate. -/
def newAggregate (h : Heap α) : Heap α × Ptr := (h ++ [.aggregate Aggregate.default], h.length)

/-- `Aggregate(primitives)` (src/Obstacle/Aggregate.cpp:11-30). -/
def mkAggregate (h : Heap α) (ps : List Ptr) : Res (Heap α × Ptr) := do
  let n := h.newAggregate
  let h' ← n.1.installPrims n.2 ps true
  .ok (h', n.2)

end Heap
end DOA
