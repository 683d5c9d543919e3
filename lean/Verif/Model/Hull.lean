import Verif.Model.Objects

/-!
# StarShapeHull (src/Obstacle/StarShapeHull.cpp)

`compute_from_primitives` uses of a primitive only `compute_interesection_points`; the model takes
the list of these functions (`Oracle`).
-/

namespace DOA

/-- The virtual call `o->compute_interesection_points(x1, x2)` of one primitive. -/
abbrev Oracle (α : Type) := V3 α → V3 α → Bool × V3 α × V3 α

namespace Hull

variable {α : Type} [Add α] [Sub α] [Mul α] [Div α] [Neg α] [Zero α] [One α]
  [LE α] [LT α] [DecidableLE α] [DecidableLT α] [CMath α]

/-- `compute_baricenter` (src/Obstacle/StarShapeHull.cpp:21-30). -/
def baricenter (positions : List (V3 α)) : V3 α :=
  (positions.foldl (fun acc p => acc + p) V3.zero).sdiv (MathTools.ofInt positions.length)

/-- The intersection points of the ray with angle `phi`, in polar coordinates
(src/Obstacle/StarShapeHull.cpp:51-65). -/
def rayPoints (pose : Pose α) (ref : V3 α) (prims : List (Oracle α)) (phi : α) : List (V3 α) :=
  let refPoint := MathTools.polarToCartesian ⟨1, CMath.acos 0, phi⟩
  prims.flatMap fun o =>
    let r := o ref (pose.apply refPoint)
    if r.1 then
      [MathTools.cartesianToPolar (pose.inverse.apply r.2.1),
       MathTools.cartesianToPolar (pose.inverse.apply r.2.2)]
    else []

/-- The condition of the `while` at src/Obstacle/StarShapeHull.cpp:82: point `q` is not on the ray. -/
def offRay (phi : α) (q : V3 α) : Bool :=
  decide (lit 1 10000 < absS (q.z - phi)) &&
    decide (lit 1 10000 < absS ((q.z - lit 2 1 * CMath.pi) - phi))

/-- The comparison passed to `std::sort` for inside hulls (src/Obstacle/StarShapeHull.cpp:74). -/
abbrev nearerFirst (l r : V3 α) : Bool := decide (l.x < r.x)

/-- The comparison passed to `std::sort` for outside hulls (src/Obstacle/StarShapeHull.cpp:79). -/
abbrev fartherFirst (l r : V3 α) : Bool := decide (r.x < l.x)

/-- Choice of the surface point for one ray, before smoothing
(src/Obstacle/StarShapeHull.cpp:66-86). `margin0` is `get_safety_margin()(0)`. -/
def surfacePoint (isInside : Bool) (minRadius margin0 phi : α) (pts : List (V3 α)) : V3 α :=
  let default : V3 α := ⟨minRadius, CMath.acos 0, phi⟩
  let safety := if isInside then -margin0 else margin0
  let sorted :=
    if isInside then MathTools.sortBy nearerFirst pts
    else MathTools.sortBy fartherFirst pts
  let chosen :=
    match sorted.dropWhile (offRay phi) with
    | [] => default
    | q :: _ => q
  let r := chosen.x + safety
  { chosen with x := maxS minRadius r }

/-- `col(i)(0) = 0.9 * col(i)(0) + 0.05 * col(j)(0) + 0.05 * col(k)(0)`. -/
def smoothCol (polar : List (V3 α)) (i j k : Nat) : Res (List (V3 α)) := do
  let ci ← Res.index polar i
  let cj ← Res.index polar j
  let ck ← Res.index polar k
  .ok (polar.set i { ci with x := lit 9 10 * ci.x + lit 5 100 * cj.x + lit 5 100 * ck.x })

/-- One iteration of the loop (src/Obstacle/StarShapeHull.cpp:48-95): smooth column `i-1` if `i > 1`
(reading column `i` *before* it is overwritten), then store the new surface point. -/
def computeStep (i : Nat) (sp : V3 α) (polar : List (V3 α)) : Res (List (V3 α)) := do
  let polar ← if 1 < i then smoothCol polar (i - 1) (i - 2) i else .ok polar
  if i < polar.length then .ok (polar.set i sp) else .ub .indexOOB

/-- The loop over all rays, given the surface points. -/
def computeLoop : Nat → List (V3 α) → List (V3 α) → Res (List (V3 α))
  | _, [], polar => .ok polar
  | i, sp :: sps, polar => do
    let polar ← computeStep i sp polar
    computeLoop (i + 1) sps polar

/-- `compute_from_primitives(primitives, reference_point)` (src/Obstacle/StarShapeHull.cpp:40-109).
The conversion `unsigned → int` of the resolution is assumed not to overflow. -/
def compute (h : Hull α) (prims : List (Oracle α)) (ref : V3 α) : Res (Hull α) := do
  let base := (h.base.setRef ref).setPosition ref
  let phi ← MathTools.linspace (-CMath.pi) (CMath.pi - lit 1 10000) h.resolution
  let sps := phi.map fun p =>
    surfacePoint h.isInside h.minRadius base.margin.x p (rayPoints base.pose ref prims p)
  let polar ← computeLoop 0 sps h.polar
  let polar ← smoothCol polar 0 (h.resolution - 1) 1
  let polar ← smoothCol polar (h.resolution - 1) (h.resolution - 2) 0
  let cart := polar.map fun q => base.pose.apply (MathTools.polarToCartesian q)
  .ok { h with base := base, polar := polar, cart := cart }

/-- `find_closest_points(polar_surface_points, cartesian_to_polar(pose.inverse() * point), 2)`
(src/Obstacle/StarShapeHull.cpp:113-114, 123-124, 163-164). -/
def closest (h : Hull α) (point : V3 α) : Res (V3 α × Nat × Nat) := do
  let pp := MathTools.cartesianToPolar (h.base.pose.inverse.apply point)
  let idx ← MathTools.findClosestPoints h.polar pp 2
  .ok (pp, idx.1, idx.2)

/-- `compute_normal_to_agent` (src/Obstacle/StarShapeHull.cpp:111-119). -/
def normalToAgent (h : Hull α) (agentPos : V3 α) : Res (V3 α) := do
  let r ← h.closest agentPos
  let s1 ← Res.index h.cart r.2.1
  let s2 ← Res.index h.cart r.2.2
  .ok (V3.cross (s1 - s2) V3.unitZ)

/-- `compute_distance_to_point` (src/Obstacle/StarShapeHull.cpp:121-133); the margin is ignored. -/
def distanceToPoint (h : Hull α) (point : V3 α) (_margin : V3 α) : Res α := do
  let r ← h.closest point
  let s ← Res.index h.polar r.2.1
  if h.isInside then .ok (s.x / r.1.x) else .ok (r.1.x / s.x)

/-- `point_is_inside` (src/Obstacle/StarShapeHull.cpp:161-168). -/
def pointIsInside (h : Hull α) (point : V3 α) : Res Bool := do
  let r ← h.closest point
  let s ← Res.index h.polar r.2.1
  .ok (decide (r.1.x < s.x))

/-- `is_closed` (src/Obstacle/StarShapeHull.cpp:170-174). `minCoeff` of an empty row is an
out-of-range access. -/
def isClosed (h : Hull α) : Res Bool :=
  match h.polar with
  | [] => .ub .indexOOB
  | q :: qs =>
    let m := qs.foldl (fun m c => if c.x < m then c.x else m) q.x
    .ok (decide (lit 12 10 * h.minRadius < m))

end Hull
end DOA
