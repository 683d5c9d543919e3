import Verif.Model.Objects

/-!
# Ellipsoid (src/Obstacle/Ellipsoid.cpp)

The functions that depend on an `Agent` only use its position and safety margin; here they take
these as arguments.
-/

namespace DOA.Ellipsoid

variable {α : Type} [Add α] [Sub α] [Mul α] [Div α] [Neg α] [Zero α] [One α]
  [LE α] [LT α] [DecidableLE α] [DecidableLT α] [CMath α]

/-- `epsilon(1E-4)`, set by every constructor (src/Obstacle/Ellipsoid.cpp:7, 13, 20, ...). -/
def epsilon : α := lit 1 10000

/-- `(length > epsilon) ? v / length : v` (src/Obstacle/Ellipsoid.cpp:85). -/
def scaled (v length : α) : α := if epsilon < length then v / length else v

/-- `compute_distance_to_point(point, Array3d)` (src/Obstacle/Ellipsoid.cpp:78-89). -/
def distanceToPoint (e : Ellipsoid α) (point margin : V3 α) : α :=
  let p := e.base.pose.inverse.apply point
  let lengths := e.axis + e.base.margin + margin
  let t : V3 α := ⟨scaled p.x lengths.x, scaled p.y lengths.y, scaled p.z lengths.z⟩
  CMath.pow t.x (lit 2 1 * e.curv.x) + CMath.pow t.y (lit 2 1 * e.curv.y)
    + CMath.pow t.z (lit 2 1 * e.curv.z)

/-- `(length > epsilon) ? v / (length*length) : v` (src/Obstacle/Ellipsoid.cpp:71). -/
def scaledSq (v length : α) : α := if epsilon < length then v / (length * length) else v

/-- `compute_normal_to_agent` (src/Obstacle/Ellipsoid.cpp:64-76); the result is in the frame of the
obstacle. -/
def normalToAgent (e : Ellipsoid α) (agentPos : V3 α) (agentMargin : α) : V3 α :=
  let p := e.base.pose.inverse.apply agentPos
  let lengths := e.axis + e.base.margin + V3.const agentMargin
  let t : V3 α := ⟨lit 2 1 * e.curv.x * p.x, lit 2 1 * e.curv.y * p.y, lit 2 1 * e.curv.z * p.z⟩
  let t : V3 α := ⟨scaledSq t.x lengths.x, scaledSq t.y lengths.y, scaledSq t.z lengths.z⟩
  let n : V3 α := ⟨CMath.pow t.x (lit 2 1 * e.curv.x - 1), CMath.pow t.y (lit 2 1 * e.curv.y - 1),
    CMath.pow t.z (lit 2 1 * e.curv.z - 1)⟩
  n.normalized

/-- `point_is_inside` (src/Obstacle/Ellipsoid.cpp:189-195). -/
def pointIsInside (e : Ellipsoid α) (point : V3 α) : Bool :=
  let lengths := e.axis + e.base.margin
  let t := e.base.pose.inverse.apply point
  let eqValue := (t.x * t.x) / (lengths.x * lengths.x) + (t.y * t.y) / (lengths.y * lengths.y)
  decide (eqValue ≤ 1)

/-- The rotation angle used for sampling (src/Obstacle/Ellipsoid.cpp:228-230). -/
def sampleTheta (e : Ellipsoid α) : α :=
  let aa := e.base.orientation.toAngleAxis
  if 0 < aa.2.z then aa.1 else lit 2 1 * CMath.pi - aa.1

/-- One sample (src/Obstacle/Ellipsoid.cpp:240-242). -/
def sampleAt (e : Ellipsoid α) (lengths : V3 α) (theta a : α) : V3 α :=
  ⟨lengths.x * CMath.cos a * CMath.cos theta - lengths.y * CMath.sin a * CMath.sin theta
      + e.base.position.x,
   lengths.x * CMath.cos a * CMath.sin theta + lengths.y * CMath.sin a * CMath.cos theta
      + e.base.position.y,
   0⟩

/-- `sample_from_parameterization` (src/Obstacle/Ellipsoid.cpp:225-245).  `alpha` has exactly
`nb_samples` elements, so `alpha.at(i)` never throws and the loop is a map. -/
def samples (e : Ellipsoid α) (nbSamples : Nat) (includeMargin : Bool) : Res (List (V3 α)) := do
  let theta := e.sampleTheta
  let lengths := if includeMargin then e.axis + e.base.margin else e.axis
  let alpha ← MathTools.linspace 0 (lit 2 1 * CMath.pi) nbSamples
  .ok (alpha.map (e.sampleAt lengths theta))

/-- `is_intersecting_ellipsoid` (src/Obstacle/Ellipsoid.cpp:197-223). -/
def isIntersectingEllipsoid (e other : Ellipsoid α) : Res Bool :=
  if e.pointIsInside other.base.position then .ok true
  else if other.pointIsInside e.base.position then .ok true
  else do
    let s ← other.samples 100 true
    .ok (s.any e.pointIsInside)

/-- `area` (src/Obstacle/Ellipsoid.cpp:247-251). -/
def area (e : Ellipsoid α) (includeMargin : Bool) : α :=
  let l := if includeMargin then e.axis + e.base.margin else e.axis
  lit 4 1 * CMath.pi *
    CMath.pow ((CMath.pow l.x (lit 16 10) + CMath.pow l.y (lit 16 10) + CMath.pow l.z (lit 16 10))
      / lit 3 1) (1 / lit 16 10)

/-- `get_repulsion_factor(agent, factor)` (src/Obstacle/Obstacle.cpp:107-110) for an ellipsoid. -/
def repulsionFactor (e : Ellipsoid α) (agentPos : V3 α) (agentMargin factor : α) : α :=
  factor / e.distanceToPoint agentPos (V3.const agentMargin)

/-- `compute_repulsion_vector` (src/Obstacle/Ellipsoid.cpp:253-256), default factor 2
(Obstacle.hpp:315). -/
def repulsionVector (e : Ellipsoid α) (agentPos : V3 α) (agentMargin : α) : Res (V3 α) := do
  let ref ← e.base.ref
  .ok (V3.smul (e.repulsionFactor agentPos agentMargin (lit 2 1)) (agentPos - ref))

/-- `compute_interesection_points` (src/Obstacle/Ellipsoid.cpp:258-289). -/
def intersectionPoints (e : Ellipsoid α) (x1 x2 : V3 α) : Bool × V3 α × V3 α :=
  let rx1 := e.base.pose.inverse.apply x1
  let rx2 := e.base.pose.inverse.apply x2
  let a := (rx2.y - rx1.y) / (rx2.x - rx1.x)
  let b := rx1.y - a * rx1.x
  let lengths := e.axis + e.base.margin
  let r1squared := lengths.x * lengths.x
  let r2squared := lengths.y * lengths.y
  let A := 1 / r1squared + (a * a) / r2squared
  let B := (lit 2 1 * a * b) / r2squared
  let C := (b * b) / r2squared - 1
  let delta := B * B - lit 4 1 * A * C
  if 0 ≤ delta then
    let px1 := (-B - CMath.sqrt delta) / (lit 2 1 * A)
    let p1 : V3 α := ⟨px1, a * px1 + b, 0⟩
    let px2 := (-B + CMath.sqrt delta) / (lit 2 1 * A)
    let p2 : V3 α := ⟨px2, a * px2 + b, 0⟩
    (true, e.base.pose.apply p1, e.base.pose.apply p2)
  else (false, V3.zero, V3.zero)

end DOA.Ellipsoid
