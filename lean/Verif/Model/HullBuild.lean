import Verif.Model.Dispatch

/-!
# Hulls around a list of obstacles (src/Obstacle/StarShapeHull.cpp:12-16, 32-38)
-/

namespace DOA

variable {α : Type} [Add α] [Sub α] [Mul α] [Div α] [Neg α] [Zero α] [One α]
  [LE α] [LT α] [DecidableLE α] [DecidableLT α] [CMath α]

namespace Heap

/-- `compute_from_primitives(primitives)` (src/Obstacle/StarShapeHull.cpp:32-38). -/
def computeHull (h : Heap α) (k : Hull α) (ps : List Ptr) : Res (Hull α) := do
  let prims ← ps.mapM h.deref
  k.compute (prims.map Obj.intersectionPoints) (Hull.baricenter (prims.map Obj.position))

/-- `StarShapeHull(primitives, is_inside, resolution, min_radius)` (src/Obstacle/StarShapeHull.cpp:12-16). -/
def mkHull (h : Heap α) (ps : List Ptr) (isInside : Bool) (resolution : Nat) (minRadius : α) : Res (Hull α) :=
  h.computeHull (Hull.mk' isInside resolution minRadius) ps

end Heap
end DOA
