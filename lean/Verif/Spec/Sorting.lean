import Verif.Model.Hull
import Verif.Model.Dispatch
import Mathlib.Data.List.Forall2

/-!
# What `std::sort` guarantees

The range is afterwards a permutation of what it was, and no element comes before an earlier one ([alg.sort]).  The order of
elements of which none comes before the other is unspecified; `MathTools.sortBy` picks one order.  Here are the functions that
sort, for any permitted order (C102).
-/

namespace DOA

namespace Spec

/-- `sorted` is a permitted result of `std::sort` on the range `l`. -/
structure SortResult {β : Type} (comp : β → β → Bool) (l sorted : List β) : Prop where
  perm : sorted.Perm l
  ordered : sorted.Pairwise fun a b => comp b a = false

end Spec

namespace Hull

variable {α : Type} [Add α] [Sub α] [Mul α] [Div α] [Neg α] [Zero α] [One α]
  [LE α] [LT α] [DecidableLE α] [DecidableLT α] [CMath α]

/-- The comparison used (src/Obstacle/StarShapeHull.cpp:71-80). -/
def radiusOrder (isInside : Bool) : V3 α → V3 α → Bool := if isInside then nearerFirst else fartherFirst

/-- src/Obstacle/StarShapeHull.cpp:66-86 if the intersection points are in the order `sorted` after the call of `std::sort`. -/
def surfaceOf (isInside : Bool) (minRadius margin0 phi : α) (sorted : List (V3 α)) : V3 α :=
  let default : V3 α := ⟨minRadius, CMath.acos 0, phi⟩
  let safety := if isInside then -margin0 else margin0
  let chosen :=
    match sorted.dropWhile (offRay phi) with
    | [] => default
    | q :: _ => q
  let r := chosen.x + safety
  { chosen with x := maxS minRadius r }

/-- src/Obstacle/StarShapeHull.cpp:87-108, given the surface points. -/
def assemble (h : Hull α) (ref : V3 α) (sps : List (V3 α)) : Res (Hull α) := do
  let base := (h.base.setRef ref).setPosition ref
  let polar ← computeLoop 0 sps h.polar
  let polar ← smoothCol polar 0 (h.resolution - 1) 1
  let polar ← smoothCol polar (h.resolution - 1) (h.resolution - 2) 0
  let cart := polar.map fun q => base.pose.apply (MathTools.polarToCartesian q)
  .ok { h with base := base, polar := polar, cart := cart }

/-- `h'` is a possible outcome of `h.compute_from_primitives(primitives, ref)`: on each ray `std::sort` may leave equally far
points in any order. -/
def Outcome (h : Hull α) (prims : List (Oracle α)) (ref : V3 α) (h' : Hull α) : Prop :=
  ∃ phi sps, MathTools.linspace (-CMath.pi : α) (CMath.pi - lit 1 10000) h.resolution = .ok phi ∧
    List.Forall₂ (fun p sp => ∃ sorted, Spec.SortResult (radiusOrder h.isInside)
      (rayPoints ((h.base.setRef ref).setPosition ref).pose ref prims p) sorted ∧
      sp = surfaceOf h.isInside h.minRadius h.base.margin.x p sorted) phi sps ∧
    assemble h ref sps = .ok h'

end Hull

end DOA
