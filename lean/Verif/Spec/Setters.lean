import Verif.Model.Setters
import Verif.Spec.Heap

/-!
# Specification of the setters: the last write wins
-/

namespace DOA.Spec
open DOA

variable {α : Type} [Add α] [Sub α] [Mul α] [Div α] [Neg α] [Zero α] [One α]
  [LE α] [LT α] [DecidableLE α] [DecidableLT α] [CMath α]

/-- The value written last by the calls `cs`, and `init` if none of them writes; `f` gives what a call writes. -/
def lastOf {γ β : Type} (f : γ → Option β) (cs : List γ) (init : β) : β := ((cs.filterMap f).getLast?).getD init

/-- What a call writes to the name of object `p`. -/
def nameBy (p : Ptr) : Ptr × Setter α → Option String
  | (q, .name s) => if q = p then some s else none
  | _ => none

/-- What a call writes to the position of object `p`. -/
def positionBy (p : Ptr) : Ptr × Setter α → Option (V3 α)
  | (q, .position v) => if q = p then some v else none
  | (q, .pose x) => if q = p then some x.position else none
  | _ => none

/-- What a call writes to the orientation of object `p`. -/
def orientationBy (p : Ptr) : Ptr × Setter α → Option (Quat α)
  | (q, .orientation x) => if q = p then some x.normalized else none
  | (q, .pose x) => if q = p then some x.orientation else none
  | _ => none

/-- What a call writes to the linear velocity of object `p`. -/
def linearBy (p : Ptr) : Ptr × Setter α → Option (V3 α)
  | (q, .linearVelocity v) => if q = p then some v else none
  | _ => none

/-- What a call writes to the angular velocity of object `p`. -/
def angularBy (p : Ptr) : Ptr × Setter α → Option (V3 α)
  | (q, .angularVelocity v) => if q = p then some v else none
  | _ => none

open Classical in
/-- What a call writes to the reference position of object `p`: the call may also be made on an aggregate in which
`p` is nested. -/
noncomputable def referenceBy (h : Heap α) (p : Ptr) : Ptr × Setter α → Option (Option (V3 α))
  | (q, .reference v) => if Within h q p then some (some v) else none
  | _ => none

/-- What a call writes to the axis lengths of object `p`. -/
def axisBy (p : Ptr) : Ptr × Setter α → Option (V3 α)
  | (q, .axisLengths l) => if q = p then some l else none
  | _ => none

/-- What a call writes to the curvature factors of object `p`. -/
def curvatureBy (p : Ptr) : Ptr × Setter α → Option (V3 α)
  | (q, .curvature c) => if q = p then some c else none
  | _ => none

/-- What a call writes to the resolution of object `p`. -/
def resolutionBy (p : Ptr) : Ptr × Setter α → Option Nat
  | (q, .resolution n) => if q = p then some n else none
  | _ => none

/-- What a call writes to the surface points of object `p`: setting the resolution erases them. -/
def surfaceBy (p : Ptr) (c : Ptr × Setter α) : Option (List (V3 α)) :=
  (resolutionBy p c).map fun n => List.replicate n ⟨0, 0, 0⟩

/-- The expected members of class `Obstacle` of object `p` after the calls `cs`. -/
noncomputable def expectBase (h : Heap α) (cs : List (Ptr × Setter α)) (p : Ptr) (b : Base α) : Base α where
  name := lastOf (nameBy p) cs b.name
  state :=
    { pose :=
        { position := lastOf (positionBy p) cs b.state.pose.position
          orientation := lastOf (orientationBy p) cs b.state.pose.orientation }
      linearVelocity := lastOf (linearBy p) cs b.state.linearVelocity
      angularVelocity := lastOf (angularBy p) cs b.state.angularVelocity }
  refPos := lastOf (referenceBy h p) cs b.refPos
  margin := b.margin

/-- The expected object `p` after the calls `cs`. -/
noncomputable def expectObj (h : Heap α) (cs : List (Ptr × Setter α)) (p : Ptr) : Obj α → Obj α
  | .plain b => .plain (expectBase h cs p b)
  | .ellipsoid e => .ellipsoid
    { base := expectBase h cs p e.base
      axis := lastOf (axisBy p) cs e.axis
      curv := lastOf (curvatureBy p) cs e.curv }
  | .hull k => .hull
    { base := expectBase h cs p k.base
      isInside := k.isInside
      resolution := lastOf (resolutionBy p) cs k.resolution
      minRadius := k.minRadius
      cart := lastOf (surfaceBy p) cs k.cart
      polar := lastOf (surfaceBy p) cs k.polar }
  | .aggregate a => .aggregate
    { base := expectBase h cs p a.base
      inside := a.inside
      outside := a.outside
      prims := a.prims }

/-- The object exists and, for the setters of a subclass, has the type of the subclass. -/
def Callable (h : Heap α) : Ptr × Setter α → Prop
  | (p, .axisLengths _) => ∃ e, h[p]? = some (.ellipsoid e)
  | (p, .curvature _) => ∃ e, h[p]? = some (.ellipsoid e)
  | (p, .resolution _) => ∃ k, h[p]? = some (.hull k)
  | (p, _) => p < h.length

end DOA.Spec
