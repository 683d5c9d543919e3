import Verif.Model.Pose
import Verif.Model.MathTools

/-!
# Obstacle objects and the heap

`std::shared_ptr<Obstacle>` are indices into a heap (a list that only grows): obstacles are shared
between the user, the environment and the aggregates, and are never deleted (reference counting
frees an object only once nobody can observe it any more).  A null pointer is an index outside the
heap.
-/

namespace DOA

variable {α : Type} [Add α] [Sub α] [Mul α] [Div α] [Neg α] [Zero α] [One α]
  [LE α] [LT α] [DecidableLE α] [DecidableLT α] [CMath α]

/-- `std::shared_ptr<Obstacle>`. -/
abbrev Ptr := Nat

/-- Data members of class `Obstacle` (include/.../Obstacle/Obstacle.hpp:32-36).  The member `type`
is determined by the constructor that ran and is represented by the constructor of `Obj`.
`refPos = none` means that the doubles of `reference_position` are indeterminate. -/
structure Base (α : Type) where
  name : String
  state : State α
  refPos : Option (V3 α)
  margin : V3 α
  deriving Repr

/-- class `Ellipsoid` (include/.../Obstacle/Ellipsoid.hpp:25-27). `epsilon` is `1E-4` in every
constructor and has no setter: it is the constant `Ellipsoid.epsilon`. -/
structure Ellipsoid (α : Type) where
  base : Base α
  axis : V3 α
  curv : V3 α
  deriving Repr

/-- class `StarShapeHull` (include/.../Obstacle/StarShapeHull.hpp:27-31); the two `3 x resolution`
matrices are lists of columns. -/
structure Hull (α : Type) where
  base : Base α
  isInside : Bool
  resolution : Nat
  minRadius : α
  cart : List (V3 α)
  polar : List (V3 α)
  deriving Repr

/-- class `Aggregate` (include/.../Obstacle/Aggregate.hpp:24-26). -/
structure Aggregate (α : Type) where
  base : Base α
  inside : Hull α
  outside : Hull α
  prims : List Ptr
  deriving Repr

/-- An object of dynamic type `Obstacle`, `Ellipsoid`, `StarShapeHull` or `Aggregate`. -/
inductive Obj (α : Type) where
  | plain (b : Base α)
  | ellipsoid (e : Ellipsoid α)
  | hull (h : Hull α)
  | aggregate (a : Aggregate α)
  deriving Repr

abbrev Heap (α : Type) := List (Obj α)

namespace Base

/-- `Obstacle(name, double)` / `Obstacle(name, Array3d)` (src/Obstacle/Obstacle.cpp:8-14): the
reference position is *not* initialised (Eigen's default constructor leaves the doubles as they
are). The scalar margin variant passes `V3.const s`. -/
def mkName (name : String) (margin : V3 α) : Base α :=
  ⟨name, State.ofPosition V3.zero, none, margin⟩

/-- `Obstacle(name, cx, cy, cz, margin)` (src/Obstacle/Obstacle.cpp:16-22). -/
def mkPos (name : String) (c : V3 α) (margin : V3 α) : Base α :=
  ⟨name, State.ofPosition c, some c, margin⟩

/-- `Obstacle(name, state, margin)` (src/Obstacle/Obstacle.cpp:24-30). -/
def mkState (name : String) (s : State α) (margin : V3 α) : Base α :=
  ⟨name, s, some s.position, margin⟩

/-- `Obstacle(name, state, reference_position, margin)` (src/Obstacle/Obstacle.cpp:32-38). -/
def mkRef (name : String) (s : State α) (ref : V3 α) (margin : V3 α) : Base α :=
  ⟨name, s, some ref, margin⟩

/-- `get_pose()` (Obstacle.hpp:378-381 → Obstacle.hpp inline getters). -/
def pose (b : Base α) : Pose α := b.state.pose
/-- `get_position()`. -/
def position (b : Base α) : V3 α := b.state.position
/-- `get_orientation()`. -/
def orientation (b : Base α) : Quat α := b.state.orientation

/-- Use of the value of `get_reference_position()` (Obstacle.hpp:403-406): undefined behaviour if it
was never initialised. -/
def ref (b : Base α) : Res (V3 α) :=
  match b.refPos with
  | some v => .ok v
  | none => .ub .uninitialised

/-- `Obstacle::set_name` (Obstacle.hpp:413-416). -/
def setName (b : Base α) (s : String) : Base α := { b with name := s }
/-- `Obstacle::set_pose` (Obstacle.hpp:418-421). -/
def setPose (b : Base α) (p : Pose α) : Base α := { b with state := b.state.setPose p }
/-- `Obstacle::set_position` (Obstacle.hpp:423-431). -/
def setPosition (b : Base α) (v : V3 α) : Base α := { b with state := b.state.setPosition v }
/-- `Obstacle::set_orientation` (Obstacle.hpp:433-436). -/
def setOrientation (b : Base α) (q : Quat α) : Base α := { b with state := b.state.setOrientation q }
/-- `Obstacle::set_linear_velocity` (Obstacle.hpp:438-441). -/
def setLinearVelocity (b : Base α) (v : V3 α) : Base α :=
  { b with state := b.state.setLinearVelocity v }
/-- `Obstacle::set_angular_velocity` (Obstacle.hpp:443-446). -/
def setAngularVelocity (b : Base α) (v : V3 α) : Base α :=
  { b with state := b.state.setAngularVelocity v }
/-- `Obstacle::set_reference_position` (Obstacle.hpp:448-451). -/
def setRef (b : Base α) (v : V3 α) : Base α := { b with refPos := some v }

end Base

namespace Obj

/-- The `Obstacle` subobject. -/
def base : Obj α → Base α
  | plain b => b
  | ellipsoid e => e.base
  | hull h => h.base
  | aggregate a => a.base

/-- Apply a (non-virtual) member function of `Obstacle` to the `Obstacle` subobject. -/
def mapBase (f : Base α → Base α) : Obj α → Obj α
  | plain b => plain (f b)
  | ellipsoid e => ellipsoid { e with base := f e.base }
  | hull h => hull { h with base := f h.base }
  | aggregate a => aggregate { a with base := f a.base }

/-- `get_name()` (Obstacle.hpp:368-371). -/
def name (o : Obj α) : String := o.base.name
/-- `get_position()` (Obstacle.hpp:383-386). -/
def position (o : Obj α) : V3 α := o.base.position

/-- `get_type()` (Obstacle.hpp:363-366): the string set by the constructors
(Ellipsoid.cpp:9, StarShapeHull.cpp:8, Aggregate.cpp:8,14); the constructors of `Obstacle` leave it
empty. -/
def type : Obj α → String
  | plain _ => ""
  | ellipsoid _ => "Ellipsoid"
  | hull _ => "StarShapeHull"
  | aggregate _ => "Aggregate"

end Obj

namespace Heap

/-- `*p`. -/
def deref (h : Heap α) (p : Ptr) : Res (Obj α) :=
  match h[p]? with
  | some o => .ok o
  | none => .ub .dangling

/-- A bound on the nesting depth of aggregates: without cyclic nesting the chain of aggregates
visited by a recursive virtual call never repeats an object. -/
def fuel (h : Heap α) : Nat := h.length + 1

end Heap

namespace Hull

/-- `StarShapeHull(is_inside, resolution, min_radius)` (src/Obstacle/StarShapeHull.cpp:5-10); defaults
`resolution=500, min_radius=0.5` (StarShapeHull.hpp:47) are passed by the callers.
`set_resolution` zeroes both matrices (StarShapeHull.hpp:118-123). -/
def mk' (isInside : Bool) (resolution : Nat) (minRadius : α) : Hull α :=
  { base := Base.mkName "" (V3.const 0), isInside, resolution, minRadius,
    cart := List.replicate resolution V3.zero, polar := List.replicate resolution V3.zero }

/-- `set_resolution` (StarShapeHull.hpp:118-123). -/
def setResolution (h : Hull α) (resolution : Nat) : Hull α :=
  { h with resolution := resolution,
           cart := List.replicate resolution V3.zero, polar := List.replicate resolution V3.zero }

end Hull

namespace Aggregate

/-- `Aggregate::Aggregate()` (src/Obstacle/Aggregate.cpp:5-9). -/
def default : Aggregate α :=
  { base := Base.mkName "aggregate" (V3.const 0),
    inside := Hull.mk' true 500 (lit 1 2), outside := Hull.mk' false 500 (lit 1 2), prims := [] }

end Aggregate

namespace Ellipsoid

/-- All constructors of `Ellipsoid` except the copy constructor (src/Obstacle/Ellipsoid.cpp:6-16,
25-59): they delegate to the corresponding constructor of `Obstacle` and start with unit axes and
unit curvature. -/
def ofBase (b : Base α) : Ellipsoid α := ⟨b, V3.const 1, V3.const 1⟩

/-- Copy constructor (src/Obstacle/Ellipsoid.cpp:18-23).  (Copying an indeterminate reference
position leaves it indeterminate.) -/
def copy (e : Ellipsoid α) : Ellipsoid α :=
  ⟨⟨e.base.name, e.base.state, e.base.refPos, e.base.margin⟩, e.axis, e.curv⟩

end Ellipsoid
end DOA
