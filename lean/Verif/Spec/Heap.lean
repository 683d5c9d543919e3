import Mathlib.Logic.Relation
import Verif.Model.Objects

/-!
# Specification vocabulary for objects and their nesting
-/

namespace DOA.Spec

variable {α : Type}

/-- Everything an object holds except its reference position (name, pose, velocities, margins, axes,
curvature, hulls, primitives). -/
def shape (o : Obj α) : Obj α := o.mapBase fun b => { b with refPos := none }

/-- The reference position of an object, if initialised. -/
def refOf (h : Heap α) (p : Ptr) : Option (V3 α) := (h[p]?).bind fun o => o.base.refPos

/-- `q` is a primitive of the aggregate `p`. -/
def Child (h : Heap α) (p q : Ptr) : Prop := ∃ a, h[p]? = some (.aggregate a) ∧ q ∈ a.prims

/-- `r` is `p` itself, or a primitive of `p` at some nesting level. -/
def Within (h : Heap α) (p r : Ptr) : Prop := Relation.ReflTransGen (Child h) p r

/-- All primitives of aggregates exist and no aggregate contains itself (directly or through others).
The client is free to build nested aggregates, but a cyclic one makes the C++ program recurse
without end. -/
def Acyclic (h : Heap α) : Prop :=
  ∃ rank : Ptr → Nat, ∀ p q, Child h p q → q < h.length ∧ rank q < rank p

/-- Two heaps with the same objects that differ in reference positions at most. -/
def SameShape (h h' : Heap α) : Prop := ∀ p : Ptr, (h'[p]?).map shape = (h[p]?).map shape

end DOA.Spec
