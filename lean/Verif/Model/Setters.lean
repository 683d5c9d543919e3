import Verif.Model.Dispatch

/-!
# The setters of obstacles

The public member functions that store a value in an obstacle reached through a pointer
(include/.../Obstacle/Obstacle.hpp:413-451, Ellipsoid.hpp:235-243, StarShapeHull.hpp:118-123,
Aggregate.hpp:119-126). `set_type` is protected and called by constructors only.
-/

namespace DOA

variable {α : Type} [Add α] [Sub α] [Mul α] [Div α] [Neg α] [Zero α] [One α]
  [LE α] [LT α] [DecidableLE α] [DecidableLT α] [CMath α]

/-- A setter with its argument. -/
inductive Setter (α : Type) where
  | name (s : String)
  | pose (p : Pose α)
  | position (v : V3 α)
  | orientation (q : Quat α)
  | linearVelocity (v : V3 α)
  | angularVelocity (v : V3 α)
  | reference (v : V3 α)
  | axisLengths (l : V3 α)
  | curvature (c : V3 α)
  | resolution (n : Nat)

namespace Heap

/-- A call of a non-virtual setter of `Obstacle`. -/
def onBase (h : Heap α) (p : Ptr) (f : Base α → Base α) : Res (Heap α) := do
  let o ← h.deref p
  .ok (h.set p (o.mapBase f))

/-- `p->set_...(...)`. The setters of the subclasses are called through a pointer that was cast to the subclass;
if the object does not have that type the behaviour is undefined. -/
def call (h : Heap α) (p : Ptr) : Setter α → Res (Heap α)
  | .name s => h.onBase p (·.setName s)
  | .pose q => h.onBase p (·.setPose q)
  | .position v => h.onBase p (·.setPosition v)
  | .orientation q => h.onBase p (·.setOrientation q)
  | .linearVelocity v => h.onBase p (·.setLinearVelocity v)
  | .angularVelocity v => h.onBase p (·.setAngularVelocity v)
  | .reference v => h.setRef p v
  | .axisLengths l => do
    let o ← h.deref p
    match o with
    | .ellipsoid e => .ok (h.set p (.ellipsoid { e with axis := l }))
    | _ => .ub .dangling
  | .curvature c => do
    let o ← h.deref p
    match o with
    | .ellipsoid e => .ok (h.set p (.ellipsoid { e with curv := c }))
    | _ => .ub .dangling
  | .resolution n => do
    let o ← h.deref p
    match o with
    | .hull k => .ok (h.set p (.hull (k.setResolution n)))
    | _ => .ub .dangling

/-- A sequence of calls. -/
def calls (h : Heap α) : List (Ptr × Setter α) → Res (Heap α)
  | [] => .ok h
  | c :: cs => h.call c.1 c.2 >>= fun h' => calls h' cs

end Heap
end DOA
