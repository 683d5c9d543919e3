import Mathlib.Data.Finset.Basic
import Mathlib.Data.Finset.Card
import Mathlib.Data.List.Count
import Mathlib.Algebra.BigOperators.Group.Finset.Defs
import Mathlib.Order.Interval.Finset.Nat
import Verif.Model.World

/-!
# Ownership: who holds a `std::shared_ptr` to an obstacle, and when an obstacle is destroyed

All obstacles are handled through `std::shared_ptr<Obstacle>`.  The copies of such a pointer are held
by the map and by the list of the environment (include/.../Environment.hpp:20, 22), by the deque
`primitives` of an aggregate (include/.../Obstacle/Aggregate.hpp:26) and by the client (local
variables, containers, the `envelope` of an agent, include/.../Agent.hpp:23, other environments).  The
last holder that goes away destroys the obstacle, and with it the pointers that it holds.

The heap of the model keeps all objects that were ever created; `live` tells which of them are not yet
destroyed.
-/

namespace DOA

variable {α : Type} [Add α] [Sub α] [Mul α] [Div α] [Neg α] [Zero α] [One α]
  [LE α] [LT α] [DecidableLE α] [DecidableLT α] [CMath α]

/-- The shared pointers held by an obstacle: the primitives of an aggregate
(include/.../Obstacle/Aggregate.hpp:26); the other classes hold none (Obstacle.hpp:32-36,
Ellipsoid.hpp:25-27, StarShapeHull.hpp:27-31). -/
def Obj.owned : Obj α → List Ptr
  | .aggregate a => a.prims
  | _ => []

/-- The shared pointers held by the object `p`. -/
def Heap.owned (h : Heap α) (p : Ptr) : List Ptr :=
  match h[p]? with
  | some o => o.owned
  | none => []

/-- The objects, the environment, the shared pointers held by the client and the objects that are not
yet destroyed. -/
structure Mem (α : Type) where
  heap : Heap α
  env : Env
  held : List Ptr
  live : Finset Ptr

namespace Mem

/-- The shared pointers that are not inside obstacles. -/
def roots (m : Mem α) : List Ptr := m.held ++ (m.env.map.map (·.2) ++ m.env.list)

/-- `use_count()` of the object `p`: a shared pointer inside a destroyed obstacle does not count. -/
def useCount (m : Mem α) (p : Ptr) : Nat := m.roots.count p + ∑ q ∈ m.live, (m.heap.owned q).count p

/-- The pointers that a client can get hold of: those it holds, those in the environment, and the
primitives (`get_primitives()`, Aggregate.hpp:55) of obstacles it can get hold of. -/
inductive Reach (m : Mem α) : Ptr → Prop
  | root {p : Ptr} : p ∈ m.roots → Reach m p
  | prim {p q : Ptr} : Reach m p → q ∈ m.heap.owned p → Reach m q

/-- What a client program does to obstacles and to the environment. -/
inductive Call (m : Mem α) : Mem α → Prop
  /-- `std::make_shared<…>(…)` of an obstacle, or of a copy of one: its primitives, if any, are copies
  of pointers the client can get hold of -/
  | create (o : Obj α) : (∀ q ∈ o.owned, m.Reach q) →
      Call m ⟨m.heap ++ [o], m.env, m.heap.length :: m.held, insert m.heap.length m.live⟩
  /-- a further copy of a pointer -/
  | hold (p : Ptr) : m.Reach p → Call m { m with held := p :: m.held }
  /-- a pointer of the client goes out of scope or is overwritten -/
  | drop (p : Ptr) : p ∈ m.held → Call m { m with held := m.held.erase p }
  /-- `p->add_primitive(q, update_hull)` (src/Obstacle/Aggregate.cpp:50-66) -/
  | addPrimitive (p q : Ptr) (u : Bool) {h : Heap α} : m.Reach p → m.Reach q →
      m.heap.addPrimitive p q u = .ok h → Call m { m with heap := h }
  /-- all other member functions of obstacles (setters, `update_hull`, …), a modulation, drawing:
  they change no pointer -/
  | other (h : Heap α) : h.length = m.heap.length → (∀ p, h.owned p = m.heap.owned p) →
      Call m { m with heap := h }
  /-- `env.add_obstacle(p)` -/
  | add (p : Ptr) {e : Env} : m.Reach p → m.env.addObstacle m.heap p = .ok e → Call m { m with env := e }
  /-- `env.remove_obstacle(k)` -/
  | remove (k : String) {e : Env} : m.env.removeObstacle k = .ok e → Call m { m with env := e }
  /-- `env[k] = p` -/
  | assign (k : String) (p : Ptr) {e : Env} : m.Reach p → m.env.assign m.heap k p = .ok e →
      Call m { m with env := e }
  /-- `env.set_aggregated(b)` -/
  | setAggregated (b : Bool) : Call m { m with env := m.env.setAggregated b }
  /-- `env.update()`: the aggregates that it makes are live objects -/
  | update {h : Heap α} {e : Env} : m.env.update m.heap = .ok (h, e) →
      Call m ⟨h, e, m.held, m.live ∪ Finset.Ico m.heap.length h.length⟩

/-- The destruction of an obstacle that nobody holds any more. -/
inductive Destroy (m : Mem α) : Mem α → Prop
  | mk (p : Ptr) : p ∈ m.live → m.useCount p = 0 → Destroy m { m with live := m.live.erase p }

/-- No destruction is due. -/
def Settled (m : Mem α) : Prop := ∀ p ∈ m.live, m.useCount p ≠ 0

/-- All executions of all client programs with one environment.  A call that throws changes nothing
(`World.step`); destructions happen at any time after the last holder went away, in any order. -/
inductive Run (b : Bool) : Mem α → Prop
  | start : Run b ⟨[], Env.mk' b, [], ∅⟩
  | call {m m' : Mem α} : Run b m → Call m m' → Run b m'
  | destroy {m m' : Mem α} : Run b m → Destroy m m' → Run b m'

end Mem
end DOA
