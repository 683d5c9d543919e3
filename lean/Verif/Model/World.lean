import Verif.Model.Environment

/-!
# Histories of calls of a client program

A client owns one `Environment` and any number of obstacles.  Between the calls of the environment
it may do anything with the obstacles (create some, call setters, `set_name`, build aggregates, run
a modulation): `Call.client h` replaces the heap by an arbitrary one.
-/

namespace DOA

variable {α : Type} [Add α] [Sub α] [Mul α] [Div α] [Neg α] [Zero α] [One α]
  [LE α] [LT α] [DecidableLE α] [DecidableLT α] [CMath α]

/-- The objects and the environment. -/
structure World (α : Type) where
  heap : Heap α
  env : Env

/-- The public member functions of `Environment` (include/.../Environment.hpp:29-75), and arbitrary
client activity on obstacles. -/
inductive Call (α : Type) where
  /-- anything the client does to obstacles outside the environment -/
  | client (h : Heap α)
  /-- `env.add_obstacle(p)` -/
  | add (p : Ptr)
  /-- `env.remove_obstacle(k)` -/
  | remove (k : String)
  /-- `env.update()` -/
  | update
  /-- `env.set_aggregated(b)` -/
  | setAggregated (b : Bool)
  /-- `env[k]`, read -/
  | get (k : String)
  /-- `env[k] = p`, through the returned reference -/
  | assign (k : String) (p : Ptr)

namespace World

/-- A new environment (src/Environment.cpp:7-9). -/
def init (h : Heap α) (aggregated : Bool) : World α := ⟨h, Env.mk' aggregated⟩

/-- One call. -/
def exec (w : World α) : Call α → Res (World α)
  | .client h => .ok { w with heap := h }
  | .add p => do
    let e ← w.env.addObstacle w.heap p
    .ok { w with env := e }
  | .remove k => do
    let e ← w.env.removeObstacle k
    .ok { w with env := e }
  | .update => do
    let r ← w.env.update w.heap
    .ok ⟨r.1, r.2⟩
  | .setAggregated b => .ok { w with env := w.env.setAggregated b }
  | .get k => do
    let _ ← w.env.lookup w.heap k
    .ok w
  | .assign k p => do
    let e ← w.env.assign w.heap k p
    .ok { w with env := e }

/-- A client that catches exceptions and goes on.  (All throwing member functions of `Environment`
throw before they modify anything: src/Environment.cpp:14, 26, 67.)  Undefined behaviour ends the
history. -/
def step (w : World α) (c : Call α) : Res (World α) :=
  match w.exec c with
  | .ok w' => .ok w'
  | .throw _ => .ok w
  | .ub u => .ub u

end World
end DOA
