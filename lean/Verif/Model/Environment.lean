import Verif.Model.Dispatch

/-!
# Aggregation (src/Utils/ObstacleGeneration/Aggregation.cpp) and Environment (src/Environment.cpp)
-/

namespace DOA

variable {α : Type} [Add α] [Sub α] [Mul α] [Div α] [Neg α] [Zero α] [One α]
  [LE α] [LT α] [DecidableLE α] [DecidableLT α] [CMath α]

namespace Aggregation

/-- Local state of `aggregate_obstacles`: the heap, the deque `aggregated_obstacles` and the vector
`aggregate_indexes` (src/Utils/ObstacleGeneration/Aggregation.cpp:7-9). -/
structure St (α : Type) where
  heap : Heap α
  aggs : List Ptr
  idx : List Int

/-- `aggregated_obstacles[i]` with an `int` index. -/
def aggAt (aggs : List Ptr) (i : Int) : Res Ptr :=
  match i with
  | .ofNat n => Res.index aggs n
  | .negSucc _ => .ub .indexOOB

/-- The merge loop over `k` (Aggregation.cpp:55-66); `pending` is the rest of the loop as pairs of
`k` and `obstacles[k]`. -/
def mergeLoop (oldI newI : Int) : List (Nat × Ptr) → St α → Res (St α)
  | [], s => .ok s
  | (k, p) :: rest, s => do
    let ik ← Res.index s.idx k
    if ik = oldI then do
      let a ← aggAt s.aggs newI
      let h ← s.heap.addPrimitive a p false
      mergeLoop oldI newI rest { s with heap := h, idx := s.idx.set k newI }
    else if oldI < ik then mergeLoop oldI newI rest { s with idx := s.idx.set k (ik - 1) }
    else mergeLoop oldI newI rest s

/-- The obstacles with their indices, `for(unsigned int k=0; k < obstacles.size(); ++k)`. -/
def indexed (obs : List Ptr) : List (Nat × Ptr) := (List.range obs.length).zip obs

/-- The body of the double loop when `obstacles[i]->is_intersecting(*obstacles[j])`
(Aggregation.cpp:18-69); `pi`, `pj` are `obstacles[i]`, `obstacles[j]`. -/
def link (obs : List Ptr) (i j : Nat) (pi pj : Ptr) (s : St α) : Res (St α) := do
  let ii ← Res.index s.idx i
  let ij ← Res.index s.idx j
  if ii ≠ -1 ∧ ij = -1 then do
    let a ← aggAt s.aggs ii
    let h ← s.heap.addPrimitive a pj false
    .ok { s with heap := h, idx := s.idx.set j ii }
  else if ij ≠ -1 ∧ ii = -1 then do
    let a ← aggAt s.aggs ij
    let h ← s.heap.addPrimitive a pi false
    .ok { s with heap := h, idx := s.idx.set i ij }
  else if ii = -1 ∧ ij = -1 then do
    let n := s.heap.newAggregate
    let h ← n.1.addPrimitive n.2 pi true
    let h ← h.addPrimitive n.2 pj true
    let index : Int := s.aggs.length
    .ok { heap := h, aggs := s.aggs ++ [n.2], idx := (s.idx.set i index).set j index }
  else if ii ≠ ij then do
    let oldI := if ii < ij then ij else ii
    let newI := if ii < ij then ii else ij
    let s ← mergeLoop oldI newI (indexed obs) s
    match oldI with
    | .ofNat n => if n < s.aggs.length then .ok { s with aggs := s.aggs.eraseIdx n } else .ub .indexOOB
    | .negSucc _ => .ub .indexOOB
  else .ok s

/-- One iteration of the inner loop (Aggregation.cpp:16-70). -/
def pairStep (obs : List Ptr) (i : Nat) (pi : Ptr) (j : Nat) (pj : Ptr) (s : St α) : Res (St α) := do
  let oi ← s.heap.deref pi
  let oj ← s.heap.deref pj
  let b ← s.heap.isIntersecting oi oj
  if b then link obs i j pi pj s else .ok s

/-- The inner loop over `j` (Aggregation.cpp:14-71). -/
def innerLoop (obs : List Ptr) (i : Nat) (pi : Ptr) : List (Nat × Ptr) → St α → Res (St α)
  | [], s => .ok s
  | (j, pj) :: rest, s => do
    let s ← pairStep obs i pi j pj s
    innerLoop obs i pi rest s

/-- The outer loop over `i` (Aggregation.cpp:12-72): the inner loop runs over the obstacles after
`i`. -/
def outerLoop (obs : List Ptr) : List (Nat × Ptr) → St α → Res (St α)
  | [], s => .ok s
  | (i, pi) :: rest, s => do
    let s ← innerLoop obs i pi rest s
    outerLoop obs rest s

/-- `for(auto &o: aggregated_obstacles) o.update_hull()` (Aggregation.cpp:75). -/
def updateHulls (aggs : List Ptr) (h : Heap α) : Res (Heap α) :=
  aggs.foldlM (fun h p => h.updateHull p) h

/-- The obstacles that were left alone (Aggregation.cpp:78-81). -/
def remaining (obs : List Ptr) (idx : List Int) : List Ptr :=
  ((obs.zip idx).filter (fun x => decide (x.2 = -1))).map (·.1)

/-- `aggregate_obstacles` (Aggregation.cpp:5-83). -/
def aggregateObstacles (h : Heap α) (obs : List Ptr) : Res (Heap α × List Ptr) := do
  let s ← outerLoop obs (indexed obs) ⟨h, [], List.replicate obs.length (-1)⟩
  let h ← updateHulls s.aggs s.heap
  .ok (h, s.aggs ++ remaining obs s.idx)

end Aggregation

/-- class `Environment` (include/.../Environment.hpp:20-22); the `std::map` is the list of its
entries in increasing key order. -/
structure Env where
  map : List (String × Ptr)
  aggregated : Bool
  list : List Ptr
  deriving Repr

namespace Env

/-- `Environment(aggregated)` (src/Environment.cpp:7-9). -/
def mk' (aggregated : Bool) : Env := ⟨[], aggregated, []⟩

/-- `std::map::find`. -/
def find (m : List (String × Ptr)) (k : String) : Option Ptr :=
  match m with
  | [] => none
  | (k', p) :: rest => if k' = k then some p else find rest k

/-- `std::map::insert` of a new key. -/
def insert (m : List (String × Ptr)) (k : String) (p : Ptr) : List (String × Ptr) :=
  match m with
  | [] => [(k, p)]
  | (k', p') :: rest => if k < k' then (k, p) :: (k', p') :: rest else (k', p') :: insert rest k p

/-- `std::map::erase`. -/
def erase (m : List (String × Ptr)) (k : String) : List (String × Ptr) :=
  match m with
  | [] => []
  | (k', p') :: rest => if k' = k then rest else (k', p') :: erase rest k

/-- Assignment through the reference `it->second` returned by `operator[]`. -/
def replace (m : List (String × Ptr)) (k : String) (p : Ptr) : List (String × Ptr) :=
  m.map fun e => if e.1 = k then (e.1, p) else e

/-- `add_obstacle` (src/Environment.cpp:11-19). -/
def addObstacle (h : Heap α) (e : Env) (p : Ptr) : Res Env := do
  let o ← h.deref p
  match find e.map o.name with
  | some _ => .throw (.alreadyExists o.name)
  | none => .ok { e with map := insert e.map o.name p }

/-- `remove_obstacle` (src/Environment.cpp:21-44). -/
def removeObstacle (e : Env) (k : String) : Res Env :=
  match find e.map k with
  | none => .throw (.notInEnvironment k)
  | some _ => .ok { e with map := erase e.map k }

/-- `update` (src/Environment.cpp:46-51). -/
def update (h : Heap α) (e : Env) : Res (Heap α × Env) := do
  let list := e.map.map (·.2)
  if e.aggregated then do
    let r ← Aggregation.aggregateObstacles h list
    .ok (r.1, { e with list := r.2 })
  else .ok (h, { e with list := list })

/-- `set_aggregated` (Environment.hpp:79-82). -/
def setAggregated (e : Env) (b : Bool) : Env := { e with aggregated := b }

/-- The search in the obstacle list (src/Environment.cpp:61-64). -/
def findInList (h : Heap α) (k : String) : List Ptr → Res (Option Nat)
  | [] => .ok none
  | p :: rest => do
    let o ← h.deref p
    if o.name = k then .ok (some 0)
    else do
      let r ← findInList h k rest
      .ok (r.map (· + 1))

/-- What `operator[]` refers to: an entry of the map or a slot of the list. -/
inductive Slot where
  | entry (k : String)
  | listPos (i : Nat)

/-- `operator[]` (src/Environment.cpp:53-69), as the referenced slot. -/
def lookupSlot (h : Heap α) (e : Env) (k : String) : Res Slot :=
  match find e.map k with
  | some _ => .ok (.entry k)
  | none =>
    if e.aggregated then do
      let r ← findInList h k e.list
      match r with
      | some i => .ok (.listPos i)
      | none => .throw (.notInEnvironment k)
    else .throw (.notInEnvironment k)

/-- The pointer stored in a slot. -/
def readSlot (e : Env) : Slot → Res Ptr
  | .entry k => match find e.map k with
    | some p => .ok p
    | none => .ub .dangling
  | .listPos i => Res.index e.list i

/-- `env[k]` read. -/
def lookup (h : Heap α) (e : Env) (k : String) : Res Ptr := do
  let s ← lookupSlot h e k
  e.readSlot s

/-- `env[k] = p` through the returned reference. -/
def assign (h : Heap α) (e : Env) (k : String) (p : Ptr) : Res Env := do
  let s ← lookupSlot h e k
  match s with
  | .entry k => .ok { e with map := replace e.map k p }
  | .listPos i => .ok { e with list := e.list.set i p }

end Env
end DOA
