import Verif.Model.World

/-!
# Specification of the environment as an abstract map

What a client observes: which calls returned normally.  `live` replays these observations on a plain
function `String → Option Ptr`.
-/

namespace DOA.Spec

variable {α : Type} [Add α] [Sub α] [Mul α] [Div α] [Neg α] [Zero α] [One α]
  [LE α] [LT α] [DecidableLE α] [DecidableLT α] [CMath α]

/-- A call that returned normally, as far as the map is concerned. -/
inductive Event where
  | added (k : String) (p : Ptr)
  | removed (k : String)
  | assigned (k : String) (p : Ptr)
  | nothing

/-- Effect of one observation on the abstract map. -/
def apply (m : String → Option Ptr) : Event → String → Option Ptr
  | .added k' p => fun k => if k = k' then some p else m k
  | .removed k' => fun k => if k = k' then none else m k
  | .assigned k' p => fun k => if k = k' ∧ (m k).isSome then some p else m k
  | .nothing => m

/-- The obstacle that was most recently added (or assigned) under the name `k` and not removed
since. -/
def live (es : List Event) : String → Option Ptr := es.foldl apply (fun _ => none)

/-- The name of the obstacle `p` points to. -/
def nameOf (h : Heap α) (p : Ptr) : String := ((h[p]?).map Obj.name).getD ""

/-- What the client observes when it performs the call `c` in the situation `w`. -/
def event (w : World α) (c : Call α) : Event :=
  match w.exec c with
  | .ok _ =>
    match c with
    | .add p => .added (nameOf w.heap p) p
    | .remove k => .removed k
    | .assign k p => .assigned k p
    | _ => .nothing
  | _ => .nothing

/-- All executions of all client programs from the situation `w0`, with their observations. -/
inductive History (w0 : World α) : List Event → World α → Prop
  | start : History w0 [] w0
  | call {es : List Event} {w w' : World α} (c : Call α) :
      History w0 es w → w.step c = .ok w' → History w0 (es ++ [event w c]) w'

/-- The mode the client asked for last; initially the argument of the constructor. -/
def modeOf (b : Bool) : List (Call α) → Bool
  | [] => b
  | .setAggregated b' :: cs => modeOf b' cs
  | _ :: cs => modeOf b cs

end DOA.Spec
