import Mathlib.Logic.Relation
import Verif.Spec.Heap
import Verif.Spec.Env
import Verif.Model.Dispatch
import Verif.Model.RealInst

/-!
# Specification vocabulary for the aggregation of obstacles
-/

namespace DOA.Spec

variable {α : Type} [Add α] [Sub α] [Mul α] [Div α] [Neg α] [Zero α] [One α]
  [LE α] [LT α] [DecidableLE α] [DecidableLT α] [CMath α]

/-- Input `i`, tested against the later input `j`, reports `is_intersecting`. -/
def Meets (h : Heap α) (obs : List Ptr) (i j : Nat) : Prop :=
  i < j ∧ ∃ p q op oq, obs[i]? = some p ∧ obs[j]? = some q ∧ h[p]? = some op ∧ h[q]? = some oq ∧
    h.isIntersecting op oq = .ok true

/-- Inputs `i` and `j` are connected by a chain of inputs in which consecutive ones meet. -/
def Linked (h : Heap α) (obs : List Ptr) (i j : Nat) : Prop := Relation.EqvGen (Meets h obs) i j

/-- The primitives of the object `p` (none unless it is an aggregate). -/
def primitives (h : Heap α) (p : Ptr) : List Ptr :=
  match h[p]? with
  | some (.aggregate a) => a.prims
  | _ => []

/-- The inputs that were put into the place `v`, in input order. -/
def placed (obs : List Ptr) (place : List (Option Nat)) (v : Option Nat) : List Ptr :=
  ((obs.zip place).filter fun x => decide (x.2 = v)).map (·.1)

/-- `"aggregate"` followed by `"_name"` for each name. -/
def canonicalName (names : List String) : String :=
  "aggregate" ++ String.join (names.map ("_" ++ ·))

/-- Arithmetic mean of a list of points. -/
noncomputable def mean (l : List (V3 ℝ)) : V3 ℝ :=
  ⟨(l.map (·.x)).sum / l.length, (l.map (·.y)).sum / l.length, (l.map (·.z)).sum / l.length⟩

/-- An aggregate `p` may receive the primitive `q`: `q` is an object and does not contain `p`. -/
def MayAdd (h : Heap α) (p q : Ptr) : Prop := q < h.length ∧ ¬ Within h q p

/-- The state of an aggregate after primitives were added: the primitives are in increasing name
order, the name is the canonical one, the centre is also the reference point, and everything nested
in it has the same reference point. -/
structure WellFormed (h : Heap α) (p : Ptr) : Prop where
  sorted : (primitives h p).Pairwise fun a b => nameOf h a ≤ nameOf h b
  name : (h[p]?).map Obj.name = some (canonicalName ((primitives h p).map (nameOf h)))
  refs : ∀ r, Within h p r → refOf h r = (h[p]?).map Obj.position

/-- The positions of a list of objects. -/
def positions (h : Heap α) (ps : List Ptr) : List (V3 α) := ps.filterMap fun p => (h[p]?).map Obj.position

/-- All heaps reachable from the creation of an empty aggregate `p` by `add_primitive` (of objects that
do not contain it) and `set_reference_position` calls on it. -/
inductive AggregateHistory (p : Ptr) : Heap α → Prop
  | create {h : Heap α} : Acyclic h → h.length = p → AggregateHistory p h.newAggregate.1
  | add {h h' : Heap α} (q : Ptr) (update : Bool) : AggregateHistory p h → MayAdd h p q →
      h.addPrimitive p q update = .ok h' → AggregateHistory p h'
  | setReference {h h' : Heap α} (v : V3 α) : AggregateHistory p h →
      h.setRef p v = .ok h' → AggregateHistory p h'

end DOA.Spec
