import Mathlib.Data.List.Forall2
import Verif.Spec.Heap
import Verif.Model.Agent
import Verif.Model.Loop
import Verif.Model.World

/-!
# Obstacles made of the same things

Two obstacles, in possibly different heaps, that cannot be told apart by looking at what they are made of. Addresses do
not occur.
-/

namespace DOA.Spec

variable {α : Type}

/- Same kind and same fields, except for reference positions; of aggregates, the primitives correspond one by one. -/
mutual
  inductive Alike (h h' : Heap α) : Obj α → Obj α → Prop
    | plain (b b' : Base α) : shape (.plain b) = shape (.plain b') → Alike h h' (.plain b) (.plain b')
    | ellipsoid (e e' : Ellipsoid α) : shape (.ellipsoid e) = shape (.ellipsoid e') →
        Alike h h' (.ellipsoid e) (.ellipsoid e')
    | hull (k k' : Hull α) : shape (.hull k) = shape (.hull k') → Alike h h' (.hull k) (.hull k')
    | aggregate (a a' : Aggregate α) :
        shape (.aggregate { a with prims := [] }) = shape (.aggregate { a' with prims := [] }) →
        AlikeAll h h' a.prims a'.prims → Alike h h' (.aggregate a) (.aggregate a')
  inductive AlikeAll (h h' : Heap α) : List Ptr → List Ptr → Prop
    | nil : AlikeAll h h' [] []
    | cons (p p' : Ptr) (ps ps' : List Ptr) (o o' : Obj α) : h[p]? = some o → h'[p']? = some o' → Alike h h' o o' →
        AlikeAll h h' ps ps' → AlikeAll h h' (p :: ps) (p' :: ps')
end

/-- The objects at `p` and `p'` are alike, with the same reference position. -/
def Twin (h h' : Heap α) (p p' : Ptr) : Prop :=
  ∃ o o', h[p]? = some o ∧ h'[p']? = some o' ∧ o.base.refPos = o'.base.refPos ∧ Alike h h' o o'

/-- The objects of two lists are twins, one by one. -/
def Twins (h h' : Heap α) (l l' : List Ptr) : Prop := List.Forall₂ (Twin h h') l l'

/-- The envelopes of two agents are twins, or both agents have none. -/
def TwinEnvelopes (h h' : Heap α) (a a' : Agent α) : Prop :=
  (a.envelope = none ∧ a'.envelope = none) ∨
    ∃ p p', a.envelope = some p ∧ a'.envelope = some p' ∧ Twin h h' p p'

/-- No object belongs to two entries of the list. -/
def Apart (h : Heap α) (l : List Ptr) : Prop :=
  ∀ (i j : Nat) (p q r : Ptr), i ≠ j → l[i]? = some p → l[j]? = some q → Within h p r → Within h q r → False

/-- The envelope of the agent belongs to none of the obstacles. -/
def OwnEnvelope (h : Heap α) (a : Agent α) (l : List Ptr) : Prop :=
  ∀ p, a.envelope = some p → ∀ q ∈ l, ¬ Within h q p

/-- Two agents that differ at most in the address of the envelope. -/
structure SameAgent (a a' : Agent α) : Prop where
  state : a.state = a'.state
  margin : a.margin = a'.margin
  deltaT : a.deltaT = a'.deltaT

/-- Two states of a loop over obstacles that are twins. -/
structure Paired (l l' : List Ptr) (s s' : Heap α × Agent α) : Prop where
  acyclic : Acyclic s.1
  acyclic' : Acyclic s'.1
  twins : Twins s.1 s'.1 l l'
  agent : SameAgent s.2 s'.2
  envelopes : TwinEnvelopes s.1 s'.1 s.2 s'.2
  own : OwnEnvelope s.1 s.2 l
  own' : OwnEnvelope s'.1 s'.2 l'

/-- Two calls end in the same way: both return, with related results, or both throw the same, or both run into the same
undefined behaviour. -/
def Agree {β γ : Type} (R : β → γ → Prop) : Res β → Res γ → Prop
  | .ok b, .ok c => R b c
  | .throw e, .throw e' => e = e'
  | .ub u, .ub u' => u = u'
  | _, _ => False

section
variable [Add α] [Sub α] [Mul α] [Div α] [Neg α] [Zero α] [One α] [LE α] [LT α] [DecidableLE α] [DecidableLT α] [CMath α]

/-- A control loop that calls `update` at the beginning of every iteration. (In the demonstration programs the call is
missing or stands before the loop.) -/
def runUpdating (c : Loop α) : Nat → World α × Agent α → Res (World α × Agent α)
  | 0, s => .ok s
  | n + 1, s => do
    let w ← s.1.exec .update
    let t ← c.iterate w.env (c.desired s.2.state.position) (w.heap, s.2)
    runUpdating c n (⟨t.1, w.env⟩, t.2)

end

end DOA.Spec
