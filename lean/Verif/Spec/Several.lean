import Mathlib.Logic.Function.Basic
import Verif.Model.Loop
import Verif.Spec.Alike

/-! # Several agents in one environment -/

namespace DOA.Spec

variable {ι : Type} [DecidableEq ι] {α : Type} [Add α] [Sub α] [Mul α] [Div α] [Neg α] [Zero α] [One α]
  [LE α] [LT α] [DecidableLE α] [DecidableLT α] [CMath α]

/-- Agent `i` makes one iteration of its loop `cs i`; the heap with the obstacles belongs to all agents. -/
def moveOne (cs : ι → Loop α) (e : Env) (s : Heap α × (ι → Agent α)) (i : ι) :
    Res (Heap α × (ι → Agent α)) := do
  let t ← (cs i).iterate e ((cs i).desired (s.2 i).state.position) (s.1, s.2 i)
  .ok (t.1, Function.update s.2 i t.2)

/-- The agents named in the schedule make one iteration each, one after the other. -/
def runAll (cs : ι → Loop α) (e : Env) (schedule : List ι) (s : Heap α × (ι → Agent α)) :
    Res (Heap α × (ι → Agent α)) := schedule.foldlM (moveOne cs e) s

/-- Every agent has an ellipsoid for an envelope, as the constructor makes it, and it belongs to none of the obstacles.
Agents may share an envelope, as they do after a copy. -/
structure Enveloped (h : Heap α) (l : List Ptr) (agents : ι → Agent α) : Prop where
  ellipsoid : ∀ i, ∃ q d, (agents i).envelope = some q ∧ h[q]? = some (.ellipsoid d)
  own : ∀ i, OwnEnvelope h (agents i) l

/-- The loop uses planar modulation, and there is an ellipsoid whose reference position it can move. -/
def Shifts (c : Loop α) (h : Heap α) (l : List Ptr) : Prop := c.planar = true ∧ ∃ p ∈ l, ∃ d, h[p]? = some (.ellipsoid d)

/-- A turn of an agent, or a call of a setter of an obstacle (`set_position`, `set_linear_velocity`, ...). -/
inductive Turn (ι α : Type)
  | agent (i : ι)
  | obstacle (p : Ptr) (f : Base α → Base α)

/-- One turn. -/
def takeTurn (cs : ι → Loop α) (e : Env) (s : Heap α × (ι → Agent α)) : Turn ι α → Res (Heap α × (ι → Agent α))
  | .agent i => moveOne cs e s i
  | .obstacle p f => do
    let o ← s.1.deref p
    .ok (s.1.set p (o.mapBase f), s.2)

/-- The turns, one after the other. -/
def runTurns (cs : ι → Loop α) (e : Env) (turns : List (Turn ι α)) (s : Heap α × (ι → Agent α)) :
    Res (Heap α × (ι → Agent α)) := turns.foldlM (takeTurn cs e) s

/-- All turns but those of other agents. -/
def concerns (i : ι) : Turn ι α → Bool
  | .agent j => decide (j = i)
  | .obstacle _ _ => true

end DOA.Spec
