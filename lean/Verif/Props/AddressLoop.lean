import Verif.Lemmas.AddressLoop
import Verif.Props.AddressUpdate

/-!
# C90, for control loops
-/

set_option linter.unusedSectionVars false

namespace DOA.Props
open DOA DOA.Spec DOA.Modulation DOA.Aggregation

variable {α : Type} [Add α] [Sub α] [Mul α] [Div α] [Neg α] [Zero α] [One α]
  [LE α] [LT α] [DecidableLE α] [DecidableLT α] [CMath α]

/-- C90: the loop of testKIT.cpp and testConfiguration.cpp: after any number of iterations the agents are in the same
state, and the obstacles are twins again (or both programs failed in the same way). -/
theorem C90_run (c : Loop α) {e e' : Env} (n : Nat) : ∀ {s s' : Heap α × Agent α}, Paired e.list e'.list s s' →
    Agree (Paired e.list e'.list) (c.run e n s) (c.run e' n s') := by
  induction n with
  | zero => intro s s' p; exact p
  | succ n ih =>
    intro s s' p
    simp only [Loop.run, p.agent.state]
    exact Agree.bind (iterate_paired c _ p) fun t t' _ _ h => ih h.1

/-- C90: the loop of testSingleConfiguration.cpp and test3D.cpp. -/
theorem C90_run_mixed (c : Loop α) {e e' : Env} (n : Nat) : ∀ (prev : Option (V3 α)) {s s' : Heap α × Agent α},
    Paired e.list e'.list s s' → Agree (Paired e.list e'.list) (c.runMixed e n prev s) (c.runMixed e' n prev s') := by
  induction n with
  | zero => intro prev s s' p; exact p
  | succ n ih =>
    intro prev s s' p
    cases prev with
    | none => exact rfl
    | some v =>
      simp only [Loop.runMixed, p.agent.state]
      exact Agree.bind (iterate_paired c _ p) fun t t' _ _ h => ih _ h.1

/-- C90: the loop of testWall.cpp. -/
theorem C90_run_wall (c : Loop α) {e e' : Env} (n : Nat) : ∀ {s s' : Heap α × Agent α}, Paired e.list e'.list s s' →
    Agree (Paired e.list e'.list) (c.runWall e n s) (c.runWall e' n s') := by
  induction n with
  | zero => intro s s' p; exact p
  | succ n ih =>
    intro s s' p
    simp only [Loop.runWall]
    refine Agree.bind (R := Paired e.list e'.list) ?_ fun t t' _ _ h => ih h
    unfold Loop.iterateWall Agent.setLinearVelocity
    rw [C90_path p.acyclic p.acyclic' p.twins p.agent.state c.target]
    cases s'.2.existPath s'.1 c.target e'.list with
    | throw x => exact rfl
    | ub x => exact rfl
    | ok b =>
      cases b with
      | false =>
        simp only [Res.ok_bind, Bool.false_eq_true, if_false, p.agent.state]
        exact Agree.imp (withState_paired p _) fun _ _ h => h.1
      | true =>
        simp only [Res.ok_bind, if_true, p.agent.state]
        refine Agree.bind (withState_paired p _) fun t t' _ _ h => ?_
        exact Agree.imp (iterate_paired c _ h.1) fun _ _ h => h.1

end DOA.Props
