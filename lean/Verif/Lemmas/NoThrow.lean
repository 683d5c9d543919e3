import Verif.Model.World
import Verif.Model.Loop
import Verif.Model.HullBuild

/-!
# Calls that do not throw

`Safe r Q`: the call `r` throws no exception, and if it returns then `Q` holds for the result.
-/

namespace DOA

set_option linter.unusedSectionVars false

variable {α : Type} [Add α] [Sub α] [Mul α] [Div α] [Neg α] [Zero α] [One α]
  [LE α] [LT α] [DecidableLE α] [DecidableLT α] [CMath α]

def Safe {β : Type} (r : Res β) (Q : β → Prop) : Prop :=
  match r with
  | .ok b => Q b
  | .throw _ => False
  | .ub _ => True

/-- The call throws no exception. -/
abbrev Quiet {β : Type} (r : Res β) : Prop := Safe r fun _ => True

namespace Safe

variable {β γ : Type}

theorem bind {r : Res β} {f : β → Res γ} {P : β → Prop} {Q : γ → Prop} (hr : Safe r P) (hf : ∀ b, P b → Safe (f b) Q) :
    Safe (r >>= f) Q := by
  cases r with
  | ok b => exact hf b hr
  | throw e => exact hr.elim
  | ub u => trivial

theorem mono {r : Res β} {P Q : β → Prop} (hr : Safe r P) (h : ∀ b, P b → Q b) : Safe r Q := by
  cases r with
  | ok b => exact h b hr
  | throw e => exact hr.elim
  | ub u => trivial

theorem quiet {r : Res β} {P : β → Prop} (hr : Safe r P) : Quiet r := hr.mono fun _ _ => trivial

theorem not_throw {r : Res β} {P : β → Prop} (hr : Safe r P) (e : Exn) : r ≠ .throw e := by
  rintro rfl
  exact hr

theorem foldlM {f : γ → β → Res γ} {Q : γ → Prop} (hf : ∀ c b, Q c → Safe (f c b) Q) :
    ∀ (l : List β) (c : γ), Q c → Safe (l.foldlM f c) Q
  | [], _, hc => hc
  | b :: l, c, hc => by
    rw [List.foldlM_cons]
    exact (hf c b hc).bind fun c' hc' => foldlM hf l c' hc'

theorem mapM {f : β → Res γ} (hf : ∀ b, Quiet (f b)) : ∀ l : List β, Quiet (l.mapM f)
  | [] => by rw [List.mapM_nil]; trivial
  | b :: l => by
    rw [List.mapM_cons]
    exact (hf b).bind fun c _ => (mapM hf l).bind fun cs _ => trivial

end Safe

open Safe

theorem index_quiet {β : Type} (l : List β) (i : Nat) : Quiet (Res.index l i) := by
  unfold Res.index
  split <;> trivial

namespace Heap

theorem deref_safe (h : Heap α) (p : Ptr) : Safe (h.deref p) fun o => h[p]? = some o := by
  unfold Heap.deref
  split
  · rename_i o ho; exact ho
  · trivial

theorem deref_quiet (h : Heap α) (p : Ptr) : Quiet (h.deref p) := (deref_safe h p).quiet

/-- The resolution of the hulls of all aggregates is at least two. No public function changes it
(include/.../Aggregate.hpp: the hulls are private). -/
def Fine (h : Heap α) : Prop :=
  ∀ (p : Ptr) (a : Aggregate α), h[p]? = some (.aggregate a) → 2 ≤ a.inside.resolution ∧ 2 ≤ a.outside.resolution

theorem Fine.set {h : Heap α} (hf : Fine h) (p : Ptr) {o : Obj α}
    (ho : ∀ a, o = .aggregate a → 2 ≤ a.inside.resolution ∧ 2 ≤ a.outside.resolution) : Fine (h.set p o) := by
  intro q a hq
  rcases Classical.em (p = q) with rfl | hne
  · rw [List.getElem?_set_self'] at hq
    cases ho' : h[p]? with
    | none => rw [ho'] at hq; cases hq
    | some o' =>
      rw [ho'] at hq
      simp only [Option.map_eq_map, Option.map_some, Function.const_apply, Option.some.injEq] at hq
      exact ho a hq
  · rw [List.getElem?_set_ne hne] at hq
    exact hf q a hq

theorem Fine.append {h : Heap α} (hf : Fine h) {o : Obj α}
    (ho : ∀ a, o = .aggregate a → 2 ≤ a.inside.resolution ∧ 2 ≤ a.outside.resolution) : Fine (h ++ [o]) := by
  intro q a hq
  rcases Nat.lt_trichotomy q h.length with hlt | heq | hgt
  · rw [List.getElem?_append_left hlt] at hq
    exact hf q a hq
  · rw [heq, List.getElem?_concat_length] at hq
    exact ho a (Option.some.inj hq)
  · rw [List.getElem?_eq_none (by simp; omega)] at hq
    cases hq

theorem Fine.setBase {h : Heap α} (hf : Fine h) {p : Ptr} {o : Obj α} (ho : h[p]? = some o) (f : Base α → Base α) :
    Fine (h.set p (o.mapBase f)) := by
  apply hf.set
  intro a ha
  cases o with
  | aggregate b =>
    cases ha
    exact hf p b ho
  | _ => cases ha

theorem setRefAux_safe (v : V3 α) : ∀ (n : Nat) (h : Heap α) (p : Ptr),
    Quiet (setRefAux n h p v) ∧ (Fine h → Safe (setRefAux n h p v) Fine)
  | 0, _, _ => ⟨trivial, fun _ => trivial⟩
  | n + 1, h, p => by
    have ih := setRefAux_safe v n
    unfold setRefAux
    constructor
    · refine (deref_safe h p).bind fun o ho => ?_
      dsimp only
      split
      · exact (foldlM (Q := fun _ => True) (fun c q _ => (ih c q).1) _ _ trivial)
      · trivial
    · intro hf
      refine (deref_safe h p).bind fun o ho => ?_
      have := hf.setBase ho (·.setRef v)
      dsimp only
      split
      · exact (foldlM (fun c q hc => (ih c q).2 hc) _ _ this)
      · exact this

theorem setRef_quiet (h : Heap α) (p : Ptr) (v : V3 α) : Quiet (h.setRef p v) := (setRefAux_safe v _ h p).1

theorem setRef_safe {h : Heap α} (hf : Fine h) (p : Ptr) (v : V3 α) : Safe (h.setRef p v) Fine :=
  (setRefAux_safe v _ h p).2 hf

end Heap

theorem linspace_quiet (a b : α) {n : Int} (hn : 2 ≤ n) : Quiet (MathTools.linspace a b n) := by
  unfold MathTools.linspace
  rw [if_neg (by omega)]
  trivial

theorem coord_quiet (v : V3 α) (i : Nat) : Quiet (MathTools.coord v i) := by
  unfold MathTools.coord
  split <;> trivial

theorem findClosestPoints_quiet (A : List (V3 α)) (p : V3 α) (i : Nat) : Quiet (MathTools.findClosestPoints A p i) := by
  unfold MathTools.findClosestPoints
  refine (Safe.mapM (fun c => coord_quiet c i) A).bind fun vec _ => (coord_quiet p i).bind fun v _ => ?_
  dsimp only
  split <;> trivial

theorem ref_quiet (b : Base α) : Quiet b.ref := by
  unfold Base.ref
  split <;> trivial

namespace Ellipsoid

theorem samples_quiet (e : Ellipsoid α) {n : Nat} (hn : 2 ≤ n) (b : Bool) : Quiet (e.samples n b) := by
  unfold samples
  exact (linspace_quiet _ _ (by omega)).bind fun _ _ => trivial

theorem isIntersecting_quiet (e o : Ellipsoid α) : Quiet (e.isIntersectingEllipsoid o) := by
  unfold isIntersectingEllipsoid
  split
  · trivial
  · split
    · trivial
    · exact (samples_quiet o (by omega) true).bind fun _ _ => trivial

theorem repulsion_quiet (e : Ellipsoid α) (p : V3 α) (m : α) : Quiet (e.repulsionVector p m) := by
  unfold repulsionVector
  exact (ref_quiet _).bind fun _ _ => trivial

end Ellipsoid

namespace Hull

theorem smoothCol_quiet (l : List (V3 α)) (i j k : Nat) : Quiet (smoothCol l i j k) := by
  unfold smoothCol
  exact (index_quiet _ _).bind fun _ _ => (index_quiet _ _).bind fun _ _ => (index_quiet _ _).bind fun _ _ => trivial

theorem computeStep_quiet (i : Nat) (sp : V3 α) (l : List (V3 α)) : Quiet (computeStep i sp l) := by
  unfold computeStep
  have : ∀ l : List (V3 α), Quiet (if i < l.length then Res.ok (l.set i sp) else .ub .indexOOB) := by
    intro l
    split <;> trivial
  by_cases h : 1 < i
  · simp only [h, if_true]
    exact (smoothCol_quiet _ _ _ _).bind fun l _ => this l
  · simp only [h, if_false]
    exact this l

theorem computeLoop_quiet : ∀ (i : Nat) (sps l : List (V3 α)), Quiet (computeLoop i sps l)
  | _, [], _ => trivial
  | i, sp :: sps, l => by
    unfold computeLoop
    exact (computeStep_quiet i sp l).bind fun l' _ => computeLoop_quiet (i + 1) sps l'

/-- Computing a hull with at least two columns throws nothing. -/
theorem compute_safe (k : Hull α) (hk : 2 ≤ k.resolution) (os : List (Oracle α)) (ref : V3 α) :
    Safe (k.compute os ref) fun k' => k'.resolution = k.resolution := by
  unfold compute
  refine (linspace_quiet _ _ (by omega)).bind fun phi _ => ?_
  dsimp only
  refine (computeLoop_quiet _ _ _).bind fun l1 _ => ?_
  refine (smoothCol_quiet _ _ _ _).bind fun l2 _ => ?_
  refine (smoothCol_quiet _ _ _ _).bind fun l3 _ => ?_
  exact rfl

theorem closest_quiet (k : Hull α) (p : V3 α) : Quiet (k.closest p) := by
  unfold closest
  exact (findClosestPoints_quiet _ _ _).bind fun _ _ => trivial

theorem normal_quiet (k : Hull α) (p : V3 α) : Quiet (k.normalToAgent p) := by
  unfold normalToAgent
  exact (closest_quiet k p).bind fun _ _ => (index_quiet _ _).bind fun _ _ => (index_quiet _ _).bind fun _ _ => trivial

theorem distance_quiet (k : Hull α) (p m : V3 α) : Quiet (k.distanceToPoint p m) := by
  unfold distanceToPoint
  refine (closest_quiet k p).bind fun _ _ => (index_quiet _ _).bind fun _ _ => ?_
  split <;> trivial

theorem inside_quiet (k : Hull α) (p : V3 α) : Quiet (k.pointIsInside p) := by
  unfold pointIsInside
  exact (closest_quiet k p).bind fun _ _ => (index_quiet _ _).bind fun _ _ => trivial

theorem isClosed_quiet (k : Hull α) : Quiet k.isClosed := by
  unfold isClosed
  split <;> trivial

end Hull

namespace Heap

theorem pointIsInsideAux_quiet (pt : V3 α) : ∀ (n : Nat) (h : Heap α) (o : Obj α), Quiet (pointIsInsideAux n h o pt)
  | 0, _, _ => trivial
  | n + 1, h, o => by
    have ih := pointIsInsideAux_quiet pt n
    unfold pointIsInsideAux
    cases o with
    | plain b => trivial
    | ellipsoid e => trivial
    | hull k => exact Hull.inside_quiet k pt
    | aggregate a =>
      refine (Hull.inside_quiet _ _).bind fun b _ => ?_
      split
      · trivial
      · exact Safe.foldlM (Q := fun _ => True) (fun c q _ => by
          exact (deref_quiet h q).bind fun o _ => (ih h o).bind fun _ _ => trivial) _ _ trivial

theorem pointIsInside_quiet (h : Heap α) (o : Obj α) (pt : V3 α) : Quiet (h.pointIsInside o pt) :=
  pointIsInsideAux_quiet pt _ h o

theorem isIntersectingAux_quiet : ∀ (n : Nat) (h : Heap α) (o other : Obj α), Quiet (isIntersectingAux n h o other)
  | 0, _, _, _ => trivial
  | n + 1, h, o, other => by
    have ih := isIntersectingAux_quiet n
    unfold isIntersectingAux
    cases other with
    | plain b => trivial
    | hull k => trivial
    | ellipsoid e =>
      cases o with
      | ellipsoid e' => exact Ellipsoid.isIntersecting_quiet e' e
      | _ => trivial
    | aggregate a =>
      refine Safe.foldlM (Q := fun _ => True) (fun c q _ => ?_) _ _ trivial
      split
      · trivial
      · exact (deref_quiet h q).bind fun oq _ => ih h o oq

theorem isIntersecting_quiet (h : Heap α) (o other : Obj α) : Quiet (h.isIntersecting o other) :=
  isIntersectingAux_quiet _ h o other

theorem isIntersectingList_quiet (h : Heap α) (o : Obj α) (l : List Ptr) : Quiet (h.isIntersectingList o l) := by
  refine Safe.foldlM (Q := fun _ => True) (fun c q _ => ?_) _ _ trivial
  split
  · trivial
  · exact (deref_quiet h q).bind fun oq _ => isIntersecting_quiet h o oq

theorem distanceToPoint_quiet (h : Heap α) (o : Obj α) (pt m : V3 α) : Quiet (h.distanceToPoint o pt m) := by
  unfold distanceToPoint
  cases o with
  | plain b => trivial
  | ellipsoid e => trivial
  | hull k => exact Hull.distance_quiet k pt m
  | aggregate a =>
    refine (pointIsInside_quiet h _ pt).bind fun b _ => ?_
    split <;> exact Hull.distance_quiet _ pt m

theorem normalToAgent_quiet (h : Heap α) (o : Obj α) (pt : V3 α) (m : α) : Quiet (h.normalToAgent o pt m) := by
  unfold normalToAgent
  cases o with
  | plain b => trivial
  | ellipsoid e => trivial
  | hull k => exact Hull.normal_quiet k pt
  | aggregate a =>
    refine (pointIsInside_quiet h _ pt).bind fun b _ => ?_
    split <;> exact Hull.normal_quiet _ pt

theorem repulsionVector_quiet (h : Heap α) (o : Obj α) (pt : V3 α) (m : α) : Quiet (h.repulsionVector o pt m) := by
  unfold repulsionVector
  cases o with
  | plain b => trivial
  | ellipsoid e => exact Ellipsoid.repulsion_quiet e pt m
  | hull k => trivial
  | aggregate a =>
    have h1 : Quiet (h.repulsionFactor (.aggregate a) pt m (lit 20 1)) := by
      unfold repulsionFactor
      exact (distanceToPoint_quiet _ _ _ _).bind fun _ _ => trivial
    exact h1.bind fun _ _ => (ref_quiet _).bind fun _ _ => (pointIsInside_quiet _ _ _).bind fun _ _ => trivial

theorem generateRepulsion_quiet (h : Heap α) (o : Obj α) (pt : V3 α) (m t : α) : Quiet (h.generateRepulsion o pt m t) := by
  unfold generateRepulsion
  refine (distanceToPoint_quiet h o pt _).bind fun d _ => ?_
  split
  · exact repulsionVector_quiet h o pt m
  · trivial

theorem shiftReferencePoint_quiet (h : Heap α) (p : Ptr) (x v : V3 α) : Quiet (h.shiftReferencePoint p x v) := by
  unfold shiftReferencePoint
  refine (deref_quiet h p).bind fun o _ => ?_
  dsimp only
  split
  · exact setRef_quiet _ _ _
  · trivial

theorem updateHull_safe {h : Heap α} (hf : Fine h) (p : Ptr) : Safe (h.updateHull p) Fine := by
  unfold updateHull
  refine (deref_safe h p).bind fun o ho => ?_
  cases o with
  | aggregate a =>
    dsimp only
    refine (Safe.mapM (deref_quiet h) _).bind fun prims _ => ?_
    refine (ref_quiet _).bind fun r _ => ?_
    refine (Hull.compute_safe _ (hf p a ho).1 _ _).bind fun k1 hk1 => ?_
    refine (Hull.compute_safe _ (hf p a ho).2 _ _).bind fun k2 hk2 => ?_
    refine hf.set p fun b hb => ?_
    cases hb
    exact ⟨hk1 ▸ (hf p a ho).1, hk2 ▸ (hf p a ho).2⟩
  | _ => trivial

theorem installPrims_safe {h : Heap α} (hf : Fine h) (p : Ptr) (ps : List Ptr) (u : Bool) : Safe (h.installPrims p ps u) Fine := by
  unfold installPrims
  refine (deref_safe h p).bind fun o ho => ?_
  cases o with
  | aggregate a =>
    dsimp only
    have hs : Quiet (h.sortByName ps) := by
      unfold sortByName
      refine (Safe.mapM (fun q => ?_) _).bind fun _ _ => trivial
      exact (deref_quiet h q).bind fun _ _ => trivial
    refine hs.bind fun sorted _ => ?_
    refine (setRef_safe (hf.set p fun b hb => ?_) p _).bind fun h2 hf2 => ?_
    · cases hb
      exact hf p a ho
    · split
      · exact updateHull_safe hf2 p
      · exact hf2
  | _ => trivial

theorem addPrimitive_safe {h : Heap α} (hf : Fine h) (p q : Ptr) (u : Bool) : Safe (h.addPrimitive p q u) Fine := by
  unfold addPrimitive
  refine (deref_safe h p).bind fun o ho => ?_
  cases o with
  | aggregate a => exact installPrims_safe hf p _ u
  | _ => trivial

theorem Fine.newAggregate {h : Heap α} (hf : Fine h) : Fine h.newAggregate.1 := by
  refine hf.append fun a ha => ?_
  cases ha
  exact ⟨(by decide : 2 ≤ 500), (by decide : 2 ≤ 500)⟩

theorem mkAggregate_safe {h : Heap α} (hf : Fine h) (ps : List Ptr) : Safe (h.mkAggregate ps) fun r => Fine r.1 := by
  unfold mkAggregate
  dsimp only
  exact (installPrims_safe hf.newAggregate _ _ _).bind fun h' hf' => hf'

end Heap

namespace Aggregation

open Heap

theorem aggAt_quiet (l : List Ptr) (i : Int) : Quiet (aggAt l i) := by
  unfold aggAt
  split
  · exact index_quiet _ _
  · trivial

theorem mergeLoop_safe (a b : Int) : ∀ (l : List (Nat × Ptr)) (s : St α), Fine s.heap →
    Safe (mergeLoop a b l s) fun s' => Fine s'.heap
  | [], _, hf => hf
  | (k, p) :: rest, s, hf => by
    unfold mergeLoop
    refine (index_quiet _ _).bind fun ik _ => ?_
    split
    · exact (aggAt_quiet _ _).bind fun c _ => (addPrimitive_safe hf _ _ _).bind fun h' hf' => mergeLoop_safe a b rest _ hf'
    · split
      · exact mergeLoop_safe a b rest _ hf
      · exact mergeLoop_safe a b rest _ hf

theorem link_safe (obs : List Ptr) (i j : Nat) (pi pj : Ptr) {s : St α} (hf : Fine s.heap) :
    Safe (link obs i j pi pj s) fun s' => Fine s'.heap := by
  unfold link
  refine (index_quiet _ _).bind fun ii _ => (index_quiet _ _).bind fun ij _ => ?_
  split
  · exact (aggAt_quiet _ _).bind fun c _ => (addPrimitive_safe hf _ _ _).bind fun h' hf' => hf'
  · split
    · exact (aggAt_quiet _ _).bind fun c _ => (addPrimitive_safe hf _ _ _).bind fun h' hf' => hf'
    · split
      · exact (addPrimitive_safe hf.newAggregate _ _ _).bind fun h' hf' => (addPrimitive_safe hf' _ _ _).bind fun h' hf' => hf'
      · split
        · refine (mergeLoop_safe _ _ _ s hf).bind fun s' hs' => ?_
          split
          · split
            · exact hs'
            · trivial
          · trivial
        · exact hf

theorem innerLoop_safe (obs : List Ptr) (i : Nat) (pi : Ptr) : ∀ (l : List (Nat × Ptr)) (s : St α), Fine s.heap →
    Safe (innerLoop obs i pi l s) fun s' => Fine s'.heap
  | [], _, hf => hf
  | (j, pj) :: rest, s, hf => by
    unfold innerLoop
    refine Safe.bind (P := fun s' => Fine s'.heap) ?_ fun s' hs' => innerLoop_safe obs i pi rest s' hs'
    unfold pairStep
    refine (deref_quiet _ _).bind fun _ _ => (deref_quiet _ _).bind fun _ _ => (isIntersecting_quiet _ _ _).bind fun b _ => ?_
    split
    · exact link_safe obs i j pi pj hf
    · exact hf

theorem outerLoop_safe (obs : List Ptr) : ∀ (l : List (Nat × Ptr)) (s : St α), Fine s.heap →
    Safe (outerLoop obs l s) fun s' => Fine s'.heap
  | [], _, hf => hf
  | (i, pi) :: rest, s, hf => by
    unfold outerLoop
    exact (innerLoop_safe obs i pi rest s hf).bind fun s' hs' => outerLoop_safe obs rest s' hs'

theorem aggregateObstacles_safe {h : Heap α} (hf : Fine h) (obs : List Ptr) :
    Safe (aggregateObstacles h obs) fun r => Fine r.1 := by
  unfold aggregateObstacles
  refine (outerLoop_safe obs _ _ hf).bind fun s hs => ?_
  refine Safe.bind (P := Fine) ?_ fun h' hf' => hf'
  exact Safe.foldlM (fun c p hc => updateHull_safe hc p) _ _ hs

end Aggregation

namespace Env

theorem update_safe {h : Heap α} (hf : Heap.Fine h) (e : Env) : Safe (e.update h) fun r => Heap.Fine r.1 := by
  unfold update
  dsimp only
  split
  · exact (Aggregation.aggregateObstacles_safe hf _).bind fun r hr => hr
  · exact hf

end Env

namespace Modulation

open Heap

theorem basisMatrices_quiet (n x : V3 α) (b : Base α) : Quiet (basisMatrices n x b) := by
  unfold basisMatrices
  exact (ref_quiet _).bind fun _ _ => trivial

theorem modulationMatrix_quiet (h : Heap α) (a : Agent α) (o : Obj α) : Quiet (modulationMatrix h a o) := by
  unfold modulationMatrix
  exact (normalToAgent_quiet _ _ _ _).bind fun _ _ => (distanceToPoint_quiet _ _ _ _).bind fun _ _ =>
    (basisMatrices_quiet _ _ _).bind fun _ _ => trivial

theorem collect_quiet (planar : Bool) (a : Agent α) : ∀ (l : List Ptr) (h : Heap α), Quiet (collect planar a h l)
  | [], _ => trivial
  | p :: rest, h => by
    have key : ∀ h : Heap α, Quiet (do
        let o ← h.deref p
        let m ← modulationMatrix h a o
        let r ← collect planar a h rest
        Res.ok (r.1, { base := o.base, matrix := m.1, basis := m.2.1, dist := m.2.2 : Item α } :: r.2)) := fun h =>
      (deref_quiet h p).bind fun o _ => (modulationMatrix_quiet h a o).bind fun m _ =>
        (collect_quiet planar a rest h).bind fun _ _ => trivial
    unfold collect
    cases planar with
    | true => exact (shiftReferencePoint_quiet h p _ _).bind fun h' _ => key h'
    | false => exact key h

theorem repulsionSum_quiet (h : Heap α) (a : Agent α) (l : List Ptr) : Quiet (repulsionSum h a l) := by
  refine Safe.foldlM (Q := fun _ => True) (fun c p _ => ?_) _ _ trivial
  exact (deref_quiet h p).bind fun o _ => (generateRepulsion_quiet h o _ _ _).bind fun _ _ => trivial

theorem modulateVelocity_quiet (h : Heap α) (a : Agent α) (e : Env) (isLocal rep planar : Bool) (c p : α) :
    Quiet (modulateVelocity h a e isLocal rep planar c p) := by
  unfold modulateVelocity
  dsimp only
  split
  · trivial
  · have tail : ∀ sight : Bool, Quiet (if (!sight) = true then Res.ok (h, a.state.linearVelocity)
        else do
          let r ← collect planar a h e.list
          if rep = true then do
            let v ← repulsionSum r.1 a e.list
            let rep ← Res.ok (some v)
            Res.ok (r.1, finish rep (combine a.state.position a.state.linearVelocity r.2 c p))
          else do
            let rep ← Res.ok none
            Res.ok (r.1, finish rep (combine a.state.position a.state.linearVelocity r.2 c p))) := by
      intro sight
      split
      · trivial
      · refine (collect_quiet planar a _ h).bind fun r _ => ?_
        split
        · exact (repulsionSum_quiet _ _ _).bind fun _ _ => trivial
        · trivial
    split
    · refine Safe.bind (P := fun _ => True) ?_ fun env _ => (isIntersectingList_quiet h env _).bind fun b _ => tail b
      unfold Agent.getEnvelope
      split
      · trivial
      · exact deref_quiet _ _
    · exact tail true

end Modulation

namespace Agent

open Heap

theorem withState_quiet (h : Heap α) (a : Agent α) (s : State α) : Quiet (withState h a s) := by
  unfold withState
  dsimp only
  refine Safe.bind (P := fun _ => True) ?_ fun _ _ => trivial
  unfold updateEnvelope
  split
  · trivial
  · refine (deref_quiet _ _).bind fun o _ => ?_
    cases o <;> trivial

theorem inObstacle_quiet (h : Heap α) (a : Agent α) (o : Obj α) : Quiet (inObstacle h a o) := isIntersecting_quiet _ _ _

theorem existPath_quiet (h : Heap α) (a : Agent α) (t : V3 α) (l : List Ptr) : Quiet (a.existPath h t l) := by
  refine Safe.foldlM (Q := fun _ => True) (fun c p _ => ?_) _ _ trivial
  refine (deref_quiet h p).bind fun o _ => ?_
  refine Safe.bind (P := fun _ => True) ?_ fun _ _ => trivial
  unfold pathTest
  refine (pointIsInside_quiet _ _ _).bind fun b1 _ => (pointIsInside_quiet _ _ _).bind fun b2 _ => ?_
  dsimp only
  split
  · trivial
  · refine Safe.bind (P := fun _ => True) ?_ fun _ _ => trivial
    unfold Obj.isClosed
    cases o with
    | hull k => exact Hull.isClosed_quiet k
    | aggregate a => exact Hull.isClosed_quiet _
    | _ => trivial

end Agent

namespace Loop

theorem iterate_quiet (c : Loop α) (e : Env) (v : V3 α) (s : Heap α × Agent α) : Quiet (c.iterate e v s) := by
  unfold iterate
  dsimp only
  exact (Agent.withState_quiet _ _ _).bind fun s1 _ => (Modulation.modulateVelocity_quiet _ _ _ _ _ _ _ _).bind fun r _ =>
    Agent.withState_quiet _ _ _

theorem run_quiet (c : Loop α) (e : Env) : ∀ (n : Nat) (s : Heap α × Agent α), Quiet (c.run e n s)
  | 0, _ => trivial
  | n + 1, s => by
    unfold run
    exact (iterate_quiet c e _ s).bind fun s' _ => run_quiet c e n s'

theorem runMixed_quiet (c : Loop α) (e : Env) : ∀ (n : Nat) (prev : Option (V3 α)) (s : Heap α × Agent α),
    Quiet (c.runMixed e n prev s)
  | 0, _, _ => trivial
  | n + 1, none, s => trivial
  | n + 1, some p, s => by
    unfold runMixed
    exact (iterate_quiet c e _ s).bind fun s' _ => runMixed_quiet c e n _ s'

theorem runWall_quiet (c : Loop α) (e : Env) : ∀ (n : Nat) (s : Heap α × Agent α), Quiet (c.runWall e n s)
  | 0, _ => trivial
  | n + 1, s => by
    unfold runWall
    refine Safe.bind (P := fun _ => True) ?_ fun s' _ => runWall_quiet c e n s'
    unfold iterateWall
    refine (Agent.existPath_quiet _ _ _ _).bind fun b _ => ?_
    split
    · exact (Agent.withState_quiet _ _ _).bind fun s1 _ => iterate_quiet c e _ s1
    · exact Agent.withState_quiet _ _ _

end Loop

end DOA
