import Verif.Model.Modulation
import Verif.Lemmas.Heap
import Verif.Lemmas.Dispatch

/-! What `modulate_velocity` with `planar_modulation` does to the obstacles, for every scalar type. -/

set_option linter.unusedSectionVars false
set_option linter.unusedSimpArgs false

namespace DOA
open Spec

variable {α : Type} [Add α] [Sub α] [Mul α] [Div α] [Neg α] [Zero α] [One α]
  [LE α] [LT α] [DecidableLE α] [DecidableLT α] [CMath α]

theorem _root_.DOA.Spec.SameShape.refl (h : Heap α) : SameShape h h := fun _ => rfl
theorem _root_.DOA.Spec.SameShape.symm {h h' : Heap α} (s : SameShape h h') : SameShape h' h := fun p => (s p).symm
theorem _root_.DOA.Spec.SameShape.trans {h1 h2 h3 : Heap α} (a : SameShape h1 h2) (b : SameShape h2 h3) : SameShape h1 h3 :=
  fun p => (b p).trans (a p)

theorem _root_.DOA.Spec.SameShape.length {h h' : Heap α} (s : SameShape h h') : h'.length = h.length := by
  have key : ∀ {h h' : Heap α}, SameShape h h' → h.length ≤ h'.length := by
    intro h h' s
    by_contra hlt
    have h1 := s h'.length
    rw [List.getElem?_eq_none (le_refl _), List.getElem?_eq_getElem (by omega)] at h1
    simp at h1
  exact le_antisymm (key s.symm) (key s)

theorem _root_.DOA.Spec.SameShape.get {h h' : Heap α} (s : SameShape h h') {p : Ptr} {o : Obj α} (ho : h[p]? = some o) :
    ∃ o', h'[p]? = some o' ∧ shape o' = shape o := by
  have := s p
  rw [ho] at this
  simpa using this

theorem _root_.DOA.Spec.SameShape.get_none {h h' : Heap α} (s : SameShape h h') {p : Ptr} (ho : h[p]? = none) : h'[p]? = none := by
  have := s p
  rw [ho] at this
  simpa using this

theorem foldlM_congr {β γ : Type} {f g : β → γ → Res β} (l : List γ) (hfg : ∀ c ∈ l, ∀ b, f b c = g b c) :
    ∀ b, l.foldlM f b = l.foldlM g b := by
  induction l with
  | nil => intro b; rfl
  | cons c l ih =>
    intro b
    rw [List.foldlM_cons, List.foldlM_cons, hfg c List.mem_cons_self]
    congr 1
    funext b'
    exact ih (fun d hd => hfg d (List.mem_cons_of_mem _ hd)) b'

/-- the objects of equal shape are of the same kind with the same fields -/
theorem shape_cases {o o' : Obj α} (hs : shape o' = shape o) :
    o' = o.mapBase (fun b => { b with refPos := o'.base.refPos }) := by
  have key : ∀ o : Obj α, o = (shape o).mapBase (fun b => { b with refPos := o.base.refPos }) := by
    intro o; cases o <;> rfl
  rw [key o', hs]
  cases o <;> rfl

theorem pointIsInsideAux_shape {h h' : Heap α} (s : SameShape h h') (pt : V3 α) : ∀ (fuel : Nat) (o o' : Obj α),
    shape o' = shape o → Heap.pointIsInsideAux fuel h' o' pt = Heap.pointIsInsideAux fuel h o pt := by
  intro fuel
  induction fuel with
  | zero => intros; rfl
  | succ fuel ih =>
    intro o o' hs
    rw [shape_cases hs]
    cases o with
    | plain b => rfl
    | ellipsoid e => rfl
    | hull k => rfl
    | aggregate a =>
      simp only [Obj.mapBase, Heap.pointIsInsideAux]
      congr 1
      funext b
      split
      · rfl
      · apply foldlM_congr
        intro q _ acc
        unfold Heap.deref
        cases hq : h[q]? with
        | none => rw [s.get_none hq]; rfl
        | some oq =>
          obtain ⟨oq', h1, h2⟩ := s.get hq
          rw [h1]
          simp only [Res.ok_bind]
          rw [ih oq oq' h2]

theorem pointIsInside_shape {h h' : Heap α} (s : SameShape h h') {o o' : Obj α} (hs : shape o' = shape o)
    (pt : V3 α) : h'.pointIsInside o' pt = h.pointIsInside o pt := by
  unfold Heap.pointIsInside Heap.fuel
  rw [s.length]
  exact pointIsInsideAux_shape s pt _ _ _ hs

theorem distanceToPoint_shape {h h' : Heap α} (s : SameShape h h') {o o' : Obj α} (hs : shape o' = shape o)
    (pt m : V3 α) : h'.distanceToPoint o' pt m = h.distanceToPoint o pt m := by
  have hp := pointIsInside_shape s hs pt
  revert hp
  rw [shape_cases hs]
  cases o with
  | aggregate a =>
    intro hp
    simp only [Obj.mapBase, Heap.distanceToPoint] at hp ⊢
    rw [hp]
  | _ => intro _; rfl

theorem normalToAgent_shape {h h' : Heap α} (s : SameShape h h') {o o' : Obj α} (hs : shape o' = shape o)
    (pt : V3 α) (m : α) : h'.normalToAgent o' pt m = h.normalToAgent o pt m := by
  have hp := pointIsInside_shape s hs pt
  revert hp
  rw [shape_cases hs]
  cases o with
  | aggregate a =>
    intro hp
    simp only [Obj.mapBase, Heap.normalToAgent] at hp ⊢
    rw [hp]
  | _ => intro _; rfl

/-- the heap matters only up to reference positions -/
theorem repulsionVector_heap {h h' : Heap α} (s : SameShape h h') (o : Obj α) (pt : V3 α) (m : α) :
    h'.repulsionVector o pt m = h.repulsionVector o pt m := by
  cases o with
  | aggregate a =>
    simp only [Heap.repulsionVector, Heap.repulsionFactor, distanceToPoint_shape s rfl, pointIsInside_shape s rfl]
  | _ => rfl

theorem generateRepulsion_heap {h h' : Heap α} (s : SameShape h h') (o : Obj α) (pt : V3 α) (m t : α) :
    h'.generateRepulsion o pt m t = h.generateRepulsion o pt m t := by
  simp only [Heap.generateRepulsion, Heap.distanceToAgent, distanceToPoint_shape s rfl, repulsionVector_heap s]

namespace Modulation

theorem modulationMatrix_heap {h h' : Heap α} (s : SameShape h h') (a : Agent α) (o : Obj α) :
    modulationMatrix h' a o = modulationMatrix h a o := by
  simp only [modulationMatrix, Heap.distanceToAgent, distanceToPoint_shape s rfl, normalToAgent_shape s rfl]

/-- `shift_reference_point` as a function on objects -/
def shifted (x v : V3 α) : Obj α → Obj α
  | .ellipsoid e =>
    let r := e.intersectionPoints x (x + v)
    if r.1 then .ellipsoid { e with base := e.base.setRef ((r.2.1 + r.2.2).sdiv (lit 2 1)) } else .ellipsoid e
  | o => o

theorem shape_shifted (x v : V3 α) (o : Obj α) : shape (shifted x v o) = shape o := by
  cases o with
  | ellipsoid e =>
    simp only [shifted]
    split <;> rfl
  | _ => rfl

theorem shifted_shifted (x v : V3 α) (o : Obj α) : shifted x v (shifted x v o) = shifted x v o := by
  cases o with
  | ellipsoid e =>
    simp only [shifted]
    by_cases hr : (e.intersectionPoints x (x + v)).1 = true
    · rw [if_pos hr]
      have h1 : ∀ b, ({ e with base := e.base.setRef b } : Ellipsoid α).intersectionPoints x (x + v) =
          e.intersectionPoints x (x + v) := fun _ => rfl
      simp only [shifted, h1]
      rw [if_pos hr]
      rfl
    · rw [if_neg hr]
      simp only [shifted]
      rw [if_neg hr]
  | _ => rfl

theorem shiftReferencePoint_eq (h : Heap α) (p : Ptr) (x v : V3 α) :
    h.shiftReferencePoint p x v = h.deref p >>= fun o => .ok (h.set p (shifted x v o)) := by
  unfold Heap.shiftReferencePoint Heap.deref
  cases hp : h[p]? with
  | none => rfl
  | some o =>
    simp only [Res.ok_bind]
    have hset : h.set p o = h := by
      apply List.ext_getElem?
      intro r
      rw [List.getElem?_set]
      split
      · rename_i h1; subst h1
        split
        · exact hp.symm
        · rename_i h2; rw [List.getElem?_eq_none (not_lt.mp h2)]
      · rfl
    cases o with
    | ellipsoid e =>
      simp only [Obj.intersectionPoints, shifted]
      by_cases hr : (e.intersectionPoints x (x + v)).1 = true
      · simp [Heap.setRef, Heap.fuel, Heap.setRefAux, Heap.deref, hp, Obj.mapBase, hr]
      · simp [hr, hset]
    | _ => simp only [Obj.intersectionPoints, shifted, Bool.false_eq_true, if_false, hset]

/-- all listed obstacles shifted -/
def shiftAll (h : Heap α) (x v : V3 α) (l : List Ptr) : Heap α :=
  h.mapIdx fun r o => if r ∈ l then shifted x v o else o

theorem getElem?_shiftAll (h : Heap α) (x v : V3 α) (l : List Ptr) (r : Ptr) :
    (shiftAll h x v l)[r]? = (h[r]?).map fun o => if r ∈ l then shifted x v o else o := by
  simp [shiftAll]

theorem sameShape_shiftAll (h : Heap α) (x v : V3 α) (l : List Ptr) : SameShape h (shiftAll h x v l) := by
  intro p
  rw [getElem?_shiftAll]
  cases h[p]? with
  | none => rfl
  | some o =>
    simp only [Option.map_some]
    split
    · rw [shape_shifted]
    · rfl

theorem shiftAll_set {h : Heap α} {p : Ptr} {o : Obj α} (hp : h[p]? = some o) (x v : V3 α) (l : List Ptr) :
    shiftAll (h.set p (shifted x v o)) x v l = shiftAll h x v (p :: l) := by
  apply List.ext_getElem?
  intro r
  rw [getElem?_shiftAll, getElem?_shiftAll, List.getElem?_set]
  by_cases hr : p = r
  · subst hr
    have hlt := (List.getElem?_eq_some_iff.mp hp).1
    rw [if_pos rfl, if_pos hlt, hp]
    simp only [Option.map_some, List.mem_cons, true_or, if_true, shifted_shifted, ite_self]
  · rw [if_neg hr]
    have : (r ∈ p :: l) ↔ r ∈ l := by
      simp only [List.mem_cons, or_iff_right_iff_imp]
      intro h; exact absurd h.symm hr
    simp only [this]

theorem sameShape_set {h : Heap α} {p : Ptr} {o : Obj α} (hp : h[p]? = some o) (x v : V3 α) :
    SameShape h (h.set p (shifted x v o)) := by
  intro r
  rw [List.getElem?_set]
  by_cases hr : p = r
  · subst hr
    have hlt := (List.getElem?_eq_some_iff.mp hp).1
    rw [if_pos rfl, if_pos hlt, hp]
    simp [shape_shifted]
  · rw [if_neg hr]

/-- what is stored for one obstacle -/
def shiftedItem (h : Heap α) (a : Agent α) (p : Ptr) : Res (Item α) := do
  let o ← h.deref p
  let o' := shifted a.state.position a.state.linearVelocity o
  let m ← modulationMatrix h a o'
  .ok { base := o'.base, matrix := m.1, basis := m.2.1, dist := m.2.2 }

theorem shiftedItem_set {h : Heap α} {a : Agent α} {p : Ptr} {o : Obj α} (hp : h[p]? = some o) :
    shiftedItem (h.set p (shifted a.state.position a.state.linearVelocity o)) a = shiftedItem h a := by
  funext q
  unfold shiftedItem Heap.deref
  have hm : ∀ o', modulationMatrix (h.set p (shifted a.state.position a.state.linearVelocity o)) a o' =
      modulationMatrix h a o' := modulationMatrix_heap (sameShape_set hp _ _) a
  rw [List.getElem?_set]
  by_cases hr : p = q
  · subst hr
    have hlt := (List.getElem?_eq_some_iff.mp hp).1
    rw [if_pos rfl, if_pos hlt, hp]
    simp only [Res.ok_bind, shifted_shifted, hm]
  · rw [if_neg hr]
    simp only [hm]

/-- The loop with `planar_modulation`. -/
theorem collect_true (a : Agent α) (l : List Ptr) : ∀ h : Heap α,
    collect true a h l = (l.mapM (shiftedItem h a)) >>= fun its =>
      .ok (shiftAll h a.state.position a.state.linearVelocity l, its) := by
  induction l with
  | nil =>
    intro h
    simp only [collect, List.mapM_nil, Res.pure_eq, Res.ok_bind]
    have : shiftAll h a.state.position a.state.linearVelocity [] = h := by
      apply List.ext_getElem?
      intro r
      rw [getElem?_shiftAll]
      cases h[r]? <;> simp
    rw [this]
  | cons p l ih =>
    intro h
    simp only [collect, if_true, List.mapM_cons, shiftReferencePoint_eq]
    cases hp : h[p]? with
    | none => simp [Heap.deref, hp, shiftedItem]
    | some o =>
      have hlt := (List.getElem?_eq_some_iff.mp hp).1
      have hd : Heap.deref (h.set p (shifted a.state.position a.state.linearVelocity o)) p =
          .ok (shifted a.state.position a.state.linearVelocity o) := by
        simp [Heap.deref, hlt]
      have hd0 : h.deref p = .ok o := by simp [Heap.deref, hp]
      rw [hd0]
      simp only [Res.ok_bind, hd, shiftedItem, hd0, modulationMatrix_heap (sameShape_set hp _ _), bind_assoc, ih,
        shiftedItem_set hp, shiftAll_set hp, Res.pure_eq]

end Modulation
end DOA
