import Mathlib.Data.Finset.Card
import Mathlib.Data.Finset.Range
import Verif.Spec.Heap
import Verif.Model.Dispatch
import Verif.Lemmas.Sort
import Verif.Lemmas.MathTools

/-! # Lemmas about the heap: reference positions, nesting, intersection tests -/

namespace DOA
open DOA.Spec

variable {α : Type}

/-! ### Shapes -/

theorem shape_mapBase_setRef (o : Obj α) (v : V3 α) : shape (o.mapBase (·.setRef v)) = shape o := by
  cases o <;> rfl

theorem shape_shape (o : Obj α) : shape (shape o) = shape o := by cases o <;> rfl

theorem mapBase_setRef_of_shape {o o' : Obj α} (h : shape o = shape o') (v : V3 α) :
    o.mapBase (·.setRef v) = o'.mapBase (·.setRef v) := by
  have key : ∀ o : Obj α, o.mapBase (·.setRef v) = (shape o).mapBase (·.setRef v) := by
    intro o; cases o <;> rfl
  rw [key o, key o', h]

theorem eq_of_shape_ref {o o' : Obj α} (h : shape o = shape o') (hr : o.base.refPos = o'.base.refPos) :
    o = o' := by
  have key : ∀ o : Obj α, o = (shape o).mapBase (fun b => { b with refPos := o.base.refPos }) := by
    intro o; cases o <;> rfl
  rw [key o, key o', h, hr]

theorem shape_name (o : Obj α) : (shape o).name = o.name := by cases o <;> rfl
theorem shape_position (o : Obj α) : (shape o).position = o.position := by cases o <;> rfl

theorem name_of_shape {o o' : Obj α} (h : shape o = shape o') : o.name = o'.name := by
  rw [← shape_name o, h, shape_name]

theorem position_of_shape {o o' : Obj α} (h : shape o = shape o') : o.position = o'.position := by
  rw [← shape_position o, h, shape_position]

theorem prims_of_shape {o : Obj α} {a' : Aggregate α} (h : shape o = shape (.aggregate a')) :
    ∃ a, o = .aggregate a ∧ a.prims = a'.prims := by
  cases o with
  | aggregate a =>
    refine ⟨a, rfl, ?_⟩
    simp only [shape, Obj.mapBase, Obj.aggregate.injEq] at h
    have := congrArg Aggregate.prims h
    simpa using this
  | plain b => simp [shape, Obj.mapBase] at h
  | ellipsoid b => simp [shape, Obj.mapBase] at h
  | hull b => simp [shape, Obj.mapBase] at h

/-- Same objects up to reference positions, on the prefix `h`. -/
def ShapeExt (h h' : Heap α) : Prop :=
  h.length ≤ h'.length ∧ ∀ p < h.length, (h'[p]?).map shape = (h[p]?).map shape

theorem ShapeExt.refl (h : Heap α) : ShapeExt h h := ⟨le_refl _, fun _ _ => rfl⟩

theorem ShapeExt.trans {h1 h2 h3 : Heap α} (a : ShapeExt h1 h2) (b : ShapeExt h2 h3) :
    ShapeExt h1 h3 :=
  ⟨a.1.trans b.1, fun p hp => (b.2 p (lt_of_lt_of_le hp a.1)).trans (a.2 p hp)⟩

theorem ShapeExt.get {h h' : Heap α} (e : ShapeExt h h') {p : Ptr} {o : Obj α} (ho : h[p]? = some o) :
    ∃ o', h'[p]? = some o' ∧ shape o' = shape o := by
  have hp : p < h.length := (List.getElem?_eq_some_iff.mp ho).1
  have := e.2 p hp
  rw [ho] at this
  simpa using this

theorem ShapeExt.get' {h h' : Heap α} (e : ShapeExt h h') {p : Ptr} {o' : Obj α} (hp : p < h.length)
    (ho : h'[p]? = some o') : ∃ o, h[p]? = some o ∧ shape o = shape o' := by
  obtain ⟨o2, h2, h3⟩ := e.get (List.getElem?_eq_getElem hp)
  rw [ho] at h2; cases h2
  exact ⟨_, List.getElem?_eq_getElem hp, h3.symm⟩

theorem ShapeExt.child {h h' : Heap α} (e : ShapeExt h h') {p q : Ptr} (hp : p < h.length) :
    Child h' p q ↔ Child h p q := by
  constructor
  · rintro ⟨a, ha, hq⟩
    obtain ⟨o, ho, hs⟩ := e.get' hp ha
    obtain ⟨b, rfl, hb⟩ := prims_of_shape hs
    exact ⟨b, ho, hb ▸ hq⟩
  · rintro ⟨a, ha, hq⟩
    obtain ⟨o, ho, hs⟩ := e.get ha
    obtain ⟨b, rfl, hb⟩ := prims_of_shape hs
    exact ⟨b, ho, hb ▸ hq⟩

/-! ### Nesting -/

/-- Rank function bounded by the size of the heap. -/
structure Ranked (rank : Ptr → Nat) (h : Heap α) : Prop where
  child : ∀ p q, Child h p q → q < h.length ∧ rank q < rank p
  bound : ∀ p, p < h.length → rank p ≤ h.length

theorem compress_rank {h : Heap α} {rank : Ptr → Nat}
    (hr : ∀ p q, Child h p q → q < h.length ∧ rank q < rank p) :
    ∃ rank', Ranked rank' h ∧ ∀ p q, q < h.length → rank q < rank p → rank' q < rank' p := by
  have key : ∀ p q, q < h.length → rank q < rank p →
      ((Finset.range h.length).filter (fun r => rank r < rank q)).card <
        ((Finset.range h.length).filter (fun r => rank r < rank p)).card := by
    intro p q h1 h2
    apply Finset.card_lt_card
    rw [Finset.ssubset_iff_of_subset]
    · exact ⟨q, by simp [h1, h2], by simp⟩
    · intro r hr'
      simp only [Finset.mem_filter, Finset.mem_range] at hr' ⊢
      exact ⟨hr'.1, hr'.2.trans h2⟩
  refine ⟨fun p => ((Finset.range h.length).filter (fun r => rank r < rank p)).card, ⟨?_, ?_⟩, key⟩
  · intro p q hc
    obtain ⟨h1, h2⟩ := hr p q hc
    exact ⟨h1, key p q h1 h2⟩
  · intro p _
    exact (Finset.card_filter_le _ _).trans (by simp)

theorem exists_ranked {h : Heap α} (ha : Acyclic h) : ∃ rank, Ranked rank h := by
  obtain ⟨rank, hr⟩ := ha
  obtain ⟨rank', h1, -⟩ := compress_rank hr
  exact ⟨rank', h1⟩

theorem Within.lt_length {h : Heap α} {rank : Ptr → Nat} (hr : Ranked rank h) {p r : Ptr}
    (hp : p < h.length) (hw : Within h p r) : r < h.length := by
  induction hw with
  | refl => exact hp
  | tail _ hc _ => exact (hr.child _ _ hc).1

theorem ShapeExt.within {h h' : Heap α} {rank : Ptr → Nat} (hr : Ranked rank h) (e : ShapeExt h h')
    {p r : Ptr} (hp : p < h.length) : Within h' p r ↔ Within h p r := by
  constructor
  · intro hw
    induction hw with
    | refl => exact .refl
    | tail _ hc ih => exact ih.tail ((e.child (Within.lt_length hr hp ih)).mp hc)
  · intro hw
    induction hw with
    | refl => exact .refl
    | @tail b c hw1 hc ih => exact ih.tail ((e.child (Within.lt_length hr hp hw1)).mpr hc)

theorem within_rank {h : Heap α} {rank : Ptr → Nat} (hr : Ranked rank h) {p r : Ptr}
    (hw : Within h p r) : rank r ≤ rank p := by
  induction hw with
  | refl => exact le_refl _
  | tail _ hc ih => exact ((hr.child _ _ hc).2.le).trans ih

/-! ### `set_reference_position` -/

open Classical in
/-- The heap in which exactly the objects in `D` have reference position `v`. -/
noncomputable def markRef (h : Heap α) (D : Ptr → Prop) (v : V3 α) : Heap α :=
  h.mapIdx fun r o => if D r then o.mapBase (·.setRef v) else o

@[simp] theorem length_markRef (h : Heap α) (D : Ptr → Prop) (v : V3 α) :
    (markRef h D v).length = h.length := by simp [markRef]

open Classical in
theorem getElem?_markRef (h : Heap α) (D : Ptr → Prop) (v : V3 α) (r : Ptr) :
    (markRef h D v)[r]? = (h[r]?).map fun o => if D r then o.mapBase (·.setRef v) else o := by
  simp [markRef]

theorem markRef_pos {h : Heap α} {D : Ptr → Prop} {v : V3 α} {r : Ptr} (hr : D r) :
    (markRef h D v)[r]? = (h[r]?).map fun o => o.mapBase (·.setRef v) := by
  rw [getElem?_markRef]; simp [hr]

theorem markRef_neg {h : Heap α} {D : Ptr → Prop} {v : V3 α} {r : Ptr} (hr : ¬ D r) :
    (markRef h D v)[r]? = h[r]? := by
  rw [getElem?_markRef]; simp [hr]

theorem shapeExt_markRef (h : Heap α) (D : Ptr → Prop) (v : V3 α) : ShapeExt h (markRef h D v) := by
  refine ⟨by simp, fun p _ => ?_⟩
  by_cases hD : D p
  · rw [markRef_pos hD]
    cases h[p]? with
    | none => rfl
    | some o => simp [shape_mapBase_setRef]
  · rw [markRef_neg hD]

theorem child_markRef (h : Heap α) (D : Ptr → Prop) (v : V3 α) (p q : Ptr) :
    Child (markRef h D v) p q ↔ Child h p q := by
  by_cases hp : p < h.length
  · exact (shapeExt_markRef h D v).child hp
  · have h1 : h[p]? = none := List.getElem?_eq_none (not_lt.mp hp)
    have h2 : (markRef h D v)[p]? = none := List.getElem?_eq_none (by simpa using hp)
    simp [Child, h1, h2]

theorem within_markRef (h : Heap α) (D : Ptr → Prop) (v : V3 α) (p : Ptr) :
    Within (markRef h D v) p = Within h p := by
  have : Child (markRef h D v) = Child h := by
    funext a b; exact propext (child_markRef h D v a b)
  funext r
  unfold Within
  rw [this]

theorem Ranked.markRef {rank : Ptr → Nat} {h : Heap α} (hr : Ranked rank h) (D : Ptr → Prop)
    (v : V3 α) : Ranked rank (markRef h D v) :=
  ⟨fun p q hc => by simpa using hr.child p q ((child_markRef h D v p q).mp hc),
   fun p hp => by simpa using hr.bound p (by simpa using hp)⟩

theorem markRef_markRef (h : Heap α) (D D' : Ptr → Prop) (v : V3 α) :
    markRef (markRef h D v) D' v = markRef h (fun r => D r ∨ D' r) v := by
  apply List.ext_getElem?
  intro r
  by_cases h1 : D' r
  · rw [markRef_pos h1, markRef_pos (D := fun r => D r ∨ D' r) (Or.inr h1)]
    by_cases h2 : D r
    · rw [markRef_pos h2]
      cases h[r]? with
      | none => rfl
      | some o => cases o <;> rfl
    · rw [markRef_neg h2]
  · rw [markRef_neg h1]
    by_cases h2 : D r
    · rw [markRef_pos h2, markRef_pos (D := fun r => D r ∨ D' r) (Or.inl h2)]
    · rw [markRef_neg h2, markRef_neg (D := fun r => D r ∨ D' r) (by tauto)]

theorem markRef_congr {h : Heap α} {D D' : Ptr → Prop} {v : V3 α}
    (hD : ∀ r < h.length, (D r ↔ D' r)) : markRef h D v = markRef h D' v := by
  apply List.ext_getElem?
  intro r
  by_cases hr : r < h.length
  · rw [getElem?_markRef, getElem?_markRef, propext (hD r hr)]
  · rw [List.getElem?_eq_none (by simp; omega), List.getElem?_eq_none (by simp; omega)]

theorem set_eq_markRef {h : Heap α} {p : Ptr} {o : Obj α} (ho : h[p]? = some o) (v : V3 α) :
    h.set p (o.mapBase (·.setRef v)) = markRef h (fun r => r = p) v := by
  apply List.ext_getElem?
  intro r
  by_cases hr : r = p
  · subst hr
    rw [markRef_pos (D := fun x => x = r) rfl, ho]
    have := (List.getElem?_eq_some_iff.mp ho).1
    simp [this]
  · rw [markRef_neg (D := fun x => x = p) hr]
    simp [Ne.symm hr]

/-- `set_reference_position` sets the reference position of exactly the object and everything
nested in it, provided the recursion bound suffices. -/
theorem setRefAux_eq {rank : Ptr → Nat} (v : V3 α) (fuel : Nat) :
    ∀ (h : Heap α) (p : Ptr), Ranked rank h → p < h.length → rank p < fuel →
      Heap.setRefAux fuel h p v = .ok (markRef h (Within h p) v) := by
  induction fuel with
  | zero => intro h p _ _ hf; omega
  | succ fuel ih =>
    intro h p hr hp hf
    have ho : h[p]? = some h[p] := List.getElem?_eq_getElem hp
    -- the loop over primitives
    have loop : ∀ (qs : List Ptr) (D : Ptr → Prop),
        (∀ q ∈ qs, q < h.length ∧ rank q < fuel) →
        qs.foldlM (fun h q => Heap.setRefAux fuel h q v) (markRef h D v) =
          .ok (markRef h (fun r => D r ∨ ∃ q ∈ qs, Within h q r) v) := by
      intro qs
      induction qs with
      | nil => intro D _; simp
      | cons q qs ihq =>
        intro D hq
        rw [List.foldlM_cons, ih (markRef h D v) q (hr.markRef D v) (by simpa using (hq q (by simp)).1)
          (hq q (by simp)).2, Res.ok_bind, within_markRef, markRef_markRef,
          ihq _ (fun q hq' => hq q (by simp [hq']))]
        congr 2
        funext r
        simp only [List.mem_cons, exists_eq_or_imp, eq_iff_iff]
        tauto
    rw [Heap.setRefAux, Heap.deref, ho]
    simp only [Res.ok_bind]
    rw [set_eq_markRef ho]
    cases hobj : h[p] with
    | aggregate a =>
      have hc : ∀ q ∈ a.prims, Child h p q := fun q hq => ⟨a, by rw [ho, hobj], hq⟩
      simp only
      rw [loop a.prims _ (fun q hq => ⟨(hr.child p q (hc q hq)).1, by
        have := (hr.child p q (hc q hq)).2; omega⟩)]
      congr 1
      apply markRef_congr
      intro r _
      constructor
      · rintro (rfl | ⟨q, hq, hw⟩)
        · exact .refl
        · exact Relation.ReflTransGen.head (hc q hq) hw
      · intro hw
        rcases Relation.ReflTransGen.cases_head hw with rfl | ⟨q, ⟨a', ha', hq⟩, hw'⟩
        · exact Or.inl rfl
        · rw [ho, hobj] at ha'; cases ha'
          exact Or.inr ⟨q, hq, hw'⟩
    | plain b =>
      simp only
      congr 1
      apply markRef_congr
      intro r _
      constructor
      · rintro rfl; exact .refl
      · intro hw
        rcases Relation.ReflTransGen.cases_head hw with rfl | ⟨q, ⟨a', ha', hq⟩, hw'⟩
        · rfl
        · rw [ho, hobj] at ha'; cases ha'
    | ellipsoid b =>
      simp only
      congr 1
      apply markRef_congr
      intro r _
      constructor
      · rintro rfl; exact .refl
      · intro hw
        rcases Relation.ReflTransGen.cases_head hw with rfl | ⟨q, ⟨a', ha', hq⟩, hw'⟩
        · rfl
        · rw [ho, hobj] at ha'; cases ha'
    | hull b =>
      simp only
      congr 1
      apply markRef_congr
      intro r _
      constructor
      · rintro rfl; exact .refl
      · intro hw
        rcases Relation.ReflTransGen.cases_head hw with rfl | ⟨q, ⟨a', ha', hq⟩, hw'⟩
        · rfl
        · rw [ho, hobj] at ha'; cases ha'

theorem setRef_eq {rank : Ptr → Nat} {h : Heap α} (hr : Ranked rank h) {p : Ptr} (hp : p < h.length)
    (v : V3 α) : h.setRef p v = .ok (markRef h (Within h p) v) :=
  setRefAux_eq v _ h p hr hp (by have := hr.bound p hp; simp [Heap.fuel]; omega)

end DOA
