import Verif.Spec.Alike
import Verif.Lemmas.Shift
import Verif.Lemmas.Heap

/-! # Queries depend only on what an obstacle is made of -/

set_option linter.unusedSectionVars false
set_option linter.unusedSimpArgs false

namespace DOA
open DOA.Spec

variable {α : Type}

namespace Spec

theorem Alike.base {h h' : Heap α} {o o' : Obj α} (s : Alike h h' o o') :
    { o.base with refPos := none } = { o'.base with refPos := none } := by
  cases s with
  | plain b b' hs => simpa [shape, Obj.mapBase, Obj.base] using hs
  | ellipsoid e e' hs =>
    simp only [shape, Obj.mapBase, Obj.ellipsoid.injEq] at hs
    exact congrArg Ellipsoid.base hs
  | hull k k' hs =>
    simp only [shape, Obj.mapBase, Obj.hull.injEq] at hs
    exact congrArg Hull.base hs
  | aggregate a a' hs _ =>
    simp only [shape, Obj.mapBase, Obj.aggregate.injEq] at hs
    exact congrArg Aggregate.base hs

theorem Alike.base_eq {h h' : Heap α} {o o' : Obj α} (s : Alike h h' o o') (hr : o.base.refPos = o'.base.refPos) :
    o.base = o'.base := by
  have h1 := s.base
  have h2 : o.base = { { o.base with refPos := none } with refPos := o.base.refPos } := rfl
  rw [h2, h1, hr]

theorem Alike.hulls {h h' : Heap α} {a a' : Aggregate α} (s : Alike h h' (.aggregate a) (.aggregate a')) :
    a.inside = a'.inside ∧ a.outside = a'.outside := by
  cases s with
  | aggregate _ _ hs _ =>
    simp only [shape, Obj.mapBase, Obj.aggregate.injEq] at hs
    have h1 := congrArg Aggregate.inside hs
    have h2 := congrArg Aggregate.outside hs
    exact ⟨h1, h2⟩

theorem AlikeAll.forall₂ {h h' : Heap α} {l l' : List Ptr} (s : AlikeAll h h' l l') :
    List.Forall₂ (fun p p' => ∃ o o', h[p]? = some o ∧ h'[p']? = some o' ∧ Alike h h' o o') l l' := by
  induction l generalizing l' with
  | nil => cases s; exact .nil
  | cons p l ih =>
    cases s with
    | cons _ p' _ ps' o o' h1 h2 h3 h4 => exact .cons ⟨o, o', h1, h2, h3⟩ (ih h4)

theorem alikeAll_of {h h' : Heap α} {l l' : List Ptr}
    (s : List.Forall₂ (fun p p' => ∃ o o', h[p]? = some o ∧ h'[p']? = some o' ∧ Alike h h' o o') l l') :
    AlikeAll h h' l l' := by
  induction s with
  | nil => exact .nil
  | cons h1 _ ih =>
    obtain ⟨o, o', h2, h3, h4⟩ := h1
    exact .cons _ _ _ _ o o' h2 h3 h4 ih

end Spec

variable [Add α] [Sub α] [Mul α] [Div α] [Neg α] [Zero α] [One α]
  [LE α] [LT α] [DecidableLE α] [DecidableLT α] [CMath α]

theorem pointIsInsideAux_alike {h h' : Heap α} {rank rank' : Ptr → Nat} (hr : Ranked rank h) (hr' : Ranked rank' h')
    (pt : V3 α) : ∀ (f f' : Nat) (p p' : Ptr) (o o' : Obj α), h[p]? = some o → rank p < f → h'[p']? = some o' →
      rank' p' < f' → Alike h h' o o' → Heap.pointIsInsideAux f h o pt = Heap.pointIsInsideAux f' h' o' pt := by
  intro f
  induction f with
  | zero => intro f' p p' o o' _ h1; omega
  | succ f ih =>
    intro f' p p' o o' ho hf ho' hf' s
    obtain ⟨f', rfl⟩ : ∃ n, f' = n + 1 := ⟨f' - 1, by omega⟩
    cases s with
    | plain b b' hs => rfl
    | ellipsoid e e' hs => rw [shape_cases hs]; rfl
    | hull k k' hs => rw [shape_cases hs]; rfl
    | aggregate a a' hs hp =>
      obtain ⟨-, h1⟩ := (Alike.aggregate a a' hs hp).hulls
      simp only [Heap.pointIsInsideAux, h1]
      congr 1
      funext b
      split
      · rfl
      · have key : ∀ (l l' : List Ptr) (acc : Bool), AlikeAll h h' l l' → (∀ q ∈ l, q ∈ a.prims) →
            (∀ q ∈ l', q ∈ a'.prims) → l.foldlM (fun acc q => do
              let oq ← h.deref q
              let b ← Heap.pointIsInsideAux f h oq pt
              .ok (acc || b)) acc = l'.foldlM (fun acc q => do
              let oq ← h'.deref q
              let b ← Heap.pointIsInsideAux f' h' oq pt
              .ok (acc || b)) acc := by
          intro l
          induction l with
          | nil => intro l' acc s _ _; cases s; rfl
          | cons q l ihl =>
            intro l' acc s hl hl'
            cases s with
            | cons _ q' _ l' oq oq' h2 h3 h4 h5 =>
              simp only [List.foldlM_cons, Heap.deref, h2, h3, Res.ok_bind]
              have r1 := (hr.child p q ⟨a, ho, hl q List.mem_cons_self⟩).2
              have r2 := (hr'.child p' q' ⟨a', ho', hl' q' List.mem_cons_self⟩).2
              rw [ih f' q q' oq oq' h2 (by omega) h3 (by omega) h4]
              congr 1
              funext acc'
              exact ihl l' acc' h5 (fun x hx => hl x (List.mem_cons_of_mem _ hx))
                (fun x hx => hl' x (List.mem_cons_of_mem _ hx))
        exact key a.prims a'.prims false hp (fun _ h => h) (fun _ h => h)

theorem isIntersectingAux_alike {h h' : Heap α} {rank rank' : Ptr → Nat} (hr : Ranked rank h) (hr' : Ranked rank' h')
    {o o' : Obj α} (s : Alike h h' o o') : ∀ (f f' : Nat) (p p' : Ptr) (u u' : Obj α), h[p]? = some u → rank p < f →
      h'[p']? = some u' → rank' p' < f' → Alike h h' u u' →
      Heap.isIntersectingAux f h o u = Heap.isIntersectingAux f' h' o' u' := by
  intro f
  induction f with
  | zero => intro f' p p' u u' _ h1; omega
  | succ f ih =>
    intro f' p p' u u' hu hf hu' hf' t
    obtain ⟨f', rfl⟩ : ∃ n, f' = n + 1 := ⟨f' - 1, by omega⟩
    cases t with
    | plain b b' hs => rfl
    | hull k k' hs => rfl
    | ellipsoid e e' hs =>
      simp only [Heap.isIntersectingAux]
      cases s with
      | ellipsoid d d' hd => exact isIntersectingEllipsoid_shape hd hs
      | _ => rfl
    | aggregate a a' hs hp =>
      simp only [Heap.isIntersectingAux]
      have key : ∀ (l l' : List Ptr) (acc : Bool), AlikeAll h h' l l' → (∀ q ∈ l, q ∈ a.prims) →
          (∀ q ∈ l', q ∈ a'.prims) → l.foldlM (fun acc q => if acc = true then Res.ok true else do
            let oq ← h.deref q
            Heap.isIntersectingAux f h o oq) acc = l'.foldlM (fun acc q => if acc = true then Res.ok true else do
            let oq ← h'.deref q
            Heap.isIntersectingAux f' h' o' oq) acc := by
        intro l
        induction l with
        | nil => intro l' acc s _ _; cases s; rfl
        | cons q l ihl =>
          intro l' acc s hl hl'
          cases s with
          | cons _ q' _ l' oq oq' h2 h3 h4 h5 =>
            simp only [List.foldlM_cons, Heap.deref, h2, h3, Res.ok_bind]
            have r1 := (hr.child p q ⟨a, hu, hl q List.mem_cons_self⟩).2
            have r2 := (hr'.child p' q' ⟨a', hu', hl' q' List.mem_cons_self⟩).2
            rw [ih f' q q' oq oq' h2 (by omega) h3 (by omega) h4]
            congr 1
            funext acc'
            exact ihl l' acc' h5 (fun x hx => hl x (List.mem_cons_of_mem _ hx))
              (fun x hx => hl' x (List.mem_cons_of_mem _ hx))
      exact key a.prims a'.prims false hp (fun _ h => h) (fun _ h => h)

section
variable {h h' : Heap α} (ha : Acyclic h) (ha' : Acyclic h') {p p' : Ptr} {o o' : Obj α} (ho : h[p]? = some o)
  (ho' : h'[p']? = some o') (s : Alike h h' o o')

include ha ha' ho ho' s

theorem pointIsInside_alike (pt : V3 α) : h.pointIsInside o pt = h'.pointIsInside o' pt := by
  obtain ⟨rank, hr⟩ := exists_ranked ha
  obtain ⟨rank', hr'⟩ := exists_ranked ha'
  have h1 := hr.bound p (List.getElem?_eq_some_iff.mp ho).1
  have h2 := hr'.bound p' (List.getElem?_eq_some_iff.mp ho').1
  exact pointIsInsideAux_alike hr hr' pt _ _ p p' o o' ho (by simp only [Heap.fuel]; omega) ho'
    (by simp only [Heap.fuel]; omega) s

theorem isIntersecting_alike {u u' : Obj α} (t : Alike h h' u u') : h.isIntersecting u o = h'.isIntersecting u' o' := by
  obtain ⟨rank, hr⟩ := exists_ranked ha
  obtain ⟨rank', hr'⟩ := exists_ranked ha'
  have h1 := hr.bound p (List.getElem?_eq_some_iff.mp ho).1
  have h2 := hr'.bound p' (List.getElem?_eq_some_iff.mp ho').1
  exact isIntersectingAux_alike hr hr' t _ _ p p' o o' ho (by simp only [Heap.fuel]; omega) ho'
    (by simp only [Heap.fuel]; omega) s

theorem distanceToPoint_alike (pt m : V3 α) : h.distanceToPoint o pt m = h'.distanceToPoint o' pt m := by
  have hi := pointIsInside_alike ha ha' ho ho' s pt
  cases s with
  | plain b b' hs => rfl
  | ellipsoid e e' hs =>
    have := shape_cases hs
    simp only [Obj.mapBase, Obj.ellipsoid.injEq] at this
    rw [this]; rfl
  | hull k k' hs =>
    have := shape_cases hs
    simp only [Obj.mapBase, Obj.hull.injEq] at this
    rw [this]; rfl
  | aggregate a a' hs hp =>
    obtain ⟨h1, h2⟩ := (Alike.aggregate a a' hs hp).hulls
    simp only [Heap.distanceToPoint, hi, h1, h2]

theorem normalToAgent_alike (pt : V3 α) (m : α) : h.normalToAgent o pt m = h'.normalToAgent o' pt m := by
  have hi := pointIsInside_alike ha ha' ho ho' s pt
  cases s with
  | plain b b' hs => rfl
  | ellipsoid e e' hs =>
    have := shape_cases hs
    simp only [Obj.mapBase, Obj.ellipsoid.injEq] at this
    rw [this]; rfl
  | hull k k' hs =>
    have := shape_cases hs
    simp only [Obj.mapBase, Obj.hull.injEq] at this
    rw [this]; rfl
  | aggregate a a' hs hp =>
    obtain ⟨h1, h2⟩ := (Alike.aggregate a a' hs hp).hulls
    simp only [Heap.normalToAgent, hi, h1, h2]

theorem repulsionVector_alike (hb : o.base.refPos = o'.base.refPos) (pt : V3 α) (m : α) :
    h.repulsionVector o pt m = h'.repulsionVector o' pt m := by
  have hi := pointIsInside_alike ha ha' ho ho' s pt
  have hd := distanceToPoint_alike ha ha' ho ho' s pt
  have he := s.base_eq hb
  cases s with
  | plain b b' hs => rfl
  | ellipsoid e e' hs =>
    have := shape_cases hs
    simp only [Obj.mapBase, Obj.ellipsoid.injEq] at this
    obtain rfl : e = e' := by
      rw [this]
      simp only [Obj.base] at he
      simp only [Obj.base, he]
    rfl
  | hull k k' hs => rfl
  | aggregate a a' hs hp =>
    simp only [Obj.base] at he
    simp only [Heap.repulsionVector, Heap.repulsionFactor, hi, hd, he]

theorem generateRepulsion_alike (hb : o.base.refPos = o'.base.refPos) (pt : V3 α) (m t : α) :
    h.generateRepulsion o pt m t = h'.generateRepulsion o' pt m t := by
  simp only [Heap.generateRepulsion, Heap.distanceToAgent, distanceToPoint_alike ha ha' ho ho' s,
    repulsionVector_alike ha ha' ho ho' s hb]

theorem modulationMatrix_alike (hb : o.base.refPos = o'.base.refPos) (a a' : Agent α) (e : a.state = a'.state)
    (em : a.margin = a'.margin) : Modulation.modulationMatrix h a o = Modulation.modulationMatrix h' a' o' := by
  simp only [Modulation.modulationMatrix, Heap.distanceToAgent, distanceToPoint_alike ha ha' ho ho' s,
    normalToAgent_alike ha ha' ho ho' s, s.base_eq hb, e, em]

omit ha ha' ho ho' in
theorem isClosed_alike : o.isClosed = o'.isClosed := by
  cases s with
  | plain b b' hs => rfl
  | ellipsoid e e' hs => rfl
  | hull k k' hs =>
    have := shape_cases hs
    simp only [Obj.mapBase, Obj.hull.injEq] at this
    rw [this]; rfl
  | aggregate a a' hs hp =>
    obtain ⟨-, h2⟩ := (Alike.aggregate a a' hs hp).hulls
    simp only [Obj.isClosed, h2]

omit ha ha' ho ho' in
theorem intersectionPoints_alike : o.intersectionPoints = o'.intersectionPoints := by
  cases s with
  | ellipsoid e e' hs =>
    rw [← intersectionPoints_shape (.ellipsoid e), hs, intersectionPoints_shape]
  | _ => rfl

omit ha ha' ho ho' in
theorem name_alike : o.name = o'.name := by
  have := congrArg Base.name s.base
  exact this

omit ha ha' ho ho' in
theorem position_alike : o.position = o'.position := by
  have := congrArg (fun b : Base α => b.state.position) s.base
  exact this

end

end DOA

namespace DOA
open DOA.Spec

variable {α : Type} [Add α] [Sub α] [Mul α] [Div α] [Neg α] [Zero α] [One α]
  [LE α] [LT α] [DecidableLE α] [DecidableLT α] [CMath α]

/-- Every object of `h` is still there, up to its reference position. -/
def Keeps (h k : Heap α) : Prop := ∀ (p : Ptr) (o : Obj α), h[p]? = some o → ∃ o1, k[p]? = some o1 ∧ shape o1 = shape o

theorem Keeps.refl (h : Heap α) : Keeps h h := fun _ o ho => ⟨o, ho, rfl⟩

theorem Keeps.trans {h1 h2 h3 : Heap α} (s : Keeps h1 h2) (t : Keeps h2 h3) : Keeps h1 h3 := by
  intro p o ho
  obtain ⟨o1, h4, h5⟩ := s p o ho
  obtain ⟨o2, h6, h7⟩ := t p o1 h4
  exact ⟨o2, h6, h7.trans h5⟩

theorem _root_.DOA.Spec.SameShape.keeps {h k : Heap α} (s : SameShape h k) : Keeps h k := fun _ _ ho => s.get ho

theorem ShapeExt.keeps {h k : Heap α} (s : ShapeExt h k) : Keeps h k := fun _ _ ho => s.get ho

namespace Spec

theorem Alike.reshape {h h' : Heap α} {o o' u u' : Obj α} (s : Alike h h' o o') (hu : shape u = shape o)
    (hu' : shape u' = shape o') : Alike h h' u u' := by
  rw [shape_cases hu, shape_cases hu']
  cases s with
  | plain b b' hs => exact .plain _ _ hs
  | ellipsoid b b' hs => exact .ellipsoid _ _ hs
  | hull b b' hs => exact .hull _ _ hs
  | aggregate a a' hs hp => exact .aggregate _ _ hs hp

mutual
  theorem Alike.keeps {h h' k k' : Heap α} (s : Keeps h k) (s' : Keeps h' k') {o o' : Obj α} :
      Alike h h' o o' → Alike k k' o o'
    | .plain b b' hs => .plain b b' hs
    | .ellipsoid b b' hs => .ellipsoid b b' hs
    | .hull b b' hs => .hull b b' hs
    | .aggregate a a' hs hp => .aggregate a a' hs (AlikeAll.keeps s s' hp)
  theorem AlikeAll.keeps {h h' k k' : Heap α} (s : Keeps h k) (s' : Keeps h' k') {l l' : List Ptr} :
      AlikeAll h h' l l' → AlikeAll k k' l l'
    | .nil => .nil
    | .cons p p' ps ps' o o' h1 h2 h3 h4 => by
      obtain ⟨u, hu, hs⟩ := s p o h1
      obtain ⟨u', hu', hs'⟩ := s' p' o' h2
      exact .cons p p' ps ps' u u' hu hu' ((Alike.keeps s s' h3).reshape hs hs') (AlikeAll.keeps s s' h4)
end

mutual
  theorem Alike.trans {h1 h2 h3 : Heap α} {o1 o2 o3 : Obj α} : Alike h1 h2 o1 o2 → Alike h2 h3 o2 o3 → Alike h1 h3 o1 o3
    | .plain _ _ hs, .plain _ _ ht => .plain _ _ (hs.trans ht)
    | .ellipsoid _ _ hs, .ellipsoid _ _ ht => .ellipsoid _ _ (hs.trans ht)
    | .hull _ _ hs, .hull _ _ ht => .hull _ _ (hs.trans ht)
    | .aggregate _ _ hs hp, .aggregate _ _ ht hq => .aggregate _ _ (hs.trans ht) (AlikeAll.trans hp hq)
  theorem AlikeAll.trans {h1 h2 h3 : Heap α} {l1 l2 l3 : List Ptr} :
      AlikeAll h1 h2 l1 l2 → AlikeAll h2 h3 l2 l3 → AlikeAll h1 h3 l1 l3
    | .nil, .nil => .nil
    | .cons p _ _ _ o _ e1 e2 e3 e4, .cons _ r _ _ _ v f1 f2 f3 f4 => by
      rw [e2] at f1
      cases f1
      exact .cons p r _ _ o v e1 f2 (Alike.trans e3 f3) (AlikeAll.trans e4 f4)
end

mutual
  theorem Alike.symm {h h' : Heap α} {o o' : Obj α} : Alike h h' o o' → Alike h' h o' o
    | .plain _ _ hs => .plain _ _ hs.symm
    | .ellipsoid _ _ hs => .ellipsoid _ _ hs.symm
    | .hull _ _ hs => .hull _ _ hs.symm
    | .aggregate _ _ hs hp => .aggregate _ _ hs.symm (AlikeAll.symm hp)
  theorem AlikeAll.symm {h h' : Heap α} {l l' : List Ptr} : AlikeAll h h' l l' → AlikeAll h' h l' l
    | .nil => .nil
    | .cons p p' _ _ o o' e1 e2 e3 e4 => .cons p' p _ _ o' o e2 e1 (Alike.symm e3) (AlikeAll.symm e4)
end

/-- Every object of a heap without cycles is like itself. -/
theorem alike_refl {h : Heap α} (ha : Acyclic h) : ∀ (p : Ptr) (o : Obj α), h[p]? = some o → Alike h h o o := by
  obtain ⟨rank, hr⟩ := ha
  intro p
  induction hn : rank p using Nat.strong_induction_on generalizing p with
  | _ n ih =>
    intro o ho
    cases o with
    | plain b => exact .plain _ _ rfl
    | ellipsoid b => exact .ellipsoid _ _ rfl
    | hull b => exact .hull _ _ rfl
    | aggregate a =>
      refine .aggregate _ _ rfl ?_
      have key : ∀ l : List Ptr, (∀ q ∈ l, q ∈ a.prims) → AlikeAll h h l l := by
        intro l
        induction l with
        | nil => intro _; exact .nil
        | cons q l ihl =>
          intro hl
          have hc := hr p q ⟨a, ho, hl q List.mem_cons_self⟩
          have hq := List.getElem?_eq_getElem hc.1
          exact .cons q q l l _ _ hq hq (ih (rank q) (hn ▸ hc.2) q rfl _ hq)
            (ihl fun x hx => hl x (List.mem_cons_of_mem _ hx))
      exact key a.prims fun _ h => h

theorem acyclic_sameShape {h k : Heap α} (s : SameShape h k) (ha : Acyclic h) : Acyclic k := by
  obtain ⟨rank, hr⟩ := ha
  refine ⟨rank, ?_⟩
  rintro p q ⟨a, hp, hq⟩
  obtain ⟨o, h1, h2⟩ := s.symm.get hp
  obtain ⟨b, rfl, hb⟩ := prims_of_shape h2
  rw [s.length]
  exact hr p q ⟨b, h1, hb ▸ hq⟩

end Spec

/-! ### `modulate_velocity` -/

namespace Modulation

/-- What `modulate_velocity` stores for one obstacle. -/
def plainItem (h : Heap α) (a : Agent α) (p : Ptr) : Res (Item α) := do
  let o ← h.deref p
  let m ← modulationMatrix h a o
  .ok { base := o.base, matrix := m.1, basis := m.2.1, dist := m.2.2 }

theorem collect_plain (a : Agent α) (h : Heap α) (l : List Ptr) :
    collect false a h l = (l.mapM (plainItem h a)) >>= fun its => .ok (h, its) := by
  induction l with
  | nil => rfl
  | cons p l ih =>
    simp only [collect, Bool.false_eq_true, if_false, List.mapM_cons, ih, plainItem, Res.ok_bind, bind_assoc,
      Res.pure_eq]

theorem mapM_forall₂ {β γ δ : Type} {f : β → Res δ} {g : γ → Res δ} {l : List β} {l' : List γ}
    (h : List.Forall₂ (fun b c => f b = g c) l l') : l.mapM f = l'.mapM g := by
  induction h with
  | nil => rfl
  | cons h1 _ ih => simp only [List.mapM_cons, h1, ih]

theorem foldlM_forall₂ {β γ δ : Type} {f : δ → β → Res δ} {g : δ → γ → Res δ} {l : List β} {l' : List γ}
    (h : List.Forall₂ (fun b c => ∀ x, f x b = g x c) l l') : ∀ x, l.foldlM f x = l'.foldlM g x := by
  induction h with
  | nil => intro x; rfl
  | cons h1 _ ih =>
    intro x
    simp only [List.foldlM_cons, h1]
    congr 1
    funext y
    exact ih y

theorem alike_shifted {h h' : Heap α} {o o' : Obj α} (s : Alike h h' o o') (hr : o.base.refPos = o'.base.refPos)
    (x v : V3 α) : Alike h h' (shifted x v o) (shifted x v o') ∧
      (shifted x v o).base.refPos = (shifted x v o').base.refPos := by
  refine ⟨s.reshape (shape_shifted x v o) (shape_shifted x v o'), ?_⟩
  have hi := intersectionPoints_alike s
  cases s with
  | ellipsoid e e' hs =>
    have h1 : e.intersectionPoints x (x + v) = e'.intersectionPoints x (x + v) := congrFun (congrFun hi x) (x + v)
    simp only [shifted, h1]
    split
    · rfl
    · exact hr
  | _ => exact hr

theorem plainItem_twin {h h' : Heap α} (ha : Acyclic h) (ha' : Acyclic h') {p p' : Ptr} (t : Twin h h' p p')
    {a a' : Agent α} (e : a.state = a'.state) (em : a.margin = a'.margin) : plainItem h a p = plainItem h' a' p' := by
  obtain ⟨o, o', h1, h2, h3, h4⟩ := t
  simp only [plainItem, Heap.deref, h1, h2, Res.ok_bind, modulationMatrix_alike ha ha' h1 h2 h4 h3 a a' e em,
    h4.base_eq h3]

theorem shiftedItem_twin {h h' : Heap α} (ha : Acyclic h) (ha' : Acyclic h') {p p' : Ptr} (t : Twin h h' p p')
    {a a' : Agent α} (e : a.state = a'.state) (em : a.margin = a'.margin) : shiftedItem h a p = shiftedItem h' a' p' := by
  obtain ⟨o, o', h1, h2, h3, h4⟩ := t
  have g1 := sameShape_set h1 a.state.position a.state.linearVelocity
  have g2 := sameShape_set h2 a.state.position a.state.linearVelocity
  obtain ⟨h5, h6⟩ := alike_shifted h4 h3 a.state.position a.state.linearVelocity
  have l1 := (List.getElem?_eq_some_iff.mp h1).1
  have l2 := (List.getElem?_eq_some_iff.mp h2).1
  simp only [shiftedItem, Heap.deref, h1, h2, Res.ok_bind, ← e]
  rw [← modulationMatrix_heap g1, ← modulationMatrix_heap g2,
    modulationMatrix_alike (acyclic_sameShape g1 ha) (acyclic_sameShape g2 ha') (p := p) (p' := p')
      (by rw [List.getElem?_set_self l1]) (by rw [List.getElem?_set_self l2]) (h5.keeps g1.keeps g2.keeps) h6 a a' e em,
    h5.base_eq h6]

theorem twin_shiftAll {h h' : Heap α} {p p' : Ptr} (t : Twin h h' p p') (x v : V3 α) {l l' : List Ptr}
    (hp : p ∈ l) (hp' : p' ∈ l') : Twin (shiftAll h x v l) (shiftAll h' x v l') p p' := by
  obtain ⟨o, o', h1, h2, h3, h4⟩ := t
  obtain ⟨h5, h6⟩ := alike_shifted h4 h3 x v
  refine ⟨shifted x v o, shifted x v o', ?_, ?_, h6,
    h5.keeps (sameShape_shiftAll h x v l).keeps (sameShape_shiftAll h' x v l').keeps⟩
  · rw [getElem?_shiftAll, h1]; simp [hp]
  · rw [getElem?_shiftAll, h2]; simp [hp']

theorem repulsionSum_twins {h h' : Heap α} (ha : Acyclic h) (ha' : Acyclic h') {l l' : List Ptr} (t : Twins h h' l l')
    {a a' : Agent α} (e : a.state = a'.state) (em : a.margin = a'.margin) :
    repulsionSum h a l = repulsionSum h' a' l' := by
  refine foldlM_forall₂ (t.imp ?_) V3.zero
  rintro p p' ⟨o, o', h1, h2, h3, h4⟩ x
  simp only [Heap.deref, h1, h2, Res.ok_bind, e, em, generateRepulsion_alike ha ha' h1 h2 h4 h3]

theorem isIntersectingList_twins {h h' : Heap α} (ha : Acyclic h) (ha' : Acyclic h') {l l' : List Ptr}
    (t : Twins h h' l l') {u u' : Obj α} (s : Alike h h' u u') :
    h.isIntersectingList u l = h'.isIntersectingList u' l' := by
  refine foldlM_forall₂ (t.imp ?_) false
  rintro p p' ⟨o, o', h1, h2, -, h4⟩ x
  simp only [Heap.deref, h1, h2, Res.ok_bind, isIntersecting_alike ha ha' h1 h2 h4 s]

theorem forall₂_mem {β γ : Type} {R : β → γ → Prop} {l : List β} {l' : List γ} (h : List.Forall₂ R l l') :
    List.Forall₂ (fun b c => R b c ∧ b ∈ l ∧ c ∈ l') l l' := by
  induction h with
  | nil => exact .nil
  | cons h1 _ ih =>
    exact .cons ⟨h1, List.mem_cons_self, List.mem_cons_self⟩
      (ih.imp fun _ _ ⟨h2, h3, h4⟩ => ⟨h2, List.mem_cons_of_mem _ h3, List.mem_cons_of_mem _ h4⟩)

/-- The loop over the obstacles in two heaps: same items, and afterwards the lists are twins again. -/
theorem collect_twins {h h' : Heap α} (ha : Acyclic h) (ha' : Acyclic h') {l l' : List Ptr} (t : Twins h h' l l')
    {a a' : Agent α} (e : a.state = a'.state) (em : a.margin = a'.margin) (planar : Bool) :
    ∃ (k k' : Heap α) (r : Res (List (Item α))), Acyclic k ∧ Acyclic k' ∧ Twins k k' l l' ∧ SameShape h k ∧ SameShape h' k' ∧
      (collect planar a h l = r >>= fun its => .ok (k, its)) ∧
      (collect planar a' h' l' = r >>= fun its => .ok (k', its)) := by
  cases planar with
  | false =>
    refine ⟨h, h', l.mapM (plainItem h a), ha, ha', t, SameShape.refl _, SameShape.refl _, collect_plain a h l, ?_⟩
    rw [collect_plain, mapM_forall₂ (t.imp fun _ _ ht => plainItem_twin ha ha' ht e em)]
  | true =>
    have g1 := sameShape_shiftAll h a.state.position a.state.linearVelocity l
    have g2 := sameShape_shiftAll h' a.state.position a.state.linearVelocity l'
    refine ⟨_, _, l.mapM (shiftedItem h a), acyclic_sameShape g1 ha, acyclic_sameShape g2 ha',
      (forall₂_mem t).imp fun _ _ ht => twin_shiftAll ht.1 _ _ ht.2.1 ht.2.2, g1, g2, collect_true a l h, ?_⟩
    rw [collect_true, mapM_forall₂ (t.imp fun _ _ ht => shiftedItem_twin ha ha' ht e em), ← e]

end Modulation
end DOA
