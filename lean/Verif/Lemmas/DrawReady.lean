import Verif.Lemmas.Aggregation
import Verif.Lemmas.Combine
import Verif.Props.Plotting

/-!
# Aggregation keeps all obstacles drawable
-/

set_option linter.unusedSectionVars false

namespace DOA
open DOA.Props Aggregation

variable {α : Type} [Add α] [Sub α] [Mul α] [Div α] [Neg α] [Zero α] [One α]
  [LE α] [LT α] [DecidableLE α] [DecidableLT α] [CMath α]

/-- Every object of the heap satisfies `P`. -/
def Every (P : Ptr → Obj α → Prop) (h : Heap α) : Prop := ∀ (p : Ptr) o, h[p]? = some o → P p o

theorem Every.mono {P Q : Ptr → Obj α → Prop} {h : Heap α} (hP : Every P h) (hi : ∀ p o, P p o → Q p o) : Every Q h :=
  fun p o ho => hi p o (hP p o ho)

theorem Every.set {P : Ptr → Obj α → Prop} {h : Heap α} (hP : Every P h) {q : Ptr} {o' : Obj α} (ho' : P q o') :
    Every P (h.set q o') := by
  intro p o ho
  by_cases hq : q = p
  · subst hq
    rw [List.getElem?_set_self'] at ho
    cases hh : h[q]? with
    | none => rw [hh] at ho; cases ho
    | some x => rw [hh] at ho; cases ho; exact ho'
  · rw [List.getElem?_set_ne hq] at ho
    exact hP p o ho

theorem deref_some {h : Heap α} {p : Ptr} {o : Obj α} (hd : h.deref p = .ok o) : h[p]? = some o := by
  unfold Heap.deref at hd
  split at hd
  · next o' ho => cases hd; exact ho
  · cases hd

theorem foldlM_keeps {σ β : Type} {f : σ → β → Res σ} {I : σ → Prop} (hf : ∀ s b s', I s → f s b = .ok s' → I s') :
    ∀ (l : List β) (s s' : σ), I s → l.foldlM f s = .ok s' → I s' := by
  intro l
  induction l with
  | nil => intro s s' hs h; cases h; exact hs
  | cons b l ih =>
    intro s s' hs h
    rw [List.foldlM_cons] at h
    obtain ⟨s1, h1, h2⟩ := Res.bind_eq_ok.mp h
    exact ih s1 s' (hf s b s1 hs h1) h2

/-- `set_reference_position` keeps what does not depend on the reference position. -/
theorem setRefAux_every {P : Ptr → Obj α → Prop} {v : V3 α} (hc : ∀ p o, P p o → P p (o.mapBase (·.setRef v))) :
    ∀ (fuel : Nat) (h h' : Heap α) (p : Ptr), Every P h → Heap.setRefAux fuel h p v = .ok h' → Every P h' := by
  intro fuel
  induction fuel with
  | zero => intro h h' p _ hr; cases hr
  | succ fuel ih =>
    intro h h' p hP hr
    rw [Heap.setRefAux] at hr
    obtain ⟨o, ho, hr⟩ := Res.bind_eq_ok.mp hr
    have h1 : Every P (h.set p (o.mapBase (·.setRef v))) := hP.set (hc p o (hP p o (deref_some ho)))
    cases o with
    | aggregate a => exact foldlM_keeps (fun s b s' hs hf => ih s s' b hs hf) _ _ _ h1 hr
    | plain b => cases hr; exact h1
    | ellipsoid b => cases hr; exact h1
    | hull b => cases hr; exact h1

/-- After `set_reference_position` the object has a reference position. -/
theorem setRef_sets {h h' : Heap α} {p : Ptr} {v : V3 α} (hr : h.setRef p v = .ok h') :
    ∀ o, h'[p]? = some o → ∃ r, o.base.refPos = some r := by
  have hm : ∀ o : Obj α, (o.mapBase (·.setRef v)).base.refPos = some v := by intro o; cases o <;> rfl
  have : Every (fun q o => q = p → ∃ r, o.base.refPos = some r) h' := by
    unfold Heap.setRef Heap.fuel at hr
    rw [Heap.setRefAux] at hr
    obtain ⟨o, ho, hr⟩ := Res.bind_eq_ok.mp hr
    have h1 : Every (fun q o => q = p → ∃ r, o.base.refPos = some r) (h.set p (o.mapBase (·.setRef v))) := by
      intro q o' ho' hq
      subst hq
      rw [List.getElem?_set_self', deref_some ho] at ho'
      cases ho'
      exact ⟨v, hm o⟩
    cases o with
    | aggregate a =>
      refine foldlM_keeps (fun s b s' hs hf => ?_) _ _ _ h1 hr
      exact setRefAux_every (fun _ o _ _ => ⟨v, hm o⟩) _ s s' b hs hf
    | plain b => cases hr; exact h1
    | ellipsoid b => cases hr; exact h1
    | hull b => cases hr; exact h1
  exact fun o ho => this p o ho rfl

/-- `k` is a hull as aggregates create it (resolution 500, minimum radius 1/2, no margin) on which nothing but
computations from primitives have been run. -/
inductive Computed (b : Bool) : Hull α → Prop where
  | new : Computed b (Hull.mk' b 500 (lit 1 2))
  | step {k k' : Hull α} {prims : List (Oracle α)} {ref : V3 α} :
      Computed b k → k.compute prims ref = .ok k' → Computed b k'

theorem Computed.keeps {b : Bool} {k : Hull α} (h : Computed b k) :
    HullOK k ∧ k.isInside = b ∧ k.resolution = 500 ∧ k.minRadius = lit 1 2 ∧ k.base.margin = V3.const 0 := by
  induction h with
  | new => exact ⟨hullOK_mk' b (by norm_num) _, rfl, rfl, rfl, rfl⟩
  | step _ hc ih =>
    obtain ⟨h1, h2, h3, h4, h5⟩ := ih
    obtain ⟨k', e, g1, g2, g3, g4, -, -, g5⟩ := compute_ok h1 _ _
    rw [hc] at e; cases e
    exact ⟨g1, g3.trans h2, g2.trans h3, g4.trans h4, g5.trans h5⟩

/-- The hulls of an aggregate that has been created and computed by the aggregation. -/
def AggNew (a : Aggregate α) : Prop := Computed true a.inside ∧ Computed false a.outside

/-- Drawable, and the hulls of new aggregates can be recomputed. -/
def Good (n : Nat) (p : Ptr) (o : Obj α) : Prop :=
  Drawable o ∧ (n ≤ p → ∀ a, o = .aggregate a → AggNew a)

/-- The same for an aggregate that has just been created. -/
def Fresh (p : Ptr) (q : Ptr) (o : Obj α) : Prop :=
  q = p → ∀ a, o = .aggregate a → AggNew a

theorem good_setRef {n : Nat} {p : Ptr} {o : Obj α} {v : V3 α} (h : Good n p o) : Good n p (o.mapBase (·.setRef v)) := by
  obtain ⟨h1, h2⟩ := h
  cases o with
  | plain b => exact ⟨trivial, fun _ a ha => by cases ha⟩
  | ellipsoid e => exact ⟨⟨v, rfl⟩, fun _ a ha => by cases ha⟩
  | hull k => exact ⟨⟨h1.1, v, rfl⟩, fun _ a ha => by cases ha⟩
  | aggregate ag => exact ⟨⟨⟨v, rfl⟩, h1.2⟩, fun hn a ha => by cases ha; exact h2 hn ag rfl⟩

theorem fresh_setRef {p q : Ptr} {o : Obj α} {v : V3 α} (h : Fresh p q o) : Fresh p q (o.mapBase (·.setRef v)) := by
  intro hq a ha
  cases o with
  | aggregate ag => cases ha; exact h hq ag rfl
  | _ => cases ha

theorem updateHull_good {n : Nat} {h h' : Heap α} {p : Ptr} (hb : Every (fun q o => q ≠ p → Good n q o) h)
    (hf : Every (Fresh p) h) (hr : h.updateHull p = .ok h') : Every (Good n) h' := by
  unfold Heap.updateHull at hr
  obtain ⟨o, ho, hr⟩ := Res.bind_eq_ok.mp hr
  cases o with
  | aggregate a =>
    simp only [Res.bind_eq_ok] at hr
    obtain ⟨prims, hp, ref, href, i, hi, k, hk, hr⟩ := hr
    obtain ⟨hi0, hk0⟩ := hf p _ (deref_some ho) rfl a rfl
    obtain ⟨i', hi', hiok, -, -, -, hiref, -⟩ := compute_ok hi0.keeps.1 (prims.map Obj.intersectionPoints) ref
    obtain ⟨k', hk', hkok, -, -, -, hkref, -⟩ := compute_ok hk0.keeps.1 (prims.map Obj.intersectionPoints) ref
    rw [hi] at hi'; cases hi'
    rw [hk] at hk'; cases hk'
    cases hr
    have hset : Every (fun q o => q ≠ p → Good n q o) (h.set p (.aggregate { a with inside := i, outside := k })) :=
      hb.set (fun hq => absurd rfl hq)
    intro q o hq
    by_cases hqp : q = p
    · subst hqp
      rw [List.getElem?_set_self', deref_some ho] at hq
      cases hq
      refine ⟨⟨?_, ⟨hiok.2.2, _, hiref⟩, ⟨hkok.2.2, _, hkref⟩⟩, fun _ a ha => by cases ha; exact ⟨.step hi0 hi, .step hk0 hk⟩⟩
      unfold Base.ref at href
      split at href
      · next r hr' => exact ⟨r, hr'⟩
      · cases href
    · exact hset q o hq hqp
  | plain b => cases hr
  | ellipsoid b => cases hr
  | hull b => cases hr

theorem installPrims_good {n : Nat} {h h' : Heap α} {p : Ptr} {ps : List Ptr} {u : Bool}
    (hb : Every (fun q o => q ≠ p → Good n q o) h) (hf : Every (Fresh p) h) (hu : u = true ∨ Every (Good n) h)
    (hr : h.installPrims p ps u = .ok h') : Every (Good n) h' := by
  unfold Heap.installPrims at hr
  obtain ⟨o, ho, hr⟩ := Res.bind_eq_ok.mp hr
  cases o with
  | aggregate a =>
    obtain ⟨sorted, hs, hr⟩ := Res.bind_eq_ok.mp hr
    simp only [] at hr
    obtain ⟨h2, h2r, hr⟩ := Res.bind_eq_ok.mp hr
    have ha0 := deref_some ho
    have hf1 := hf.set (q := p) (o' := .aggregate { a with prims := sorted.map (·.1), base := (a.base.setName (Heap.aggregateName (sorted.map (fun x => x.2.name)))).setPosition (((sorted.map (fun x => x.2.position)).foldl (fun acc v => acc + v) V3.zero).sdiv (MathTools.ofInt sorted.length)) })
      (fun _ b hb => by cases hb; exact hf p _ ha0 rfl a rfl)
    have hf2 : Every (Fresh p) h2 := setRefAux_every (P := Fresh p) (fun _ _ h => fresh_setRef h) _ _ _ _ hf1 h2r
    have hb1 := hb.set (q := p) (o' := .aggregate { a with prims := sorted.map (·.1), base := (a.base.setName (Heap.aggregateName (sorted.map (fun x => x.2.name)))).setPosition (((sorted.map (fun x => x.2.position)).foldl (fun acc v => acc + v) V3.zero).sdiv (MathTools.ofInt sorted.length)) })
      (fun hq => absurd rfl hq)
    have hb2 : Every (fun q o => q ≠ p → Good n q o) h2 :=
      setRefAux_every (fun _ _ hg hq => good_setRef (hg hq)) _ _ _ _ hb1 h2r
    cases u with
    | true => exact updateHull_good hb2 hf2 (by simpa using hr)
    | false =>
      have hg := hu.resolve_left (by simp)
      simp at hr
      subst hr
      have hg1 := hg.set (q := p) (o' := .aggregate { a with prims := sorted.map (·.1), base := (a.base.setName (Heap.aggregateName (sorted.map (fun x => x.2.name)))).setPosition (((sorted.map (fun x => x.2.position)).foldl (fun acc v => acc + v) V3.zero).sdiv (MathTools.ofInt sorted.length)) })
        ⟨(hg p _ ha0).1, fun hn b hb => by cases hb; exact (hg p _ ha0).2 hn a rfl⟩
      exact setRefAux_every (P := Good n) (fun _ _ h => good_setRef h) _ _ _ _ hg1 h2r
  | plain b => cases hr
  | ellipsoid b => cases hr
  | hull b => cases hr

theorem addPrimitive_good {n : Nat} {h h' : Heap α} {p q : Ptr} {u : Bool}
    (hb : Every (fun q o => q ≠ p → Good n q o) h) (hf : Every (Fresh p) h) (hu : u = true ∨ Every (Good n) h)
    (hr : h.addPrimitive p q u = .ok h') : Every (Good n) h' := by
  unfold Heap.addPrimitive at hr
  obtain ⟨o, ho, hr⟩ := Res.bind_eq_ok.mp hr
  cases o with
  | aggregate a => exact installPrims_good hb hf hu hr
  | plain b => cases hr
  | ellipsoid b => cases hr
  | hull b => cases hr

/-- During aggregation: all objects are drawable and the aggregates under construction are new. -/
def Ready (n : Nat) (s : St α) : Prop := Every (Good n) s.heap ∧ (∀ a ∈ s.aggs, n ≤ a) ∧ n ≤ s.heap.length

theorem good_add {n : Nat} {h h' : Heap α} {p q : Ptr} {u : Bool} (hg : Every (Good n) h) (hp : n ≤ p)
    (hr : h.addPrimitive p q u = .ok h') : Every (Good n) h' :=
  addPrimitive_good (hg.mono fun _ _ h _ => h) (hg.mono fun _ _ h hq => h.2 (hq ▸ hp)) (.inr hg) hr

theorem aggAt_mem {aggs : List Ptr} {i : Int} {a : Ptr} (h : aggAt aggs i = .ok a) : a ∈ aggs := by
  unfold aggAt at h
  split at h
  · next n =>
    unfold Res.index at h
    split at h
    · next x hx => cases h; exact List.mem_of_getElem? hx
    · cases h
  · cases h

theorem setRefAux_length {v : V3 α} : ∀ (fuel : Nat) (h h' : Heap α) (p : Ptr),
    Heap.setRefAux fuel h p v = .ok h' → h'.length = h.length := by
  intro fuel
  induction fuel with
  | zero => intro h h' p hr; cases hr
  | succ fuel ih =>
    intro h h' p hr
    rw [Heap.setRefAux] at hr
    obtain ⟨o, ho, hr⟩ := Res.bind_eq_ok.mp hr
    cases o with
    | aggregate a =>
      have := foldlM_keeps (I := fun s : Heap α => s.length = h.length) (f := fun h q => Heap.setRefAux fuel h q v)
        (fun s b s' hs hf => (ih s s' b hf).trans hs) _ _ _ (by simp) hr
      exact this
    | plain b => cases hr; simp
    | ellipsoid b => cases hr; simp
    | hull b => cases hr; simp

theorem addPrimitive_length {h h' : Heap α} {p q : Ptr} {u : Bool} (hr : h.addPrimitive p q u = .ok h') :
    h'.length = h.length := by
  unfold Heap.addPrimitive at hr
  obtain ⟨o, ho, hr⟩ := Res.bind_eq_ok.mp hr
  cases o with
  | plain b => cases hr
  | ellipsoid b => cases hr
  | hull b => cases hr
  | aggregate a0 =>
    simp only [] at hr
    unfold Heap.installPrims at hr
    obtain ⟨o, ho, hr⟩ := Res.bind_eq_ok.mp hr
    cases o with
    | plain b => cases hr
    | ellipsoid b => cases hr
    | hull b => cases hr
    | aggregate a =>
      obtain ⟨sorted, hs, hr⟩ := Res.bind_eq_ok.mp hr
      simp only [] at hr
      obtain ⟨h2, h2r, hr⟩ := Res.bind_eq_ok.mp hr
      have h3 := setRefAux_length _ _ _ _ h2r
      rw [List.length_set] at h3
      cases u with
      | false => simp at hr; rw [← hr, h3]
      | true =>
        simp only [if_true] at hr
        unfold Heap.updateHull at hr
        obtain ⟨o, ho, hr⟩ := Res.bind_eq_ok.mp hr
        cases o with
        | plain b => cases hr
        | ellipsoid b => cases hr
        | hull b => cases hr
        | aggregate a =>
          simp only [Res.bind_eq_ok] at hr
          obtain ⟨prims, hp, ref, href, i, hi, k, hk, hr⟩ := hr
          cases hr
          simp [h3]

theorem mergeLoop_ready {n : Nat} {oldI newI : Int} : ∀ (L : List (Nat × Ptr)) (s s' : St α), Ready n s →
    mergeLoop oldI newI L s = .ok s' → Ready n s' := by
  intro L
  induction L with
  | nil => intro s s' hs hr; cases hr; exact hs
  | cons x L ih =>
    obtain ⟨k, p⟩ := x
    intro s s' hs hr
    rw [mergeLoop] at hr
    obtain ⟨ik, hik, hr⟩ := Res.bind_eq_ok.mp hr
    split at hr
    · obtain ⟨a, ha, hr⟩ := Res.bind_eq_ok.mp hr
      obtain ⟨h, hh, hr⟩ := Res.bind_eq_ok.mp hr
      have hl : n ≤ h.length := by rw [addPrimitive_length hh]; exact hs.2.2
      exact ih ⟨h, s.aggs, s.idx.set k newI⟩ s' ⟨good_add hs.1 (hs.2.1 a (aggAt_mem ha)) hh, hs.2.1, hl⟩ hr
    · split at hr
      · exact ih ⟨s.heap, s.aggs, s.idx.set k (ik - 1)⟩ s' hs hr
      · exact ih s s' hs hr

theorem link_ready {n : Nat} {obs : List Ptr} {i j : Nat} {pi pj : Ptr} {s s' : St α} (hs : Ready n s)
    (hr : link obs i j pi pj s = .ok s') : Ready n s' := by
  unfold link at hr
  obtain ⟨ii, hii, hr⟩ := Res.bind_eq_ok.mp hr
  obtain ⟨ij, hij, hr⟩ := Res.bind_eq_ok.mp hr
  split at hr
  · obtain ⟨a, ha, hr⟩ := Res.bind_eq_ok.mp hr
    obtain ⟨h, hh, hr⟩ := Res.bind_eq_ok.mp hr
    cases hr
    exact ⟨good_add hs.1 (hs.2.1 a (aggAt_mem ha)) hh, hs.2.1, by show n ≤ h.length; rw [addPrimitive_length hh]; exact hs.2.2⟩
  · split at hr
    · obtain ⟨a, ha, hr⟩ := Res.bind_eq_ok.mp hr
      obtain ⟨h, hh, hr⟩ := Res.bind_eq_ok.mp hr
      cases hr
      exact ⟨good_add hs.1 (hs.2.1 a (aggAt_mem ha)) hh, hs.2.1, by show n ≤ h.length; rw [addPrimitive_length hh]; exact hs.2.2⟩
    · split at hr
      · simp only [] at hr
        obtain ⟨h1, hh1, hr⟩ := Res.bind_eq_ok.mp hr
        obtain ⟨h2, hh2, hr⟩ := Res.bind_eq_ok.mp hr
        cases hr
        have key : ∀ (q : Ptr) o, s.heap.newAggregate.1[q]? = some o →
            (s.heap[q]? = some o ∧ q < s.heap.length) ∨ (q = s.heap.length ∧ o = .aggregate Aggregate.default) := by
          intro q o ho
          unfold Heap.newAggregate at ho
          simp only [] at ho
          rcases lt_trichotomy q s.heap.length with hq | hq | hq
          · rw [List.getElem?_append_left hq] at ho
            exact .inl ⟨ho, hq⟩
          · subst hq
            rw [List.getElem?_append_right le_rfl] at ho
            simp at ho
            exact .inr ⟨rfl, ho.symm⟩
          · rw [List.getElem?_eq_none (by simp; omega)] at ho
            cases ho
        have g1 : Every (Good n) h1 := by
          refine addPrimitive_good (p := s.heap.length) ?_ ?_ (.inl rfl) hh1
          · intro q o ho hq
            rcases key q o ho with ⟨h, -⟩ | ⟨h, -⟩
            · exact hs.1 q o h
            · exact absurd h hq
          · intro q o ho hq a ha
            rcases key q o ho with ⟨-, h⟩ | ⟨-, h⟩
            · exact absurd (hq ▸ h) (lt_irrefl _)
            · rw [h] at ha; cases ha; exact ⟨.new, .new⟩
        refine ⟨good_add g1 hs.2.2 hh2, ?_, ?_⟩
        · intro a ha
          rcases List.mem_append.mp ha with ha | ha
          · exact hs.2.1 a ha
          · simp [Heap.newAggregate] at ha; subst ha; exact hs.2.2
        · show n ≤ h2.length
          rw [addPrimitive_length hh2, addPrimitive_length hh1]
          have := hs.2.2
          simp [Heap.newAggregate]; omega
      · split at hr
        · obtain ⟨s1, h1, hr⟩ := Res.bind_eq_ok.mp hr
          have hs1 := mergeLoop_ready _ _ _ hs h1
          split at hr
          · split at hr
            · cases hr
              exact ⟨hs1.1, fun a ha => hs1.2.1 a (List.mem_of_mem_eraseIdx ha), hs1.2.2⟩
            · cases hr
          · cases hr
        · cases hr; exact hs

theorem innerLoop_ready {n : Nat} {obs : List Ptr} {i : Nat} {pi : Ptr} : ∀ (L : List (Nat × Ptr)) (s s' : St α), Ready n s →
    innerLoop obs i pi L s = .ok s' → Ready n s' := by
  intro L
  induction L with
  | nil => intro s s' hs hr; cases hr; exact hs
  | cons x L ih =>
    obtain ⟨j, pj⟩ := x
    intro s s' hs hr
    rw [innerLoop] at hr
    obtain ⟨s1, h1, hr⟩ := Res.bind_eq_ok.mp hr
    refine ih s1 s' ?_ hr
    unfold pairStep at h1
    obtain ⟨oi, -, h1⟩ := Res.bind_eq_ok.mp h1
    obtain ⟨oj, -, h1⟩ := Res.bind_eq_ok.mp h1
    obtain ⟨b, -, h1⟩ := Res.bind_eq_ok.mp h1
    split at h1
    · exact link_ready hs h1
    · cases h1; exact hs

theorem outerLoop_ready {n : Nat} {obs : List Ptr} : ∀ (L : List (Nat × Ptr)) (s s' : St α), Ready n s →
    outerLoop obs L s = .ok s' → Ready n s' := by
  intro L
  induction L with
  | nil => intro s s' hs hr; cases hr; exact hs
  | cons x L ih =>
    obtain ⟨i, pi⟩ := x
    intro s s' hs hr
    rw [outerLoop] at hr
    obtain ⟨s1, h1, hr⟩ := Res.bind_eq_ok.mp hr
    exact ih s1 s' (innerLoop_ready L s s1 hs h1) hr

/-- If all obstacles can be drawn, they and the new aggregates can be drawn after aggregation. -/
theorem aggregate_drawable {h h' : Heap α} {obs l : List Ptr} (hd : ∀ (p : Ptr) o, h[p]? = some o → Drawable o)
    (hr : aggregateObstacles h obs = .ok (h', l)) : ∀ (p : Ptr) o, h'[p]? = some o → Drawable o := by
  unfold aggregateObstacles at hr
  obtain ⟨s, hs, hr⟩ := Res.bind_eq_ok.mp hr
  obtain ⟨h1, hh, hr⟩ := Res.bind_eq_ok.mp hr
  cases hr
  have hs' : Ready h.length s := outerLoop_ready _ _ _
    ⟨fun p o ho => ⟨hd p o ho, fun hn => absurd (List.getElem?_eq_some_iff.mp ho).1 (not_lt.mpr hn)⟩, by simp, le_rfl⟩ hs
  unfold updateHulls at hh
  have key : ∀ (L : List Ptr) (g g' : Heap α), (∀ a ∈ L, h.length ≤ a) → Every (Good h.length) g →
      L.foldlM (fun h p => Heap.updateHull h p) g = .ok g' → Every (Good h.length) g' := by
    intro L
    induction L with
    | nil => intro g g' _ hg hr; cases hr; exact hg
    | cons a L ih =>
      intro g g' hL hg hr
      rw [List.foldlM_cons] at hr
      obtain ⟨g1, h1, h2⟩ := Res.bind_eq_ok.mp hr
      refine ih g1 g' (fun b hb => hL b (by simp [hb])) ?_ h2
      exact updateHull_good (hg.mono fun _ _ h _ => h) (hg.mono fun _ _ h hq => h.2 (hq ▸ hL a (by simp))) h1
  exact fun p o ho => (key _ _ _ hs'.2.1 hs'.1 hh p o ho).1

/-- The hulls of the aggregate `a` are those of its members as they are in the heap `h`, around its reference
position, computed on hulls that had only seen other computations. -/
def HullsOf (h : Heap α) (a : Aggregate α) : Prop :=
  ∃ (r : V3 α) (os : List (Obj α)) (ki ko : Hull α), a.base.refPos = some r ∧
    List.Forall₂ (fun (q : Ptr) o => h[q]? = some o) a.prims os ∧ Computed true ki ∧ Computed false ko ∧
    ki.compute (os.map Obj.intersectionPoints) r = .ok a.inside ∧
    ko.compute (os.map Obj.intersectionPoints) r = .ok a.outside

theorem forall₂_imp_mem {β γ : Type} {R S : β → γ → Prop} {l : List β} {r : List γ} (h : List.Forall₂ R l r)
    (hi : ∀ q ∈ l, ∀ o, R q o → S q o) : List.Forall₂ S l r := by
  induction h with
  | nil => exact .nil
  | cons h1 _ ih => exact .cons (hi _ (by simp) _ h1) (ih fun q hq => hi q (by simp [hq]))

theorem updateHull_frame {h h' : Heap α} {p : Ptr} (hr : h.updateHull p = .ok h') {q : Ptr} (hq : q ≠ p) :
    h'[q]? = h[q]? := by
  unfold Heap.updateHull at hr
  obtain ⟨o, ho, hr⟩ := Res.bind_eq_ok.mp hr
  cases o with
  | aggregate a =>
    simp only [Res.bind_eq_ok] at hr
    obtain ⟨prims, hp, ref, href, i, hi, k, hk, hr⟩ := hr
    cases hr
    exact List.getElem?_set_ne (Ne.symm hq)
  | plain b => cases hr
  | ellipsoid b => cases hr
  | hull b => cases hr

theorem updateHulls_frame : ∀ (L : List Ptr) (h h' : Heap α), updateHulls L h = .ok h' → ∀ q ∉ L, h'[q]? = h[q]? := by
  intro L
  induction L with
  | nil => intro h h' hr q _; cases hr; rfl
  | cons p L ih =>
    intro h h' hr q hq
    unfold updateHulls at hr
    rw [List.foldlM_cons] at hr
    obtain ⟨h1, e1, e2⟩ := Res.bind_eq_ok.mp hr
    simp only [List.mem_cons, not_or] at hq
    rw [ih h1 h' e2 q hq.2, updateHull_frame e1 hq.1]

theorem updateHull_current {h h' : Heap α} {p : Ptr} (hf : Every (Fresh p) h) (hr : h.updateHull p = .ok h')
    {a : Aggregate α} (ha : h'[p]? = some (.aggregate a)) (hm : p ∉ a.prims) : HullsOf h' a := by
  have hframe := fun q => updateHull_frame hr (q := q)
  unfold Heap.updateHull at hr
  obtain ⟨o, ho, hr⟩ := Res.bind_eq_ok.mp hr
  cases o with
  | aggregate a0 =>
    simp only [Res.bind_eq_ok] at hr
    obtain ⟨prims, hp, ref, href, i, hi, k, hk, hr⟩ := hr
    obtain ⟨hi0, hk0⟩ := hf p _ (deref_some ho) rfl a0 rfl
    cases hr
    rw [List.getElem?_set_self', deref_some ho] at ha
    cases ha
    refine ⟨ref, prims, _, _, ?_, ?_, hi0, hk0, hi, hk⟩
    · show a0.base.refPos = some ref
      unfold Base.ref at href
      split at href
      · next r hr' => cases href; exact hr'
      · cases href
    · refine forall₂_imp_mem ((Modulation.mapM_ok _ _ _).mp hp) fun q hq o ho' => ?_
      rw [hframe q (fun he => hm (he ▸ hq))]
      exact deref_some ho'
  | plain b => cases hr
  | ellipsoid b => cases hr
  | hull b => cases hr

theorem updateHulls_current {n : Nat} : ∀ (L : List Ptr) (h h' : Heap α), (∀ a ∈ L, n ≤ a) → Every (Good n) h →
    updateHulls L h = .ok h' → ∀ p ∈ L, ∀ a : Aggregate α, h'[p]? = some (.aggregate a) → (∀ q ∈ a.prims, q ∉ L) →
    HullsOf h' a := by
  intro L
  induction L with
  | nil => intro h h' _ _ _ p hp; cases hp
  | cons p0 L ih =>
    intro h h' hL hg hr p hp a ha hm
    unfold updateHulls at hr
    rw [List.foldlM_cons] at hr
    obtain ⟨h1, e1, e2⟩ := Res.bind_eq_ok.mp hr
    have hf : Every (Fresh p0) h := hg.mono fun _ _ h hq => h.2 (hq ▸ hL p0 (by simp))
    have hg1 : Every (Good n) h1 := updateHull_good (hg.mono fun _ _ h _ => h) hf e1
    by_cases hpL : p ∈ L
    · exact ih h1 h' (fun a ha => hL a (by simp [ha])) hg1 e2 p hpL a ha fun q hq hqL => hm q hq (by simp [hqL])
    · have hp0 : p = p0 := by simpa [hpL] using hp
      subst hp0
      have hfr := updateHulls_frame L h1 h' e2
      rw [hfr p hpL] at ha
      obtain ⟨r, os, ki, ko, g1, g2, g3⟩ := updateHull_current hf e1 ha (fun hq => hm p hq (by simp))
      refine ⟨r, os, ki, ko, g1, forall₂_imp_mem g2 fun q hq o ho => ?_, g3⟩
      rw [hfr q (fun hqL => hm q hq (by simp [hqL]))]
      exact ho

/-- After aggregation the hulls of the new aggregates are up to date. -/
theorem aggregate_current {h h' : Heap α} {obs l : List Ptr} (hd : ∀ (p : Ptr) o, h[p]? = some o → Drawable o)
    (hr : aggregateObstacles h obs = .ok (h', l)) {p : Ptr} (hp : p ∈ l) (hn : h.length ≤ p) (hobs : ∀ p ∈ obs, p < h.length)
    {a : Aggregate α} (ha : h'[p]? = some (.aggregate a)) (hm : ∀ q ∈ a.prims, q < h.length) : HullsOf h' a := by
  unfold aggregateObstacles at hr
  obtain ⟨s, hs, hr⟩ := Res.bind_eq_ok.mp hr
  obtain ⟨h1, hh, hr⟩ := Res.bind_eq_ok.mp hr
  cases hr
  have hs' : Ready h.length s := outerLoop_ready _ _ _
    ⟨fun p o ho => ⟨hd p o ho, fun hn => absurd (List.getElem?_eq_some_iff.mp ho).1 (not_lt.mpr hn)⟩, by simp, le_rfl⟩ hs
  have hpa : p ∈ s.aggs := by
    rcases List.mem_append.mp hp with hp | hp
    · exact hp
    · unfold remaining at hp
      obtain ⟨x, hx, rfl⟩ := List.mem_map.mp hp
      have := hobs x.1 (List.of_mem_zip (List.mem_of_mem_filter hx)).1
      exact absurd this (not_lt.mpr hn)
  exact updateHulls_current _ _ _ hs'.2.1 hs'.1 hh p hpa a ha fun q hq hqa =>
    absurd (hm q hq) (not_lt.mpr (hs'.2.1 q hqa))

end DOA
