import Verif.Lemmas.Aggregation

/-!
# Two runs of `aggregate_obstacles` in lockstep

The first run starts from `h0` and ends in `h1`; the second starts from `h1`.
-/

set_option linter.unusedSectionVars false
set_option linter.unusedSimpArgs false

namespace DOA.Aggregation
open DOA.Spec

variable {α : Type} [Add α] [Sub α] [Mul α] [Div α] [Neg α] [Zero α] [One α]
  [LE α] [LT α] [DecidableLE α] [DecidableLT α] [CMath α]

/-- `update_hull` as a computation on the aggregate alone. -/
theorem updateHull_eq {h : Heap α} {p : Ptr} {a : Aggregate α} (ha : h[p]? = some (.aggregate a))
    (hps : ∀ q ∈ a.prims, q < h.length) :
    h.updateHull p = (do
      let ref ← a.base.ref
      let i ← a.inside.compute (oracles h a.prims) ref
      let o ← a.outside.compute (oracles h a.prims) ref
      Res.ok (h.set p (.aggregate { a with inside := i, outside := o }))) := by
  have hm : ∀ ps : List Ptr, (∀ q ∈ ps, q < h.length) →
      ∃ M, ps.mapM h.deref = .ok M ∧ M.map Obj.intersectionPoints = oracles h ps := by
    intro ps
    induction ps with
    | nil => intro _; exact ⟨[], rfl, rfl⟩
    | cons p ps ih =>
      intro hp
      have hpl : p < h.length := hp p (by simp)
      have h1 : h[p]? = some h[p] := List.getElem?_eq_getElem hpl
      obtain ⟨M, hM1, hM2⟩ := ih fun q hq => hp q (by simp [hq])
      refine ⟨h[p] :: M, ?_, ?_⟩
      · rw [List.mapM_cons, hM1]; simp [Heap.deref, h1]
      · unfold oracles at hM2 ⊢
        simp [h1, hM2]
  obtain ⟨M, h1, h2⟩ := hm a.prims hps
  have hd : h.deref p = .ok (.aggregate a) := by simp [Heap.deref, ha]
  simp only [Heap.updateHull, hd, Res.ok_bind, h1, h2]

/-- `h1` is the heap after the first run, `k1`/`k2` are the heaps of the two runs at the same point. -/
structure Sim (h0 h1 : Heap α) (k1 k2 : Heap α) : Prop where
  inv : HeapInv h0 k1
  len : k2.length + h0.length = k1.length + h1.length
  new : ∀ b, h0.length ≤ b → k2[b + (h1.length - h0.length)]? = k1[b]?
  shp : ∀ r, r < h0.length → (k2[r]?).map shape = (k1[r]?).map shape
  stale : ∀ r, h0.length ≤ r → r < h1.length → k2[r]? = h1[r]?
  old : ∀ r, r < h0.length → k2[r]? = k1[r]? ∨ (k1[r]? = h0[r]? ∧ k2[r]? = h1[r]?)

variable {h0 h1 : Heap α}

theorem Sim.inv2 (hi1 : HeapInv h0 h1) {k1 k2 : Heap α} (s : Sim h0 h1 k1 k2) : HeapInv h0 k2 := by
  have hle := hi1.ext.1
  have hle1 := s.inv.ext.1
  have hlen := s.len
  refine ⟨⟨by omega, fun p hp => (s.shp p hp).trans (s.inv.ext.2 p hp)⟩, fun b o hb ho => ?_⟩
  by_cases hb1 : b < h1.length
  · rw [s.stale b hb hb1] at ho
    exact hi1.new b o hb ho
  · have := s.new (b - (h1.length - h0.length)) (by omega)
    rw [show b - (h1.length - h0.length) + (h1.length - h0.length) = b by omega, ho] at this
    exact s.inv.new _ o (by omega) this.symm

theorem HeapInv.install {rank : Ptr → Nat} (hr : Ranked rank h0) {k : Heap α} (hi : HeapInv h0 k) {a : Ptr}
    (ha : h0.length ≤ a) {ag : Aggregate α} (hag : k[a]? = some (.aggregate ag)) {ps : List Ptr}
    (hps : ∀ q ∈ ps, q < h0.length) :
    k.installPrims a ps false = .ok (install k a ps ag) ∧
    (∀ r, (∃ q ∈ ps, Within k q r) ↔ ∃ q ∈ ps, Within h0 q r) ∧
    (∀ r, (∃ q ∈ ps, Within k q r) → r < h0.length) ∧ HeapInv h0 (install k a ps ag) := by
  have hal : a < k.length := (List.getElem?_eq_some_iff.mp hag).1
  have hr1 := hi.ranked hr
  have hcan : CanHold (rank1 rank h0.length) k a ps := by
    refine ⟨hr1, hal, fun x hx => ?_⟩
    have hx0 := hps x hx
    have hb := hr.bound x hx0
    refine ⟨lt_of_lt_of_le hx0 hi.ext.1, ?_⟩
    simp only [rank1, if_pos hx0, if_neg (not_lt.mpr ha)]; omega
  have hwin : ∀ r, (∃ q ∈ ps, Within k q r) ↔ ∃ q ∈ ps, Within h0 q r := by
    intro r
    constructor <;> rintro ⟨q, hq, hw⟩
    · exact ⟨q, hq, (hi.ext.within hr (hps q hq)).mp hw⟩
    · exact ⟨q, hq, (hi.ext.within hr (hps q hq)).mpr hw⟩
  have hold : ∀ r, (∃ q ∈ ps, Within k q r) → r < h0.length := by
    intro r h
    obtain ⟨q, hq, hw⟩ := (hwin r).mp h
    exact Within.lt_length hr (hps q hq) hw
  refine ⟨installPrims_false hcan hag, hwin, hold, ⟨⟨by simpa [DOA.install] using hi.ext.1, ?_⟩, ?_⟩⟩
  · intro p hp
    have hpa : a ≠ p := by rintro rfl; exact absurd hp (not_lt.mpr ha)
    simp only [DOA.install]
    rw [List.getElem?_set_ne hpa, (shapeExt_markRef k _ _).2 p (lt_of_lt_of_le hp hi.ext.1)]
    exact hi.ext.2 p hp
  · intro b o hb ho
    simp only [DOA.install] at ho
    by_cases hba : b = a
    · subst hba
      rw [List.getElem?_set_self (by simpa using hal)] at ho; cases ho
      refine ⟨_, rfl, fun x hx => ?_⟩
      exact hps x ((prims_perm fun y hy => (hcan.prims y hy).1).mem_iff.mp hx)
    · rw [List.getElem?_set_ne (Ne.symm hba), markRef_neg] at ho
      · exact hi.new b o hb ho
      · intro hw; exact absurd (hold b hw) (not_lt.mpr hb)

theorem addPrimitive_unfold {h : Heap α} {a q : Ptr} {ag : Aggregate α} (hag : h[a]? = some (.aggregate ag))
    (upd : Bool) : h.addPrimitive a q upd = (do
      let h2 ← h.installPrims a (ag.prims ++ [q]) false
      if upd then h2.updateHull a else .ok h2) := by
  cases upd with
  | false =>
    simp only [Heap.addPrimitive, Heap.deref, hag, Res.ok_bind, Bool.false_eq_true, if_false]
    cases h.installPrims a (ag.prims ++ [q]) false <;> rfl
  | true =>
    simp only [Heap.addPrimitive, Heap.installPrims, Heap.deref, hag, Res.ok_bind, if_true]
    cases h.sortByName (ag.prims ++ [q]) with
    | ok L => simp [bind_assoc]
    | throw e => rfl
    | ub u => rfl

/-- `update_hull` in both runs. -/
theorem Sim.updateHull (hi1 : HeapInv h0 h1) {k1 k2 k1' : Heap α} (s : Sim h0 h1 k1 k2) {a : Ptr}
    (ha : h0.length ≤ a) (hrun : k1.updateHull a = .ok k1') :
    ∃ k2', k2.updateHull (a + (h1.length - h0.length)) = .ok k2' ∧ Sim h0 h1 k1' k2' := by
  have hle1 := s.inv.ext.1
  have hle := hi1.ext.1
  have hlen := s.len
  have hex : ∃ ag, k1[a]? = some (.aggregate ag) := by
    unfold Heap.updateHull Heap.deref at hrun
    cases hk : k1[a]? with
    | none => rw [hk] at hrun; cases hrun
    | some o => cases o with
      | aggregate ag => exact ⟨ag, rfl⟩
      | _ => rw [hk] at hrun; cases hrun
  obtain ⟨ag, hag⟩ := hex
  have hal : a < k1.length := (List.getElem?_eq_some_iff.mp hag).1
  have hag2 : k2[a + (h1.length - h0.length)]? = some (.aggregate ag) := by rw [s.new a ha, hag]
  have hal2 := (List.getElem?_eq_some_iff.mp hag2).1
  obtain ⟨ag', h3, hpr⟩ := s.inv.new a _ ha hag
  cases h3
  have hor : oracles k2 ag.prims = oracles k1 ag.prims := oracles_congr fun p hp => s.shp p (hpr p hp)
  rw [updateHull_eq hag fun q hq => lt_of_lt_of_le (hpr q hq) hle1] at hrun
  rw [updateHull_eq hag2 fun q hq => lt_of_lt_of_le (hpr q hq) (s.inv2 hi1).ext.1, hor]
  simp only [Res.bind_eq_ok] at hrun
  obtain ⟨ref, e1, i, e2, o, e3, e4⟩ := hrun
  cases e4
  refine ⟨_, by simp only [e1, e2, e3, Res.ok_bind]; rfl, ?_⟩
  have hne : ∀ r, r < h0.length → a ≠ r := by rintro r hr' rfl; exact absurd hr' (not_lt.mpr ha)
  have hne2 : ∀ r, r < h0.length → a + (h1.length - h0.length) ≠ r := by
    rintro r hr' rfl; exact absurd hr' (by omega)
  refine ⟨⟨⟨by simpa using hle1, fun p hp => ?_⟩, fun b o' hb ho' => ?_⟩, by simpa using hlen, ?_, ?_, ?_, ?_⟩
  · rw [List.getElem?_set_ne (hne p hp)]; exact s.inv.ext.2 p hp
  · by_cases hba : b = a
    · subst hba
      rw [List.getElem?_set_self hal] at ho'; cases ho'
      exact ⟨_, rfl, hpr⟩
    · rw [List.getElem?_set_ne (Ne.symm hba)] at ho'
      exact s.inv.new b o' hb ho'
  · intro b hb
    by_cases hba : b = a
    · subst hba
      rw [List.getElem?_set_self hal, List.getElem?_set_self hal2]
    · rw [List.getElem?_set_ne (Ne.symm hba), List.getElem?_set_ne (by omega)]
      exact s.new b hb
  · intro r hr'
    rw [List.getElem?_set_ne (hne r hr'), List.getElem?_set_ne (hne2 r hr')]
    exact s.shp r hr'
  · intro r h2 h3
    rw [List.getElem?_set_ne (by omega)]
    exact s.stale r h2 h3
  · intro r hr'
    rw [List.getElem?_set_ne (hne r hr'), List.getElem?_set_ne (hne2 r hr')]
    exact s.old r hr'

/-- `add_primitive` in both runs. -/
theorem Sim.addPrimitive {rank : Ptr → Nat} (hr : Ranked rank h0) (hi1 : HeapInv h0 h1)
    {k1 k2 k1' : Heap α} (s : Sim h0 h1 k1 k2) {a q : Ptr} (ha : h0.length ≤ a) (hq : q < h0.length)
    {upd : Bool} (hrun : k1.addPrimitive a q upd = .ok k1') :
    ∃ k2', k2.addPrimitive (a + (h1.length - h0.length)) q upd = .ok k2' ∧ Sim h0 h1 k1' k2' := by
  have hle1 := s.inv.ext.1
  have hle := hi1.ext.1
  have hlen := s.len
  have hex : ∃ ag, k1[a]? = some (.aggregate ag) := by
    unfold Heap.addPrimitive Heap.deref at hrun
    cases hk : k1[a]? with
    | none => rw [hk] at hrun; cases hrun
    | some o => cases o with
      | aggregate ag => exact ⟨ag, rfl⟩
      | _ => rw [hk] at hrun; cases hrun
  obtain ⟨ag, hag⟩ := hex
  have hal : a < k1.length := (List.getElem?_eq_some_iff.mp hag).1
  have hag2 : k2[a + (h1.length - h0.length)]? = some (.aggregate ag) := by rw [s.new a ha, hag]
  have hal2 := (List.getElem?_eq_some_iff.mp hag2).1
  obtain ⟨ag', h3, hpr⟩ := s.inv.new a _ ha hag
  cases h3
  have hps : ∀ x ∈ ag.prims ++ [q], x < h0.length := by
    intro x hx
    rcases List.mem_append.mp hx with hx | hx
    · exact hpr x hx
    · simp at hx; subst hx; exact hq
  obtain ⟨i1, w1, o1, inv1⟩ := s.inv.install hr ha hag hps
  obtain ⟨i2, w2, o2, -⟩ := (s.inv2 hi1).install hr (a := a + (h1.length - h0.length)) (by omega) hag2 hps
  have hca : canonAgg k2 (ag.prims ++ [q]) ag = canonAgg k1 (ag.prims ++ [q]) ag :=
    canonAgg_congr ag fun p hp => s.shp p (hps p hp)
  have hcp : canonPos k2 (ag.prims ++ [q]) = canonPos k1 (ag.prims ++ [q]) := by
    unfold canonPos; rw [sortedInfo_congr fun p hp => s.shp p (hps p hp)]
  have hne : ∀ r, r < h0.length → a ≠ r := by rintro r hr' rfl; exact absurd hr' (not_lt.mpr ha)
  have hne2 : ∀ r, r < h0.length → a + (h1.length - h0.length) ≠ r := by
    rintro r hr' rfl; exact absurd hr' (by omega)
  have hn1 : ∀ r, h0.length ≤ r → ¬ ∃ q' ∈ ag.prims ++ [q], Within k1 q' r :=
    fun r hr' hw => absurd (o1 r hw) (not_lt.mpr hr')
  have hn2 : ∀ r, h0.length ≤ r → ¬ ∃ q' ∈ ag.prims ++ [q], Within k2 q' r :=
    fun r hr' hw => absurd (o2 r hw) (not_lt.mpr hr')
  have sim : Sim h0 h1 (install k1 a (ag.prims ++ [q]) ag)
      (install k2 (a + (h1.length - h0.length)) (ag.prims ++ [q]) ag) := by
    refine ⟨inv1, by simpa [install] using hlen, ?_, ?_, ?_, ?_⟩
    · intro b hb
      simp only [install]
      by_cases hba : b = a
      · subst hba
        rw [List.getElem?_set_self (by simpa using hal2), List.getElem?_set_self (by simpa using hal), hca]
      · rw [List.getElem?_set_ne (by omega), List.getElem?_set_ne (Ne.symm hba),
          markRef_neg (hn2 _ (by omega)), markRef_neg (hn1 b hb)]
        exact s.new b hb
    · intro r hr'
      simp only [install]
      rw [List.getElem?_set_ne (hne r hr'), List.getElem?_set_ne (hne2 r hr'),
        (shapeExt_markRef k1 _ _).2 r (by omega),
        (shapeExt_markRef k2 _ _).2 r (by have := (s.inv2 hi1).ext.1; omega)]
      exact s.shp r hr'
    · intro r h2 h3
      simp only [install]
      rw [List.getElem?_set_ne (by omega), markRef_neg (hn2 r h2)]
      exact s.stale r h2 h3
    · intro r hr'
      simp only [install]
      rw [List.getElem?_set_ne (hne r hr'), List.getElem?_set_ne (hne2 r hr')]
      by_cases hw : ∃ q' ∈ ag.prims ++ [q], Within k1 q' r
      · left
        have hw2 : ∃ q' ∈ ag.prims ++ [q], Within k2 q' r := (w2 r).mpr ((w1 r).mp hw)
        rw [markRef_pos (D := fun r => ∃ q' ∈ ag.prims ++ [q], Within k1 q' r) hw,
          markRef_pos (D := fun r => ∃ q' ∈ ag.prims ++ [q], Within k2 q' r) hw2, hcp]
        have hs := s.shp r hr'
        have h1l : r < k1.length := by omega
        have h2l : r < k2.length := by have := (s.inv2 hi1).ext.1; omega
        rw [List.getElem?_eq_getElem h1l, List.getElem?_eq_getElem h2l] at hs ⊢
        simp only [Option.map_some, Option.some.injEq] at hs ⊢
        exact mapBase_setRef_of_shape hs _
      · have hw2 : ¬ ∃ q' ∈ ag.prims ++ [q], Within k2 q' r := fun h => hw ((w1 r).mpr ((w2 r).mp h))
        rw [markRef_neg hw2, markRef_neg hw]
        exact s.old r hr'
  rw [addPrimitive_unfold hag, i1] at hrun
  rw [addPrimitive_unfold hag2, i2]
  simp only [Res.ok_bind] at hrun ⊢
  cases upd with
  | false => simp at hrun ⊢; rw [← hrun]; exact sim
  | true =>
    simp only [if_true] at hrun ⊢
    exact sim.updateHull hi1 ha hrun

/-- `make_shared<Aggregate>()` in both runs. -/
theorem Sim.newAggregate (hi1 : HeapInv h0 h1) {k1 k2 : Heap α} (s : Sim h0 h1 k1 k2) :
    Sim h0 h1 k1.newAggregate.1 k2.newAggregate.1 ∧ h0.length ≤ k1.newAggregate.2 ∧
      k2.newAggregate.2 = k1.newAggregate.2 + (h1.length - h0.length) := by
  have hle1 := s.inv.ext.1
  have hle := hi1.ext.1
  have hle2 := (s.inv2 hi1).ext.1
  have hlen := s.len
  have g1 : ∀ r, r < k1.length → k1.newAggregate.1[r]? = k1[r]? := fun r hr => by
    simp [Heap.newAggregate, List.getElem?_append_left hr]
  have g2 : ∀ r, r < k2.length → k2.newAggregate.1[r]? = k2[r]? := fun r hr => by
    simp [Heap.newAggregate, List.getElem?_append_left hr]
  refine ⟨⟨⟨⟨?_, fun p hp => ?_⟩, fun b o hb ho => ?_⟩, ?_, ?_, ?_, ?_, ?_⟩, hle1, ?_⟩
  · simp [Heap.newAggregate]; omega
  · rw [g1 p (by omega)]; exact s.inv.ext.2 p hp
  · by_cases hbl : b < k1.length
    · rw [g1 b hbl] at ho; exact s.inv.new b o hb ho
    · have h2 := (List.getElem?_eq_some_iff.mp ho).1
      obtain rfl : b = k1.length := by simp [Heap.newAggregate] at h2; omega
      simp [Heap.newAggregate] at ho
      exact ⟨_, ho.symm, by simp [Aggregate.default]⟩
  · simp [Heap.newAggregate]; omega
  · intro b hb
    by_cases hbl : b < k1.length
    · rw [g1 b hbl, g2 _ (by omega)]; exact s.new b hb
    · by_cases hbe : b = k1.length
      · subst hbe
        have : k1.length + (h1.length - h0.length) = k2.length := by omega
        rw [this]; simp [Heap.newAggregate]
      · have l1 : k1.newAggregate.1.length = k1.length + 1 := by simp [Heap.newAggregate]
        have l2 : k2.newAggregate.1.length = k2.length + 1 := by simp [Heap.newAggregate]
        rw [List.getElem?_eq_none (by omega), List.getElem?_eq_none (by omega)]
  · intro r hr'
    rw [g1 r (by omega), g2 r (by omega)]; exact s.shp r hr'
  · intro r h2 h3
    rw [g2 r (by omega)]; exact s.stale r h2 h3
  · intro r hr'
    rw [g1 r (by omega), g2 r (by omega)]; exact s.old r hr'
  · show k2.length = k1.length + (h1.length - h0.length)
    omega

/-- The two states of the loop. -/
structure SimSt (h0 h1 : Heap α) (s1 s2 : St α) : Prop where
  heap : Sim h0 h1 s1.heap s2.heap
  aggs : s2.aggs = s1.aggs.map (· + (h1.length - h0.length))
  idx : s2.idx = s1.idx
  new : ∀ a ∈ s1.aggs, h0.length ≤ a

theorem SimSt.aggAt {s1 s2 : St α} (s : SimSt h0 h1 s1 s2) {i : Int} {a : Ptr}
    (h : Aggregation.aggAt s1.aggs i = .ok a) :
    Aggregation.aggAt s2.aggs i = .ok (a + (h1.length - h0.length)) ∧ h0.length ≤ a := by
  cases i with
  | negSucc n => cases h
  | ofNat n =>
    simp only [Aggregation.aggAt, Res.index] at h ⊢
    cases hn : s1.aggs[n]? with
    | none => rw [hn] at h; cases h
    | some b =>
      rw [hn] at h; cases h
      refine ⟨?_, s.new a (List.mem_of_getElem? hn)⟩
      rw [s.aggs, List.getElem?_map, hn]; rfl

theorem SimSt.mergeLoop {rank : Ptr → Nat} (hr : Ranked rank h0) (hi1 : HeapInv h0 h1) {oldI newI : Int} :
    ∀ (L : List (Nat × Ptr)), (∀ x ∈ L, x.2 < h0.length) → ∀ (s1 s2 s1' : St α), SimSt h0 h1 s1 s2 →
      mergeLoop oldI newI L s1 = .ok s1' →
      ∃ s2', Aggregation.mergeLoop oldI newI L s2 = .ok s2' ∧ SimSt h0 h1 s1' s2' := by
  intro L
  induction L with
  | nil => intro _ s1 s2 s1' s h; cases h; exact ⟨s2, rfl, s⟩
  | cons x L ih =>
    obtain ⟨k, p⟩ := x
    intro hL s1 s2 s1' s h
    have hp := hL (k, p) (by simp)
    have ih := ih fun x hx => hL x (by simp [hx])
    simp only [Aggregation.mergeLoop, Res.bind_eq_ok] at h
    obtain ⟨ik, e1, h⟩ := h
    simp only [Aggregation.mergeLoop, s.idx, e1, Res.ok_bind]
    split at h
    · rename_i hc
      simp only [Res.bind_eq_ok] at h
      obtain ⟨a, e2, k', e3, h⟩ := h
      obtain ⟨f1, f2⟩ := s.aggAt e2
      obtain ⟨k2', f3, f4⟩ := s.heap.addPrimitive hr hi1 f2 hp e3
      rw [if_pos hc]
      simp only [f1, f3, Res.ok_bind]
      exact ih ⟨k', s1.aggs, s1.idx.set k newI⟩ _ _ ⟨f4, s.aggs, rfl, s.new⟩ h
    · rename_i hc
      rw [if_neg hc]
      split at h
      · rename_i hc2
        rw [if_pos hc2]
        exact ih ⟨s1.heap, s1.aggs, s1.idx.set k (ik - 1)⟩ _ _ ⟨s.heap, s.aggs, rfl, s.new⟩ h
      · rename_i hc2
        rw [if_neg hc2]
        exact ih _ _ _ ⟨s.heap, s.aggs, s.idx, s.new⟩ h

theorem SimSt.link {rank : Ptr → Nat} (hr : Ranked rank h0) (hi1 : HeapInv h0 h1) {obs : List Ptr}
    (hobs : ∀ p ∈ obs, p < h0.length) {i j : Nat} {pi pj : Ptr} (hpi : pi < h0.length)
    (hpj : pj < h0.length) {s1 s2 s1' : St α} (s : SimSt h0 h1 s1 s2)
    (h : link obs i j pi pj s1 = .ok s1') :
    ∃ s2', Aggregation.link obs i j pi pj s2 = .ok s2' ∧ SimSt h0 h1 s1' s2' := by
  simp only [Aggregation.link, Res.bind_eq_ok] at h
  obtain ⟨ii, e1, ij, e2, h⟩ := h
  simp only [Aggregation.link, s.idx, e1, e2, Res.ok_bind]
  split at h
  · rename_i hc
    simp only [Res.bind_eq_ok] at h
    obtain ⟨a, e3, k', e4, h⟩ := h
    cases h
    obtain ⟨f1, f2⟩ := s.aggAt e3
    obtain ⟨k2', f3, f4⟩ := s.heap.addPrimitive hr hi1 f2 hpj e4
    rw [if_pos hc]
    simp only [f1, f3, Res.ok_bind]
    exact ⟨_, rfl, f4, s.aggs, rfl, s.new⟩
  · rename_i hc
    rw [if_neg hc]
    split at h
    · rename_i hc
      simp only [Res.bind_eq_ok] at h
      obtain ⟨a, e3, k', e4, h⟩ := h
      cases h
      obtain ⟨f1, f2⟩ := s.aggAt e3
      obtain ⟨k2', f3, f4⟩ := s.heap.addPrimitive hr hi1 f2 hpi e4
      rw [if_pos hc]
      simp only [f1, f3, Res.ok_bind]
      exact ⟨_, rfl, f4, s.aggs, rfl, s.new⟩
    · rename_i hc
      rw [if_neg hc]
      split at h
      · rename_i hc
        simp only [Res.bind_eq_ok] at h
        obtain ⟨k', e3, k'', e4, h⟩ := h
        cases h
        obtain ⟨f1, f2, f3⟩ := s.heap.newAggregate hi1
        obtain ⟨l1, g1, g2⟩ := f1.addPrimitive hr hi1 f2 hpi e3
        obtain ⟨l2, g3, g4⟩ := g2.addPrimitive hr hi1 f2 hpj e4
        rw [if_pos hc]
        simp only [f3, g1, g3, Res.ok_bind]
        have hl : s2.aggs.length = s1.aggs.length := by rw [s.aggs]; simp
        refine ⟨_, rfl, g4, ?_, ?_, ?_⟩
        · simp [s.aggs]
        · simp [hl]
        · intro a ha
          rcases List.mem_append.mp ha with ha | ha
          · exact s.new a ha
          · simp at ha; subst ha; exact f2
      · rename_i hc
        rw [if_neg hc]
        split at h
        · rename_i hc
          rw [if_pos hc]
          simp only [Res.bind_eq_ok] at h
          obtain ⟨t, e3, h⟩ := h
          have hL : ∀ x ∈ indexed obs, x.2 < h0.length := by
            intro x hx
            exact hobs x.2 (List.of_mem_zip hx).2
          obtain ⟨t2, f1, f2⟩ := SimSt.mergeLoop hr hi1 _ hL _ _ _ ⟨s.heap, s.aggs, s.idx, s.new⟩ e3
          simp only [f1, Res.ok_bind]
          have hl : t2.aggs.length = t.aggs.length := by rw [f2.aggs]; simp
          split at h
          · rename_i n hn
            split at h
            · rename_i hlt
              cases h
              simp only [hn, hl, if_pos hlt]
              refine ⟨_, rfl, f2.heap, ?_, f2.idx, fun a ha => f2.new a (List.mem_of_mem_eraseIdx ha)⟩
              simp only [f2.aggs, List.eraseIdx_map]
            · cases h
          · cases h
        · rename_i hc
          rw [if_neg hc]
          cases h
          exact ⟨_, rfl, s.heap, s.aggs, s.idx, s.new⟩

theorem SimSt.pairStep {rank : Ptr → Nat} (hr : Ranked rank h0) (hi1 : HeapInv h0 h1) {obs : List Ptr}
    (hobs : ∀ p ∈ obs, p < h0.length) {i j : Nat} {pi pj : Ptr} (hpi : pi < h0.length)
    (hpj : pj < h0.length) {s1 s2 s1' : St α} (s : SimSt h0 h1 s1 s2)
    (h : pairStep obs i pi j pj s1 = .ok s1') :
    ∃ s2', Aggregation.pairStep obs i pi j pj s2 = .ok s2' ∧ SimSt h0 h1 s1' s2' := by
  obtain ⟨oi, hoi, -⟩ := s.heap.inv.ext.get (List.getElem?_eq_getElem hpi)
  obtain ⟨oj, hoj, -⟩ := s.heap.inv.ext.get (List.getElem?_eq_getElem hpj)
  obtain ⟨oi2, hoi2, -⟩ := (s.heap.inv2 hi1).ext.get (List.getElem?_eq_getElem hpi)
  obtain ⟨oj2, hoj2, -⟩ := (s.heap.inv2 hi1).ext.get (List.getElem?_eq_getElem hpj)
  obtain ⟨b, hb, hb'⟩ := isIntersecting_ok hr s.heap.inv.ext (List.getElem?_eq_getElem hpi) hoi
    (List.getElem?_eq_getElem hpj) hoj
  obtain ⟨b2, hb2, hb2'⟩ := isIntersecting_ok hr (s.heap.inv2 hi1).ext (List.getElem?_eq_getElem hpi) hoi2
    (List.getElem?_eq_getElem hpj) hoj2
  rw [hb] at hb2; cases hb2
  simp only [Aggregation.pairStep, Heap.deref, hoi, hoj, hb', Res.ok_bind] at h
  simp only [Aggregation.pairStep, Heap.deref, hoi2, hoj2, hb2', Res.ok_bind]
  cases b with
  | true => exact s.link hr hi1 hobs hpi hpj h
  | false => simp at h ⊢; subst h; exact s

theorem SimSt.innerLoop {rank : Ptr → Nat} (hr : Ranked rank h0) (hi1 : HeapInv h0 h1) {obs : List Ptr}
    (hobs : ∀ p ∈ obs, p < h0.length) {i : Nat} {pi : Ptr} (hpi : pi < h0.length) :
    ∀ (L : List (Nat × Ptr)), (∀ x ∈ L, x.2 < h0.length) → ∀ (s1 s2 s1' : St α), SimSt h0 h1 s1 s2 →
      innerLoop obs i pi L s1 = .ok s1' →
      ∃ s2', Aggregation.innerLoop obs i pi L s2 = .ok s2' ∧ SimSt h0 h1 s1' s2' := by
  intro L
  induction L with
  | nil => intro _ s1 s2 s1' s h; cases h; exact ⟨s2, rfl, s⟩
  | cons x L ih =>
    intro hL s1 s2 s1' s h
    simp only [Aggregation.innerLoop, Res.bind_eq_ok] at h
    obtain ⟨t, e1, h⟩ := h
    obtain ⟨t2, f1, f2⟩ := s.pairStep hr hi1 hobs hpi (hL x (by simp)) e1
    simp only [Aggregation.innerLoop, f1, Res.ok_bind]
    exact ih (fun y hy => hL y (by simp [hy])) _ _ _ f2 h

theorem SimSt.outerLoop {rank : Ptr → Nat} (hr : Ranked rank h0) (hi1 : HeapInv h0 h1) {obs : List Ptr}
    (hobs : ∀ p ∈ obs, p < h0.length) :
    ∀ (L : List (Nat × Ptr)), (∀ x ∈ L, x.2 < h0.length) → ∀ (s1 s2 s1' : St α), SimSt h0 h1 s1 s2 →
      outerLoop obs L s1 = .ok s1' →
      ∃ s2', Aggregation.outerLoop obs L s2 = .ok s2' ∧ SimSt h0 h1 s1' s2' := by
  intro L
  induction L with
  | nil => intro _ s1 s2 s1' s h; cases h; exact ⟨s2, rfl, s⟩
  | cons x L ih =>
    intro hL s1 s2 s1' s h
    have hL' : ∀ y ∈ L, y.2 < h0.length := fun y hy => hL y (by simp [hy])
    simp only [Aggregation.outerLoop, Res.bind_eq_ok] at h
    obtain ⟨t, e1, h⟩ := h
    obtain ⟨t2, f1, f2⟩ := SimSt.innerLoop hr hi1 hobs (hL x (by simp)) L hL' _ _ _ s e1
    simp only [Aggregation.outerLoop, f1, Res.ok_bind]
    exact ih hL' _ _ _ f2 h

theorem Sim.updateHulls (hi1 : HeapInv h0 h1) :
    ∀ (L : List Ptr), (∀ a ∈ L, h0.length ≤ a) → ∀ (k1 k2 k1' : Heap α), Sim h0 h1 k1 k2 →
      updateHulls L k1 = .ok k1' →
      ∃ k2', Aggregation.updateHulls (L.map (· + (h1.length - h0.length))) k2 = .ok k2' ∧ Sim h0 h1 k1' k2' := by
  intro L
  induction L with
  | nil => intro _ k1 k2 k1' s h; cases h; exact ⟨k2, rfl, s⟩
  | cons a L ih =>
    intro hL k1 k2 k1' s h
    unfold Aggregation.updateHulls at h ih ⊢
    simp only [List.foldlM_cons, Res.bind_eq_ok] at h
    obtain ⟨t, e1, h⟩ := h
    obtain ⟨t2, f1, f2⟩ := s.updateHull hi1 (hL a (by simp)) e1
    simp only [List.map_cons, List.foldlM_cons, f1, Res.ok_bind]
    exact ih (fun y hy => hL y (by simp [hy])) _ _ _ f2 h

/-- The second of two consecutive runs. -/
theorem aggregateObstacles_repeat {rank : Ptr → Nat} (hr : Ranked rank h0) {obs : List Ptr}
    (hobs : ∀ p ∈ obs, p < h0.length) {l : List Ptr} (hrun : aggregateObstacles h0 obs = .ok (h1, l)) :
    ∃ h2, aggregateObstacles h1 obs = .ok (h2, l.map fun p => if p < h0.length then p
        else p + (h1.length - h0.length)) ∧
      h1.length ≤ h2.length ∧ (∀ r, r < h1.length → h2[r]? = h1[r]?) ∧
      ∀ p, h0.length ≤ p → h2[p + (h1.length - h0.length)]? = h1[p]? := by
  obtain ⟨h1', aggs, idx, hrun', hI⟩ := aggregateObstacles_ok hr hobs
  rw [hrun] at hrun'
  have hi1 : HeapInv h0 h1 := by cases hrun'; exact hI.heap
  clear hrun' hI
  have hle := hi1.ext.1
  simp only [aggregateObstacles, Res.bind_eq_ok] at hrun
  obtain ⟨s, e1, k, e2, e3⟩ := hrun
  cases e3
  have hstart : SimSt h0 h1 (⟨h0, [], List.replicate obs.length (-1)⟩ : St α)
      ⟨h1, [], List.replicate obs.length (-1)⟩ := by
    refine ⟨⟨⟨ShapeExt.refl h0, fun b o hb ho => ?_⟩, by simp only; omega, ?_, ?_, ?_, ?_⟩, rfl, rfl, by simp⟩
    · exact absurd (List.getElem?_eq_some_iff.mp ho).1 (not_lt.mpr hb)
    · intro b hb
      rw [List.getElem?_eq_none hb, List.getElem?_eq_none (by simp only; omega)]
    · intro r hr'; exact hi1.ext.2 r hr'
    · intro r _ _; rfl
    · intro r _; exact .inr ⟨rfl, rfl⟩
  have hL : ∀ x ∈ indexed obs, x.2 < h0.length := by
    intro x hx
    exact hobs x.2 (List.of_mem_zip hx).2
  obtain ⟨s2, f1, f2⟩ := SimSt.outerLoop hr hi1 hobs _ hL _ _ _ hstart e1
  obtain ⟨k2, f3, f4⟩ := f2.heap.updateHulls hi1 _ f2.new _ _ _ e2
  refine ⟨k2, ?_, ?_, ?_, ?_⟩
  · simp only [aggregateObstacles, f1, f2.aggs, f3, Res.ok_bind, f2.idx, List.map_append]
    have c1 : s.aggs.map (fun p => if p < h0.length then p else p + (h1.length - h0.length)) =
        s.aggs.map (· + (h1.length - h0.length)) := by
      apply List.map_congr_left
      intro a ha
      rw [if_neg (not_lt.mpr (f2.new a ha))]
    have c2 : (remaining obs s.idx).map (fun p => if p < h0.length then p else p + (h1.length - h0.length)) =
        remaining obs s.idx := by
      conv_rhs => rw [← List.map_id (remaining obs s.idx)]
      apply List.map_congr_left
      intro p hp
      unfold remaining at hp
      obtain ⟨x, hx, rfl⟩ := List.mem_map.mp hp
      have := hobs x.1 (List.of_mem_zip (List.mem_filter.mp hx).1).1
      rw [if_pos this]; rfl
    rw [c1, c2]
  · have := f4.len; omega
  · intro r hr'
    by_cases h2 : r < h0.length
    · rcases f4.old r h2 with h3 | ⟨-, h3⟩ <;> exact h3
    · exact f4.stale r (not_lt.mp h2) hr'
  · exact f4.new

end DOA.Aggregation
