import Verif.Lemmas.Dispatch
import Verif.Lemmas.Partition
import Verif.Spec.Aggregation

/-! # The loop invariant of `aggregate_obstacles` -/

set_option linter.unusedSectionVars false
set_option linter.unusedSimpArgs false

namespace DOA.Aggregation
open DOA.Spec

variable {α : Type} [Add α] [Sub α] [Mul α] [Div α] [Neg α] [Zero α] [One α]
  [LE α] [LT α] [DecidableLE α] [DecidableLT α] [CMath α]

/-- The heap during aggregation: the old objects are there (up to reference positions), the new ones
are aggregates of old ones. -/
structure HeapInv (h0 h : Heap α) : Prop where
  ext : ShapeExt h0 h
  new : ∀ b o, h0.length ≤ b → h[b]? = some o → ∃ ag, o = .aggregate ag ∧ ∀ q ∈ ag.prims, q < h0.length

/-- Rank function for the heap during aggregation. -/
def rank1 (rank : Ptr → Nat) (n : Nat) (p : Ptr) : Nat := if p < n then rank p else n + 1

theorem HeapInv.ranked {rank : Ptr → Nat} {h0 h : Heap α} (hr : Ranked rank h0) (hi : HeapInv h0 h) :
    Ranked (rank1 rank h0.length) h := by
  have hle := hi.ext.1
  constructor
  · intro p q hc
    by_cases hp : p < h0.length
    · have hc0 := (hi.ext.child hp).mp hc
      obtain ⟨h1, h2⟩ := hr.child p q hc0
      exact ⟨lt_of_lt_of_le h1 hle, by simpa [rank1, hp, h1] using h2⟩
    · obtain ⟨a, ha, hq⟩ := hc
      obtain ⟨ag, hag, hqs⟩ := hi.new p _ (not_lt.mp hp) ha
      cases hag
      have hq0 := hqs q hq
      have hb := hr.bound q hq0
      refine ⟨lt_of_lt_of_le hq0 hle, ?_⟩
      simp only [rank1, if_pos hq0, if_neg hp]; omega
  · intro p hp
    unfold rank1
    split
    · rename_i hp0
      exact (hr.bound p hp0).trans hle
    · rename_i hp0
      have := not_lt.mp hp0
      have h3 : h0.length < h.length := lt_of_le_of_lt this hp
      omega

/-- An aggregate that may receive primitives: its base is the default one up to name, position and
reference. -/
structure AggPre (h0 : Heap α) (ag : Aggregate α) (ms : List Ptr) : Prop where
  perm : ag.prims.Perm ms
  base : ∀ ps, (canonAgg h0 ps ag).base = (canonAgg h0 ps Aggregate.default).base
  hulls : AggHullsOK ag

/-- An aggregate in the state `add_primitive` leaves it in, with members `ms`. -/
structure AggOK (h0 : Heap α) (ag : Aggregate α) (ms : List Ptr) : Prop where
  canon : ∃ ps, ps.Perm ms ∧ ag.prims = (canonAgg h0 ps Aggregate.default).prims ∧
    ag.base = (canonAgg h0 ps Aggregate.default).base
  hulls : AggHullsOK ag

theorem canonAgg_base_congr (h0 : Heap α) (ps : List Ptr) {a b : Aggregate α} (h : a.base = b.base) :
    (canonAgg h0 ps a).base = (canonAgg h0 ps b).base := by
  simp [canonAgg, h]

theorem AggOK.pre {h0 : Heap α} {ag : Aggregate α} {ms : List Ptr} (h : AggOK h0 ag ms)
    (hms : ∀ q ∈ ms, q < h0.length) : AggPre h0 ag ms := by
  obtain ⟨ps, hp, h1, h2⟩ := h.canon
  refine ⟨?_, ?_, h.hulls⟩
  · rw [h1]
    exact (prims_perm fun q hq => hms q (hp.mem_iff.mp hq)).trans hp
  · intro qs
    rw [canonAgg_base_congr h0 qs h2]
    rfl

theorem AggOK.perm {h0 : Heap α} {ag : Aggregate α} {ms ms' : List Ptr} (h : AggOK h0 ag ms)
    (hp : ms.Perm ms') : AggOK h0 ag ms' := by
  obtain ⟨ps, h1, h2, h3⟩ := h.canon
  exact ⟨⟨ps, h1.trans hp, h2, h3⟩, h.hulls⟩

theorem aggPre_default (h0 : Heap α) : AggPre h0 (Aggregate.default : Aggregate α) [] :=
  ⟨List.Perm.refl _, fun _ => rfl, default_hulls⟩

/-- The effect of adding primitives to the aggregate `a`, which then has the members `ms`. -/
structure AddRes (D : Prop) (h0 h h' : Heap α) (a : Ptr) (ag : Aggregate α) (ms : List Ptr) : Prop where
  inv : HeapInv h0 h'
  len : h'.length = h.length
  self : h'[a]? = some (.aggregate ag)
  ok : AggOK h0 ag ms
  other : ∀ b, h0.length ≤ b → b ≠ a → h'[b]? = h[b]?
  refs : D → ∀ q ∈ ms, ∀ r, Within h0 q r → refOf h' r = ag.base.refPos
  frame : ∀ r < h0.length, (¬ ∃ q ∈ ms, Within h0 q r) → h'[r]? = h[r]?

theorem AddRes.trans {D : Prop} {h0 h h' h'' : Heap α} {a : Ptr} {ag ag' : Aggregate α} {ms ms' : List Ptr}
    (x : AddRes D h0 h h' a ag ms) (y : AddRes D h0 h' h'' a ag' ms') (hsub : ∀ q ∈ ms, q ∈ ms') :
    AddRes D h0 h h'' a ag' ms' :=
  ⟨y.inv, y.len.trans x.len, y.self, y.ok, fun b h1 h2 => (y.other b h1 h2).trans (x.other b h1 h2),
   y.refs, fun r hr hn => (y.frame r hr hn).trans (x.frame r hr fun ⟨q, hq, hw⟩ => hn ⟨q, hsub q hq, hw⟩)⟩

theorem AddRes.perm {D : Prop} {h0 h h' : Heap α} {a : Ptr} {ag : Aggregate α} {ms ms' : List Ptr}
    (x : AddRes D h0 h h' a ag ms) (hp : ms.Perm ms') : AddRes D h0 h h' a ag ms' :=
  ⟨x.inv, x.len, x.self, x.ok.perm hp, x.other, fun hd q hq => x.refs hd q (hp.mem_iff.mpr hq),
   fun r hr hn => x.frame r hr fun ⟨q, hq, hw⟩ => hn ⟨q, hp.mem_iff.mp hq, hw⟩⟩

/-- `add_primitive` on a new aggregate. -/
theorem addPrimitive_ok {D : Prop} {rank : Ptr → Nat} {h0 h : Heap α} (hr : Ranked rank h0) (hi : HeapInv h0 h)
    {a : Ptr} (ha : h0.length ≤ a) {ag : Aggregate α} (hag : h[a]? = some (.aggregate ag))
    {ms : List Ptr} (hpre : AggPre h0 ag ms) {q : Ptr} (hq : q < h0.length)
    (hms : ∀ q ∈ ms, q < h0.length) (upd : Bool) :
    ∃ h' ag', h.addPrimitive a q upd = .ok h' ∧ AddRes D h0 h h' a ag' (ms ++ [q]) := by
  have hal : a < h.length := (List.getElem?_eq_some_iff.mp hag).1
  set ps := ag.prims ++ [q] with hps
  have hps0 : ∀ x ∈ ps, x < h0.length := by
    intro x hx
    rcases List.mem_append.mp hx with hx | hx
    · exact hms x (hpre.perm.mem_iff.mp hx)
    · simp at hx; subst hx; exact hq
  have hshape : ∀ p ∈ ps, (h[p]?).map shape = (h0[p]?).map shape := fun p hp => hi.ext.2 p (hps0 p hp)
  have hr1 := hi.ranked hr
  have hcan : CanHold (rank1 rank h0.length) h a ps := by
    refine ⟨hr1, hal, fun x hx => ?_⟩
    have hx0 := hps0 x hx
    have hb := hr.bound x hx0
    refine ⟨lt_of_lt_of_le hx0 hi.ext.1, ?_⟩
    simp only [rank1, if_pos hx0, if_neg (not_lt.mpr ha)]; omega
  have hperm : ps.Perm (ms ++ [q]) := hpre.perm.append_right [q]
  have hagc : canonAgg h ps ag = canonAgg h0 ps ag := canonAgg_congr ag hshape
  set ag1 := canonAgg h ps ag with hag1
  have hok1 : AggOK h0 ag1 (ms ++ [q]) := by
    refine ⟨⟨ps, hperm, ?_, ?_⟩, hpre.hulls⟩
    · rw [hagc]; rfl
    · rw [hagc]; exact hpre.base ps
  set h1 := install h a ps ag with hh1
  have hinst : h.installPrims a ps false = .ok h1 := installPrims_false hcan hag
  have hget1 : h1[a]? = some (.aggregate ag1) := by rw [hag1]; simp [hh1, install, hal]
  have hother1 : ∀ b, b ≠ a → h1[b]? = (markRef h (fun r => ∃ q ∈ ps, Within h q r) (canonPos h ps))[b]? := by
    intro b hb; simp [hh1, install, Ne.symm hb]
  have hwin : ∀ x ∈ ps, ∀ r, Within h x r ↔ Within h0 x r :=
    fun x hx r => hi.ext.within hr (hps0 x hx)
  have hold : ∀ x ∈ ps, ∀ r, Within h x r → r < h0.length := fun x hx r hw =>
    Within.lt_length hr (hps0 x hx) ((hwin x hx r).mp hw)
  have hlen1 : h1.length = h.length := by simp [hh1, install]
  have hres1 : AddRes D h0 h h1 a ag1 (ms ++ [q]) := by
    refine ⟨⟨⟨by rw [hlen1]; exact hi.ext.1, ?_⟩, ?_⟩, hlen1, hget1, hok1, ?_, ?_, ?_⟩
    · intro p hp
      rw [hother1 p (by rintro rfl; exact absurd hp (not_lt.mpr ha)),
        (shapeExt_markRef h _ _).2 p (lt_of_lt_of_le hp hi.ext.1)]
      exact hi.ext.2 p hp
    · intro b o hb ho
      by_cases hba : b = a
      · subst hba
        rw [hget1] at ho; cases ho
        refine ⟨ag1, rfl, fun x hx => ?_⟩
        have hx' : x ∈ ps := (prims_perm fun y hy => (hcan.prims y hy).1).mem_iff.mp hx
        exact hps0 x hx'
      · rw [hother1 b hba, markRef_neg] at ho
        · exact hi.new b o hb ho
        · rintro ⟨x, hx, hw⟩; exact absurd (hold x hx b hw) (not_lt.mpr hb)
    · intro b hb hba
      rw [hother1 b hba, markRef_neg]
      rintro ⟨x, hx, hw⟩; exact absurd (hold x hx b hw) (not_lt.mpr hb)
    · intro _ x hx r hw
      have hx' := hperm.mem_iff.mpr hx
      have hw' := (hwin x hx' r).mpr hw
      have hrl := hold x hx' r hw'
      have hra : r ≠ a := by rintro rfl; exact absurd hrl (not_lt.mpr ha)
      unfold refOf
      rw [hother1 r hra, markRef_pos (D := fun r => ∃ q ∈ ps, Within h q r) ⟨x, hx', hw'⟩,
        List.getElem?_eq_getElem (lt_of_lt_of_le hrl hi.ext.1)]
      simp only [Option.map_some, Option.bind_some]
      rw [hag1]
      generalize h[r]'(lt_of_lt_of_le hrl hi.ext.1) = o
      cases o <;> rfl
    · intro r hr' hn
      have hra : r ≠ a := by rintro rfl; exact absurd hr' (not_lt.mpr ha)
      rw [hother1 r hra, markRef_neg]
      rintro ⟨x, hx, hw⟩
      exact hn ⟨x, hperm.mem_iff.mp hx, (hwin x hx r).mp hw⟩
  cases upd with
  | false =>
    refine ⟨h1, ag1, ?_, hres1⟩
    simp only [Heap.addPrimitive, Heap.deref, hag, Res.ok_bind]
    exact hinst
  | true =>
    have hprims : ∀ x ∈ ag1.prims, x < h1.length := by
      intro x hx
      have hx' : x ∈ ps := (prims_perm fun y hy => (hcan.prims y hy).1).mem_iff.mp hx
      rw [hlen1]; exact (hcan.prims x hx').1
    obtain ⟨i, o, hi1, ho1, hi2, ho2, hupd⟩ := updateHull_ok (v := canonPos h ps) hget1 hprims rfl hok1.hulls
    refine ⟨h1.set a (.aggregate { ag1 with inside := i, outside := o }),
      { ag1 with inside := i, outside := o }, ?_, ?_⟩
    · have : h.addPrimitive a q true = (do
          let h2 ← h.installPrims a ps false
          h2.updateHull a) := by
        simp only [Heap.addPrimitive, Heap.installPrims, Heap.deref, hag, Res.ok_bind]
        cases h.sortByName (ag.prims ++ [q]) with
        | ok L => simp [bind_assoc]
        | throw e => rfl
        | ub u => rfl
      rw [this, hinst]
      exact hupd
    · have hal1 : a < h1.length := by rw [hlen1]; exact hal
      refine ⟨⟨⟨by simpa using hres1.inv.ext.1, ?_⟩, ?_⟩, by simpa using hlen1, by simp [hal1],
        ⟨hok1.canon, hi2, ho2⟩, ?_, ?_, ?_⟩
      · intro p hp
        have hpa : a ≠ p := by rintro rfl; exact absurd hp (not_lt.mpr ha)
        rw [List.getElem?_set_ne hpa]
        exact hres1.inv.ext.2 p hp
      · intro b o' hb ho'
        by_cases hba : b = a
        · subst hba
          rw [List.getElem?_set_self hal1] at ho'; cases ho'
          obtain ⟨ag2, h2, h3⟩ := hres1.inv.new b _ hb hget1
          cases h2
          exact ⟨_, rfl, h3⟩
        · rw [List.getElem?_set_ne (Ne.symm hba)] at ho'
          exact hres1.inv.new b o' hb ho'
      · intro b hb hba
        rw [List.getElem?_set_ne (Ne.symm hba)]
        exact hres1.other b hb hba
      · intro hD x hx r hw
        have hrl := Within.lt_length hr (hps0 x (hperm.mem_iff.mpr hx)) hw
        have hra : a ≠ r := by rintro rfl; exact absurd hrl (not_lt.mpr ha)
        have := hres1.refs hD x hx r hw
        unfold refOf at this ⊢
        rw [List.getElem?_set_ne hra]
        exact this
      · intro r hr' hn
        have hra : a ≠ r := by rintro rfl; exact absurd hr' (not_lt.mpr ha)
        rw [List.getElem?_set_ne hra]
        exact hres1.frame r hr' hn

/-! ### The merge loop -/

theorem mergeLoop_ok {D : Prop} {rank : Ptr → Nat} {h0 : Heap α} (hr : Ranked rank h0) {oldI newI : Int} {a : Ptr}
    {aggs : List Ptr} (hnew : aggAt aggs newI = .ok a) (ha : h0.length ≤ a) :
    ∀ (obsT : List Ptr) (idxT done : List Int) (h : Heap α) (ag : Aggregate α) (ms : List Ptr),
      obsT.length = idxT.length → (∀ p ∈ obsT, p < h0.length) → (∀ q ∈ ms, q < h0.length) →
      AddRes D h0 h h a ag ms →
      ∃ h' ag', mergeLoop oldI newI ((List.range' done.length obsT.length).zip obsT)
          ⟨h, aggs, done ++ idxT⟩ = .ok ⟨h', aggs, done ++ idxT.map (renum oldI newI)⟩ ∧
        AddRes D h0 h h' a ag' (ms ++ members obsT idxT oldI) := by
  intro obsT
  induction obsT with
  | nil =>
    intro idxT done h ag ms hlen _ _ hres
    have : idxT = [] := List.length_eq_zero_iff.mp (by simpa using hlen.symm)
    subst this
    exact ⟨h, ag, by simp [mergeLoop], by simpa using hres⟩
  | cons p obsT ih =>
    intro idxT done h ag ms hlen hobs hms hres
    cases idxT with
    | nil => simp at hlen
    | cons x idxT =>
      have hlen' : obsT.length = idxT.length := by simpa using hlen
      have hobs' : ∀ p ∈ obsT, p < h0.length := fun q hq => hobs q (by simp [hq])
      have hp : p < h0.length := hobs p (by simp)
      have hidx : (done ++ x :: idxT)[done.length]? = some x := by simp
      have hset : ∀ y, (done ++ x :: idxT).set done.length y = (done ++ [y]) ++ idxT := by
        intro y; simp
      have hsame : done ++ x :: idxT = (done ++ [x]) ++ idxT := by simp
      have hlist : (List.range' done.length (p :: obsT).length).zip (p :: obsT) =
          (done.length, p) :: (List.range' (done.length + 1) obsT.length).zip obsT := by
        simp [List.range'_succ]
      rw [hlist]
      simp only [mergeLoop, Res.index, hidx, Res.ok_bind]
      by_cases h1 : x = oldI
      · obtain ⟨h2, ag2, hadd, hres2⟩ := addPrimitive_ok hr hres.inv ha hres.self (hres.ok.pre hms) hp
          hms false
        rw [if_pos h1, hnew]
        simp only [Res.ok_bind, hadd]
        have hms2 : ∀ q ∈ ms ++ [p], q < h0.length := by
          intro q hq
          rcases List.mem_append.mp hq with hq | hq
          · exact hms q hq
          · simp at hq; subst hq; exact hp
        have hres2' : AddRes D h0 h2 h2 a ag2 (ms ++ [p]) :=
          ⟨hres2.inv, rfl, hres2.self, hres2.ok, fun _ _ _ => rfl, hres2.refs, fun _ _ _ => rfl⟩
        obtain ⟨h3, ag3, hloop, hres3⟩ := ih idxT (done ++ [newI]) h2 ag2 (ms ++ [p]) hlen' hobs' hms2 hres2'
        refine ⟨h3, ag3, ?_, ?_⟩
        · rw [hset]
          simp only [List.length_append, List.length_cons, List.length_nil, zero_add] at hloop
          rw [hloop]
          simp [renum, h1]
        · have := hres2.trans hres3 (fun q hq => List.mem_append_left _ hq)
          rw [members_cons, if_pos h1]
          simpa using this
      · rw [if_neg h1]
        rw [members_cons, if_neg h1]
        by_cases h2 : oldI < x
        · rw [if_pos h2, hset]
          obtain ⟨h3, ag3, hloop, hres3⟩ := ih idxT (done ++ [x - 1]) h ag ms hlen' hobs' hms hres
          simp only [List.length_append, List.length_cons, List.length_nil, zero_add] at hloop
          refine ⟨h3, ag3, ?_, hres3⟩
          rw [hloop]
          simp [renum, h1, h2]
        · rw [if_neg h2, hsame]
          obtain ⟨h3, ag3, hloop, hres3⟩ := ih idxT (done ++ [x]) h ag ms hlen' hobs' hms hres
          simp only [List.length_append, List.length_cons, List.length_nil, zero_add] at hloop
          refine ⟨h3, ag3, ?_, hres3⟩
          rw [hloop]
          simp [renum, h1, h2]

/-! ### The invariant -/

/-- No obstacle is nested in two of the inputs. -/
def Disjoint (h0 : Heap α) (obs : List Ptr) : Prop :=
  ∀ (i j : Nat) (p q r : Ptr), i ≠ j → obs[i]? = some p → obs[j]? = some q →
    Within h0 p r → Within h0 q r → False

/-- The invariant of the double loop; `E` are the pairs found to intersect so far. -/
structure Inv (h0 : Heap α) (obs : List Ptr) (E : Nat → Nat → Prop) (s : St α) : Prop where
  heap : HeapInv h0 s.heap
  len : s.idx.length = obs.length
  range : ∀ x ∈ s.idx, -1 ≤ x ∧ x < s.aggs.length
  nodup : s.aggs.Nodup
  agg : ∀ (n : Nat) (a : Ptr), s.aggs[n]? = some a → h0.length ≤ a ∧
    ∃ ag, s.heap[a]? = some (.aggregate ag) ∧ AggOK h0 ag (members obs s.idx n)
  two : ∀ n : Nat, n < s.aggs.length → 2 ≤ (members obs s.idx n).length
  same : ∀ x y, Same (gi s.idx) x y ↔ Relation.EqvGen E x y
  frame : ∀ r < h0.length, s.heap[r]? ≠ h0[r]? →
    ∃ (i : Nat) (p : Ptr) (n : Int), obs[i]? = some p ∧ s.idx[i]? = some n ∧ n ≠ -1 ∧ Within h0 p r
  refs : Disjoint h0 obs → ∀ (n : Nat) (a : Ptr) (ag : Aggregate α), s.aggs[n]? = some a →
    s.heap[a]? = some (.aggregate ag) → ∀ q ∈ members obs s.idx n, ∀ r, Within h0 q r →
      refOf s.heap r = ag.base.refPos

theorem members_lt {h0 : Heap α} {obs : List Ptr} (hobs : ∀ p ∈ obs, p < h0.length) {idx : List Int}
    {n : Int} : ∀ q ∈ members obs idx n, q < h0.length := by
  intro q hq
  obtain ⟨k, h1, -⟩ := mem_members.mp hq
  exact hobs q (List.mem_of_getElem? h1)

theorem aggAt_nat {aggs : List Ptr} {n : Nat} {a : Ptr} (h : aggs[n]? = some a) :
    aggAt aggs (n : Int) = .ok a := by
  simp [aggAt, Res.index, h]

theorem idx_range {idx : List Int} {m : Nat} (hr : ∀ x ∈ idx, -1 ≤ x ∧ x < (m : Int)) {k : Nat} {x : Int}
    (hx : idx[k]? = some x) : x = -1 ∨ ∃ n : Nat, x = n ∧ n < m := by
  have := hr x (List.mem_of_getElem? hx)
  by_cases h : x = -1
  · exact .inl h
  · exact .inr ⟨x.toNat, by omega, by omega⟩

theorem gi_ge {idx : List Int} {m : Nat} (hr : ∀ x ∈ idx, -1 ≤ x ∧ x < (m : Int)) (k : Nat) :
    -1 ≤ gi idx k ∧ gi idx k < m := by
  unfold gi
  cases h : idx[k]? with
  | none => simp; omega
  | some x => exact hr x (List.mem_of_getElem? h)

/-- Adding obstacle `j` (not in any aggregate) to the existing aggregate of `i`. -/
theorem Inv.extend {rank : Ptr → Nat} {h0 : Heap α} (hr : Ranked rank h0) {obs : List Ptr}
    (hobs : ∀ p ∈ obs, p < h0.length) {E : Nat → Nat → Prop} {s : St α} (hI : Inv h0 obs E s)
    {i j : Nat} {pj : Ptr} {n : Nat} (hpj : obs[j]? = some pj) (hi : s.idx[i]? = some (n : Int))
    (hj : s.idx[j]? = some (-1)) (hn : n < s.aggs.length) {E' : Nat → Nat → Prop}
    (hE : ∀ g', Joins (gi s.idx) g' i j → ∀ x y, Same g' x y ↔ Relation.EqvGen E' x y) :
    ∃ a h', aggAt s.aggs (n : Int) = .ok a ∧ s.heap.addPrimitive a pj false = .ok h' ∧
      Inv h0 obs E' ⟨h', s.aggs, s.idx.set j n⟩ := by
  have ha : s.aggs[n]? = some s.aggs[n] := List.getElem?_eq_getElem hn
  obtain ⟨ha0, ag, hag, hok⟩ := hI.agg n _ ha
  have hpj0 := hobs pj (List.mem_of_getElem? hpj)
  obtain ⟨h', ag', hadd, hres⟩ := addPrimitive_ok (D := Disjoint h0 obs) hr hI.heap ha0 hag (hok.pre (members_lt hobs)) hpj0
    (members_lt hobs) false
  refine ⟨_, h', aggAt_nat ha, hadd, ?_⟩
  have hjl : j < s.idx.length := (List.getElem?_eq_some_iff.mp hj).1
  have hmn : (members obs (s.idx.set j n) n).Perm (members obs s.idx n ++ [pj]) :=
    (members_set_same hpj hj (by omega)).trans (List.perm_append_singleton _ _).symm
  have hmo : ∀ m : Nat, m ≠ n → members obs (s.idx.set j n) m = members obs s.idx m := by
    intro m hm
    exact members_set_other hj (by omega) (by omega)
  have hres' := hres.perm hmn.symm
  have hne : ∀ (m : Nat) (b : Ptr), m ≠ n → s.aggs[m]? = some b → b ≠ s.aggs[n] := by
    rintro m b hm hb rfl
    obtain ⟨hml, hb'⟩ := List.getElem?_eq_some_iff.mp hb
    exact hm ((List.Nodup.getElem_inj_iff hI.nodup).mp hb')
  constructor
  · exact hres.inv
  · simpa using hI.len
  · intro x hx
    rcases List.mem_or_eq_of_mem_set hx with hx | rfl
    · exact hI.range x hx
    · simp only; omega
  · exact hI.nodup
  · intro m b hb
    by_cases hm : m = n
    · subst hm
      simp only at hb
      rw [ha] at hb; cases hb
      exact ⟨ha0, ag', hres.self, hres'.ok⟩
    · obtain ⟨hb0, bg, hbg, hbok⟩ := hI.agg m b hb
      refine ⟨hb0, bg, ?_, ?_⟩
      · simp only; rw [hres.other b hb0 (hne m b hm hb)]; exact hbg
      · simp only; rw [hmo m hm]; exact hbok
  · intro m hm
    by_cases hmn' : m = n
    · subst hmn'
      have := hmn.length_eq
      simp only [List.length_append, List.length_cons, List.length_nil] at this
      have h2 := hI.two m hm
      simp only; omega
    · simp only; rw [hmo m hmn']; exact hI.two m hm
  · have hg : gi (s.idx.set j (n : Int)) = fun k => if k = j then gi s.idx i else gi s.idx k := by
      rw [gi_set hjl, gi_eq hi]
    apply hE
    simp only
    rw [hg]
    exact joins_extend (by rw [gi_eq hi]; omega) (gi_eq hj)
  · intro r hr' hne'
    by_cases hw : ∃ q ∈ members obs (s.idx.set j n) n, Within h0 q r
    · obtain ⟨q, hq, hw⟩ := hw
      obtain ⟨k, hk1, hk2⟩ := mem_members.mp hq
      exact ⟨k, q, n, hk1, hk2, by omega, hw⟩
    · rw [hres'.frame r hr' hw] at hne'
      obtain ⟨k, p, x, h1, h2, h3, h4⟩ := hI.frame r hr' hne'
      by_cases hkj : k = j
      · subst hkj; rw [hj] at h2; cases h2; exact absurd rfl h3
      · exact ⟨k, p, x, h1, by simp only; rw [List.getElem?_set_ne (Ne.symm hkj)]; exact h2, h3, h4⟩
  · intro hd m b bg hb hbg q hq r hw
    by_cases hm : m = n
    · subst hm
      simp only at hb hbg
      rw [ha] at hb; cases hb
      rw [hres.self] at hbg; cases hbg
      exact hres'.refs hd q hq r hw
    · obtain ⟨hb0, -⟩ := hI.agg m b hb
      simp only at hbg hq hb
      rw [hres.other b hb0 (hne m b hm hb)] at hbg
      have hq' := hq
      rw [hmo m hm] at hq'
      have h1 := hI.refs hd m b bg hb hbg q hq' r hw
      have hrl : r < h0.length := Within.lt_length hr (members_lt hobs q hq') hw
      have hfr : h'[r]? = s.heap[r]? := by
        apply hres'.frame r hrl
        rintro ⟨q2, hq2, hw2⟩
        obtain ⟨k1, hk1, hk1'⟩ := mem_members.mp hq
        obtain ⟨k2, hk2, hk2'⟩ := mem_members.mp hq2
        have : k1 ≠ k2 := by
          rintro rfl
          rw [hk1'] at hk2'; simp at hk2'; exact hm hk2'
        exact hd k1 k2 q q2 r this hk1 hk2 hw hw2
      unfold refOf at h1 ⊢
      simp only; rw [hfr]; exact h1

/-- Two obstacles that are in no aggregate start a new one. -/
theorem Inv.fresh {rank : Ptr → Nat} {h0 : Heap α} (hr : Ranked rank h0) {obs : List Ptr}
    (hobs : ∀ p ∈ obs, p < h0.length) {E : Nat → Nat → Prop} {s : St α} (hI : Inv h0 obs E s)
    {i j : Nat} {pi pj : Ptr} (hpi : obs[i]? = some pi) (hpj : obs[j]? = some pj) (hij : i ≠ j)
    (hi : s.idx[i]? = some (-1)) (hj : s.idx[j]? = some (-1)) {E' : Nat → Nat → Prop}
    (hE : ∀ g', Joins (gi s.idx) g' i j → ∀ x y, Same g' x y ↔ Relation.EqvGen E' x y) :
    ∃ h1 h2, s.heap.newAggregate.1.addPrimitive s.heap.newAggregate.2 pi true = .ok h1 ∧
      h1.addPrimitive s.heap.newAggregate.2 pj true = .ok h2 ∧
      Inv h0 obs E' ⟨h2, s.aggs ++ [s.heap.newAggregate.2],
        (s.idx.set i (s.aggs.length : Int)).set j (s.aggs.length : Int)⟩ := by
  have hpi0 := hobs pi (List.mem_of_getElem? hpi)
  have hpj0 := hobs pj (List.mem_of_getElem? hpj)
  set N := s.aggs.length with hN
  set hh : Heap α := s.heap ++ [.aggregate Aggregate.default] with hhh
  have hnew : s.heap.newAggregate = (hh, s.heap.length) := rfl
  rw [hnew]
  simp only
  have hlen0 : h0.length ≤ s.heap.length := hI.heap.ext.1
  have hhold : ∀ b, b < s.heap.length → hh[b]? = s.heap[b]? := by
    intro b hb; rw [hhh, List.getElem?_append_left hb]
  have hhself : hh[s.heap.length]? = some (.aggregate Aggregate.default) := by
    rw [hhh, List.getElem?_append_right (le_refl _)]; simp
  have hinv : HeapInv h0 hh := by
    refine ⟨⟨by simp [hhh]; omega, fun p hp => ?_⟩, fun b o hb ho => ?_⟩
    · rw [hhold p (lt_of_lt_of_le hp hlen0)]; exact hI.heap.ext.2 p hp
    · by_cases hbl : b < s.heap.length
      · rw [hhold b hbl] at ho; exact hI.heap.new b o hb ho
      · have hbe : b = s.heap.length := by
          have := (List.getElem?_eq_some_iff.mp ho).1
          have h2 : b < s.heap.length + 1 := by simpa [hhh] using this
          have h3 := not_lt.mp hbl
          exact le_antisymm (Nat.lt_succ_iff.mp h2) h3
        subst hbe
        rw [hhself] at ho; cases ho
        exact ⟨_, rfl, by simp [Aggregate.default]⟩
  obtain ⟨h1, ag1, hadd1, hres1⟩ := addPrimitive_ok (D := Disjoint h0 obs) hr hinv hlen0 hhself (aggPre_default h0) hpi0
    (by simp) true
  obtain ⟨h2, ag2, hadd2, hres2⟩ := addPrimitive_ok (D := Disjoint h0 obs) hr hres1.inv hlen0 hres1.self
    (hres1.ok.pre (by simpa using hpi0)) hpj0 (by simpa using hpi0) true
  refine ⟨h1, h2, hadd1, hadd2, ?_⟩
  have hres := hres1.trans hres2 (fun q hq => List.mem_append_left _ hq)
  simp only [List.nil_append] at hres
  have hil : i < s.idx.length := (List.getElem?_eq_some_iff.mp hi).1
  have hjl : j < s.idx.length := (List.getElem?_eq_some_iff.mp hj).1
  have hj' : (s.idx.set i (N : Int))[j]? = some (-1) := by
    rw [List.getElem?_set_ne hij]; exact hj
  have hempty : members obs s.idx N = [] := by
    apply List.eq_nil_iff_forall_not_mem.mpr
    intro q hq
    obtain ⟨k, -, hk⟩ := mem_members.mp hq
    have := (hI.range _ (List.mem_of_getElem? hk)).2
    omega
  have hmN : (members obs ((s.idx.set i (N : Int)).set j (N : Int)) N).Perm ([pi] ++ [pj]) := by
    refine (members_set_same hpj hj' (by omega)).trans ?_
    have h3 := members_set_same (x := (N : Int)) hpi hi (by omega)
    rw [hempty] at h3
    exact (h3.cons pj).trans (List.Perm.swap pi pj [])
  have hmo : ∀ m : Nat, m ≠ N →
      members obs ((s.idx.set i (N : Int)).set j (N : Int)) m = members obs s.idx m := by
    intro m hm
    rw [members_set_other hj' (by omega) (by omega), members_set_other hi (by omega) (by omega)]
  have hres' := hres.perm hmN.symm
  have hagglt : ∀ b ∈ s.aggs, b < s.heap.length := by
    intro b hb
    obtain ⟨n, hn⟩ := List.mem_iff_getElem?.mp hb
    obtain ⟨-, ag, hag, -⟩ := hI.agg n b hn
    exact (List.getElem?_eq_some_iff.mp hag).1
  have haggs : ∀ (m : Nat) (b : Ptr), (s.aggs ++ [s.heap.length])[m]? = some b →
      (m = N ∧ b = s.heap.length) ∨ (m < N ∧ s.aggs[m]? = some b) := by
    intro m b hb
    by_cases hm : m < N
    · rw [List.getElem?_append_left hm] at hb; exact .inr ⟨hm, hb⟩
    · rw [List.getElem?_append_right (not_lt.mp hm)] at hb
      have h3 := (List.getElem?_eq_some_iff.mp hb).1
      simp at h3
      have : m = N := by omega
      subst this
      simp [← hN] at hb
      exact .inl ⟨rfl, hb.symm⟩
  constructor
  · exact hres.inv
  · simpa using hI.len
  · intro x hx
    simp only [List.length_append, List.length_cons, List.length_nil, zero_add]
    rcases List.mem_or_eq_of_mem_set hx with hx | rfl
    · rcases List.mem_or_eq_of_mem_set hx with hx | rfl
      · have := hI.range x hx
        simp only [← hN] at this
        omega
      · omega
    · omega
  · rw [List.nodup_append]
    refine ⟨hI.nodup, by simp, ?_⟩
    intro b hb c hc
    simp at hc; subst hc
    exact ne_of_lt (hagglt b hb)
  · intro m b hb
    rcases haggs m b hb with ⟨rfl, rfl⟩ | ⟨hm, hb'⟩
    · exact ⟨hlen0, ag2, hres.self, hres'.ok⟩
    · obtain ⟨hb0, bg, hbg, hbok⟩ := hI.agg m b hb'
      have hbl := hagglt b (List.mem_of_getElem? hb')
      refine ⟨hb0, bg, ?_, ?_⟩
      · simp only; rw [hres.other b hb0 (ne_of_lt hbl), hhold b hbl]; exact hbg
      · simp only; rw [hmo m (by omega)]; exact hbok
  · intro m hm
    simp only [List.length_append, List.length_cons, List.length_nil, zero_add] at hm
    by_cases hmn' : m = N
    · subst hmn'
      have := hmN.length_eq
      simp only [List.length_append, List.length_cons, List.length_nil] at this
      simp only; omega
    · simp only; rw [hmo m hmn']; exact hI.two m (by omega)
  · have hg : gi ((s.idx.set i (N : Int)).set j (N : Int)) =
        fun k => if k = j then (N : Int) else if k = i then (N : Int) else gi s.idx k := by
      rw [gi_set (by simpa using hjl), gi_set hil]
    apply hE
    simp only
    rw [hg]
    refine joins_new (gi_eq hi) (gi_eq hj) (by omega) ?_
    intro k
    have := (gi_ge hI.range k).2
    simp only [← hN] at this
    omega
  · intro r hr' hne'
    by_cases hw : ∃ q ∈ members obs ((s.idx.set i (N : Int)).set j (N : Int)) N, Within h0 q r
    · obtain ⟨q, hq, hw⟩ := hw
      obtain ⟨k, hk1, hk2⟩ := mem_members.mp hq
      exact ⟨k, q, N, hk1, hk2, by omega, hw⟩
    · rw [hres'.frame r hr' hw, hhold r (lt_of_lt_of_le hr' hlen0)] at hne'
      obtain ⟨k, p, x, h1, h2, h3, h4⟩ := hI.frame r hr' hne'
      have hkj : j ≠ k := by rintro rfl; rw [hj] at h2; cases h2; exact absurd rfl h3
      have hki : i ≠ k := by rintro rfl; rw [hi] at h2; cases h2; exact absurd rfl h3
      exact ⟨k, p, x, h1, by simp only; rw [List.getElem?_set_ne hkj, List.getElem?_set_ne hki]; exact h2, h3, h4⟩
  · intro hd m b bg hb hbg q hq r hw
    rcases haggs m b hb with ⟨rfl, rfl⟩ | ⟨hm, hb'⟩
    · simp only at hbg
      rw [hres.self] at hbg; cases hbg
      exact hres'.refs hd q hq r hw
    · obtain ⟨hb0, -⟩ := hI.agg m b hb'
      have hbl := hagglt b (List.mem_of_getElem? hb')
      simp only at hbg hq
      rw [hres.other b hb0 (ne_of_lt hbl), hhold b hbl] at hbg
      have hq' := hq
      rw [hmo m (by omega)] at hq'
      have h1 := hI.refs hd m b bg hb' hbg q hq' r hw
      have hrl : r < h0.length := Within.lt_length hr (members_lt hobs q hq') hw
      have hfr : h2[r]? = s.heap[r]? := by
        rw [← hhold r (lt_of_lt_of_le hrl hlen0)]
        apply hres'.frame r hrl
        rintro ⟨q2, hq2, hw2⟩
        obtain ⟨k1, hk1, hk1'⟩ := mem_members.mp hq
        obtain ⟨k2, hk2, hk2'⟩ := mem_members.mp hq2
        have : k1 ≠ k2 := by
          rintro rfl
          rw [hk1'] at hk2'; simp at hk2'; omega
        exact hd k1 k2 q q2 r this hk1 hk2 hw hw2
      unfold refOf at h1 ⊢
      simp only; rw [hfr]; exact h1

/-- Two aggregates are merged. -/
theorem Inv.merge {rank : Ptr → Nat} {h0 : Heap α} (hr : Ranked rank h0) {obs : List Ptr}
    (hobs : ∀ p ∈ obs, p < h0.length) {E : Nat → Nat → Prop} {s : St α} (hI : Inv h0 obs E s)
    {i j n m : Nat} (hnm : n < m) (hm : m < s.aggs.length)
    (hij : (s.idx[i]? = some (m : Int) ∧ s.idx[j]? = some (n : Int)) ∨
      (s.idx[i]? = some (n : Int) ∧ s.idx[j]? = some (m : Int)))
    {E' : Nat → Nat → Prop}
    (hE : ∀ g', Joins (gi s.idx) g' i j → ∀ x y, Same g' x y ↔ Relation.EqvGen E' x y) :
    ∃ s', mergeLoop (m : Int) (n : Int) (indexed obs) s = .ok s' ∧ s'.aggs = s.aggs ∧
      Inv h0 obs E' { s' with aggs := s'.aggs.eraseIdx m } := by
  have hn : n < s.aggs.length := by omega
  have ha : s.aggs[n]? = some s.aggs[n] := List.getElem?_eq_getElem hn
  obtain ⟨ha0, ag, hag, hok⟩ := hI.agg n _ ha
  have hstart : AddRes (Disjoint h0 obs) h0 s.heap s.heap s.aggs[n] ag (members obs s.idx n) :=
    ⟨hI.heap, rfl, hag, hok, fun _ _ _ => rfl, fun hd => hI.refs hd n _ ag ha hag, fun _ _ _ => rfl⟩
  obtain ⟨h', ag', hloop, hres⟩ := mergeLoop_ok (D := Disjoint h0 obs) hr (oldI := (m : Int)) (aggAt_nat ha) ha0
    obs s.idx [] s.heap ag _ hI.len.symm hobs (members_lt hobs) hstart
  have hindexed : indexed obs = (List.range' ([] : List Int).length obs.length).zip obs := by
    simp [indexed, List.range_eq_range']
  rw [← hindexed] at hloop
  simp only [List.nil_append] at hloop
  refine ⟨_, hloop, rfl, ?_⟩
  simp only
  set idx' := s.idx.map (renum (m : Int) (n : Int)) with hidx'
  have hmn : (members obs idx' n).Perm (members obs s.idx n ++ members obs s.idx m) := by
    apply members_map_two (by omega)
    intro x hx
    unfold renum
    split <;> [skip; split] <;> omega
  have hlow : ∀ k : Nat, k ≠ n → k < m → members obs idx' k = members obs s.idx k := by
    intro k hk hkm
    apply members_map_one
    intro x hx
    unfold renum
    split <;> [skip; split] <;> omega
  have hhigh : ∀ k : Nat, m ≤ k → members obs idx' k = members obs s.idx ((k + 1 : Nat) : Int) := by
    intro k hkm
    apply members_map_one
    intro x hx
    unfold renum
    push_cast
    split <;> [skip; split] <;> omega
  have hres' := hres.perm hmn.symm
  have hget : ∀ (k : Nat) (b : Ptr), (s.aggs.eraseIdx m)[k]? = some b →
      (k < m ∧ s.aggs[k]? = some b) ∨ (m ≤ k ∧ s.aggs[k + 1]? = some b) := by
    intro k b hb
    rw [List.getElem?_eraseIdx] at hb
    split at hb
    · exact .inl ⟨by assumption, hb⟩
    · exact .inr ⟨by omega, hb⟩
  have hne : ∀ (k : Nat) (b : Ptr), k ≠ n → s.aggs[k]? = some b → b ≠ s.aggs[n] := by
    rintro k b hk hb rfl
    obtain ⟨hml, hb'⟩ := List.getElem?_eq_some_iff.mp hb
    exact hk ((List.Nodup.getElem_inj_iff hI.nodup).mp hb')
  -- every surviving aggregate other than `n` is an old one with unchanged members
  have hold : ∀ (k : Nat) (b : Ptr), k ≠ n → (s.aggs.eraseIdx m)[k]? = some b →
      ∃ k', k' ≠ n ∧ k' ≠ m ∧ s.aggs[k']? = some b ∧ members obs idx' k = members obs s.idx (k' : Nat) := by
    intro k b hk hb
    rcases hget k b hb with ⟨hkm, hb'⟩ | ⟨hkm, hb'⟩
    · exact ⟨k, hk, by omega, hb', hlow k hk hkm⟩
    · exact ⟨k + 1, by omega, by omega, hb', hhigh k hkm⟩
  constructor
  · exact hres.inv
  · simpa [hidx'] using hI.len
  · intro x hx
    obtain ⟨y, hy, rfl⟩ := List.mem_map.mp hx
    have := hI.range y hy
    simp only
    rw [List.length_eraseIdx_of_lt hm]
    unfold renum
    split <;> [skip; split] <;> omega
  · exact hI.nodup.eraseIdx m
  · intro k b hb
    by_cases hk : k = n
    · subst hk
      rcases hget k b hb with ⟨-, hb'⟩ | ⟨hkm, -⟩
      · rw [ha] at hb'; cases hb'
        exact ⟨ha0, ag', hres.self, hres'.ok⟩
      · omega
    · obtain ⟨k', hk1, -, hb', hmem⟩ := hold k b hk hb
      obtain ⟨hb0, bg, hbg, hbok⟩ := hI.agg k' b hb'
      refine ⟨hb0, bg, ?_, ?_⟩
      · simp only; rw [hres.other b hb0 (hne k' b hk1 hb')]; exact hbg
      · simp only; rw [hmem]; exact hbok
  · intro k hk
    simp only at hk ⊢
    by_cases hkn : k = n
    · subst hkn
      have := hmn.length_eq
      rw [List.length_append] at this
      have h2 := hI.two k hn
      omega
    · obtain ⟨k', hk1, -, hb', hmem⟩ := hold k _ hkn (List.getElem?_eq_getElem hk)
      rw [hmem]
      exact hI.two k' (List.getElem?_eq_some_iff.mp hb').1
  · apply hE
    simp only
    rw [hidx', gi_map _ ((renum_neg (by omega) (by omega) (-1)).mpr rfl)]
    refine joins_merge (by omega) (by omega) (fun k => (gi_ge hI.range k).1) ?_
    rcases hij with ⟨h1, h2⟩ | ⟨h1, h2⟩
    · exact .inl ⟨gi_eq h1, gi_eq h2⟩
    · exact .inr ⟨gi_eq h1, gi_eq h2⟩
  · intro r hr' hne'
    by_cases hw : ∃ q ∈ members obs idx' n, Within h0 q r
    · obtain ⟨q, hq, hw⟩ := hw
      obtain ⟨k, hk1, hk2⟩ := mem_members.mp hq
      exact ⟨k, q, n, hk1, hk2, by omega, hw⟩
    · rw [hres'.frame r hr' hw] at hne'
      obtain ⟨k, p, x, h1, h2, h3, h4⟩ := hI.frame r hr' hne'
      refine ⟨k, p, renum m n x, h1, ?_, ?_, h4⟩
      · simp only; rw [hidx', List.getElem?_map, h2]; rfl
      · rw [Ne, renum_neg (by omega) (by omega)]; exact h3
  · intro hd k b bg hb hbg q hq r hw
    simp only at hb hbg hq
    by_cases hk : k = n
    · subst hk
      rcases hget k b hb with ⟨-, hb'⟩ | ⟨hkm, -⟩
      · rw [ha] at hb'; cases hb'
        rw [hres.self] at hbg; cases hbg
        exact hres'.refs hd q hq r hw
      · omega
    · obtain ⟨k', hk1, hk2, hb', hmem⟩ := hold k b hk hb
      obtain ⟨hb0, -⟩ := hI.agg k' b hb'
      rw [hres.other b hb0 (hne k' b hk1 hb')] at hbg
      have hq' := hq
      rw [hmem] at hq'
      have h1 := hI.refs hd k' b bg hb' hbg q hq' r hw
      have hrl : r < h0.length := Within.lt_length hr (members_lt hobs q hq') hw
      have hfr : h'[r]? = s.heap[r]? := by
        apply hres'.frame r hrl
        rintro ⟨q2, hq2, hw2⟩
        obtain ⟨k1, hk1, hk1'⟩ := mem_members.mp hq
        obtain ⟨k2, hk2, hk2'⟩ := mem_members.mp hq2
        have : k1 ≠ k2 := by
          rintro rfl
          rw [hk1'] at hk2'; simp at hk2'; omega
        exact hd k1 k2 q q2 r this hk1 hk2 hw hw2
      unfold refOf at h1 ⊢
      simp only; rw [hfr]; exact h1

theorem Inv.congr {h0 : Heap α} {obs : List Ptr} {E E' : Nat → Nat → Prop} {s : St α}
    (hE : ∀ x y, E x y ↔ E' x y) (hI : Inv h0 obs E s) : Inv h0 obs E' s := by
  have : E = E' := by funext x y; exact propext (hE x y)
  exact this ▸ hI

/-- One linking step. -/
theorem link_ok {rank : Ptr → Nat} {h0 : Heap α} (hr : Ranked rank h0) {obs : List Ptr}
    (hobs : ∀ p ∈ obs, p < h0.length) {E : Nat → Nat → Prop} {s : St α} (hI : Inv h0 obs E s)
    {i j : Nat} {pi pj : Ptr} (hpi : obs[i]? = some pi) (hpj : obs[j]? = some pj) (hij : i ≠ j) :
    ∃ s', link obs i j pi pj s = .ok s' ∧ Inv h0 obs (fun x y => E x y ∨ (x = i ∧ y = j)) s' := by
  have hil : i < s.idx.length := by rw [hI.len]; exact (List.getElem?_eq_some_iff.mp hpi).1
  have hjl : j < s.idx.length := by rw [hI.len]; exact (List.getElem?_eq_some_iff.mp hpj).1
  have hii : s.idx[i]? = some s.idx[i] := List.getElem?_eq_getElem hil
  have hjj : s.idx[j]? = some s.idx[j] := List.getElem?_eq_getElem hjl
  have hE : ∀ g', Joins (gi s.idx) g' i j → ∀ x y, Same g' x y ↔
      Relation.EqvGen (fun x y => E x y ∨ (x = i ∧ y = j)) x y := by
    intro g' hg x y
    rw [hg x y, eqvGen_join (E := E) (i := i) (j := j) (fun _ _ => Iff.rfl) x y]
    simp only [hI.same]
  unfold link
  simp only [Res.index, hii, hjj, Res.ok_bind]
  rcases idx_range hI.range hii with h1 | ⟨n, h1, hn⟩ <;> rcases idx_range hI.range hjj with h2 | ⟨m, h2, hm⟩
  · rw [h1] at hii; rw [h2] at hjj
    obtain ⟨ha, hb, hadd, hadd2, hinv⟩ := hI.fresh hr hobs hpi hpj hij hii hjj hE
    refine ⟨_, ?_, hinv⟩
    rw [h1, h2]
    simp only [hadd, hadd2, Res.ok_bind]
    rfl
  · rw [h1] at hii; rw [h2] at hjj
    obtain ⟨a, h', ha, hadd, hinv⟩ := hI.extend hr hobs hpi hjj hii hm
      (fun g' hg => hE g' hg.swap)
    refine ⟨_, ?_, hinv⟩
    rw [h1, h2]
    have hm1 : (m : Int) ≠ -1 := by omega
    simp only [ha, hadd, Res.ok_bind, hm1, ne_eq, not_true_eq_false, not_false_eq_true, and_self,
      and_false, and_true, if_true, if_false, false_and]
  · rw [h1] at hii; rw [h2] at hjj
    obtain ⟨a, h', ha, hadd, hinv⟩ := hI.extend hr hobs hpj hii hjj hn hE
    refine ⟨_, ?_, hinv⟩
    rw [h1, h2]
    have hm1 : (n : Int) ≠ -1 := by omega
    simp only [ha, hadd, Res.ok_bind, hm1, ne_eq, not_true_eq_false, not_false_eq_true, and_self,
      and_false, and_true, if_true, if_false, false_and]
  · rw [h1] at hii; rw [h2] at hjj
    rw [h1, h2]
    have hn1 : (n : Int) ≠ -1 := by omega
    have hm1 : (m : Int) ≠ -1 := by omega
    simp only [hn1, hm1, ne_eq, not_false_eq_true, and_false, false_and, if_false]
    by_cases hnm : n = m
    · subst hnm
      refine ⟨s, by simp, ?_⟩
      refine { hI with same := hE _ (joins_id (.inr ⟨?_, ?_⟩)) }
      · rw [gi_eq hii, gi_eq hjj]
      · rw [gi_eq hii]; exact hn1
    · have hne : (n : Int) ≠ m := by omega
      simp only [hne, not_false_eq_true, if_true]
      by_cases hlt : n < m
      · obtain ⟨s', hl, haggs, hinv⟩ := hI.merge hr hobs hlt hm (.inr ⟨hii, hjj⟩) hE
        refine ⟨_, ?_, hinv⟩
        have : (n : Int) < m := by omega
        simp only [this, if_true, hl, Res.ok_bind]
        show (if m < s'.aggs.length then _ else _) = _
        rw [haggs, if_pos hm]
      · obtain ⟨s', hl, haggs, hinv⟩ := hI.merge hr hobs (show m < n by omega) hn (.inl ⟨hii, hjj⟩) hE
        refine ⟨_, ?_, hinv⟩
        have : ¬ (n : Int) < m := by omega
        simp only [this, if_false, hl, Res.ok_bind]
        show (if n < s'.aggs.length then _ else _) = _
        rw [haggs, if_pos hn]

/-- One iteration of the inner loop. -/
theorem pairStep_ok {rank : Ptr → Nat} {h0 : Heap α} (hr : Ranked rank h0) {obs : List Ptr}
    (hobs : ∀ p ∈ obs, p < h0.length) {E : Nat → Nat → Prop} {s : St α} (hI : Inv h0 obs E s)
    {i j : Nat} {pi pj : Ptr} (hpi : obs[i]? = some pi) (hpj : obs[j]? = some pj) (hij : i < j) :
    ∃ s', pairStep obs i pi j pj s = .ok s' ∧
      Inv h0 obs (fun x y => E x y ∨ (x = i ∧ y = j ∧ Meets h0 obs i j)) s' := by
  have hi0 := hobs pi (List.mem_of_getElem? hpi)
  have hj0 := hobs pj (List.mem_of_getElem? hpj)
  have hoi := List.getElem?_eq_getElem hi0
  have hoj := List.getElem?_eq_getElem hj0
  obtain ⟨oi, hoi', -⟩ := hI.heap.ext.get hoi
  obtain ⟨oj, hoj', -⟩ := hI.heap.ext.get hoj
  obtain ⟨b, hb, hb'⟩ := isIntersecting_ok hr hI.heap.ext hoi hoi' hoj hoj'
  unfold pairStep
  simp only [Heap.deref, hoi', hoj', hb', Res.ok_bind]
  cases b with
  | true =>
    obtain ⟨s', hs', hinv⟩ := link_ok hr hobs hI hpi hpj (ne_of_lt hij)
    refine ⟨s', by simpa using hs', hinv.congr ?_⟩
    intro x y
    have : Meets h0 obs i j := ⟨hij, pi, pj, _, _, hpi, hpj, hoi, hoj, hb⟩
    tauto
  | false =>
    refine ⟨s, by simp, hI.congr ?_⟩
    intro x y
    have : ¬ Meets h0 obs i j := by
      rintro ⟨-, p, q, op, oq, h1, h2, h3, h4, h5⟩
      rw [hpi] at h1; cases h1
      rw [hpj] at h2; cases h2
      rw [hoi] at h3; cases h3
      rw [hoj] at h4; cases h4
      rw [hb] at h5; cases h5
    tauto

theorem innerLoop_ok {rank : Ptr → Nat} {h0 : Heap α} (hr : Ranked rank h0) {obs : List Ptr}
    (hobs : ∀ p ∈ obs, p < h0.length) {i : Nat} {pi : Ptr} (hpi : obs[i]? = some pi) :
    ∀ (L : List (Nat × Ptr)) (E : Nat → Nat → Prop) (s : St α), Inv h0 obs E s →
      (∀ x ∈ L, i < x.1 ∧ obs[x.1]? = some x.2) →
      ∃ s', innerLoop obs i pi L s = .ok s' ∧
        Inv h0 obs (fun x y => E x y ∨ (x = i ∧ y ∈ L.map (·.1) ∧ Meets h0 obs i y)) s' := by
  intro L
  induction L with
  | nil =>
    intro E s hI _
    exact ⟨s, rfl, hI.congr (by simp)⟩
  | cons x L ih =>
    intro E s hI hL
    obtain ⟨j, pj⟩ := x
    have hj := hL (j, pj) (by simp)
    obtain ⟨s1, h1, hI1⟩ := pairStep_ok hr hobs hI hpi hj.2 hj.1
    obtain ⟨s2, h2, hI2⟩ := ih _ s1 hI1 (fun x hx => hL x (by simp [hx]))
    refine ⟨s2, by simp [innerLoop, h1, h2], hI2.congr ?_⟩
    intro x y
    simp only [List.map_cons, List.mem_cons]
    constructor
    · rintro ((h | ⟨rfl, rfl, h⟩) | ⟨rfl, h, h'⟩)
      · exact .inl h
      · exact .inr ⟨rfl, .inl rfl, h⟩
      · exact .inr ⟨rfl, .inr h, h'⟩
    · rintro (h | ⟨rfl, rfl | h, h'⟩)
      · exact .inl (.inl h)
      · exact .inl (.inr ⟨rfl, rfl, h'⟩)
      · exact .inr ⟨rfl, h, h'⟩

theorem outerLoop_ok {rank : Ptr → Nat} {h0 : Heap α} (hr : Ranked rank h0) {obs : List Ptr}
    (hobs : ∀ p ∈ obs, p < h0.length) :
    ∀ (L : List (Nat × Ptr)) (E : Nat → Nat → Prop) (s : St α), Inv h0 obs E s →
      (∀ x ∈ L, obs[x.1]? = some x.2) → (L.map (·.1)).Pairwise (· < ·) →
      ∃ s', outerLoop obs L s = .ok s' ∧
        Inv h0 obs (fun x y => E x y ∨ (x ∈ L.map (·.1) ∧ y ∈ L.map (·.1) ∧ Meets h0 obs x y)) s' := by
  intro L
  induction L with
  | nil =>
    intro E s hI _ _
    exact ⟨s, rfl, hI.congr (by simp)⟩
  | cons x L ih =>
    intro E s hI hL hp
    obtain ⟨i, pi⟩ := x
    rw [List.map_cons, List.pairwise_cons] at hp
    obtain ⟨s1, h1, hI1⟩ := innerLoop_ok hr hobs (hL (i, pi) (by simp)) L E s hI
      (fun x hx => ⟨hp.1 x.1 (List.mem_map.mpr ⟨x, hx, rfl⟩), hL x (by simp [hx])⟩)
    obtain ⟨s2, h2, hI2⟩ := ih _ s1 hI1 (fun x hx => hL x (by simp [hx])) hp.2
    refine ⟨s2, by simp [outerLoop, h1, h2], hI2.congr ?_⟩
    intro x y
    simp only [List.map_cons, List.mem_cons]
    constructor
    · rintro ((h | ⟨rfl, h, h'⟩) | ⟨h, h', h''⟩)
      · exact .inl h
      · exact .inr ⟨.inl rfl, .inr h, h'⟩
      · exact .inr ⟨.inr h, .inr h', h''⟩
    · rintro (h | ⟨hx, hy, h⟩)
      · exact .inl (.inl h)
      · have hlt : x < y := h.1
        rcases hx with rfl | hx
        · rcases hy with rfl | hy
          · omega
          · exact .inl (.inr ⟨rfl, hy, h⟩)
        · rcases hy with rfl | hy
          · have := hp.1 x hx
            simp only at this; omega
          · exact .inr ⟨hx, hy, h⟩

/-- `update_hull` on one of the new aggregates keeps the invariant. -/
theorem updateHulls_ok {h0 : Heap α} {obs : List Ptr} (hobs : ∀ p ∈ obs, p < h0.length)
    {E : Nat → Nat → Prop} {aggs : List Ptr} {idx : List Int} :
    ∀ (L : List Ptr) (h : Heap α), (∀ a ∈ L, a ∈ aggs) → Inv h0 obs E ⟨h, aggs, idx⟩ →
      ∃ h', updateHulls L h = .ok h' ∧ h'.length = h.length ∧
        (∀ r < h0.length, h'[r]? = h[r]?) ∧ Inv h0 obs E ⟨h', aggs, idx⟩ := by
  intro L
  induction L with
  | nil => intro h _ hI; exact ⟨h, rfl, rfl, fun _ _ => rfl, hI⟩
  | cons a L ih =>
    intro h hL hI
    obtain ⟨n, hn⟩ := List.mem_iff_getElem?.mp (hL a (by simp))
    obtain ⟨ha0, ag, hag, hok⟩ := hI.agg n a hn
    simp only at hag hn hok
    have hal : a < h.length := (List.getElem?_eq_some_iff.mp hag).1
    obtain ⟨ps, hps, hpr, hbase⟩ := hok.canon
    have hms := hok.pre (members_lt hobs)
    have href : ag.base.refPos = some (canonPos h0 ps) := by rw [hbase]; rfl
    obtain ⟨hi, ho, -, -, hhi, hho, hup⟩ := updateHull_ok hag
      (fun q hq => lt_of_lt_of_le (members_lt hobs q (hms.perm.mem_iff.mp hq)) hI.heap.ext.1) href hok.hulls
    set ag' : Aggregate α := { ag with inside := hi, outside := ho } with hag'
    have hne : ∀ r, r < h0.length → a ≠ r := by rintro r hr' rfl; exact absurd hr' (not_lt.mpr ha0)
    have hI' : Inv h0 obs E ⟨h.set a (.aggregate ag'), aggs, idx⟩ := by
      constructor
      · refine ⟨⟨by simpa using hI.heap.ext.1, fun p hp => ?_⟩, fun b o hb ho' => ?_⟩
        · simp only; rw [List.getElem?_set_ne (hne p hp)]; exact hI.heap.ext.2 p hp
        · simp only at ho'
          by_cases hba : b = a
          · subst hba
            rw [List.getElem?_set_self hal] at ho'; cases ho'
            exact ⟨_, rfl, fun q hq => members_lt hobs q (hms.perm.mem_iff.mp hq)⟩
          · rw [List.getElem?_set_ne (Ne.symm hba)] at ho'
            exact hI.heap.new b o hb ho'
      · exact hI.len
      · exact hI.range
      · exact hI.nodup
      · intro m b hb
        obtain ⟨hb0, bg, hbg, hbok⟩ := hI.agg m b hb
        by_cases hba : b = a
        · subst hba
          simp only at hbg
          rw [hag] at hbg; cases hbg
          refine ⟨hb0, ag', by simp only; rw [List.getElem?_set_self hal], hbok.canon, hhi, hho⟩
        · exact ⟨hb0, bg, by simp only; rw [List.getElem?_set_ne (Ne.symm hba)]; exact hbg, hbok⟩
      · exact hI.two
      · exact hI.same
      · intro r hr'
        simp only
        rw [List.getElem?_set_ne (hne r hr')]
        exact hI.frame r hr'
      · intro hd m b bg hb hbg q hq r hw
        have key : ∃ bg', h[b]? = some (.aggregate bg') ∧ bg'.base = bg.base := by
          simp only at hbg
          by_cases hba : b = a
          · subst hba
            rw [List.getElem?_set_self hal] at hbg; cases hbg
            exact ⟨ag, hag, rfl⟩
          · rw [List.getElem?_set_ne (Ne.symm hba)] at hbg
            exact ⟨bg, hbg, rfl⟩
        obtain ⟨bg', hbg', hbase'⟩ := key
        have h1 := hI.refs hd m b bg' hb hbg' q hq r hw
        rw [← hbase', ← h1]
        unfold refOf
        by_cases hra : r = a
        · subst hra
          simp only
          rw [List.getElem?_set_self hal, hag]; rfl
        · simp only; rw [List.getElem?_set_ne (Ne.symm hra)]
    obtain ⟨h', hup', hlen', hold', hI''⟩ := ih _ (fun b hb => hL b (by simp [hb])) hI'
    refine ⟨h', ?_, by simpa using hlen', ?_, hI''⟩
    · unfold updateHulls at hup' ⊢
      rw [List.foldlM_cons, hup]
      exact hup'
    · intro r hr'
      rw [hold' r hr', List.getElem?_set_ne (hne r hr')]

/-- What `aggregate_obstacles` does on a heap without cyclic aggregates. -/
theorem aggregateObstacles_ok {rank : Ptr → Nat} {h0 : Heap α} (hr : Ranked rank h0) {obs : List Ptr}
    (hobs : ∀ p ∈ obs, p < h0.length) :
    ∃ h' aggs idx, aggregateObstacles h0 obs = .ok (h', aggs ++ members obs idx (-1)) ∧
      Inv h0 obs (Meets h0 obs) ⟨h', aggs, idx⟩ := by
  have hstart : Inv h0 obs (fun _ _ => False) (⟨h0, [], List.replicate obs.length (-1)⟩ : St α) := by
    refine ⟨⟨ShapeExt.refl h0, fun b o hb ho => ?_⟩, by simp, ?_, by simp, ?_, ?_, ?_, ?_, ?_⟩
    · exact absurd (List.getElem?_eq_some_iff.mp ho).1 (not_lt.mpr hb)
    · intro x hx
      rw [List.eq_of_mem_replicate hx]; simp
    · intro n a h; simp at h
    · intro n h; simp at h
    · intro x y
      have hg : ∀ k, gi (List.replicate obs.length (-1)) k = -1 := by
        intro k; unfold gi
        by_cases hk : k < obs.length <;> simp [hk]
      constructor
      · rintro (rfl | ⟨-, h⟩)
        · exact .refl _
        · exact absurd (hg x) h
      · intro h
        induction h with
        | rel _ _ h => exact h.elim
        | refl => exact .refl _ _
        | symm _ _ _ ih => exact ih.symm
        | trans _ _ _ _ _ ih1 ih2 => exact ih1.trans ih2
    · intro r _ h; exact absurd rfl h
    · intro _ n a ag h; simp at h
  have hfst : (indexed obs).map (·.1) = List.range obs.length := by
    unfold indexed
    rw [List.map_fst_zip]; simp
  obtain ⟨s, hs, hI⟩ := outerLoop_ok hr hobs (indexed obs) _ _ hstart
    (by
      rintro ⟨k, p⟩ hx
      unfold indexed at hx
      obtain ⟨n, hn⟩ := List.mem_iff_getElem?.mp hx
      rw [List.getElem?_zip_eq_some] at hn
      obtain ⟨h1, h2⟩ := hn
      have := (List.getElem?_eq_some_iff.mp h1).2
      simp at this
      subst this
      exact h2)
    (by rw [hfst]; exact List.pairwise_lt_range)
  have hI1 : Inv h0 obs (Meets h0 obs) s := by
    refine hI.congr fun x y => ?_
    rw [hfst]
    constructor
    · rintro (h | ⟨-, -, h⟩)
      · exact h.elim
      · exact h
    · intro h
      obtain ⟨-, p, q, -, -, h1, h2, -⟩ := id h
      exact .inr ⟨by simpa using (List.getElem?_eq_some_iff.mp h1).1,
        by simpa using (List.getElem?_eq_some_iff.mp h2).1, h⟩
  obtain ⟨h', hup, -, -, hI2⟩ := updateHulls_ok hobs (aggs := s.aggs) (idx := s.idx) s.aggs s.heap
    (fun _ h => h) hI1
  refine ⟨h', s.aggs, s.idx, ?_, hI2⟩
  unfold aggregateObstacles
  simp only [hs, hup, Res.ok_bind, remaining_eq]

end DOA.Aggregation
