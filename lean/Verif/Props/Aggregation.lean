import Verif.Lemmas.AggregateApi
import Verif.Model.World

/-!
# C04–C09: what `update()` and `aggregate_obstacles` do

All theorems hold for every scalar type unless they mention `ℝ`.
-/

set_option linter.unusedSectionVars false

namespace DOA.Props
open DOA.Spec Aggregation

variable {α : Type} [Add α] [Sub α] [Mul α] [Div α] [Neg α] [Zero α] [One α]
  [LE α] [LT α] [DecidableLE α] [DecidableLT α] [CMath α]

private theorem core {h : Heap α} (ha : Acyclic h) {obs : List Ptr} (hobs : ∀ p ∈ obs, p < h.length) :
    ∃ h' aggs idx, aggregateObstacles h obs = .ok (h', aggs ++ members obs idx (-1)) ∧
      Inv h obs (Meets h obs) ⟨h', aggs, idx⟩ := by
  obtain ⟨rank, hr⟩ := exists_ranked ha
  exact aggregateObstacles_ok hr hobs

private theorem prims_members {h h' : Heap α} {obs : List Ptr} {E : Nat → Nat → Prop} {aggs : List Ptr}
    {idx : List Int} (hobs : ∀ p ∈ obs, p < h.length) (hI : Inv h obs E ⟨h', aggs, idx⟩) {n : Nat} {a : Ptr}
    (hn : aggs[n]? = some a) : (primitives h' a).Perm (members obs idx n) := by
  obtain ⟨-, ag, hag, hok⟩ := hI.agg n a hn
  simp only at hag
  have : primitives h' a = ag.prims := by simp [primitives, hag]
  rw [this]
  exact (hok.pre (members_lt hobs)).perm

private theorem within_agg {h h' : Heap α} {rank : Ptr → Nat} (hr : Ranked rank h) {obs : List Ptr}
    {E : Nat → Nat → Prop} {aggs : List Ptr}
    {idx : List Int} (hobs : ∀ p ∈ obs, p < h.length) (hI : Inv h obs E ⟨h', aggs, idx⟩) {n : Nat} {a : Ptr}
    (hn : aggs[n]? = some a) (r : Ptr) :
    Within h' a r ↔ r = a ∨ ∃ q ∈ members obs idx n, Within h q r := by
  obtain ⟨-, ag, hag, hok⟩ := hI.agg n a hn
  simp only at hag hok
  have hperm := (hok.pre (members_lt hobs)).perm
  constructor
  · intro hw
    rcases Relation.ReflTransGen.cases_head hw with rfl | ⟨q, ⟨b, hb, hq⟩, hw'⟩
    · exact .inl rfl
    · rw [hag] at hb; cases hb
      have hq' := hperm.mem_iff.mp hq
      exact .inr ⟨q, hq', (hI.heap.ext.within hr (members_lt hobs q hq')).mp hw'⟩
  · rintro (rfl | ⟨q, hq, hw⟩)
    · exact .refl
    · exact .head ⟨ag, hag, hperm.mem_iff.mpr hq⟩
        ((hI.heap.ext.within hr (members_lt hobs q hq)).mpr hw)

/-! ### C07 -/

/-- C07: aggregation is defined (no out-of-range access, no dangling dereference, no unbounded
recursion, no exception) for every list of existing obstacles, as long as no aggregate contains
itself. -/
theorem C07_defined {h : Heap α} (ha : Acyclic h) {obs : List Ptr} (hobs : ∀ p ∈ obs, p < h.length) :
    ∃ h' l, aggregateObstacles h obs = .ok (h', l) := by
  obtain ⟨h', aggs, idx, hrun, -⟩ := core ha hobs
  exact ⟨_, _, hrun⟩

/-- C07: the result is again a heap without cyclic aggregates, and all pointers in the returned list
refer to existing obstacles: so `update()` can be repeated forever. -/
theorem C07_closed {h h' : Heap α} (ha : Acyclic h) {obs l : List Ptr} (hobs : ∀ p ∈ obs, p < h.length)
    (hrun : aggregateObstacles h obs = .ok (h', l)) :
    Acyclic h' ∧ (∀ p ∈ obs, p < h'.length) ∧ ∀ p ∈ l, p < h'.length := by
  obtain ⟨rank, hr⟩ := exists_ranked ha
  obtain ⟨h1, aggs, idx, hrun', hI⟩ := aggregateObstacles_ok hr hobs
  rw [hrun] at hrun'; cases hrun'
  have hle : h.length ≤ h'.length := hI.heap.ext.1
  refine ⟨⟨_, (hI.heap.ranked hr).child⟩, fun p hp => lt_of_lt_of_le (hobs p hp) hle, fun p hp => ?_⟩
  rcases List.mem_append.mp hp with hp | hp
  · obtain ⟨n, hn⟩ := List.mem_iff_getElem?.mp hp
    obtain ⟨-, ag, hag, -⟩ := hI.agg n p hn
    exact (List.getElem?_eq_some_iff.mp hag).1
  · exact lt_of_lt_of_le (members_lt hobs p hp) hle

/-! ### C05 -/

/-- C05: the result is the new aggregates followed by the obstacles left alone (in input order); the
primitives of the aggregates together with the obstacles left alone are exactly the inputs, each once;
every aggregate has at least two primitives and is a new object. -/
theorem C05_partition {h h' : Heap α} (ha : Acyclic h) {obs l : List Ptr} (hobs : ∀ p ∈ obs, p < h.length)
    (hrun : aggregateObstacles h obs = .ok (h', l)) :
    ∃ aggs rest, l = aggs ++ rest ∧ aggs.Nodup ∧
      (∀ a ∈ aggs, h.length ≤ a ∧ 2 ≤ (primitives h' a).length) ∧
      rest.Sublist obs ∧ (aggs.flatMap (primitives h') ++ rest).Perm obs := by
  obtain ⟨h1, aggs, idx, hrun', hI⟩ := core ha hobs
  rw [hrun] at hrun'; cases hrun'
  refine ⟨aggs, _, rfl, hI.nodup, ?_, ?_, ?_⟩
  · intro a ha'
    obtain ⟨n, hn⟩ := List.mem_iff_getElem?.mp ha'
    refine ⟨(hI.agg n a hn).1, ?_⟩
    rw [(prims_members hobs hI hn).length_eq]
    exact hI.two n (List.getElem?_eq_some_iff.mp hn).1
  · unfold members
    have h1 : List.Sublist (((obs.zip idx).filter fun x => decide (x.2 = -1)).map (·.1)) ((obs.zip idx).map (·.1)) :=
      List.filter_sublist.map _
    have hlen : idx.length = obs.length := hI.len
    rwa [List.map_fst_zip (by omega)] at h1
  · refine List.Perm.trans (List.Perm.append_right _ ?_)
      (members_partition obs idx aggs.length hI.len hI.range)
    have key : ∀ (L : List Ptr) (k : Nat), (∀ i a, L[i]? = some a → aggs[k + i]? = some a) →
        (L.flatMap (primitives h')).Perm
          ((List.range' k L.length).flatMap (fun n : Nat => members obs idx (n : Int))) := by
      intro L
      induction L with
      | nil => intro k _; simp
      | cons a L ih =>
        intro k hk
        rw [List.flatMap_cons, List.length_cons, List.range'_succ, List.flatMap_cons]
        refine List.Perm.append ?_ (ih (k + 1) ?_)
        · exact prims_members hobs hI (by simpa using hk 0 a (by simp))
        · intro i b hb
          have := hk (i + 1) b (by simpa using hb)
          rw [← this]; congr 1; omega
    rw [List.range_eq_range']
    exact key aggs 0 (by intro i a h; simpa using h)

/-! ### C06 -/

/-- C06, general form (inputs addressed by their position in the list, so that it also covers a list
with repeated pointers): there is a placement of the inputs in the aggregates such that two inputs are
placed in the same aggregate iff they are linked. -/
theorem C06_placement {h h' : Heap α} (ha : Acyclic h) {obs l : List Ptr} (hobs : ∀ p ∈ obs, p < h.length)
    (hrun : aggregateObstacles h obs = .ok (h', l)) :
    ∃ (aggs : List Ptr) (place : List (Option Nat)),
      place.length = obs.length ∧ l = aggs ++ placed obs place none ∧
      (∀ v ∈ place, ∀ n, v = some n → n < aggs.length) ∧
      (∀ n a, aggs[n]? = some a → h.length ≤ a ∧ (primitives h' a).Perm (placed obs place (some n))) ∧
      (∀ i j, i ≠ j → (Linked h obs i j ↔ ∃ n, place[i]? = some (some n) ∧ place[j]? = some (some n))) := by
  obtain ⟨h1, aggs, idx, hrun', hI⟩ := core ha hobs
  rw [hrun] at hrun'; cases hrun'
  have hrange := hI.range
  have hlen : idx.length = obs.length := hI.len
  simp only at hrange
  let f : Int → Option Nat := fun x => if x = -1 then none else some x.toNat
  have hfn : ∀ x, f x = none ↔ x = -1 := by intro x; simp [f]
  have hfs : ∀ (x : Int) (n : Nat), -1 ≤ x → (f x = some n ↔ x = n) := by
    intro x n hx
    simp only [f]
    split
    · simp; omega
    · simp; omega
  have hpl : ∀ (v : Option Nat) (y : Int), (∀ x ∈ idx, (f x = v ↔ x = y)) →
      placed obs (idx.map f) v = members obs idx y := by
    intro v y hv
    unfold placed members
    rw [List.zip_map_right, List.filter_map, List.map_map]
    have e2 : (obs.zip idx).filter ((fun x : Ptr × Option Nat => decide (x.2 = v)) ∘ Prod.map id f) =
        (obs.zip idx).filter (fun x => decide (x.2 = y)) := by
      apply List.filter_congr
      rintro ⟨p, x⟩ hx
      have := hv x (List.of_mem_zip hx).2
      simp [this]
    rw [e2]
    rfl
  refine ⟨aggs, idx.map f, by simpa using hlen, ?_, ?_, ?_, ?_⟩
  · rw [hpl none (-1) (fun x _ => hfn x)]
  · intro v hv n hvn
    obtain ⟨x, hx, rfl⟩ := List.mem_map.mp hv
    have := hrange x hx
    have := (hfs x n this.1).mp hvn
    omega
  · intro n a hn
    refine ⟨(hI.agg n a hn).1, ?_⟩
    rw [hpl (some n) n (fun x hx => hfs x n (hrange x hx).1)]
    exact prims_members hobs hI hn
  · intro i j hij
    have hs := hI.same i j
    unfold Linked
    rw [← hs]
    unfold Same
    simp only [List.getElem?_map, gi]
    constructor
    · rintro (h | ⟨h1, h2⟩)
      · exact absurd h hij
      · cases hi : idx[i]? with
        | none => rw [hi] at h2; simp at h2
        | some x =>
          rw [hi] at h1 h2
          simp only [Option.getD_some] at h1 h2
          cases hj : idx[j]? with
          | none => rw [hj] at h1; simp at h1; exact absurd h1 h2
          | some y =>
            rw [hj] at h1
            simp only [Option.getD_some] at h1
            subst h1
            exact ⟨x.toNat, by simp [f, h2], by simp [f, h2]⟩
    · rintro ⟨n, h1, h2⟩
      cases hi : idx[i]? with
      | none => rw [hi] at h1; simp at h1
      | some x =>
        cases hj : idx[j]? with
        | none => rw [hj] at h2; simp at h2
        | some y =>
          rw [hi] at h1; rw [hj] at h2
          simp only [Option.map_some, Option.some.injEq] at h1 h2
          have hx := (hfs x n (hrange x (List.mem_of_getElem? hi)).1).mp h1
          have hy := (hfs y n (hrange y (List.mem_of_getElem? hj)).1).mp h2
          subst hx; subst hy
          refine .inr ⟨rfl, ?_⟩
          simp

/-- C06: for inputs without repetition, two of them are primitives of one of the new aggregates iff
they are linked by a chain of intersecting inputs; an input is returned as itself iff it is linked to
no other input. -/
theorem C06_components {h h' : Heap α} (ha : Acyclic h) {obs l : List Ptr} (hobs : ∀ p ∈ obs, p < h.length)
    (hnd : obs.Nodup) (hrun : aggregateObstacles h obs = .ok (h', l)) {i j : Nat} {p q : Ptr}
    (hi : obs[i]? = some p) (hj : obs[j]? = some q) (hij : i ≠ j) :
    ((∃ a ∈ l, h.length ≤ a ∧ p ∈ primitives h' a ∧ q ∈ primitives h' a) ↔ Linked h obs i j) ∧
    (p ∈ l ↔ ∀ k, k ≠ i → ¬ Linked h obs i k) := by
  obtain ⟨h1, aggs, idx, hrun', hI⟩ := core ha hobs
  rw [hrun] at hrun'; cases hrun'
  have hlen : idx.length = obs.length := hI.len
  have uniq : ∀ (k k' : Nat) (r : Ptr), obs[k]? = some r → obs[k']? = some r → k = k' := by
    intro k k' r h1 h2
    obtain ⟨h3, h4⟩ := List.getElem?_eq_some_iff.mp h1
    obtain ⟨h5, h6⟩ := List.getElem?_eq_some_iff.mp h2
    exact (List.Nodup.getElem_inj_iff hnd).mp (h4.trans h6.symm)
  have mem_iff : ∀ (k : Nat) (r : Ptr) (x : Int), obs[k]? = some r →
      (r ∈ members obs idx x ↔ idx[k]? = some x) := by
    intro k r x hk
    rw [mem_members]
    constructor
    · rintro ⟨k', h1, h2⟩
      rw [uniq k k' r hk h1]; exact h2
    · intro h; exact ⟨k, hk, h⟩
  have hil : i < idx.length := by rw [hlen]; exact (List.getElem?_eq_some_iff.mp hi).1
  have hii : idx[i]? = some idx[i] := List.getElem?_eq_getElem hil
  have hp0 := hobs p (List.mem_of_getElem? hi)
  constructor
  · unfold Linked
    rw [← hI.same i j]
    constructor
    · rintro ⟨a, hal, ha0, hpa, hqa⟩
      have haggs : a ∈ aggs := by
        rcases List.mem_append.mp hal with h1 | h1
        · exact h1
        · exact absurd (members_lt hobs a h1) (not_lt.mpr ha0)
      obtain ⟨n, hn⟩ := List.mem_iff_getElem?.mp haggs
      have hperm := prims_members hobs hI hn
      have h1 := (mem_iff i p n hi).mp (hperm.mem_iff.mp hpa)
      have h2 := (mem_iff j q n hj).mp (hperm.mem_iff.mp hqa)
      refine .inr ⟨?_, ?_⟩
      · rw [gi_eq h1, gi_eq h2]
      · rw [gi_eq h1]; omega
    · rintro (h1 | ⟨h1, h2⟩)
      · exact absurd h1 hij
      · rw [gi_eq hii] at h1 h2
        rcases idx_range hI.range hii with h3 | ⟨n, h3, hn⟩
        · exact absurd h3 h2
        · simp only at h3 hn
          rw [h3] at hii h1
          have hjj : idx[j]? = some (n : Int) := by
            unfold gi at h1
            cases hj' : idx[j]? with
            | none => rw [hj'] at h1; simp at h1
            | some y => rw [hj'] at h1; simp at h1; rw [h1]
          have hga : aggs[n]? = some aggs[n] := List.getElem?_eq_getElem hn
          have hperm := prims_members hobs hI hga
          refine ⟨aggs[n], List.mem_append_left _ (List.getElem_mem hn), (hI.agg n _ hga).1, ?_, ?_⟩
          · exact hperm.mem_iff.mpr ((mem_iff i p n hi).mpr hii)
          · exact hperm.mem_iff.mpr ((mem_iff j q n hj).mpr hjj)
  · have hpl : p ∈ aggs ++ members obs idx (-1) ↔ idx[i]? = some (-1) := by
      rw [List.mem_append, mem_iff i p (-1) hi]
      constructor
      · rintro (h1 | h1)
        · obtain ⟨n, hn⟩ := List.mem_iff_getElem?.mp h1
          exact absurd hp0 (not_lt.mpr (hI.agg n p hn).1)
        · exact h1
      · exact .inr
    rw [hpl]
    constructor
    · intro h1 k hk hl
      unfold Linked at hl
      rcases (hI.same i k).mpr hl with h2 | ⟨-, h2⟩
      · exact hk h2.symm
      · exact h2 (gi_eq h1)
    · intro hno
      rcases idx_range hI.range hii with h3 | ⟨n, h3, hn⟩
      · rw [← h3]; exact hii
      · exfalso
        simp only at h3 hn
        rw [h3] at hii
        -- the aggregate has a second member
        have h2 := hI.two n hn
        simp only at h2
        have hex : ∃ k, k ≠ i ∧ idx[k]? = some (n : Int) := by
          by_contra hcon
          push Not at hcon
          have hall : ∀ r ∈ members obs idx n, r = p := by
            intro r hr
            obtain ⟨k, hk1, hk2⟩ := mem_members.mp hr
            by_cases hki : k = i
            · subst hki; rw [hi] at hk1; exact (Option.some.inj hk1).symm
            · exact absurd hk2 (hcon k hki)
          have hnd' : (members obs idx n).Nodup := by
            unfold members
            have h1 : List.Sublist (((obs.zip idx).filter fun x => decide (x.2 = (n : Int))).map (·.1)) ((obs.zip idx).map (·.1)) :=
              List.filter_sublist.map _
            rw [List.map_fst_zip (by omega)] at h1
            exact hnd.sublist h1
          have : members obs idx n = List.replicate (members obs idx n).length p :=
            List.eq_replicate_of_mem hall
          rw [this, List.nodup_replicate] at hnd'
          omega
        obtain ⟨k, hk, hkn⟩ := hex
        refine hno k hk ?_
        unfold Linked
        rw [← hI.same i k]
        refine .inr ⟨?_, ?_⟩
        · rw [gi_eq hii, gi_eq hkn]
        · rw [gi_eq hii]; omega

/-! ### C04 -/

/-- C04: `update()` succeeds and leaves every existing obstacle as it was, except that the reference
position of obstacles nested in one of the newly built aggregates may change. -/
theorem C04_update {w : World α} (ha : Acyclic w.heap) (hm : ∀ e ∈ w.env.map, e.2 < w.heap.length) :
    ∃ w', w.exec .update = .ok w' ∧ w.heap.length ≤ w'.heap.length ∧ w'.env.map = w.env.map ∧
      ∀ r o, w.heap[r]? = some o → ∃ o', w'.heap[r]? = some o' ∧ shape o' = shape o ∧
        (o' ≠ o → w.env.aggregated = true ∧
          ∃ a ∈ w'.env.list, w.heap.length ≤ a ∧ Within w'.heap a r) := by
  cases hagg : w.env.aggregated with
  | false =>
    refine ⟨⟨w.heap, { w.env with list := w.env.map.map (·.2) }⟩, ?_, le_refl _, rfl, ?_⟩
    · simp [World.exec, Env.update, hagg]
    · intro r o ho
      exact ⟨o, ho, rfl, fun h => absurd rfl h⟩
  | true =>
    have hobs : ∀ p ∈ w.env.map.map (·.2), p < w.heap.length := by
      intro p hp
      obtain ⟨e, he, rfl⟩ := List.mem_map.mp hp
      exact hm e he
    obtain ⟨rank, hr⟩ := exists_ranked ha
    obtain ⟨h', aggs, idx, hrun, hI⟩ := aggregateObstacles_ok hr hobs
    refine ⟨⟨h', { w.env with list := aggs ++ members (w.env.map.map (·.2)) idx (-1) }⟩, ?_,
      hI.heap.ext.1, rfl, ?_⟩
    · simp only [World.exec, Env.update, hagg, hrun, Res.ok_bind]
      rfl
    · intro r o ho
      have hrl : r < w.heap.length := (List.getElem?_eq_some_iff.mp ho).1
      obtain ⟨o', ho', hs⟩ := hI.heap.ext.get ho
      refine ⟨o', ho', hs, fun hne => ⟨rfl, ?_⟩⟩
      obtain ⟨i, p, x, hi, hx, hx1, hw⟩ := hI.frame r hrl (by
        simp only at ho'
        rw [ho', ho]; simpa using hne)
      rcases idx_range hI.range hx with h3 | ⟨n, h3, hn⟩
      · exact absurd h3 hx1
      · simp only at hn hx
        subst h3
        have hga : aggs[n]? = some aggs[n] := List.getElem?_eq_getElem hn
        refine ⟨aggs[n], List.mem_append_left _ (List.getElem_mem hn), (hI.agg n _ hga).1, ?_⟩
        exact (within_agg hr hobs hI hga r).mpr (.inr ⟨p, mem_members.mpr ⟨i, hi, hx⟩, hw⟩)

/-- C04: everything a client can read off an obstacle apart from the reference position is determined
by its `shape`. -/
theorem C04_shape_covers {o o' : Obj α} (h : shape o' = shape o) :
    o'.name = o.name ∧ o'.base.state = o.base.state ∧ o'.base.margin = o.base.margin ∧
    (∀ e, o = .ellipsoid e → ∃ e', o' = .ellipsoid e' ∧ e'.axis = e.axis ∧ e'.curv = e.curv) ∧
    (∀ a, o = .aggregate a → ∃ a', o' = .aggregate a' ∧ a'.prims = a.prims ∧
      a'.inside = a.inside ∧ a'.outside = a.outside) := by
  refine ⟨name_of_shape h, ?_, ?_, ?_, ?_⟩
  · have := congrArg (fun o : Obj α => o.base.state) h
    cases o <;> cases o' <;> exact this
  · have := congrArg (fun o : Obj α => o.base.margin) h
    cases o <;> cases o' <;> exact this
  · rintro e rfl
    cases o' <;> simp [shape, Obj.mapBase] at h ⊢
    exact ⟨h.2.1, h.2.2⟩
  · rintro a rfl
    cases o' <;> simp [shape, Obj.mapBase] at h ⊢
    exact ⟨h.2.2.2, h.2.1, h.2.2.1⟩

/-! ### C08, C09 -/

private theorem prims_mayAdd {h : Heap α} (ha : Acyclic h) {p : Ptr} {a : Aggregate α}
    (hp : h[p]? = some (.aggregate a)) : ∀ q ∈ a.prims, MayAdd h p q := by
  obtain ⟨rank, hr⟩ := exists_ranked ha
  intro q hq
  obtain ⟨h1, h2⟩ := hr.child p q ⟨a, hp, hq⟩
  refine ⟨h1, fun hw => ?_⟩
  have := within_rank hr hw
  omega

/-- What installing the primitives `ps` in `p` does, in terms of the specification. -/
private theorem install_wellFormed {h : Heap α} (ha : Acyclic h) {p : Ptr} {a : Aggregate α}
    (hp : h[p]? = some (.aggregate a)) {ps : List Ptr} (hps : ∀ q ∈ ps, MayAdd h p q) (upd : Bool)
    (hull : upd = true → AggHullsOK a) :
    ∃ h' a', h.installPrims p ps upd = .ok h' ∧ h'.length = h.length ∧ Acyclic h' ∧ WellFormed h' p ∧
      h'[p]? = some (.aggregate a') ∧ a'.base = (canonAgg h ps a).base ∧
      a'.prims = (canonAgg h ps a).prims ∧ (AggHullsOK a → AggHullsOK a') ∧
      (primitives h' p).Perm ps ∧
      (∀ r, r ≠ p → (h'[r]?).map shape = (h[r]?).map shape) ∧
      (∀ r, ¬ Within h' p r → h'[r]? = h[r]?) := by
  obtain ⟨h', a', h1, h2, h3, h4, h5, h6, h7, h8, h9, h10⟩ := installPrims_spec ha hp hps upd hull
  have hpsl : ∀ q ∈ ps, q < h.length := fun q hq => (hps q hq).1
  have hprims : primitives h' p = (sortedInfo h ps).map (·.1) := by
    simp [primitives, h4, h5, canonAgg]
  have hshape : ∀ r, r ≠ p → (h'[r]?).map shape = (h[r]?).map shape := by
    intro r hr
    by_cases hw : ∃ q ∈ ps, Within h q r
    · rw [h8 r hr hw]
      cases h[r]? with
      | none => rfl
      | some o => simp [shape_mapBase_setRef]
    · rw [h9 r hr hw]
  have hne : ∀ q ∈ ps, q ≠ p := by
    rintro q hq rfl
    exact (hps q hq).2 .refl
  have hnames : ∀ q ∈ ps, nameOf h' q = nameOf h q := by
    intro q hq
    have := hshape q (hne q hq)
    unfold nameOf
    have key : ∀ x : Option (Obj α), x.map Obj.name = (x.map shape).map Obj.name := by
      intro x; cases x with
      | none => rfl
      | some o => simp [shape_name]
    rw [key, this, ← key]
  have hmem : ∀ q ∈ (sortedInfo h ps).map (·.1), q ∈ ps := fun q hq => (prims_perm hpsl).mem_iff.mp hq
  refine ⟨h', a', h1, h2, h3, ⟨?_, ?_, ?_⟩, h4, h6, h5, h7, ?_, hshape, ?_⟩
  · rw [hprims]
    refine List.Pairwise.imp_of_mem ?_ sortedInfo_sorted
    intro x y hx hy hxy
    rw [hnames x (hmem x hx), hnames y (hmem y hy)]
    exact hxy
  · rw [h4, hprims]
    simp only [Option.map_some, Obj.name, Obj.base, h6]
    rw [List.map_congr_left (fun q hq => hnames q (hmem q hq)), ← sortedInfo_names, ← aggregateName_eq]
    rfl
  · intro r hw
    have hpos : (h'[p]?).map Obj.position = some (canonPos h ps) := by
      rw [h4]
      simp only [Option.map_some, Obj.position, Obj.base, h6]
      rfl
    rw [hpos]
    by_cases hr : r = p
    · subst hr
      simp only [refOf, h4, Option.bind_some, Obj.base, h6]
      rfl
    · rcases (h10 r).mp hw with h11 | h11
      · exact absurd h11 hr
      · obtain ⟨q, hq, hwq⟩ := id h11
        obtain ⟨rank, hrk⟩ := exists_ranked ha
        have hrl := Within.lt_length hrk (hpsl q hq) hwq
        unfold refOf
        rw [h8 r hr h11, List.getElem?_eq_getElem hrl]
        simp only [Option.map_some, Option.bind_some]
        cases h[r] <;> rfl
  · rw [hprims]; exact prims_perm hpsl
  · intro r hw
    have : ¬ (r = p ∨ ∃ q ∈ ps, Within h q r) := fun h' => hw ((h10 r).mpr h')
    push Not at this
    exact h9 r this.1 (by push Not; exact this.2)

/-- C08/C09: one `add_primitive` call. It succeeds; the primitives are the old ones and the new one, in
increasing name order, the name is the canonical one, the centre is the reference point of the
aggregate and of everything nested in it; nothing else changes. -/
theorem C08_add_primitive {h : Heap α} (ha : Acyclic h) {p q : Ptr} {a : Aggregate α}
    (hp : h[p]? = some (.aggregate a)) (hq : MayAdd h p q) (update : Bool)
    (hull : update = true → AggHullsOK a) :
    ∃ h', h.addPrimitive p q update = .ok h' ∧ Acyclic h' ∧ WellFormed h' p ∧
      (primitives h' p).Perm (a.prims ++ [q]) ∧
      (∀ r, r ≠ p → (h'[r]?).map shape = (h[r]?).map shape) ∧
      (∀ r, ¬ Within h' p r → h'[r]? = h[r]?) := by
  have hps : ∀ x ∈ a.prims ++ [q], MayAdd h p x := by
    intro x hx
    rcases List.mem_append.mp hx with hx | hx
    · exact prims_mayAdd ha hp x hx
    · simp at hx; subst hx; exact hq
  obtain ⟨h', a', h1, -, h3, h4, -, -, -, -, h5, h6, h7⟩ := install_wellFormed ha hp hps update hull
  refine ⟨h', ?_, h3, h4, h5, h6, h7⟩
  simp only [Heap.addPrimitive, Heap.deref, hp, Res.ok_bind]
  exact h1

private theorem new_aggregate_facts {h : Heap α} (ha : Acyclic h) :
    Acyclic h.newAggregate.1 ∧ h.newAggregate.1[h.length]? = some (.aggregate Aggregate.default) ∧
      (∀ q < h.length, MayAdd h.newAggregate.1 h.length q) ∧
      (∀ q < h.length, h.newAggregate.1[q]? = h[q]?) := by
  obtain ⟨rank, hr⟩ := exists_ranked ha
  set h1 : Heap α := h ++ [.aggregate Aggregate.default] with hh1
  have hnew : h.newAggregate.1 = h1 := rfl
  rw [hnew]
  have hold : ∀ b, b < h.length → h1[b]? = h[b]? := by
    intro b hb; rw [hh1, List.getElem?_append_left hb]
  have hself : h1[h.length]? = some (.aggregate Aggregate.default) := by
    rw [hh1, List.getElem?_append_right (le_refl _)]; simp
  have hlen : h1.length = h.length + 1 := by simp [hh1]
  have hchild : ∀ r q, Child h1 r q → r < h.length ∧ Child h r q := by
    rintro r q ⟨b, hb, hq⟩
    have hrl := (List.getElem?_eq_some_iff.mp hb).1
    rw [hlen] at hrl
    rcases Nat.lt_succ_iff_lt_or_eq.mp hrl with hr' | hr'
    · rw [hold r hr'] at hb
      exact ⟨hr', b, hb, hq⟩
    · subst hr'
      rw [hself] at hb; cases hb
      simp [Aggregate.default] at hq
  refine ⟨⟨rank, fun r q hc => ?_⟩, hself, fun q hq => ⟨by rw [hlen]; exact Nat.lt_succ_of_lt hq, fun hw => ?_⟩, hold⟩
  · obtain ⟨h2, h3⟩ := hr.child r q (hchild r q hc).2
    exact ⟨by rw [hlen]; exact Nat.lt_succ_of_lt h2, h3⟩
  · have : ∀ r, Within h1 q r → r < h.length := by
      intro r hw
      induction hw with
      | refl => exact hq
      | tail _ hc ih => exact (hr.child _ _ (hchild _ _ hc).2).1
    exact absurd (this _ hw) (lt_irrefl _)

/-- C08/C09: the constructor from a list of primitives. -/
theorem C08_constructor {h : Heap α} (ha : Acyclic h) {ps : List Ptr} (hps : ∀ q ∈ ps, q < h.length) :
    ∃ h', h.mkAggregate ps = .ok (h', h.length) ∧ Acyclic h' ∧ WellFormed h' h.length ∧
      (primitives h' h.length).Perm ps ∧
      (∀ r, r < h.length → (h'[r]?).map shape = (h[r]?).map shape) ∧
      (∀ r < h.length, ¬ Within h' h.length r → h'[r]? = h[r]?) := by
  obtain ⟨f1, f2, f3, f4⟩ := new_aggregate_facts ha
  obtain ⟨h', a', h1, -, h3, h4, -, -, -, -, h5, h6, h7⟩ := install_wellFormed f1 f2
    (fun q hq => f3 q (hps q hq)) true (fun _ => default_hulls)
  refine ⟨h', ?_, h3, h4, h5, ?_, ?_⟩
  · simp only [Heap.mkAggregate]
    have : h.newAggregate.2 = h.length := rfl
    rw [this, h1]; rfl
  · intro r hr
    rw [h6 r (ne_of_lt hr), f4 r hr]
  · intro r hr hw
    rw [h7 r hw, f4 r hr]

/-- C59 for aggregates: the constructor from a list of existing primitives leaves an aggregate whose reference position
is set (to its position) and whose two hulls were computed (so that `C56`, `C57` apply to them), for every acyclic
heap. -/
theorem C59_aggregate_partial {h : Heap α} (ha : Acyclic h) {ps : List Ptr} (hps : ∀ q ∈ ps, q < h.length) :
    ∃ h' a, h.mkAggregate ps = .ok (h', h.length) ∧ h'[h.length]? = some (.aggregate a) ∧
      a.base.ref = .ok a.base.position ∧ AggHullsOK a := by
  obtain ⟨f1, f2, f3, f4⟩ := new_aggregate_facts ha
  obtain ⟨h', a', h1, -, -, h4, h5, -, -, h6, -⟩ := install_wellFormed f1 f2
    (fun q hq => f3 q (hps q hq)) true (fun _ => default_hulls)
  refine ⟨h', a', ?_, h5, ?_, h6 default_hulls⟩
  · simp only [Heap.mkAggregate]
    have : h.newAggregate.2 = h.length := rfl
    rw [this, h1]; rfl
  · have := h4.refs h.length Relation.ReflTransGen.refl
    simp only [refOf, h5, Option.map_some, Option.bind_some] at this
    have hr : a'.base.refPos = some a'.base.position := this
    simp only [Base.ref, hr]

/-- A sequence of `add_primitive(q, update_hull)` calls. -/
def addAll (h : Heap α) (p : Ptr) (qs : List (Ptr × Bool)) : Res (Heap α) :=
  qs.foldlM (fun h x => h.addPrimitive p x.1 x.2) h

private theorem addAll_ok {rank : Ptr → Nat} {h0 : Heap α} (hr : Ranked rank h0) {p : Ptr}
    (hp0 : h0.length ≤ p) : ∀ (qs : List (Ptr × Bool)) (h : Heap α) (ag : Aggregate α) (ms : List Ptr),
      HeapInv h0 h → h[p]? = some (.aggregate ag) → AggPre h0 ag ms → (∀ q ∈ ms, q < h0.length) →
      (∀ x ∈ qs, x.1 < h0.length) → qs ≠ [] →
      ∃ h' ag', addAll h p qs = .ok h' ∧ h'[p]? = some (.aggregate ag') ∧
        AggOK h0 ag' (ms ++ qs.map (·.1)) := by
  intro qs
  induction qs with
  | nil => intro _ _ _ _ _ _ _ _ h; exact absurd rfl h
  | cons x qs ih =>
    intro h ag ms hinv hp hpre hms hqs _
    have hx := hqs x (by simp)
    obtain ⟨h1, ag1, hadd, hres⟩ := addPrimitive_ok (D := True) hr hinv hp0 hp hpre hx hms x.2
    have hms1 : ∀ q ∈ ms ++ [x.1], q < h0.length := by
      intro q hq
      rcases List.mem_append.mp hq with hq | hq
      · exact hms q hq
      · simp at hq; subst hq; exact hx
    by_cases hnil : qs = []
    · subst hnil
      exact ⟨h1, ag1, by simp [addAll, hadd], hres.self, by simpa using hres.ok⟩
    · obtain ⟨h2, ag2, h3, h4, h5⟩ := ih h1 ag1 _ hres.inv hres.self (hres.ok.pre hms1) hms1
        (fun y hy => hqs y (by simp [hy])) hnil
      refine ⟨h2, ag2, ?_, h4, by simpa using h5⟩
      unfold addAll at h3 ⊢
      rw [List.foldlM_cons, hadd]
      exact h3

/-- C08: the order in which primitives are added (and whether the hull is updated in between) has no
influence on name, primitive order, position and reference position of the aggregate, provided that
the names of the primitives differ. (With equal names the order of the two is that of an unstable
sort.) -/
theorem C08_order_independent {h : Heap α} (ha : Acyclic h) {qs rs : List (Ptr × Bool)} (hne : qs ≠ [])
    (hqs : ∀ x ∈ qs, x.1 < h.length) (hperm : (qs.map (·.1)).Perm (rs.map (·.1)))
    (hinj : ∀ p ∈ qs.map (·.1), ∀ q ∈ qs.map (·.1), nameOf h p = nameOf h q → p = q) :
    ∃ h1 h2 a1 a2, addAll h.newAggregate.1 h.length qs = .ok h1 ∧
      addAll h.newAggregate.1 h.length rs = .ok h2 ∧
      h1[h.length]? = some (.aggregate a1) ∧ h2[h.length]? = some (.aggregate a2) ∧
      a1.prims = a2.prims ∧ a1.base = a2.base := by
  obtain ⟨rank, hr⟩ := exists_ranked ha
  obtain ⟨f1, f2, -, f4⟩ := new_aggregate_facts ha
  have hinv : HeapInv h h.newAggregate.1 := by
    refine ⟨⟨by simp [Heap.newAggregate], fun q hq => by rw [f4 q hq]⟩, fun b o hb ho => ?_⟩
    have hbl := (List.getElem?_eq_some_iff.mp ho).1
    have : b = h.length := by
      simp [Heap.newAggregate] at hbl
      exact le_antisymm hbl hb
    subst this
    rw [f2] at ho; cases ho
    exact ⟨_, rfl, by simp [Aggregate.default]⟩
  have hrs : ∀ x ∈ rs, x.1 < h.length := by
    intro x hx
    have := hperm.mem_iff.mpr (List.mem_map.mpr ⟨x, hx, rfl⟩)
    obtain ⟨y, hy, hxy⟩ := List.mem_map.mp this
    rw [← hxy]; exact hqs y hy
  have hne' : rs ≠ [] := by
    rintro rfl
    simp at hperm
    exact hne hperm
  obtain ⟨h1, a1, r1, r2, r3⟩ := addAll_ok hr (le_refl _) qs _ _ [] hinv f2 (aggPre_default h) (by simp) hqs hne
  obtain ⟨h2, a2, s1, s2, s3⟩ := addAll_ok hr (le_refl _) rs _ _ [] hinv f2 (aggPre_default h) (by simp) hrs hne'
  refine ⟨h1, h2, a1, a2, r1, s1, r2, s2, ?_⟩
  obtain ⟨ps, p1, p2, p3⟩ := r3.canon
  obtain ⟨ps', q1, q2, q3⟩ := s3.canon
  simp only [List.nil_append] at p1 q1
  have key : sortedInfo h ps = sortedInfo h ps' := by
    refine sortedInfo_perm (p1.trans (hperm.trans q1.symm)) ?_
    intro x hx y hy
    exact hinj x (p1.mem_iff.mp hx) y (p1.mem_iff.mp hy)
  rw [p2, q2, p3, q3]
  simp [canonAgg, canonPos, key]

/-- C08: the aggregates built by `aggregate_obstacles` have their primitives in name order and the
canonical name. -/
theorem C08_update {h h' : Heap α} (ha : Acyclic h) {obs l : List Ptr} (hobs : ∀ p ∈ obs, p < h.length)
    (hrun : aggregateObstacles h obs = .ok (h', l)) {a : Ptr} (hal : a ∈ l) (hnew : h.length ≤ a) :
    (primitives h' a).Pairwise (fun x y => nameOf h x ≤ nameOf h y) ∧
    nameOf h' a = canonicalName ((primitives h' a).map (nameOf h)) := by
  obtain ⟨h1, aggs, idx, hrun', hI⟩ := core ha hobs
  rw [hrun] at hrun'; cases hrun'
  have haggs : a ∈ aggs := by
    rcases List.mem_append.mp hal with h1 | h1
    · exact h1
    · exact absurd (members_lt hobs a h1) (not_lt.mpr hnew)
  obtain ⟨n, hn⟩ := List.mem_iff_getElem?.mp haggs
  obtain ⟨-, ag, hag, hok⟩ := hI.agg n a hn
  simp only at hag
  obtain ⟨ps, h1, h2, h3⟩ := hok.canon
  have hprims : primitives h' a = (sortedInfo h ps).map (·.1) := by
    simp [primitives, hag, h2, canonAgg]
  rw [hprims]
  refine ⟨sortedInfo_sorted, ?_⟩
  rw [← sortedInfo_names, ← aggregateName_eq]
  simp only [nameOf, hag, Option.map_some, Option.getD_some, Obj.name, Obj.base, h3]
  rfl

/-- C09: `set_reference_position` on any obstacle (so in particular on an aggregate) moves the
reference of everything nested in it, and changes nothing else. -/
theorem C09_set_reference {h : Heap α} (ha : Acyclic h) {p : Ptr} (hp : p < h.length) (v : V3 α) :
    ∃ h', h.setRef p v = .ok h' ∧ h'.length = h.length ∧
      (∀ r, Within h p r → refOf h' r = some v) ∧
      (∀ r : Ptr, (h'[r]?).map shape = (h[r]?).map shape) ∧
      (∀ r, ¬ Within h p r → h'[r]? = h[r]?) := by
  obtain ⟨rank, hr⟩ := exists_ranked ha
  refine ⟨_, setRef_eq hr hp v, by simp, ?_, ?_, ?_⟩
  · intro r hw
    have hrl := Within.lt_length hr hp hw
    unfold refOf
    rw [markRef_pos hw, List.getElem?_eq_getElem hrl]
    simp only [Option.map_some, Option.bind_some]
    cases h[r] <;> rfl
  · intro r
    by_cases hrl : r < h.length
    · exact (shapeExt_markRef h _ _).2 r hrl
    · have h1 : h[r]? = none := List.getElem?_eq_none (not_lt.mp hrl)
      have h2 : (markRef h (Within h p) v)[r]? = none :=
        List.getElem?_eq_none (by rw [length_markRef]; exact not_lt.mp hrl)
      rw [h1, h2]
  · intro r hw; exact markRef_neg hw

/-- C09: after any sequence of `add_primitive` and `set_reference_position` calls on an aggregate that
was created empty, once it has a primitive: the centre is the arithmetic mean of the positions of the
primitives, and everything nested in it has the reference point of the aggregate. -/
theorem C09_history {h : Heap ℝ} {p : Ptr} (hh : AggregateHistory p h) (hne : primitives h p ≠ []) :
    (h[p]?).map Obj.position = some (mean (positions h (primitives h p))) ∧
    ∃ v, ∀ r, Within h p r → refOf h r = some v := by
  have key : ∀ h, AggregateHistory p h → ∃ a, h[p]? = some (.aggregate a) ∧ Acyclic h ∧ AggHullsOK a ∧
      (a.prims ≠ [] → a.base.position = mean (positions h a.prims) ∧
        ∃ v, ∀ r, Within h p r → refOf h r = some v) := by
    intro h hh
    induction hh with
    | create ha hp =>
      obtain ⟨f1, f2, -⟩ := new_aggregate_facts ha
      rw [hp] at f2
      exact ⟨_, f2, f1, default_hulls, fun h => absurd rfl h⟩
    | @add h h' q upd _ hmay hadd ih =>
      obtain ⟨a, hp, ha, hh, -⟩ := ih
      have hps : ∀ x ∈ a.prims ++ [q], MayAdd h p x := by
        intro x hx
        rcases List.mem_append.mp hx with hx | hx
        · exact prims_mayAdd ha hp x hx
        · simp at hx; subst hx; exact hmay
      obtain ⟨h1, a', e1, e2, e3, e4, e5, e6, e7, e8, e9, e10, e11⟩ :=
        install_wellFormed ha hp hps upd (fun _ => hh)
      have : h1 = h' := by
        simp only [Heap.addPrimitive, Heap.deref, hp, Res.ok_bind] at hadd
        rw [hadd] at e1; exact (Res.ok.inj e1).symm
      subst this
      refine ⟨a', e5, e3, e8 hh, fun _ => ⟨?_, ?_⟩⟩
      · have hpos : a'.base.position = canonPos h (a.prims ++ [q]) := by rw [e6]; rfl
        have hprims : primitives h1 p = a'.prims := by simp [primitives, e5]
        have hp1 : (positions h1 a'.prims) = positions h a'.prims := by
          unfold positions
          apply List.filterMap_congr
          intro x hx
          have hxps : x ∈ a.prims ++ [q] := by
            rw [← hprims] at hx
            exact e9.mem_iff.mp hx
          have hxp : x ≠ p := by
            rintro rfl
            exact (hps _ hxps).2 .refl
          have := e10 x hxp
          have key : ∀ y : Option (Obj ℝ), y.map Obj.position = (y.map shape).map Obj.position := by
            intro y; cases y with
            | none => rfl
            | some o => simp [shape_position]
          rw [key, this, ← key]
        rw [hpos, canonPos_real, hp1]
        refine mean_perm ?_
        rw [hprims] at e9
        exact (e9.filterMap _).symm
      · refine ⟨a'.base.position, fun r hw => ?_⟩
        rw [e4.refs r hw, e5]; rfl
    | @setReference h h' v _ hset ih =>
      obtain ⟨a, hp, ha, hh, himp⟩ := ih
      have hpl := (List.getElem?_eq_some_iff.mp hp).1
      obtain ⟨rank, hr⟩ := exists_ranked ha
      obtain ⟨h1, e1, e2, e3, e4, e5⟩ := C09_set_reference ha hpl v
      have : h1 = h' := by rw [hset] at e1; exact (Res.ok.inj e1).symm
      subst this
      have hse : ShapeExt h h1 := ⟨by rw [e2], fun r _ => e4 r⟩
      obtain ⟨o, ho, hs⟩ := hse.get hp
      have hoa : o = .aggregate { a with base := a.base.setRef v } := by
        rw [setRef_eq hr hpl v] at hset
        cases hset
        rw [markRef_pos (D := Within h p) .refl, hp] at ho
        simp only [Option.map_some, Option.some.injEq] at ho
        exact ho.symm
      subst hoa
      refine ⟨_, ho, ?_, hh, fun hne => ⟨?_, v, fun r hw => ?_⟩⟩
      · refine ⟨rank, fun r q hc => ?_⟩
        have hrl : r < h.length := by
          obtain ⟨b, hb, -⟩ := hc
          rw [← e2]; exact (List.getElem?_eq_some_iff.mp hb).1
        obtain ⟨k1, k2⟩ := hr.child r q ((hse.child hrl).mp hc)
        exact ⟨by rw [e2]; exact k1, k2⟩
      · have h2 := (himp hne).1
        show a.base.position = _
        rw [h2]
        congr 1
        unfold positions
        apply List.filterMap_congr
        intro x hx
        have key : ∀ y : Option (Obj ℝ), y.map Obj.position = (y.map shape).map Obj.position := by
          intro y; cases y with
          | none => rfl
          | some o => simp [shape_position]
        rw [key, ← e4 x, ← key]
      · exact e3 r ((hse.within hr hpl).mp hw)
  obtain ⟨a, hp, -, -, himp⟩ := key h hh
  have hprims : primitives h p = a.prims := by simp [primitives, hp]
  rw [hprims] at hne ⊢
  rw [hp]
  obtain ⟨h1, h2⟩ := himp hne
  exact ⟨by simp [Obj.position, Obj.base, h1], h2⟩

/-- C09 for the aggregates built by `aggregate_obstacles`, if no obstacle is nested in two of the
inputs: centre and reference point are the mean of the positions of the primitives, and everything
nested in the aggregate has that reference point. -/
theorem C09_update {h h' : Heap ℝ} (ha : Acyclic h) {obs l : List Ptr} (hobs : ∀ p ∈ obs, p < h.length)
    (hdis : ∀ (i j : Nat) (p q r : Ptr), i ≠ j → obs[i]? = some p → obs[j]? = some q →
      Within h p r → Within h q r → False)
    (hrun : aggregateObstacles h obs = .ok (h', l)) {a : Ptr} (hal : a ∈ l) (hnew : h.length ≤ a) :
    (h'[a]?).map Obj.position = some (mean (positions h (primitives h' a))) ∧
    ∀ r, Within h' a r → refOf h' r = some (mean (positions h (primitives h' a))) := by
  obtain ⟨rank, hr⟩ := exists_ranked ha
  obtain ⟨h1, aggs, idx, hrun', hI⟩ := aggregateObstacles_ok hr hobs
  rw [hrun] at hrun'; cases hrun'
  have haggs : a ∈ aggs := by
    rcases List.mem_append.mp hal with h1 | h1
    · exact h1
    · exact absurd (members_lt hobs a h1) (not_lt.mpr hnew)
  obtain ⟨n, hn⟩ := List.mem_iff_getElem?.mp haggs
  obtain ⟨-, ag, hag, hok⟩ := hI.agg n a hn
  simp only at hag
  obtain ⟨ps, h1, h2, h3⟩ := hok.canon
  have hpsl : ∀ q ∈ ps, q < h.length := fun q hq => members_lt hobs q (h1.mem_iff.mp hq)
  have hprims : primitives h' a = (sortedInfo h ps).map (·.1) := by
    simp [primitives, hag, h2, canonAgg]
  have hpos : canonPos h ps = mean (positions h (primitives h' a)) := by
    rw [canonPos_real, hprims]
    exact mean_perm ((prims_perm hpsl).filterMap _).symm
  rw [← hpos]
  constructor
  · rw [hag]; simp only [Option.map_some, Obj.position, Obj.base, h3]; rfl
  · intro r hw
    have href : ag.base.refPos = some (canonPos h ps) := by rw [h3]; rfl
    rcases (within_agg hr hobs hI hn r).mp hw with rfl | ⟨q, hq, hwq⟩
    · simp only [refOf, hag, Option.bind_some, Obj.base, href]
    · rw [hI.refs hdis n a ag hn hag q hq r hwq]; exact href

end DOA.Props
