import Verif.Lemmas.Alike
import Verif.Lemmas.Repeat

/-!
# `aggregate_obstacles` on lists of obstacles that are alike

One run starts from `h0`, the other from `g0`; the two runs are followed step by step.
-/

set_option linter.unusedSectionVars false
set_option linter.unusedSimpArgs false

namespace DOA.Aggregation
open DOA.Spec DOA.Modulation

variable {α : Type} [Add α] [Sub α] [Mul α] [Div α] [Neg α] [Zero α] [One α]
  [LE α] [LT α] [DecidableLE α] [DecidableLT α] [CMath α]

/-- The objects at `p` and `p'` are alike. -/
def At (h0 g0 : Heap α) (p p' : Ptr) : Prop := ∃ o o', h0[p]? = some o ∧ g0[p']? = some o' ∧ Alike h0 g0 o o'

theorem At.keeps {h0 g0 k k' : Heap α} {p p' : Ptr} (t : At h0 g0 p p') (s : Keeps h0 k) (s' : Keeps g0 k') :
    At k k' p p' := by
  obtain ⟨o, o', h1, h2, h3⟩ := t
  obtain ⟨u, h4, h5⟩ := s p o h1
  obtain ⟨u', h6, h7⟩ := s' p' o' h2
  exact ⟨u, u', h4, h6, (h3.keeps s s').reshape h5 h7⟩

theorem At.lt {h0 g0 : Heap α} {p p' : Ptr} (t : At h0 g0 p p') : p < h0.length ∧ p' < g0.length := by
  obtain ⟨o, o', h1, h2, -⟩ := t
  exact ⟨(List.getElem?_eq_some_iff.mp h1).1, (List.getElem?_eq_some_iff.mp h2).1⟩

theorem forall₂_lt {h0 g0 : Heap α} {ps ps' : List Ptr} (t : List.Forall₂ (At h0 g0) ps ps') :
    (∀ q ∈ ps, q < h0.length) ∧ ∀ q ∈ ps', q < g0.length := by
  induction t with
  | nil => simp
  | cons h1 _ ih =>
    have := At.lt h1
    refine ⟨fun q hq => ?_, fun q hq => ?_⟩
    · rcases List.mem_cons.mp hq with rfl | hq
      exacts [this.1, ih.1 q hq]
    · rcases List.mem_cons.mp hq with rfl | hq
      exacts [this.2, ih.2 q hq]

theorem oracles_at {k k' : Heap α} {ps ps' : List Ptr} (t : List.Forall₂ (At k k') ps ps') :
    oracles k ps = oracles k' ps' := by
  induction t with
  | nil => rfl
  | cons h1 _ ih =>
    obtain ⟨o, o', h2, h3, h4⟩ := h1
    unfold oracles at ih ⊢
    simp only [List.filterMap_cons, h2, h3, Option.map_some, ih, intersectionPoints_alike h4]

/-- The data by which primitives are sorted, with both addresses. -/
theorem info_at {k k' : Heap α} {ps ps' : List Ptr} (t : List.Forall₂ (At k k') ps ps') :
    ∃ Z : List ((Ptr × Ptr) × String × V3 α), info k ps = Z.map (fun z => (z.1.1, z.2)) ∧
      info k' ps' = Z.map (fun z => (z.1.2, z.2)) ∧ ∀ z ∈ Z, z.1 ∈ ps.zip ps' := by
  induction t with
  | nil => exact ⟨[], rfl, rfl, by simp⟩
  | @cons p p' ps ps' h1 _ ih =>
    obtain ⟨Z, e1, e2, e3⟩ := ih
    obtain ⟨o, o', h2, h3, h4⟩ := h1
    refine ⟨((p, p'), o.name, o.position) :: Z, ?_, ?_, ?_⟩
    · unfold info at e1 ⊢
      simp only [List.filterMap_cons, h2, Option.map_some, e1, List.map_cons]
    · unfold info at e2 ⊢
      simp only [List.filterMap_cons, h3, Option.map_some, e2, List.map_cons, name_alike h4, position_alike h4]
    · intro z hz
      rcases List.mem_cons.mp hz with rfl | hz
      · simp
      · simp [e3 z hz]

theorem sortedInfo_at {k k' : Heap α} {ps ps' : List Ptr} (t : List.Forall₂ (At k k') ps ps') :
    ∃ Z : List ((Ptr × Ptr) × String × V3 α), sortedInfo k ps = Z.map (fun z => (z.1.1, z.2)) ∧
      sortedInfo k' ps' = Z.map (fun z => (z.1.2, z.2)) ∧ ∀ z ∈ Z, z.1 ∈ ps.zip ps' := by
  obtain ⟨Z, e1, e2, e3⟩ := info_at t
  refine ⟨MathTools.sortBy (fun l r => decide (l.2.1 < r.2.1)) Z, ?_, ?_, fun z hz => e3 z (by simpa using hz)⟩
  · rw [sortedInfo, e1]
    exact MathTools.sortBy_map _ _ _ (fun _ _ => rfl) Z
  · rw [sortedInfo, e2]
    exact MathTools.sortBy_map _ _ _ (fun _ _ => rfl) Z

theorem canonPos_at {k k' : Heap α} {ps ps' : List Ptr} (t : List.Forall₂ (At k k') ps ps') :
    canonPos k ps = canonPos k' ps' := by
  obtain ⟨Z, e1, e2, -⟩ := sortedInfo_at t
  simp only [canonPos, e1, e2, List.map_map, List.length_map]
  rfl

theorem forall₂_zip {β γ : Type} {R : β → γ → Prop} {l : List β} {l' : List γ} (h : List.Forall₂ R l l') :
    ∀ z ∈ l.zip l', R z.1 z.2 := by
  induction h with
  | nil => simp
  | cons h1 _ ih =>
    intro z hz
    simp only [List.zip_cons_cons, List.mem_cons] at hz
    rcases hz with rfl | hz
    exacts [h1, ih z hz]

theorem forall₂_map {β γ δ : Type} {R : β → γ → Prop} (f : δ → β) (g : δ → γ) (l : List δ)
    (h : ∀ z ∈ l, R (f z) (g z)) : List.Forall₂ R (l.map f) (l.map g) := by
  induction l with
  | nil => exact .nil
  | cons z l ih => exact .cons (h z (by simp)) (ih fun y hy => h y (by simp [hy]))

/-- Two new aggregates that agree up to the addresses of their primitives. -/
structure Same2 (h0 g0 : Heap α) (a a' : Aggregate α) : Prop where
  base : a.base = a'.base
  inside : a.inside = a'.inside
  outside : a.outside = a'.outside
  prims : List.Forall₂ (At h0 g0) a.prims a'.prims

theorem canonAgg_at {h0 g0 k k' : Heap α} (s : Keeps h0 k) (s' : Keeps g0 k') {ps ps' : List Ptr}
    (t : List.Forall₂ (At h0 g0) ps ps') {a a' : Aggregate α} (e : Same2 h0 g0 a a') :
    Same2 h0 g0 (canonAgg k ps a) (canonAgg k' ps' a') := by
  have t' : List.Forall₂ (At k k') ps ps' := t.imp fun _ _ h => h.keeps s s'
  have hp := canonPos_at t'
  obtain ⟨Z, e1, e2, e3⟩ := sortedInfo_at t'
  refine ⟨?_, e.inside, e.outside, ?_⟩
  · simp only [canonAgg, hp, e.base, e1, e2, List.map_map]
    rfl
  · simp only [canonAgg, e1, e2, List.map_map]
    exact forall₂_map _ _ Z fun z hz => forall₂_zip t z.1 (e3 z hz)

/-- `a` and `a'` are the addresses of the same new object in the two runs. -/
structure Corr (h0 g0 : Heap α) (a a' : Ptr) : Prop where
  left : h0.length ≤ a
  right : g0.length ≤ a'
  eq : a + g0.length = a' + h0.length

/-- The heaps of the two runs at the same point. -/
structure Lock (h0 g0 k k' : Heap α) : Prop where
  inv : HeapInv h0 k
  inv' : HeapInv g0 k'
  len : k.length + g0.length = k'.length + h0.length
  new : ∀ a a' ag, Corr h0 g0 a a' → k[a]? = some (.aggregate ag) →
    ∃ ag', k'[a']? = some (.aggregate ag') ∧ Same2 h0 g0 ag ag'

variable {h0 g0 : Heap α}

theorem Corr.inj {a b a' b' : Ptr} (s : Corr h0 g0 a a') (t : Corr h0 g0 b b') : a = b ↔ a' = b' := by
  obtain ⟨_, _, h1⟩ := s
  obtain ⟨_, _, h2⟩ := t
  constructor
  · rintro rfl
    exact Nat.add_right_cancel (h1.symm.trans h2)
  · rintro rfl
    exact Nat.add_right_cancel (h1.trans h2.symm)

theorem Lock.lt {k k' : Heap α} (s : Lock h0 g0 k k') {a a' : Ptr} (c : Corr h0 g0 a a') (h : a < k.length) :
    a' < k'.length := by
  have h1 := s.len
  have h2 := c.eq
  have h3 : a + g0.length < k.length + g0.length := Nat.add_lt_add_right h _
  rw [h2, h1] at h3
  exact Nat.lt_of_add_lt_add_right h3

theorem Lock.set {k k' : Heap α} (s : Lock h0 g0 k k') {a a' : Ptr} (c : Corr h0 g0 a a') (hal : a < k.length)
    {ag ag' : Aggregate α} (e : Same2 h0 g0 ag ag') :
    Lock h0 g0 (k.set a (.aggregate ag)) (k'.set a' (.aggregate ag')) := by
  have hal' := s.lt c hal
  have hl := forall₂_lt e.prims
  refine ⟨⟨⟨by simpa using s.inv.ext.1, fun p hp => ?_⟩, fun b o hb ho => ?_⟩,
    ⟨⟨by simpa using s.inv'.ext.1, fun p hp => ?_⟩, fun b o hb ho => ?_⟩, by simpa using s.len, fun b b' bg cb hb => ?_⟩
  · rw [List.getElem?_set_ne (Ne.symm (ne_of_lt (lt_of_lt_of_le hp c.left)))]; exact s.inv.ext.2 p hp
  · by_cases hba : b = a
    · subst hba
      rw [List.getElem?_set_self hal] at ho; cases ho
      exact ⟨_, rfl, hl.1⟩
    · rw [List.getElem?_set_ne (Ne.symm hba)] at ho
      exact s.inv.new b o hb ho
  · rw [List.getElem?_set_ne (Ne.symm (ne_of_lt (lt_of_lt_of_le hp c.right)))]; exact s.inv'.ext.2 p hp
  · by_cases hba : b = a'
    · subst hba
      rw [List.getElem?_set_self hal'] at ho; cases ho
      exact ⟨_, rfl, hl.2⟩
    · rw [List.getElem?_set_ne (Ne.symm hba)] at ho
      exact s.inv'.new b o hb ho
  · by_cases hba : b = a
    · have hba' := (cb.inj c).mp hba
      subst hba hba'
      rw [List.getElem?_set_self hal] at hb; cases hb
      exact ⟨ag', by rw [List.getElem?_set_self hal'], e⟩
    · have hba' : b' ≠ a' := fun h => hba ((cb.inj c).mpr h)
      rw [List.getElem?_set_ne (Ne.symm hba)] at hb
      rw [List.getElem?_set_ne (Ne.symm hba')]
      exact s.new b b' bg cb hb

theorem aggregate_of_updateHull {k k1 : Heap α} {a : Ptr} (hrun : k.updateHull a = .ok k1) :
    ∃ ag, k[a]? = some (.aggregate ag) := by
  unfold Heap.updateHull Heap.deref at hrun
  cases hk : k[a]? with
  | none => rw [hk] at hrun; cases hrun
  | some o => cases o with
    | aggregate ag => exact ⟨ag, rfl⟩
    | _ => rw [hk] at hrun; cases hrun

theorem aggregate_of_addPrimitive {k k1 : Heap α} {a q : Ptr} {upd : Bool} (hrun : k.addPrimitive a q upd = .ok k1) :
    ∃ ag, k[a]? = some (.aggregate ag) := by
  unfold Heap.addPrimitive Heap.deref at hrun
  cases hk : k[a]? with
  | none => rw [hk] at hrun; cases hrun
  | some o => cases o with
    | aggregate ag => exact ⟨ag, rfl⟩
    | _ => rw [hk] at hrun; cases hrun

/-- `update_hull` in both runs. -/
theorem Lock.updateHull {k k' k1 : Heap α} (s : Lock h0 g0 k k') {a a' : Ptr} (c : Corr h0 g0 a a')
    (hrun : k.updateHull a = .ok k1) : ∃ k1', k'.updateHull a' = .ok k1' ∧ Lock h0 g0 k1 k1' := by
  obtain ⟨ag, hag⟩ := aggregate_of_updateHull hrun
  obtain ⟨ag', hag', e⟩ := s.new a a' ag c hag
  have hl := forall₂_lt e.prims
  have hor := oracles_at (e.prims.imp fun _ _ h => h.keeps s.inv.ext.keeps s.inv'.ext.keeps)
  rw [updateHull_eq hag fun q hq => lt_of_lt_of_le (hl.1 q hq) s.inv.ext.1] at hrun
  rw [updateHull_eq hag' fun q hq => lt_of_lt_of_le (hl.2 q hq) s.inv'.ext.1, ← hor, ← e.base, ← e.inside, ← e.outside]
  simp only [Res.bind_eq_ok] at hrun
  obtain ⟨ref, e1, i, e2, o, e3, e4⟩ := hrun
  cases e4
  have e5 : Same2 h0 g0 { ag with inside := i, outside := o } { ag' with base := ag.base, inside := i, outside := o } :=
    ⟨rfl, rfl, rfl, e.prims⟩
  exact ⟨_, by simp only [e1, e2, e3, Res.ok_bind], s.set c (List.getElem?_eq_some_iff.mp hag).1 e5⟩

/-- `add_primitive` in both runs. -/
theorem Lock.addPrimitive {rank rank' : Ptr → Nat} (hr : Ranked rank h0) (hr' : Ranked rank' g0) {k k' k1 : Heap α}
    (s : Lock h0 g0 k k') {a a' q q' : Ptr} (c : Corr h0 g0 a a') (hq : At h0 g0 q q') {upd : Bool}
    (hrun : k.addPrimitive a q upd = .ok k1) : ∃ k1', k'.addPrimitive a' q' upd = .ok k1' ∧ Lock h0 g0 k1 k1' := by
  obtain ⟨ag, hag⟩ := aggregate_of_addPrimitive hrun
  obtain ⟨ag', hag', e⟩ := s.new a a' ag c hag
  have hal := (List.getElem?_eq_some_iff.mp hag).1
  have hal' := (List.getElem?_eq_some_iff.mp hag').1
  have hps : List.Forall₂ (At h0 g0) (ag.prims ++ [q]) (ag'.prims ++ [q']) :=
    List.rel_append e.prims (.cons hq .nil)
  have hl := forall₂_lt hps
  obtain ⟨i1, w1, o1, inv1⟩ := s.inv.install hr c.left hag hl.1
  obtain ⟨i2, w2, o2, inv2⟩ := s.inv'.install hr' c.right hag' hl.2
  have hcan := canonAgg_at s.inv.ext.keeps s.inv'.ext.keeps hps e
  have lock : Lock h0 g0 (install k a (ag.prims ++ [q]) ag) (install k' a' (ag'.prims ++ [q']) ag') := by
    refine ⟨inv1, inv2, by simpa [install] using s.len, fun b b' bg cb hb => ?_⟩
    simp only [install] at hb ⊢
    by_cases hba : b = a
    · have hba' := (cb.inj c).mp hba
      subst hba hba'
      rw [List.getElem?_set_self (by simpa using hal)] at hb; cases hb
      exact ⟨_, by rw [List.getElem?_set_self (by simpa using hal')], hcan⟩
    · have hba' : b' ≠ a' := fun h => hba ((cb.inj c).mpr h)
      rw [List.getElem?_set_ne (Ne.symm hba), markRef_neg (fun hw => absurd (o1 b hw) (not_lt.mpr cb.left))] at hb
      rw [List.getElem?_set_ne (Ne.symm hba'), markRef_neg (fun hw => absurd (o2 b' hw) (not_lt.mpr cb.right))]
      exact s.new b b' bg cb hb
  rw [addPrimitive_unfold hag, i1] at hrun
  rw [addPrimitive_unfold hag', i2]
  simp only [Res.ok_bind] at hrun ⊢
  cases upd with
  | false => simp at hrun ⊢; rw [← hrun]; exact lock
  | true =>
    simp only [if_true] at hrun ⊢
    exact lock.updateHull c hrun

/-- `make_shared<Aggregate>()` in both runs. -/
theorem Lock.newAggregate {k k' : Heap α} (s : Lock h0 g0 k k') :
    Lock h0 g0 k.newAggregate.1 k'.newAggregate.1 ∧ Corr h0 g0 k.newAggregate.2 k'.newAggregate.2 := by
  have hc : Corr h0 g0 k.length k'.length := ⟨s.inv.ext.1, s.inv'.ext.1, s.len⟩
  have key : ∀ {h0 k : Heap α}, HeapInv h0 k → HeapInv h0 k.newAggregate.1 := by
    intro h0 k inv
    refine ⟨⟨?_, fun p hp => ?_⟩, fun b o hb ho => ?_⟩
    · have := inv.ext.1
      simp [Heap.newAggregate]; omega
    · have := lt_of_lt_of_le hp inv.ext.1
      simp only [Heap.newAggregate, List.getElem?_append_left this]
      exact inv.ext.2 p hp
    · by_cases hbl : b < k.length
      · simp only [Heap.newAggregate, List.getElem?_append_left hbl] at ho
        exact inv.new b o hb ho
      · have h2 := (List.getElem?_eq_some_iff.mp ho).1
        have hb' : b = k.length := by
          have h3 : b < k.length + 1 := by simpa [Heap.newAggregate] using h2
          exact le_antisymm (Nat.lt_succ_iff.mp h3) (not_lt.mp hbl)
        subst hb'
        simp [Heap.newAggregate] at ho
        exact ⟨_, ho.symm, by simp [Aggregate.default]⟩
  refine ⟨⟨key s.inv, key s.inv', by have := s.len; simp [Heap.newAggregate]; omega, fun b b' bg cb hb => ?_⟩, hc⟩
  by_cases hbl : b < k.length
  · have hbl' := s.lt cb hbl
    simp only [Heap.newAggregate, List.getElem?_append_left hbl] at hb
    simp only [Heap.newAggregate, List.getElem?_append_left hbl']
    exact s.new b b' bg cb hb
  · have h2 := (List.getElem?_eq_some_iff.mp hb).1
    have hb1 : b = k.length := by
      have h3 : b < k.length + 1 := by simpa [Heap.newAggregate] using h2
      exact le_antisymm (Nat.lt_succ_iff.mp h3) (not_lt.mp hbl)
    have hb2 := (cb.inj hc).mp hb1
    subst hb1 hb2
    simp [Heap.newAggregate] at hb
    subst hb
    exact ⟨Aggregate.default, by simp [Heap.newAggregate], rfl, rfl, rfl, .nil⟩

/-- The two states of the loop. -/
structure LockSt (h0 g0 : Heap α) (s s' : St α) : Prop where
  heap : Lock h0 g0 s.heap s'.heap
  aggs : List.Forall₂ (Corr h0 g0) s.aggs s'.aggs
  idx : s'.idx = s.idx

theorem forall₂_get {β γ : Type} {R : β → γ → Prop} {l : List β} {l' : List γ} (h : List.Forall₂ R l l') :
    ∀ (n : Nat) (b : β), l[n]? = some b → ∃ c, l'[n]? = some c ∧ R b c := by
  induction h with
  | nil => simp
  | cons h1 _ ih =>
    intro n b hb
    cases n with
    | zero => simp at hb ⊢; subst hb; exact h1
    | succ n => simpa using ih n b (by simpa using hb)

theorem forall₂_eraseIdx {β γ : Type} {R : β → γ → Prop} {l : List β} {l' : List γ} (h : List.Forall₂ R l l') :
    ∀ n : Nat, List.Forall₂ R (l.eraseIdx n) (l'.eraseIdx n) := by
  induction h with
  | nil => intro n; simp
  | cons h1 h2 ih =>
    intro n
    cases n with
    | zero => simpa using h2
    | succ n => simpa using ⟨h1, ih n⟩

theorem LockSt.aggAt {s s' : St α} (t : LockSt h0 g0 s s') {i : Int} {a : Ptr}
    (h : Aggregation.aggAt s.aggs i = .ok a) : ∃ a', Aggregation.aggAt s'.aggs i = .ok a' ∧ Corr h0 g0 a a' := by
  cases i with
  | negSucc n => cases h
  | ofNat n =>
    simp only [Aggregation.aggAt, Res.index] at h ⊢
    cases hn : s.aggs[n]? with
    | none => rw [hn] at h; cases h
    | some b =>
      rw [hn] at h; cases h
      obtain ⟨c, h1, h2⟩ := forall₂_get t.aggs n a hn
      exact ⟨c, by rw [h1], h2⟩

/-- Entries of the two loops: same index, obstacles alike. -/
def Entry (h0 g0 : Heap α) (x x' : Nat × Ptr) : Prop := x.1 = x'.1 ∧ At h0 g0 x.2 x'.2

theorem LockSt.mergeLoop {rank rank' : Ptr → Nat} (hr : Ranked rank h0) (hr' : Ranked rank' g0) {oldI newI : Int}
    {L L' : List (Nat × Ptr)} (hL : List.Forall₂ (Entry h0 g0) L L') : ∀ (s s' s1 : St α), LockSt h0 g0 s s' →
      mergeLoop oldI newI L s = .ok s1 → ∃ s1', Aggregation.mergeLoop oldI newI L' s' = .ok s1' ∧ LockSt h0 g0 s1 s1' := by
  induction hL with
  | nil => intro s s' s1 t h; cases h; exact ⟨s', rfl, t⟩
  | @cons x x' L L' hx _ ih =>
    obtain ⟨k, p⟩ := x
    obtain ⟨k', p'⟩ := x'
    obtain ⟨hk, hp⟩ := hx
    simp only at hk hp
    subst hk
    intro s s' s1 t h
    simp only [Aggregation.mergeLoop, Res.bind_eq_ok] at h
    obtain ⟨ik, e1, h⟩ := h
    simp only [Aggregation.mergeLoop, t.idx, e1, Res.ok_bind]
    split at h
    · rename_i hc
      simp only [Res.bind_eq_ok] at h
      obtain ⟨a, e2, k1, e3, h⟩ := h
      obtain ⟨a', f1, f2⟩ := t.aggAt e2
      obtain ⟨k1', f3, f4⟩ := t.heap.addPrimitive hr hr' f2 hp e3
      rw [if_pos hc]
      simp only [f1, f3, Res.ok_bind]
      exact ih ⟨k1, s.aggs, s.idx.set k newI⟩ _ _ ⟨f4, t.aggs, rfl⟩ h
    · rename_i hc
      rw [if_neg hc]
      split at h
      · rename_i hc2
        rw [if_pos hc2]
        exact ih ⟨s.heap, s.aggs, s.idx.set k (ik - 1)⟩ _ _ ⟨t.heap, t.aggs, rfl⟩ h
      · rename_i hc2
        rw [if_neg hc2]
        exact ih _ _ _ ⟨t.heap, t.aggs, t.idx⟩ h

theorem indexed_entries {obs obs' : List Ptr} (t : List.Forall₂ (At h0 g0) obs obs') :
    List.Forall₂ (Entry h0 g0) (indexed obs) (indexed obs') := by
  have key : ∀ {obs obs' : List Ptr}, List.Forall₂ (At h0 g0) obs obs' → ∀ n : Nat,
      List.Forall₂ (Entry h0 g0) ((List.range' n obs.length).zip obs) ((List.range' n obs'.length).zip obs') := by
    intro obs obs' t
    induction t with
    | nil => intro n; exact .nil
    | cons h1 _ ih =>
      intro n
      simp only [List.length_cons, List.range'_succ, List.zip_cons_cons]
      exact .cons ⟨rfl, h1⟩ (ih (n + 1))
  simpa [indexed, List.range_eq_range'] using key t 0

theorem LockSt.link {rank rank' : Ptr → Nat} (hr : Ranked rank h0) (hr' : Ranked rank' g0) {obs obs' : List Ptr}
    (hobs : List.Forall₂ (At h0 g0) obs obs') {i j : Nat} {pi pj pi' pj' : Ptr} (hpi : At h0 g0 pi pi')
    (hpj : At h0 g0 pj pj') {s s' s1 : St α} (t : LockSt h0 g0 s s') (h : link obs i j pi pj s = .ok s1) :
    ∃ s1', Aggregation.link obs' i j pi' pj' s' = .ok s1' ∧ LockSt h0 g0 s1 s1' := by
  simp only [Aggregation.link, Res.bind_eq_ok] at h
  obtain ⟨ii, e1, ij, e2, h⟩ := h
  simp only [Aggregation.link, t.idx, e1, e2, Res.ok_bind]
  split at h
  · rename_i hc
    simp only [Res.bind_eq_ok] at h
    obtain ⟨a, e3, k1, e4, h⟩ := h
    cases h
    obtain ⟨a', f1, f2⟩ := t.aggAt e3
    obtain ⟨k1', f3, f4⟩ := t.heap.addPrimitive hr hr' f2 hpj e4
    rw [if_pos hc]
    simp only [f1, f3, Res.ok_bind]
    exact ⟨_, rfl, f4, t.aggs, rfl⟩
  · rename_i hc
    rw [if_neg hc]
    split at h
    · rename_i hc
      simp only [Res.bind_eq_ok] at h
      obtain ⟨a, e3, k1, e4, h⟩ := h
      cases h
      obtain ⟨a', f1, f2⟩ := t.aggAt e3
      obtain ⟨k1', f3, f4⟩ := t.heap.addPrimitive hr hr' f2 hpi e4
      rw [if_pos hc]
      simp only [f1, f3, Res.ok_bind]
      exact ⟨_, rfl, f4, t.aggs, rfl⟩
    · rename_i hc
      rw [if_neg hc]
      split at h
      · rename_i hc
        simp only [Res.bind_eq_ok] at h
        obtain ⟨k1, e3, k2, e4, h⟩ := h
        cases h
        obtain ⟨f1, f2⟩ := t.heap.newAggregate
        obtain ⟨l1, g1, g2⟩ := f1.addPrimitive hr hr' f2 hpi e3
        obtain ⟨l2, g3, g4⟩ := g2.addPrimitive hr hr' f2 hpj e4
        rw [if_pos hc]
        simp only [g1, g3, Res.ok_bind]
        refine ⟨_, rfl, g4, List.rel_append t.aggs (.cons f2 .nil), ?_⟩
        simp [t.aggs.length_eq]
      · rename_i hc
        rw [if_neg hc]
        split at h
        · rename_i hc
          rw [if_pos hc]
          simp only [Res.bind_eq_ok] at h
          obtain ⟨u, e3, h⟩ := h
          obtain ⟨u', f1, f2⟩ := LockSt.mergeLoop hr hr' (indexed_entries hobs) _ s' _ ⟨t.heap, t.aggs, t.idx⟩ e3
          simp only [f1, Res.ok_bind]
          have hl := f2.aggs.length_eq
          split at h
          · rename_i n hn
            split at h
            · rename_i hlt
              cases h
              simp only [hn, ← hl, if_pos hlt]
              exact ⟨_, rfl, f2.heap, forall₂_eraseIdx f2.aggs n, f2.idx⟩
            · cases h
          · cases h
        · rename_i hc
          rw [if_neg hc]
          cases h
          exact ⟨_, rfl, t.heap, t.aggs, t.idx⟩

theorem LockSt.pairStep {rank rank' : Ptr → Nat} (hr : Ranked rank h0) (hr' : Ranked rank' g0) {obs obs' : List Ptr}
    (hobs : List.Forall₂ (At h0 g0) obs obs') {i j : Nat} {pi pj pi' pj' : Ptr} (hpi : At h0 g0 pi pi')
    (hpj : At h0 g0 pj pj') {s s' s1 : St α} (t : LockSt h0 g0 s s') (h : pairStep obs i pi j pj s = .ok s1) :
    ∃ s1', Aggregation.pairStep obs' i pi' j pj' s' = .ok s1' ∧ LockSt h0 g0 s1 s1' := by
  obtain ⟨oi, oi', h1, h2, h3⟩ := hpi.keeps t.heap.inv.ext.keeps t.heap.inv'.ext.keeps
  obtain ⟨oj, oj', h4, h5, h6⟩ := hpj.keeps t.heap.inv.ext.keeps t.heap.inv'.ext.keeps
  have e := isIntersecting_alike (α := α) ⟨_, (t.heap.inv.ranked hr).child⟩ ⟨_, (t.heap.inv'.ranked hr').child⟩ h4 h5 h6 h3
  simp only [Aggregation.pairStep, Heap.deref, h1, h4, e, Res.ok_bind, Res.bind_eq_ok] at h
  obtain ⟨b, hb, h⟩ := h
  simp only [Aggregation.pairStep, Heap.deref, h2, h5, hb, Res.ok_bind]
  cases b with
  | true => exact t.link hr hr' hobs hpi hpj h
  | false => simp at h ⊢; subst h; exact t

theorem LockSt.innerLoop {rank rank' : Ptr → Nat} (hr : Ranked rank h0) (hr' : Ranked rank' g0) {obs obs' : List Ptr}
    (hobs : List.Forall₂ (At h0 g0) obs obs') {i : Nat} {pi pi' : Ptr} (hpi : At h0 g0 pi pi')
    {L L' : List (Nat × Ptr)} (hL : List.Forall₂ (Entry h0 g0) L L') : ∀ (s s' s1 : St α), LockSt h0 g0 s s' →
      innerLoop obs i pi L s = .ok s1 → ∃ s1', Aggregation.innerLoop obs' i pi' L' s' = .ok s1' ∧ LockSt h0 g0 s1 s1' := by
  induction hL with
  | nil => intro s s' s1 t h; cases h; exact ⟨s', rfl, t⟩
  | @cons x x' L L' hx _ ih =>
    obtain ⟨k, p⟩ := x
    obtain ⟨k', p'⟩ := x'
    obtain ⟨hk, hp⟩ := hx
    simp only at hk hp
    subst hk
    intro s s' s1 t h
    simp only [Aggregation.innerLoop, Res.bind_eq_ok] at h
    obtain ⟨u, e1, h⟩ := h
    obtain ⟨u', f1, f2⟩ := t.pairStep hr hr' hobs hpi hp e1
    simp only [Aggregation.innerLoop, f1, Res.ok_bind]
    exact ih _ _ _ f2 h

theorem LockSt.outerLoop {rank rank' : Ptr → Nat} (hr : Ranked rank h0) (hr' : Ranked rank' g0) {obs obs' : List Ptr}
    (hobs : List.Forall₂ (At h0 g0) obs obs') {L L' : List (Nat × Ptr)} (hL : List.Forall₂ (Entry h0 g0) L L') :
    ∀ (s s' s1 : St α), LockSt h0 g0 s s' → outerLoop obs L s = .ok s1 →
      ∃ s1', Aggregation.outerLoop obs' L' s' = .ok s1' ∧ LockSt h0 g0 s1 s1' := by
  induction hL with
  | nil => intro s s' s1 t h; cases h; exact ⟨s', rfl, t⟩
  | @cons x x' L L' hx hL ih =>
    obtain ⟨k, p⟩ := x
    obtain ⟨k', p'⟩ := x'
    obtain ⟨hk, hp⟩ := hx
    simp only at hk hp
    subst hk
    intro s s' s1 t h
    simp only [Aggregation.outerLoop, Res.bind_eq_ok] at h
    obtain ⟨u, e1, h⟩ := h
    obtain ⟨u', f1, f2⟩ := LockSt.innerLoop hr hr' hobs hp hL _ _ _ t e1
    simp only [Aggregation.outerLoop, f1, Res.ok_bind]
    exact ih _ _ _ f2 h

theorem Lock.updateHulls {L L' : List Ptr} (hL : List.Forall₂ (Corr h0 g0) L L') : ∀ (k k' k1 : Heap α),
    Lock h0 g0 k k' → updateHulls L k = .ok k1 →
      ∃ k1', Aggregation.updateHulls L' k' = .ok k1' ∧ Lock h0 g0 k1 k1' := by
  induction hL with
  | nil => intro k k' k1 s h; cases h; exact ⟨k', rfl, s⟩
  | cons hx _ ih =>
    intro k k' k1 s h
    unfold Aggregation.updateHulls at h ih ⊢
    simp only [List.foldlM_cons, Res.bind_eq_ok] at h
    obtain ⟨t, e1, h⟩ := h
    obtain ⟨t', f1, f2⟩ := s.updateHull hx e1
    simp only [List.foldlM_cons, f1, Res.ok_bind]
    exact ih _ _ _ f2 h

theorem remaining_at {obs obs' : List Ptr} (hobs : List.Forall₂ (At h0 g0) obs obs') : ∀ idx : List Int,
    List.Forall₂ (At h0 g0) (remaining obs idx) (remaining obs' idx) := by
  induction hobs with
  | nil => intro idx; simp [remaining]
  | cons h1 _ ih =>
    intro idx
    cases idx with
    | nil => simp [remaining]
    | cons i idx =>
      have := ih idx
      simp only [remaining, List.zip_cons_cons, List.filter_cons] at this ⊢
      split
      · exact .cons h1 this
      · exact this

/-- `aggregate_obstacles` on two lists of obstacles that are alike: both runs succeed and list obstacles that are
alike again. The aggregates even have the same reference position. -/
theorem aggregateObstacles_alike (ha : Acyclic h0) (hb : Acyclic g0) {obs obs' : List Ptr}
    (hobs : List.Forall₂ (At h0 g0) obs obs') :
    ∃ h1 g1 aggs aggs' idx, aggregateObstacles h0 obs = .ok (h1, aggs ++ remaining obs idx) ∧
      aggregateObstacles g0 obs' = .ok (g1, aggs' ++ remaining obs' idx) ∧
      Twins h1 g1 aggs aggs' ∧ List.Forall₂ (At h1 g1) (remaining obs idx) (remaining obs' idx) ∧
      (∀ q ∈ aggs, h0.length ≤ q) ∧ (∀ q ∈ aggs', g0.length ≤ q) ∧ HeapInv h0 h1 ∧ HeapInv g0 g1 := by
  obtain ⟨rank, hr⟩ := exists_ranked ha
  obtain ⟨rank', hr'⟩ := exists_ranked hb
  have hl := forall₂_lt hobs
  obtain ⟨h1, l0, i0, hrun, hI⟩ := aggregateObstacles_ok hr hl.1
  have hrun1 := hrun
  simp only [aggregateObstacles, Res.bind_eq_ok] at hrun1
  obtain ⟨s, e1, k, e2, e3⟩ := hrun1
  simp only [Res.ok.injEq, Prod.mk.injEq] at e3
  have start : ∀ h : Heap α, HeapInv h h := fun h => ⟨ShapeExt.refl h, fun b o hb ho =>
    absurd (List.getElem?_eq_some_iff.mp ho).1 (not_lt.mpr hb)⟩
  have hstart : LockSt h0 g0 (⟨h0, [], List.replicate obs.length (-1)⟩ : St α)
      ⟨g0, [], List.replicate obs'.length (-1)⟩ := by
    refine ⟨⟨start h0, start g0, Nat.add_comm _ _, fun a a' ag c hag => ?_⟩, .nil, by simp [hobs.length_eq]⟩
    exact absurd (List.getElem?_eq_some_iff.mp hag).1 (not_lt.mpr c.left)
  obtain ⟨s', f1, f2⟩ := LockSt.outerLoop hr hr' hobs (indexed_entries hobs) _ _ _ hstart e1
  obtain ⟨k', f3, f4⟩ := Lock.updateHulls f2.aggs _ _ _ f2.heap e2
  have hk : k = h1 := e3.1
  refine ⟨k, k', s.aggs, s'.aggs, s.idx, ?_, ?_, ?_, ?_, ?_, ?_, f4.inv, f4.inv'⟩
  · simp only [aggregateObstacles, e1, e2, Res.ok_bind]
  · simp only [aggregateObstacles, f1, f3, Res.ok_bind, f2.idx]
  · have hlen : ∀ q ∈ s.aggs, ∃ ag, k[q]? = some (.aggregate ag) := by
      have key : ∀ (L : List Ptr) (u v : Heap α), updateHulls L u = .ok v → ∀ q, (q ∈ L ∨ ∃ ag, u[q]? = some (.aggregate ag)) →
          ∃ ag, v[q]? = some (.aggregate ag) := by
        intro L
        induction L with
        | nil =>
          intro u v h q hq
          cases h
          simpa using hq
        | cons x L ih =>
          intro u v h q hq
          unfold updateHulls at h ih
          simp only [List.foldlM_cons, Res.bind_eq_ok] at h
          obtain ⟨w, h5, h6⟩ := h
          refine ih w v h6 q ?_
          have h7 : ∃ ag, w[x]? = some (.aggregate ag) ∧ ∀ y, y ≠ x → w[y]? = u[y]? := by
            obtain ⟨ag, hag⟩ := aggregate_of_updateHull h5
            have hxl := (List.getElem?_eq_some_iff.mp hag).1
            unfold Heap.updateHull Heap.deref at h5
            simp only [hag, Res.ok_bind, Res.bind_eq_ok] at h5
            obtain ⟨_, -, _, -, i, -, o, -, h8⟩ := h5
            cases h8
            exact ⟨_, by rw [List.getElem?_set_self hxl], fun y hy => by rw [List.getElem?_set_ne (Ne.symm hy)]⟩
          obtain ⟨ag, h8, h9⟩ := h7
          by_cases hqx : q = x
          · subst hqx; exact .inr ⟨ag, h8⟩
          · rcases hq with hq | ⟨ag', hq⟩
            · rcases List.mem_cons.mp hq with hq | hq
              · exact absurd hq hqx
              · exact .inl hq
            · exact .inr ⟨ag', by rw [h9 q hqx]; exact hq⟩
      intro q hq
      exact key _ _ _ e2 q (.inl hq)
    refine (forall₂_mem f2.aggs).imp fun a a' hc => ?_
    obtain ⟨ag, hag⟩ := hlen a hc.2.1
    obtain ⟨ag', hag', e⟩ := f4.new a a' ag hc.1 hag
    refine ⟨_, _, hag, hag', congrArg Base.refPos e.base, .aggregate _ _ ?_ (alikeAll_of ?_)⟩
    · simp only [shape, Obj.mapBase, e.base, e.inside, e.outside]
    · exact e.prims.imp fun _ _ h => h.keeps f4.inv.ext.keeps f4.inv'.ext.keeps
  · exact (remaining_at hobs s.idx).imp fun _ _ h => h.keeps f4.inv.ext.keeps f4.inv'.ext.keeps
  · intro q hq
    obtain ⟨n, hn⟩ := List.mem_iff_getElem?.mp hq
    obtain ⟨c, -, hc⟩ := forall₂_get f2.aggs n q hn
    exact hc.left
  · intro q hq
    obtain ⟨n, hn⟩ := List.mem_iff_getElem?.mp hq
    obtain ⟨c, -, hc⟩ := forall₂_get f2.aggs.flip n q hn
    exact hc.right

theorem forall₂_and {β γ : Type} {R S : β → γ → Prop} {l : List β} {l' : List γ} (h : List.Forall₂ R l l')
    (k : List.Forall₂ S l l') : List.Forall₂ (fun b c => R b c ∧ S b c) l l' := by
  induction h with
  | nil => exact .nil
  | cons h1 _ ih => cases k with | cons k1 k2 => exact .cons ⟨h1, k1⟩ (ih k2)

theorem remaining_forall₂ {R : Ptr → Ptr → Prop} {obs obs' : List Ptr} (hobs : List.Forall₂ R obs obs') :
    ∀ idx : List Int, List.Forall₂ R (remaining obs idx) (remaining obs' idx) := by
  induction hobs with
  | nil => intro idx; simp [remaining]
  | cons h1 _ ih =>
    intro idx
    cases idx with
    | nil => simp [remaining]
    | cons i idx =>
      have := ih idx
      simp only [remaining, List.zip_cons_cons, List.filter_cons] at this ⊢
      split
      · exact .cons h1 this
      · exact this

theorem remaining_mem {obs : List Ptr} {idx : List Int} {q : Ptr} (hq : q ∈ remaining obs idx) : q ∈ obs := by
  simp only [remaining, List.mem_map, List.mem_filter] at hq
  obtain ⟨x, ⟨hx, -⟩, rfl⟩ := hq
  exact (List.of_mem_zip hx).1

/-- `aggregate_obstacles` changes nothing but the obstacles. -/
theorem aggregateObstacles_other (ha : Acyclic h0) {obs : List Ptr} (hobs : ∀ p ∈ obs, p < h0.length) {h1 : Heap α}
    {l : List Ptr} (hrun : aggregateObstacles h0 obs = .ok (h1, l)) {r : Ptr} (hr : r < h0.length)
    (hw : ∀ p ∈ obs, ¬ Within h0 p r) : h1[r]? = h0[r]? := by
  obtain ⟨rank, hrk⟩ := exists_ranked ha
  obtain ⟨h', aggs, idx, e, hI⟩ := aggregateObstacles_ok hrk hobs
  rw [hrun] at e
  cases e
  by_contra hne
  obtain ⟨i, p, n, h1, -, -, h2⟩ := hI.frame r hr hne
  exact hw p (List.mem_of_getElem? h1) h2

/-- The obstacles left alone are unchanged. -/
theorem aggregateObstacles_alone (ha : Acyclic h0) {obs : List Ptr} (hobs : ∀ p ∈ obs, p < h0.length)
    (hd : Disjoint h0 obs) {h1 : Heap α} {l : List Ptr} (hrun : aggregateObstacles h0 obs = .ok (h1, l)) {q : Ptr}
    (hq : q ∈ l) (hlt : q < h0.length) : h1[q]? = h0[q]? := by
  obtain ⟨rank, hrk⟩ := exists_ranked ha
  obtain ⟨h', aggs, idx, e, hI⟩ := aggregateObstacles_ok hrk hobs
  rw [hrun] at e
  cases e
  by_contra hne
  obtain ⟨i, p, n, h1, h2, h3, h4⟩ := hI.frame q hlt hne
  rcases List.mem_append.mp hq with hq | hq
  · obtain ⟨m, hm, hget⟩ := List.getElem_of_mem hq
    have := (hI.agg m q (by rw [← hget]; exact List.getElem?_eq_getElem hm)).1
    exact absurd hlt (not_lt.mpr this)
  · obtain ⟨k, k1, k2⟩ := mem_members.mp hq
    refine hd i k p q q ?_ h1 k1 h4 .refl
    rintro rfl
    rw [h2] at k2
    cases k2
    exact h3 rfl

end DOA.Aggregation
