import Mathlib.Data.Set.Card
import Verif.Lemmas.Ownership
import Verif.Props.AggregationHistory

/-!
# C88: ownership

No obstacle is destroyed while somebody can still reach it, and none survives when nobody can; the
objects that repeated calls of `update()` leave behind are bounded.
-/

set_option linter.unusedSectionVars false

namespace DOA.Props
open DOA.Spec DOA.Mem

variable {α : Type} [Add α] [Sub α] [Mul α] [Div α] [Neg α] [Zero α] [One α]
  [LE α] [LT α] [DecidableLE α] [DecidableLT α] [CMath α]

/-! ### No use after free -/

/-- C88: in all executions of all client programs, an obstacle that the client can reach (through its own
pointers, the environment, or the primitives of aggregates) is not destroyed; in particular no
pointer in the environment or in an aggregate of it dangles. -/
theorem C88_safe {b : Bool} {m : Mem α} (hr : Run b m) {p : Ptr} (hp : m.Reach p) :
    p ∈ m.live ∧ p < m.heap.length :=
  ⟨hr.inv.reach hp, hr.inv.bound p (hr.inv.reach hp)⟩

/-- C88: so `update()` always has a defined result. -/
theorem C88_update_defined {b : Bool} {m : Mem α} (hr : Run b m) :
    ∃ h e, m.env.update m.heap = .ok (h, e) := by
  unfold Env.update
  cases m.env.aggregated with
  | false => exact ⟨_, _, rfl⟩
  | true =>
    obtain ⟨h, l, hl⟩ := C07_defined hr.inv.acyclic (obs := m.env.map.map (·.2)) fun p hp =>
      (C88_safe hr (.root (by simp only [Mem.roots, List.mem_append]; exact .inr (.inl hp)))).2
    exact ⟨h, _, by simp only [hl, if_true, Res.ok_bind]; rfl⟩

/-! ### No cycles -/

/-- C88: no aggregate ever contains itself, at any depth. -/
theorem C88_acyclic {b : Bool} {m : Mem α} (hr : Run b m) {p q : Ptr} (hq : q ∈ m.heap.owned p) :
    ¬ Within m.heap q p := by
  obtain ⟨rank, hr⟩ := hr.inv.acyclic
  have key : ∀ {r s : Ptr}, Within m.heap r s → rank s ≤ rank r := by
    intro r s hw
    induction hw with
    | refl => exact le_refl _
    | tail _ hc ih => exact ((hr _ _ hc).2.le).trans ih
  intro hw
  have h1 := key hw
  have h2 := (hr p q ((child_iff_owned _ _ _).mpr hq)).2
  omega

/-- C88: the reason is that `add_primitive` sets the reference position of everything nested in the
aggregate: when an aggregate is added to itself, or to something nested in it, the call recurses
without end (the program crashes) instead of returning. -/
theorem C88_cycle_crashes {b : Bool} {m : Mem α} (hr : Run b m) {p q : Ptr} (hp : m.Reach p) (hq : m.Reach q)
    {a : Aggregate α} (ha : m.heap[p]? = some (.aggregate a)) (hw : Within m.heap q p) (u : Bool) :
    m.heap.addPrimitive p q u = .ub .recursion := by
  have hpl := (C88_safe hr hp).2
  have hql := (C88_safe hr hq).2
  have hacy := hr.inv.acyclic
  have hown : ∀ s ∈ m.heap.owned p, s < m.heap.length := fun s hs => by
    obtain ⟨rank, hrk⟩ := hacy
    exact (hrk p s ((child_iff_owned _ _ _).mpr hs)).1
  have hop : m.heap.owned p = a.prims := by simp [Heap.owned, ha, Obj.owned]
  have hd : m.heap.deref p = .ok (.aggregate a) := deref_ok.mpr ha
  obtain ⟨s, hs⟩ : ∃ s, m.heap.sortByName (a.prims ++ [q]) = .ok s := by
    unfold Heap.sortByName
    have : ∀ x ∈ a.prims ++ [q], ∃ c : Ptr × Obj α, (do let o ← m.heap.deref x; Res.ok (x, o)) = .ok c := by
      intro x hx
      have hxl : x < m.heap.length := by
        rcases List.mem_append.mp hx with hx | hx
        · exact hown x (hop ▸ hx)
        · rw [List.mem_singleton] at hx; exact hx ▸ hql
      exact ⟨(x, m.heap[x]), by rw [deref_ok.mpr (List.getElem?_eq_getElem hxl)]; rfl⟩
    obtain ⟨c, hc⟩ := mapM_exists _ _ this
    exact ⟨_, by rw [hc]; rfl⟩
  simp only [Heap.addPrimitive, Heap.installPrims, hd, Res.ok_bind, hs]
  obtain ⟨s1, s2⟩ := sortByName_inv hs
  generalize hv : V3.sdiv (α := α) _ _ = v
  generalize hag : Obj.aggregate (α := α) _ = o
  have hoo : o.owned = s.map (·.1) := by rw [← hag]; rfl
  have hlen : (m.heap.set p o : Heap α).length = m.heap.length := by simp
  have hself : Heap.owned (m.heap.set p o) p = s.map (·.1) := by rw [owned_set_self hpl, hoo]
  have hcl : ∀ r t, t ∈ Heap.owned (m.heap.set p o) r → t < (m.heap.set p o).length := by
    intro r t ht
    rw [hlen]
    by_cases hrp : r = p
    · subst hrp
      rw [hself] at ht
      exact s2 t (s1.mem_iff.mp ht)
    · rw [owned_set_ne hrp] at ht
      obtain ⟨rank, hrk⟩ := hacy
      exact (hrk r t ((child_iff_owned _ _ _).mpr ht)).1
  have hchain : ∀ n, Chain (m.heap.set p o) n p := by
    refine chain_of_cycle (q := q) (by rw [hself]; exact s1.mem_iff.mpr (by simp)) ?_
    refine Relation.ReflTransGen.mono (fun r t hc => ?_) _ _ hw
    rw [child_iff_owned] at hc ⊢
    by_cases hrp : r = p
    · subst hrp
      rw [hself]
      rw [hop] at hc
      exact s1.mem_iff.mpr (List.mem_append_left _ hc)
    · rwa [owned_set_ne hrp]
  have hset : Heap.setRef (m.heap.set p o) p v = .ub .recursion := by
    rcases setRefAux_cases v (Heap.fuel (m.heap.set p o)) _ p (by rw [hlen]; exact hpl) hcl with ⟨h', hh'⟩ | hu
    · exact absurd (hchain _) (setRefAux_inv v _ _ _ _ hh').2.2
    · exact hu
  rw [hset]; rfl

/-! ### No leaks -/

/-- C88: when no destruction is due, the live obstacles are exactly those that the client can reach. -/
theorem C88_no_leak {b : Bool} {m : Mem α} (hr : Run b m) (hs : m.Settled) (p : Ptr) :
    p ∈ m.live ↔ m.Reach p := by
  refine ⟨fun hp => ?_, fun hp => (C88_safe hr hp).1⟩
  obtain ⟨rank, hrk⟩ := exists_ranked hr.inv.acyclic
  have key : ∀ n, ∀ p ∈ m.live, m.heap.length - rank p < n → m.Reach p := by
    intro n
    induction n with
    | zero => intro p _ h; omega
    | succ n ih =>
      intro p hp hn
      have h1 := hs p hp
      rw [Ne, useCount_eq_zero] at h1
      by_cases h2 : p ∈ m.roots
      · exact .root h2
      · have h3 : ∃ q ∈ m.live, p ∈ m.heap.owned q := by
          by_contra h4
          push Not at h4
          exact h1 ⟨h2, h4⟩
        obtain ⟨q, hq, hpq⟩ := h3
        have h4 := (hrk.child q p ((child_iff_owned _ _ _).mpr hpq)).2
        have h5 := hrk.bound q (hr.inv.bound q hq)
        exact .prim (ih q hq (by omega)) hpq
  exact key _ p hp (Nat.lt_succ_self _)

/-- C88: when the client has dropped all its pointers and the environment is empty, nothing is left. -/
theorem C88_end {b : Bool} {m : Mem α} (hr : Run b m) (hs : m.Settled) (hheld : m.held = [])
    (hmap : m.env.map = []) (hlist : m.env.list = []) : m.live = ∅ := by
  rw [Finset.eq_empty_iff_forall_notMem]
  intro p hp
  have := (C88_no_leak hr hs p).mp hp
  induction this with
  | root h => simp [Mem.roots, hheld, hmap, hlist] at h
  | prim _ _ ih => exact ih ((C88_safe hr ‹_›).1)

private theorem destroy_run {b : Bool} {m m' : Mem α} (hr : Run b m) (hd : Relation.ReflTransGen Destroy m m') :
    Run b m' ∧ m'.heap = m.heap ∧ m'.env = m.env ∧ m'.held = m.held := by
  induction hd with
  | refl => exact ⟨hr, rfl, rfl, rfl⟩
  | tail _ hc ih => obtain ⟨p, _, _⟩ := hc; exact ⟨.destroy ih.1 ⟨p, ‹_›, ‹_›⟩, ih.2⟩

private theorem reach_congr {m m' : Mem α} (h1 : m'.heap = m.heap) (h2 : m'.env = m.env)
    (h3 : m'.held = m.held) {p : Ptr} : m'.Reach p ↔ m.Reach p := by
  constructor
  · intro h
    induction h with
    | root h => exact .root (by simpa [Mem.roots, h2, h3] using h)
    | prim _ h ih => exact .prim ih (h1 ▸ h)
  · intro h
    induction h with
    | root h => exact .root (by simpa [Mem.roots, h2, h3] using h)
    | prim _ h ih => exact .prim ih (h1 ▸ h)

/-- C88: the destructions that are due come to an end, and what is left when they do is the same
whatever their order: the obstacles that the client can reach. -/
theorem C88_settles {b : Bool} {m : Mem α} (hr : Run b m) :
    (∃ m', Relation.ReflTransGen Destroy m m' ∧ m'.Settled) ∧
    ∀ m', Relation.ReflTransGen Destroy m m' → m'.Settled →
      m'.heap = m.heap ∧ m'.env = m.env ∧ m'.held = m.held ∧ ∀ p, p ∈ m'.live ↔ m.Reach p := by
  constructor
  · have key : ∀ n, ∀ m : Mem α, m.live.card = n → ∃ m', Relation.ReflTransGen Destroy m m' ∧ m'.Settled := by
      intro n
      induction n with
      | zero =>
        intro m hm
        refine ⟨m, .refl, fun p hp => ?_⟩
        rw [Finset.card_eq_zero.mp hm] at hp; simp at hp
      | succ n ih =>
        intro m hm
        by_cases hs : m.Settled
        · exact ⟨m, .refl, hs⟩
        · unfold Mem.Settled at hs
          push Not at hs
          obtain ⟨p, hp, h0⟩ := hs
          obtain ⟨m', h1, h2⟩ := ih { m with live := m.live.erase p } (by
            rw [Finset.card_erase_of_mem hp, hm]; rfl)
          exact ⟨m', .head ⟨p, hp, h0⟩ h1, h2⟩
    exact key _ m rfl
  · intro m' hd hs
    obtain ⟨hr', h1, h2, h3⟩ := destroy_run hr hd
    exact ⟨h1, h2, h3, fun p => (C88_no_leak hr' hs p).trans (reach_congr h1 h2 h3)⟩

/-! ### Repeated updates -/

/-- `n` calls of `update()`, with the destructions that are due after each. -/
inductive UpdateLoop (m : Mem α) : Nat → Mem α → Prop
  | start : UpdateLoop m 0 m
  | again {n : Nat} {m1 m2 : Mem α} {h : Heap α} {e : Env} : UpdateLoop m n m1 →
      m1.env.update m1.heap = .ok (h, e) →
      Relation.ReflTransGen Destroy ⟨h, e, m1.held, m1.live ∪ Finset.Ico m1.heap.length h.length⟩ m2 →
      m2.Settled → UpdateLoop m (n + 1) m2

/-- The obstacles that the client can reach without the list of the environment: through its own
pointers and the obstacles that it added. -/
def Known (m : Mem α) : Set Ptr := {p | ∃ r ∈ m.held ++ m.env.map.map (·.2), Within m.heap r p}

private theorem known_live {m : Mem α} {r p : Ptr}
    (hm : r ∈ m.held ++ m.env.map.map (·.2)) (hw : Within m.heap r p) : m.Reach p := by
  induction hw with
  | refl =>
    refine .root ?_
    rcases List.mem_append.mp hm with h | h
    · exact List.mem_append_left _ h
    · exact List.mem_append_right _ (List.mem_append_left _ h)
  | tail _ hc ih => exact .prim ih ((child_iff_owned _ _ _).mp hc)

private theorem known_finite {b : Bool} {m : Mem α} (hr : Run b m) : (Known m).Finite := by
  refine Set.Finite.subset m.live.finite_toSet ?_
  rintro p ⟨r, hm, hw⟩
  exact (C88_safe hr (known_live hm hw)).1

private theorem update_step {b : Bool} {m m2 : Mem α} {h : Heap α} {e : Env} (hr : Run b m)
    (hrun : m.env.update m.heap = .ok (h, e))
    (hd : Relation.ReflTransGen Destroy ⟨h, e, m.held, m.live ∪ Finset.Ico m.heap.length h.length⟩ m2)
    (hs : m2.Settled) :
    Run b m2 ∧ m2.env.map = m.env.map ∧ Known m2 = Known m ∧
      m2.live.card ≤ (Known m).ncard + m.env.map.length / 2 := by
  have hrc : Run b ⟨h, e, m.held, m.live ∪ Finset.Ico m.heap.length h.length⟩ := hr.call (.update hrun)
  obtain ⟨hr2, e1, e2, e3⟩ := destroy_run hrc hd
  have hobs : ∀ p ∈ m.env.map.map (·.2), m.Reach p := fun p hp =>
    .root (List.mem_append_right _ (List.mem_append_left _ hp))
  have hobs' : ∀ p ∈ m.env.map.map (·.2), p < m.heap.length := fun p hp => (C88_safe hr (hobs p hp)).2
  -- pointers of old objects, and the list
  have hmain : (∀ p, p < m.heap.length → h.owned p = m.heap.owned p) ∧ e.map = m.env.map ∧
      ∃ aggs : List Ptr, 2 * aggs.length ≤ m.env.map.length ∧ (∀ p ∈ e.list, p ∈ aggs ∨ p ∈ m.env.map.map (·.2)) ∧
        ∀ a ∈ aggs, ∀ q ∈ h.owned a, q ∈ m.env.map.map (·.2) := by
    rcases update_cases hrun with ⟨rfl, rfl⟩ | ⟨l, hl, rfl⟩
    · exact ⟨fun _ _ => rfl, rfl, [], by simp, fun p hp => .inr hp, by simp⟩
    · obtain ⟨aggs', hg⟩ := aggregate_grow hl
      obtain ⟨aggs, rest, rfl, -, ha, hrest, hperm⟩ := C05_partition hr.inv.acyclic hobs' hl
      refine ⟨hg.old, rfl, aggs, ?_, fun p hp => ?_, fun a haa q hq => hg.new a (ha a haa).1 q hq⟩
      · have h1 := hperm.length_eq
        rw [List.length_append, List.length_map] at h1
        have h2 : ∀ L : List Ptr, (∀ a ∈ L, 2 ≤ (primitives h a).length) →
            2 * L.length ≤ (L.flatMap (primitives h)).length := by
          intro L
          induction L with
          | nil => intro _; simp
          | cons x L ih =>
            intro hL
            have h3 := hL x (by simp)
            have h4 := ih fun a ha => hL a (by simp [ha])
            simp only [List.length_cons, List.flatMap_cons, List.length_append]
            omega
        have h3 := h2 aggs fun a haa => (ha a haa).2
        omega
      · rcases List.mem_append.mp hp with hp | hp
        · exact .inl hp
        · exact .inr (hrest.subset hp)
  obtain ⟨hold, hmap, aggs, hcount, hlist, haggs⟩ := hmain
  have hchild : ∀ {r p : Ptr}, r ∈ m.held ++ m.env.map.map (·.2) → (Within h r p ↔ Within m.heap r p) := by
    intro r p hm
    constructor
    · intro hw
      induction hw with
      | refl => exact .refl
      | tail _ hc ih =>
        have h1 := (C88_safe hr (known_live hm ih)).2
        rw [child_iff_owned, hold _ h1, ← child_iff_owned] at hc
        exact ih.tail hc
    · intro hw
      induction hw with
      | refl => exact .refl
      | @tail x y hw1 hc ih =>
        have h1 := (C88_safe hr (known_live hm hw1)).2
        rw [child_iff_owned, ← hold _ h1, ← child_iff_owned] at hc
        exact ih.tail hc
  have hknown : Known m2 = Known m := by
    ext p
    simp only [Known, Set.mem_ofPred_eq, e1, e2, e3, hmap]
    constructor
    · rintro ⟨r, hm, hw⟩; exact ⟨r, hm, (hchild hm).mp hw⟩
    · rintro ⟨r, hm, hw⟩; exact ⟨r, hm, (hchild hm).mpr hw⟩
  refine ⟨hr2, by rw [e2]; exact hmap, hknown, ?_⟩
  have hsub : ∀ p, m2.Reach p → p ∈ Known m ∨ p ∈ aggs := by
    intro p hp
    have hK : ∀ q ∈ m.held ++ m.env.map.map (·.2), q ∈ Known m := fun q hq => ⟨q, hq, .refl⟩
    induction hp with
    | root hp =>
      simp only [Mem.roots, e2, e3, hmap] at hp
      rcases List.mem_append.mp hp with hp | hp
      · exact .inl (hK _ (List.mem_append_left _ hp))
      · rcases List.mem_append.mp hp with hp | hp
        · exact .inl (hK _ (List.mem_append_right _ hp))
        · rcases hlist _ hp with h1 | h1
          · exact .inr h1
          · exact .inl (hK _ (List.mem_append_right _ h1))
    | prim _ hq ih =>
      rw [e1] at hq
      rcases ih with ⟨r, hm, hw⟩ | ha
      · refine .inl ⟨r, hm, hw.tail ?_⟩
        rw [child_iff_owned, ← hold _ (C88_safe hr (known_live hm hw)).2]
        exact hq
      · exact .inl (hK _ (List.mem_append_right _ (haggs _ ha _ hq)))
  have hfin := known_finite hr
  classical
  have h1 : m2.live ⊆ hfin.toFinset ∪ aggs.toFinset := by
    intro p hp
    rcases hsub p ((C88_no_leak hr2 hs p).mp hp) with h | h
    · exact Finset.mem_union_left _ (hfin.mem_toFinset.mpr h)
    · exact Finset.mem_union_right _ (List.mem_toFinset.mpr h)
  have h2 := Finset.card_le_card h1
  have h3 := Finset.card_union_le hfin.toFinset aggs.toFinset
  have h4 := List.toFinset_card_le aggs
  rw [Set.ncard_eq_toFinset_card _ hfin]
  omega

/-- C88: repeated calls of `update()` do not use up memory: after any positive number of them, the live
obstacles are at most those that the client can reach without the list, plus half as many aggregates
as there are obstacles in the environment. -/
theorem C88_update_loop {b : Bool} {m m' : Mem α} (hr : Run b m) {n : Nat} (hl : UpdateLoop m (n + 1) m') :
    m'.live.card ≤ (Known m).ncard + m.env.map.length / 2 := by
  have key : ∀ n m', UpdateLoop m n m' → Run b m' ∧ m'.env.map = m.env.map ∧ Known m' = Known m := by
    intro n m' h
    induction h with
    | start => exact ⟨hr, rfl, rfl⟩
    | again _ h1 h2 h3 ih =>
      obtain ⟨i1, i2, i3⟩ := ih
      obtain ⟨j1, j2, j3, -⟩ := update_step i1 h1 h2 h3
      exact ⟨j1, j2.trans i2, j3.trans i3⟩
  cases hl with
  | again h0 h1 h2 h3 =>
    obtain ⟨i1, i2, i3⟩ := key _ _ h0
    have := (update_step i1 h1 h2 h3).2.2.2
    rwa [i2, i3] at this

/-- C88: and the loop never gets stuck. -/
theorem C88_loop_defined {b : Bool} {m : Mem α} (hr : Run b m) (n : Nat) : ∃ m', UpdateLoop m n m' := by
  have key : ∀ n, ∃ m', UpdateLoop m n m' ∧ Run b m' := by
    intro n
    induction n with
    | zero => exact ⟨m, .start, hr⟩
    | succ n ih =>
      obtain ⟨m1, h1, hr1⟩ := ih
      obtain ⟨h, e, hrun⟩ := C88_update_defined hr1
      have hrc := hr1.call (.update hrun)
      obtain ⟨m2, h2, h3⟩ := (C88_settles hrc).1
      exact ⟨m2, .again h1 hrun h2 h3, (destroy_run hrc h2).1⟩
  obtain ⟨m', h, -⟩ := key n
  exact ⟨m', h⟩

/-! ### A concrete execution -/

/-- Two crossing obstacles that the client made, added to an environment in aggregated mode, and then
dropped its own pointers to. -/
noncomputable def crossing : Mem ℝ := ⟨pair, ⟨[("a", 0), ("b", 1)], true, []⟩, [], {1, 0}⟩

theorem crossing_run : Run true crossing := by
  have r0 : Run true (⟨[], Env.mk' true, [], ∅⟩ : Mem ℝ) := .start
  have r1 : Run true (⟨[.ellipsoid (circ "a" V3.zero 1)], Env.mk' true, [0], {0}⟩ : Mem ℝ) :=
    r0.call (.create _ (by simp [Obj.owned]))
  have r2 : Run true (⟨pair, Env.mk' true, [1, 0], {1, 0}⟩ : Mem ℝ) :=
    r1.call (.create (.ellipsoid (circ "b" ⟨5, 0, 0⟩ 10)) (by simp [Obj.owned]))
  have r3 : Run true (⟨pair, ⟨[("a", 0)], true, []⟩, [1, 0], {1, 0}⟩ : Mem ℝ) :=
    r2.call (.add 0 (.root (by simp [Mem.roots])) rfl)
  have r4 : Run true (⟨pair, ⟨[("a", 0), ("b", 1)], true, []⟩, [1, 0], {1, 0}⟩ : Mem ℝ) :=
    r3.call (.add 1 (.root (by simp [Mem.roots])) rfl)
  have r5 : Run true (⟨pair, ⟨[("a", 0), ("b", 1)], true, []⟩, [0], {1, 0}⟩ : Mem ℝ) :=
    r4.call (.drop 1 (by simp))
  exact r5.call (.drop 0 (by simp))

private theorem crossing_loop {n : Nat} {m : Mem ℝ} (hl : UpdateLoop crossing n m) :
    Run true m ∧ m.env.map = [("a", 0), ("b", 1)] ∧ m.env.aggregated = true ∧ ShapeExt pair m.heap ∧
      2 + n ≤ m.heap.length := by
  induction hl with
  | start => exact ⟨crossing_run, rfl, rfl, ShapeExt.refl _, le_refl _⟩
  | @again n m1 m2 h e _ h1 h2 h3 ih =>
    obtain ⟨i1, i2, i3, i4, i5⟩ := ih
    obtain ⟨j1, j2, j3, j4⟩ := destroy_run (i1.call (.update h1)) h2
    have hacy := i1.inv.acyclic
    have hobs : ∀ p ∈ [0, 1], p < m1.heap.length := by
      intro p hp
      have : p = 0 ∨ p = 1 := by simpa using hp
      rcases this with rfl | rfl
      · exact lt_of_lt_of_le (by simp [pair]) i4.1
      · exact lt_of_lt_of_le (by simp [pair]) i4.1
    obtain ⟨l, hl, he⟩ : ∃ l, Aggregation.aggregateObstacles m1.heap [0, 1] = .ok (h, l) ∧
        e = { m1.env with list := l } := by
      have h1' := h1
      simp only [Env.update, i3, if_true, i2, Res.bind_eq_ok] at h1'
      obtain ⟨⟨h4, l⟩, h5, h6⟩ := h1'
      cases h6
      exact ⟨l, h5, by simp [i2, i3]⟩
    obtain ⟨rank, hr⟩ := exists_ranked (show Acyclic pair from acyclic_flat (by
      intro p a hp
      match p with
      | 0 => simp [pair] at hp
      | 1 => simp [pair] at hp
      | n + 2 => simp [pair] at hp))
    have hmeets : Meets m1.heap [0, 1] 0 1 := by
      obtain ⟨o0, a1, a2⟩ := i4.get (p := 0) (o := .ellipsoid (circ "a" V3.zero 1)) rfl
      obtain ⟨o1, b1, b2⟩ := i4.get (p := 1) (o := .ellipsoid (circ "b" ⟨5, 0, 0⟩ 10)) rfl
      obtain ⟨b, c1, c2⟩ := isIntersecting_ok hr i4 (p := 0) (q := 1) rfl a1 rfl b1
      have : b = true := by
        have h7 : Heap.isIntersecting pair (.ellipsoid (circ "a" V3.zero 1))
            (.ellipsoid (circ "b" ⟨5, 0, 0⟩ 10)) = .ok true := pair_meet
        rw [h7] at c1
        cases c1; rfl
      exact ⟨by omega, 0, 1, o0, o1, rfl, rfl, a1, b1, this ▸ c2⟩
    obtain ⟨⟨-, hcomp⟩, -⟩ := C06_components hacy hobs (by simp) hl (i := 0) (j := 1) (p := 0) (q := 1)
      rfl rfl (by omega)
    obtain ⟨a, hal, hnew, -⟩ := hcomp (.rel _ _ hmeets)
    have hlt := (C07_closed hacy hobs hl).2.2 a hal
    obtain ⟨rank1, hr1⟩ := exists_ranked hacy
    obtain ⟨h', aggs, idx, k1, k2⟩ := Aggregation.aggregateObstacles_ok hr1 hobs
    rw [hl] at k1
    cases k1
    refine ⟨j1, by rw [j3, he]; exact i2, by rw [j3, he]; exact i3, by rw [j2]; exact i4.trans k2.heap.ext, ?_⟩
    rw [j2]
    have : m1.heap.length < h.length := lt_of_le_of_lt hnew hlt
    show 2 + (n + 1) ≤ h.length
    omega

/-- C88 on a concrete execution: every `update()` of the two crossing obstacles makes a new aggregate,
so `n` of them make `n`; but no more than three obstacles are live at the end. -/
theorem C88_created (n : Nat) : ∃ m, UpdateLoop crossing (n + 1) m ∧ 2 + (n + 1) ≤ m.heap.length ∧
    m.live.card ≤ 3 := by
  obtain ⟨m, hm⟩ := C88_loop_defined crossing_run (n + 1)
  refine ⟨m, hm, (crossing_loop hm).2.2.2.2, (C88_update_loop crossing_run hm).trans ?_⟩
  have : (Known crossing).ncard ≤ 2 := by
    have hsub : Known crossing ⊆ ↑crossing.live := by
      rintro p ⟨r, hm, hw⟩
      exact (C88_safe crossing_run (known_live hm hw)).1
    have := Set.ncard_le_ncard hsub (Finset.finite_toSet _)
    rw [Set.ncard_coe_finset] at this
    exact this.trans (by simp [crossing])
  have h2 : crossing.env.map.length / 2 = 1 := rfl
  omega

/-- Non-vacuity of `C88_cycle_crashes`: an aggregate that the client adds to itself. -/
example : ∃ (m : Mem ℝ) (a : Aggregate ℝ), Run true m ∧ m.Reach 0 ∧ m.heap[0]? = some (.aggregate a) ∧
    Within m.heap 0 0 ∧ m.heap.addPrimitive 0 0 true = .ub .recursion := by
  have r0 : Run true (⟨[], Env.mk' true, [], ∅⟩ : Mem ℝ) := .start
  have r1 : Run true (⟨[.aggregate Aggregate.default], Env.mk' true, [0], {0}⟩ : Mem ℝ) :=
    r0.call (.create _ (by simp [Obj.owned, Aggregate.default]))
  have hr : (⟨[.aggregate Aggregate.default], Env.mk' true, [0], {0}⟩ : Mem ℝ).Reach 0 :=
    .root (by simp [Mem.roots])
  exact ⟨_, _, r1, hr, rfl, .refl, C88_cycle_crashes r1 hr hr rfl .refl true⟩

/-- Non-vacuity of `C88_no_leak` and `C88_end`: an obstacle that is made and dropped. -/
example : ∃ m : Mem ℝ, Run true m ∧ m.Settled ∧ m.held = [] ∧ m.env.map = [] ∧ m.env.list = [] ∧
    m.heap.length = 1 := by
  have r0 : Run true (⟨[], Env.mk' true, [], ∅⟩ : Mem ℝ) := .start
  have r1 : Run true (⟨[.ellipsoid (circ "a" V3.zero 1)], Env.mk' true, [0], {0}⟩ : Mem ℝ) :=
    r0.call (.create _ (by simp [Obj.owned]))
  have r2 : Run true (⟨[.ellipsoid (circ "a" V3.zero 1)], Env.mk' true, [], {0}⟩ : Mem ℝ) :=
    r1.call (.drop 0 (by simp))
  obtain ⟨m, h1, h2⟩ := (C88_settles r2).1
  obtain ⟨h3, h4, h5, h6⟩ := destroy_run r2 h1
  exact ⟨m, h3, h2, h6, by rw [h5]; rfl, by rw [h5]; rfl, by rw [h4]; rfl⟩

end DOA.Props
