import Verif.Props.AggregationHistory
import Verif.Props.Combine
import Verif.Props.Env

/-!
# Concrete cases: environments and aggregation

The theorems of `Props/Env.lean`, `Props/Aggregation.lean` and `Props/AggregationHistory.lean` applied to two overlapping
discs `a` and `b` (`pair`), to two discs far apart, and to a short history of calls.
-/

namespace DOA.Props

open DOA DOA.Spec DOA.Modulation DOA.Ellipsoid DOA.Aggregation

theorem pair_acyclic : Acyclic pair := acyclic_flat (by
  intro p a hp
  match p with
  | 0 => simp [pair] at hp
  | 1 => simp [pair] at hp
  | n + 2 => simp [pair] at hp)

theorem pair_obs : ∀ p ∈ [0, 1], p < pair.length := by simp [pair]

theorem pair_run : ∃ h1 a, aggregateObstacles pair [0, 1] = .ok (h1, [a]) ∧ pair.length ≤ a ∧ (primitives h1 a).Perm [0, 1] := by
  obtain ⟨h1, a, h2, -, h3, h4, -⟩ := two_update pair_meet
  exact ⟨h1, a, h2, h3, h4⟩

/-- The environment of the client: both discs, aggregated mode, not yet updated. -/
noncomputable def pairWorld : World ℝ := ⟨pair, ⟨[("a", 0), ("b", 1)], true, []⟩⟩

theorem pairWorld_map : ∀ e ∈ pairWorld.env.map, e.2 < pairWorld.heap.length := by simp [pairWorld, pair]

theorem pairWorld_update : ∃ h1 a, pairWorld.exec .update = .ok ⟨h1, ⟨[("a", 0), ("b", 1)], true, [a]⟩⟩ ∧ pair.length ≤ a ∧
    (primitives h1 a).Perm [0, 1] ∧ aggregateObstacles pair [0, 1] = .ok (h1, [a]) := by
  obtain ⟨h1, a, h2, h3, h4⟩ := pair_run
  exact ⟨h1, a, by simp [World.exec, Env.update, pairWorld, h2], h3, h4, h2⟩

/-- Two discs far apart. -/
noncomputable def apartHeap : Heap ℝ := [.ellipsoid (circ "a" V3.zero 1), .ellipsoid (circ "b" ⟨5, 0, 0⟩ 2)]

theorem apart_acyclic : Acyclic apartHeap := acyclic_flat (by
  intro p a hp
  match p with
  | 0 => simp [apartHeap] at hp
  | 1 => simp [apartHeap] at hp
  | n + 2 => simp [apartHeap] at hp)

theorem apart_no : ∀ i j, ¬ Meets apartHeap [0, 1] i j := by
  rintro i j ⟨hij, p, q, op, oq, h1, h2, h3, h4, h5⟩
  match i, j, hij with
  | 0, 1, _ =>
    simp only [List.getElem?_cons_zero, List.getElem?_cons_succ, Option.some.injEq] at h1 h2
    subst h1; subst h2
    simp only [apartHeap, List.getElem?_cons_zero, List.getElem?_cons_succ, Option.some.injEq] at h3 h4
    subst h3; subst h4
    have : (circ "a" V3.zero 1).isIntersectingEllipsoid (circ "b" ⟨5, 0, 0⟩ 2) = .ok true := h5
    rw [circ_apart (by norm_num) (by norm_num) (by norm_num [V3.zero])] at this
    cases this
  | i, j + 2, _ => simp at h2
  | 1, 1, h => exact absurd h (by omega)
  | i + 2, 1, h => exact absurd h (by omega)

/-! ### Aggregation -/

example : ∃ h' l, aggregateObstacles pair [0, 1] = .ok (h', l) := C07_defined pair_acyclic pair_obs

example : ∃ h1 a, aggregateObstacles pair [0, 1] = .ok (h1, [a]) ∧ Acyclic h1 ∧ a < h1.length := by
  obtain ⟨h1, a, hr, -⟩ := pair_run
  obtain ⟨c1, -, c2⟩ := C07_closed pair_acyclic pair_obs hr
  exact ⟨h1, a, hr, c1, c2 a (by simp)⟩

example : ∃ h1 a, aggregateObstacles pair [0, 1] = .ok (h1, [a]) ∧ ∃ aggs rest, [a] = aggs ++ rest ∧
    (aggs.flatMap (primitives h1) ++ rest).Perm [0, 1] := by
  obtain ⟨h1, a, hr, -⟩ := pair_run
  obtain ⟨aggs, rest, c1, -, -, -, c2⟩ := C05_partition pair_acyclic pair_obs hr
  exact ⟨h1, a, hr, aggs, rest, c1, c2⟩

example : ∃ (h1 : Heap ℝ) (a : Ptr) (aggs : List Ptr) (place : List (Option Nat)),
    aggregateObstacles pair [0, 1] = .ok (h1, [a]) ∧ place.length = 2 ∧ [a] = aggs ++ placed [0, 1] place none := by
  obtain ⟨h1, a, hr, -⟩ := pair_run
  obtain ⟨aggs, place, c1, c2, -⟩ := C06_placement pair_acyclic pair_obs hr
  exact ⟨h1, a, aggs, place, hr, c1, c2⟩

example : ∃ h1 a, aggregateObstacles pair [0, 1] = .ok (h1, [a]) ∧ 0 ∈ primitives h1 a ∧ 1 ∈ primitives h1 a ∧
    0 ∉ [a] := by
  obtain ⟨h1, a, hr, h2, -⟩ := pair_run
  have hL : Linked pair [0, 1] 0 1 := .rel _ _ ⟨by omega, 0, 1, _, _, rfl, rfl, rfl, rfl, pair_meet⟩
  obtain ⟨c1, c2⟩ := C06_components pair_acyclic pair_obs (by simp) hr (i := 0) (j := 1) rfl rfl (by omega)
  obtain ⟨b, hb, -, c3, c4⟩ := c1.mpr hL
  simp only [List.mem_singleton] at hb
  subst hb
  exact ⟨h1, b, hr, c3, c4, fun h => c2.mp h 1 (by omega) hL⟩

example : aggregateObstacles apartHeap [0, 1] = .ok (apartHeap, [0, 1]) :=
  C06_no_meets apart_acyclic (by simp [apartHeap]) apart_no

example : ∃ w', pairWorld.exec .update = .ok w' ∧ ∃ o', w'.heap[0]? = some o' ∧ o'.name = "a" ∧
    o'.base.margin = V3.const 0 := by
  obtain ⟨w', h1, -, -, h2⟩ := C04_update (w := pairWorld) pair_acyclic pairWorld_map
  obtain ⟨o', h3, h4, -⟩ := h2 0 (.ellipsoid (circ "a" V3.zero 1)) rfl
  obtain ⟨c1, -, c2, -⟩ := C04_shape_covers h4
  exact ⟨w', h1, o', h3, c1, c2⟩

/-- A third disc. -/
noncomputable def triple3 : Heap ℝ := pair ++ [Obj.ellipsoid (circ "c" V3.zero 3)]

theorem triple3_acyclic : Acyclic triple3 := acyclic_flat (by
  intro p a hp
  match p with
  | 0 => simp [triple3, pair] at hp
  | 1 => simp [triple3, pair] at hp
  | 2 => simp [triple3, pair] at hp
  | n + 3 => simp [triple3, pair] at hp)

/-- The third disc is added by hand to the new aggregate of the first two. -/
example : ∃ h1 h2 : Heap ℝ, triple3.mkAggregate [0, 1] = .ok (h1, 3) ∧
    h1.addPrimitive 3 2 true = .ok h2 ∧ (primitives h2 3).Perm [0, 1, 2] := by
  have hps : ∀ q ∈ [0, 1], q < triple3.length := by simp [triple3, pair]
  obtain ⟨h1, a, hmk, hget, -, hok⟩ := C59_aggregate_partial triple3_acyclic hps
  obtain ⟨h1', hmk', hac1, -, hperm, hsh, -⟩ := C08_constructor triple3_acyclic hps
  rw [hmk] at hmk'
  cases hmk'
  have hlen : triple3.length = 3 := rfl
  rw [hlen] at hget hperm hmk
  have h2 := hsh 2 (by decide)
  obtain ⟨e, he⟩ : ∃ e, h1[2]? = some (.ellipsoid e) := by
    have h3 : triple3[2]? = some (.ellipsoid (circ "c" V3.zero 3)) := rfl
    rw [h3] at h2
    match h4 : h1[2]? with
    | none => rw [h4] at h2; cases h2
    | some (.ellipsoid e) => exact ⟨e, rfl⟩
    | some (.aggregate _) => rw [h4] at h2; cases h2
    | some (.hull _) => rw [h4] at h2; cases h2
    | some (.plain _) => rw [h4] at h2; cases h2
  obtain ⟨h2', c1, -, -, c2, -⟩ := C08_add_primitive hac1 hget (q := 2)
    ⟨(List.getElem?_eq_some_iff.mp he).1, fun hw => by
      obtain ⟨c, hc, -⟩ := (Relation.ReflTransGen.cases_head hw).resolve_left (by decide)
      simp [Child, he] at hc⟩ true (fun _ => hok)
  have h5 : a.prims.Perm [0, 1] := by simpa [primitives, hget] using hperm
  exact ⟨h1, h2', hmk, c1, c2.trans (h5.append_right [2])⟩

/-- The same aggregate, whatever the order of the primitives and the times of the hull computations. -/
example : ∃ h1 h2 a1 a2, addAll pair.newAggregate.1 2 [(0, false), (1, true)] = .ok h1 ∧
    addAll pair.newAggregate.1 2 [(1, true), (0, true)] = .ok h2 ∧ h1[2]? = some (.aggregate a1) ∧
    h2[2]? = some (.aggregate a2) ∧ a1.prims = a2.prims ∧ a1.base = a2.base :=
  C08_order_independent pair_acyclic (qs := [(0, false), (1, true)]) (rs := [(1, true), (0, true)]) (by simp)
    (by simp [pair]) (List.Perm.swap _ _ _) (by
      have h0 : nameOf pair 0 = "a" := rfl
      have h1 : nameOf pair 1 = "b" := rfl
      intro p hp q hq h
      simp only [List.map_cons, List.map_nil, List.mem_cons, List.not_mem_nil, or_false] at hp hq
      rcases hp with rfl | rfl <;> rcases hq with rfl | rfl
      · rfl
      · rw [h0, h1] at h; exact absurd h (by decide)
      · rw [h0, h1] at h; exact absurd h (by decide)
      · rfl)

example : ∃ h1 a, aggregateObstacles pair [0, 1] = .ok (h1, [a]) ∧
    (primitives h1 a).Pairwise (fun x y => nameOf pair x ≤ nameOf pair y) := by
  obtain ⟨h1, a, hr, h2, -⟩ := pair_run
  exact ⟨h1, a, hr, (C08_update pair_acyclic pair_obs hr (by simp) h2).1⟩

example : ∃ h', pair.setRef 1 ⟨1, 2, 0⟩ = .ok h' ∧ refOf h' 1 = some ⟨1, 2, 0⟩ ∧ h'[0]? = pair[0]? := by
  obtain ⟨h', h1, -, h2, -, h3⟩ := C09_set_reference pair_acyclic (p := 1) (by decide) ⟨1, 2, 0⟩
  refine ⟨h', h1, h2 1 .refl, h3 0 fun hw => ?_⟩
  obtain ⟨c, hc, -⟩ := (Relation.ReflTransGen.cases_head hw).resolve_left (by decide)
  simp [Child, pair] at hc

/-- The centre after the first disc was added by hand. -/
example : ∃ h1, AggregateHistory 2 h1 ∧ primitives h1 2 = [0] ∧
    (h1[2]?).map Obj.position = some (mean (positions h1 (primitives h1 2))) := by
  have h0 : AggregateHistory 2 pair.newAggregate.1 := .create pair_acyclic rfl
  have hac : Acyclic pair.newAggregate.1 := by
    obtain ⟨rank, hr⟩ := pair_acyclic
    refine ⟨rank, fun p q hc => ?_⟩
    obtain ⟨a, ha, hq⟩ := hc
    match p, ha with
    | 0, ha => simp [pair, Heap.newAggregate] at ha
    | 1, ha => simp [pair, Heap.newAggregate] at ha
    | 2, ha =>
      simp [pair, Heap.newAggregate] at ha
      subst ha
      simp [Aggregate.default] at hq
    | n + 3, ha => simp [pair, Heap.newAggregate] at ha
  have hm : MayAdd pair.newAggregate.1 2 0 := ⟨by decide, fun hw => by
    obtain ⟨c, hc, -⟩ := (Relation.ReflTransGen.cases_head hw).resolve_left (by decide)
    simp [Child, pair, Heap.newAggregate] at hc⟩
  obtain ⟨h1, c1, -, -, c2, -⟩ := C08_add_primitive hac (p := 2) (q := 0) (a := Aggregate.default) rfl hm false (by simp)
  have hp : primitives h1 2 = [0] := List.perm_singleton.mp c2
  have hh := AggregateHistory.add 0 false h0 hm c1
  exact ⟨h1, hh, hp, (C09_history hh (by rw [hp]; simp)).1⟩

/-- The reference point of both discs is the mean of the centres. -/
example : ∃ h1 a, aggregateObstacles pair [0, 1] = .ok (h1, [a]) ∧
    ∀ r, Within h1 a r → refOf h1 r = some (mean (positions pair (primitives h1 a))) := by
  obtain ⟨h1, a, hr, h2, -⟩ := pair_run
  refine ⟨h1, a, hr, (C09_update pair_acyclic pair_obs ?_ hr (by simp) h2).2⟩
  have hself : ∀ p : Ptr, p < 2 → ∀ r, Within pair p r → p = r := by
    intro p hp r hw
    rcases Relation.ReflTransGen.cases_head hw with h | ⟨c, ⟨a, ha, -⟩, -⟩
    · exact h
    · match p, hp with
      | 0, _ => simp [pair] at ha
      | 1, _ => simp [pair] at ha
  intro i j p q r hij hi hj h1 h2
  have hp := hself p (pair_obs p (List.mem_of_getElem? hi)) r h1
  have hq := hself q (pair_obs q (List.mem_of_getElem? hj)) r h2
  subst hp; subst hq
  match i, j with
  | 0, 0 => exact hij rfl
  | 1, 1 => exact hij rfl
  | 0, 1 => simp at hi hj; exact absurd (hi.trans hj.symm) (by decide)
  | 1, 0 => simp at hi hj; exact absurd (hi.trans hj.symm) (by decide)
  | i + 2, _ => simp at hi
  | _, j + 2 => simp at hj

/-! ### Histories -/

/-- `add "b"`, `add "a"`, then in aggregated mode. -/
theorem pair_history : ∃ es, History (World.init pair true) es pairWorld ∧ live es "a" = some 0 ∧ live es "b" = some 1 ∧
    live es "c" = none ∧ ∀ k p, live es k = some p → p < pair.length ∧ nameOf pair p = k := by
  have h1 := (History.start (w0 := World.init pair true)).call (.add 1)
    (w' := ⟨pair, ⟨[("b", 1)], true, []⟩⟩) rfl
  have h2 := h1.call (.add 0) (w' := ⟨pair, ⟨[("a", 0), ("b", 1)], true, []⟩⟩) rfl
  refine ⟨_, h2, rfl, rfl, rfl, ?_⟩
  intro k p hk
  have hk' : (if k = "a" then some 0 else if k = "b" then some 1 else none) = some p := hk
  split_ifs at hk' with ha hb
  · cases hk'; exact ⟨by decide, ha ▸ rfl⟩
  · cases hk'; exact ⟨by decide, hb ▸ rfl⟩

example : ∃ w', pairWorld.exec .update = .ok w' ∧ (w'.env.lookup w'.heap "c" = .throw (.notInEnvironment "c") ∨
    ∃ p ∈ w'.env.list, 2 ≤ p ∧ nameOf w'.heap p = "c" ∧ w'.env.lookup w'.heap "c" = .ok p) := by
  obtain ⟨es, hh, -, -, hc, hl⟩ := pair_history
  obtain ⟨h1, a, hup, -⟩ := pairWorld_update
  exact ⟨_, hup, C03_after_update hh pair_acyclic hl hup "c" hc⟩

example : ∃ es, History (World.init pair true) es pairWorld ∧ pairWorld.env.lookup pair "b" = .ok 1 ∧
    pairWorld.exec (.add 0) = .throw (.alreadyExists "a") ∧ pairWorld.exec (.remove "c") = .throw (.notInEnvironment "c") ∧
    ∃ w', pairWorld.exec (.remove "a") = .ok w' ∧ w'.heap = pair := by
  obtain ⟨es, hh, ha, hb, hc, -⟩ := pair_history
  obtain ⟨w', h1, h2, -⟩ := (C01_remove hh "a").2 0 ha
  exact ⟨es, hh, (C01_lookup hh "b").1 1 hb, (C01_add hh 0 _ rfl).1 0 ha, (C01_remove hh "c").1 hc, w', h1, h2⟩

example : ∃ es, History (World.init pair true) es pairWorld ∧ pairWorld.env.lookup pairWorld.heap "c" =
    .throw (.notInEnvironment "c") := by
  obtain ⟨es, hh, ha, hb, hc, -⟩ := pair_history
  have := C03_lookup_partial hh (by simp [pairWorld]) "c"
  rw [hc] at this
  exact ⟨es, hh, this⟩

/-- Neither `add` nor `remove` nor a change of the mode changes the list. -/
example : ∃ w', pairWorld.step (.remove "a") = .ok w' ∧ w'.env.list = [] := by
  obtain ⟨es, hh, -⟩ := pair_history
  have h1 : pairWorld.step (.remove "a") = .ok ⟨pair, ⟨[("b", 1)], true, []⟩⟩ := rfl
  refine ⟨_, h1, ?_⟩
  rcases C02_list_stable hh h1 with h | h | ⟨k, p, h, -⟩
  · exact h
  · cases h
  · cases h

/-- Without aggregation the list is that of the obstacles, in the order of their names. -/
example : ∃ w', (⟨pair, ⟨[("a", 0), ("b", 1)], false, []⟩⟩ : World ℝ).exec .update = .ok w' ∧ w'.heap = pair := by
  have h1 := (History.start (w0 := World.init pair false)).call (.add 1)
    (w' := ⟨pair, ⟨[("b", 1)], false, []⟩⟩) rfl
  have h2 := h1.call (.add 0) (w' := ⟨pair, ⟨[("a", 0), ("b", 1)], false, []⟩⟩) rfl
  obtain ⟨w', c1, c2, -⟩ := C02_snapshot h2 rfl
  exact ⟨w', c1, c2⟩

theorem pair_calls : ([.add 1, .add 0, .add 0, .setAggregated false, .remove "b"] : List (Call ℝ)).foldlM World.step
    (World.init pair true) = .ok ⟨pair, ⟨[("a", 0)], false, []⟩⟩ := rfl

example : (⟨pair, ⟨[("a", 0)], false, []⟩⟩ : World ℝ).env.list = [] := C02_no_update _ _ pair_calls (by simp)

example : (⟨pair, ⟨[("a", 0)], false, []⟩⟩ : World ℝ).env.aggregated = false := C02_mode _ _ pair_calls

/-! ### After the update -/

/-- An obstacle far from the others is not changed. -/
example : ∃ w', (⟨apartHeap, ⟨[("a", 0), ("b", 1)], true, []⟩⟩ : World ℝ).exec .update = .ok w' ∧
    w'.heap[0]? = apartHeap[0]? := by
  have h1 := C06_no_meets apart_acyclic (by simp [apartHeap]) apart_no
  have hup : (⟨apartHeap, ⟨[("a", 0), ("b", 1)], true, []⟩⟩ : World ℝ).exec .update =
      .ok ⟨apartHeap, ⟨[("a", 0), ("b", 1)], true, [0, 1]⟩⟩ := by simp [World.exec, Env.update, h1]
  refine ⟨_, hup, C10_untouched_partial (p := 0) apart_acyclic (by simp [apartHeap]) hup (by decide) ?_⟩
  intro a ha hl
  have ha' : a = 0 ∨ a = 1 := by simpa using ha
  have hl' : 2 ≤ a := hl
  rcases ha' with rfl | rfl <;> exact absurd hl' (by decide)

example : ∃ h1 a ag, aggregateObstacles pair [0, 1] = .ok (h1, [a]) ∧ h1[a]? = some (.aggregate ag) ∧
    ag.base.state.linearVelocity = V3.zero := by
  obtain ⟨h1, a, hr, h2, -⟩ := pair_run
  obtain ⟨ag, c1, c2, -⟩ := C11_negation_velocity pair_acyclic pair_obs hr (by simp) h2
  exact ⟨h1, a, ag, hr, c1, c2⟩

example : ∃ w1 w2, pairWorld.exec .update = .ok w1 ∧ w1.exec .update = .ok w2 ∧
    w2.env.list.map (w2.heap[·]?) = w1.env.list.map (w1.heap[·]?) := by
  obtain ⟨h1, a, hup, -⟩ := pairWorld_update
  obtain ⟨w2, c1, -, c2, -⟩ := C12_idempotent pair_acyclic pairWorld_map hup
  exact ⟨_, w2, hup, c1, c2⟩

/-- An agent with the first disc as its envelope does not see the second. -/
example (x v : V3 ℝ) (rep planar : Bool) (critical power : ℝ) :
    modulateVelocity apartHeap { agentAt x v with envelope := some 0 } (envOf [1]) true rep planar critical power =
      .ok (apartHeap, v) := by
  refine C40_local apartHeap { agentAt x v with envelope := some 0 } (envOf [1]) rep planar critical power
    (.ellipsoid (circ "a" V3.zero 1)) rfl ?_
  intro p hp
  simp only [envOf, List.mem_singleton] at hp
  subst hp
  exact ⟨_, rfl, circ_apart (by norm_num) (by norm_num) (by norm_num [V3.zero])⟩

end DOA.Props
