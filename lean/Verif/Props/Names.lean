import Verif.Props.AggregationHistory
import Verif.Lemmas.UnitTestsEnv

/-!
# C109: the name of an aggregate tells its members

`Aggregate` names itself `"aggregate"` followed by `"_" + name` for each of its members
(src/Obstacle/Aggregate.cpp:11-30, 50-66), and `Environment::operator[]` finds an aggregate by this name
(src/Environment.cpp:53-69).  For names without `_` this is a proper code: different groups have
different names and every entry of the obstacle list is found by its name.  With `_` in the names it
is not: two groups can have the same name, or a group the name of an obstacle, and then one of the two
cannot be reached by any name.
-/

set_option linter.unusedSectionVars false

namespace DOA.Props
open DOA.Spec Aggregation DOA.Ellipsoid

variable {α : Type} [Add α] [Sub α] [Mul α] [Div α] [Neg α] [Zero α] [One α]
  [LE α] [LT α] [DecidableLE α] [DecidableLT α] [CMath α]

/-! ### The code -/

/-- A name in which the separator does not occur. -/
def Unbarred (s : String) : Prop := '_' ∉ s.toList

theorem toList_join (l : List String) : (String.join l).toList = l.flatMap String.toList := by
  have key : ∀ (l : List String) (s : String),
      (l.foldl (fun r t => r ++ t) s).toList = s.toList ++ l.flatMap String.toList := by
    intro l
    induction l with
    | nil => intro s; simp
    | cons x l ih => intro s; simp [ih]
  simpa [String.join] using key l ""

theorem toList_canonicalName (names : List String) :
    (canonicalName names).toList = "aggregate".toList ++ names.flatMap fun n => '_' :: n.toList := by
  simp only [canonicalName, String.toList_append, toList_join, List.flatMap_map]
  rfl

theorem code_inj : ∀ {l m : List String}, (∀ n ∈ l, Unbarred n) → (∀ n ∈ m, Unbarred n) →
    (l.flatMap fun n => '_' :: n.toList) = (m.flatMap fun n => '_' :: n.toList) → l = m := by
  have split : ∀ (a b r s : List Char), '_' ∉ a → '_' ∉ b → (r = [] ∨ ∃ r', r = '_' :: r') →
      (s = [] ∨ ∃ s', s = '_' :: s') → a ++ r = b ++ s → a = b ∧ r = s := by
    intro a
    induction a with
    | nil =>
      intro b r s _ hb hr hs h
      cases b with
      | nil => exact ⟨rfl, by simpa using h⟩
      | cons c b =>
        simp only [List.nil_append, List.cons_append] at h
        rcases hr with rfl | ⟨r', rfl⟩
        · cases h
        · simp only [List.cons.injEq] at h
          exact absurd (by simp [← h.1]) hb
    | cons c a ih =>
      intro b r s ha hb hr hs h
      cases b with
      | nil =>
        simp only [List.nil_append, List.cons_append] at h
        rcases hs with rfl | ⟨s', rfl⟩
        · cases h
        · simp only [List.cons.injEq] at h
          exact absurd (by simp [h.1]) ha
      | cons d b =>
        simp only [List.cons_append, List.cons.injEq] at h
        obtain ⟨h1, h2⟩ := ih b r s (fun hc => ha (by simp [hc])) (fun hc => hb (by simp [hc])) hr hs h.2
        exact ⟨by rw [h.1, h1], h2⟩
  have start : ∀ l : List String, (l.flatMap fun n => '_' :: n.toList) = [] ∨
      ∃ r, (l.flatMap fun n => '_' :: n.toList) = '_' :: r := by
    intro l
    cases l with
    | nil => exact .inl rfl
    | cons n l => exact .inr ⟨_, by simp only [List.flatMap_cons, List.cons_append]; rfl⟩
  intro l
  induction l with
  | nil =>
    intro m _ _ h
    cases m with
    | nil => rfl
    | cons n m => simp at h
  | cons n l ih =>
    intro m hl hm h
    cases m with
    | nil => simp at h
    | cons k m =>
      simp only [List.flatMap_cons, List.cons_append, List.cons.injEq, true_and] at h
      obtain ⟨h1, h2⟩ := split _ _ _ _ (hl n (by simp)) (hm k (by simp)) (start l) (start m) h
      rw [String.toList_inj.mp h1, ih (fun x hx => hl x (by simp [hx])) (fun x hx => hm x (by simp [hx])) h2]

/-- C109: names without `_` can be read off the name of an aggregate.

Full statement (false, see `C109_negation`): for all names. -/
theorem C109_code_partial {l m : List String} (hl : ∀ n ∈ l, Unbarred n) (hm : ∀ n ∈ m, Unbarred n)
    (h : canonicalName l = canonicalName m) : l = m := by
  have := congrArg String.toList h
  rw [toList_canonicalName, toList_canonicalName] at this
  exact code_inj hl hm (List.append_cancel_left this)

/-- The name of a group always has a `_`. -/
theorem barred_canonicalName {l : List String} (hl : l ≠ []) : ¬ Unbarred (canonicalName l) := by
  cases l with
  | nil => exact absurd rfl hl
  | cons n l => simp [Unbarred, toList_canonicalName]

/-! ### The obstacle list after an update -/

/-- C109: the name of an aggregate built by `update` tells its members: a list of names (without `_`)
that gives the name of the aggregate is the list of the names of its primitives.

Full statement (false, see `C109_negation`): for all names. -/
theorem C109_members_partial {h h' : Heap α} (ha : Acyclic h) {obs l : List Ptr}
    (hobs : ∀ p ∈ obs, p < h.length) (hbar : ∀ p ∈ obs, Unbarred (nameOf h p))
    (hrun : aggregateObstacles h obs = .ok (h', l)) {a : Ptr} (hal : a ∈ l) (hnew : h.length ≤ a)
    {names : List String} (hn : ∀ n ∈ names, Unbarred n) :
    nameOf h' a = canonicalName names ↔ (primitives h' a).map (nameOf h) = names := by
  obtain ⟨-, hc⟩ := C08_update ha hobs hrun hal hnew
  obtain ⟨aggs, rest, hl1, -, hag, hsub, hperm⟩ := C05_partition ha hobs hrun
  have haa : a ∈ aggs := by
    rw [hl1] at hal
    rcases List.mem_append.mp hal with h2 | h2
    · exact h2
    · exact absurd (hobs a (hsub.subset h2)) (not_lt.mpr hnew)
  constructor
  · intro h1
    refine C109_code_partial ?_ hn (by rw [← hc, h1])
    intro n hn
    obtain ⟨r, hr, rfl⟩ := List.mem_map.mp hn
    exact hbar r (hperm.mem_iff.mp (List.mem_append.mpr (.inl (List.mem_flatMap.mpr ⟨a, haa, hr⟩))))
  · intro h1; rw [hc, h1]

theorem update_name {h h' : Heap α} (ha : Acyclic h) {obs l : List Ptr} (hobs : ∀ p ∈ obs, p < h.length)
    (hrun : aggregateObstacles h obs = .ok (h', l)) {p : Ptr} (hp : p < h.length) :
    nameOf h' p = nameOf h p := by
  obtain ⟨rank, hr⟩ := exists_ranked ha
  obtain ⟨h1, aggs, idx, hrun', hI⟩ := aggregateObstacles_ok hr hobs
  rw [hrun] at hrun'; cases hrun'
  have hs := hI.heap.ext.2 p hp
  unfold nameOf
  have := congrArg (Option.map Obj.name) hs
  simp only [Option.map_map] at this
  have hname : (Obj.name ∘ shape : Obj α → String) = Obj.name := by
    funext o; cases o <;> rfl
  rw [hname] at this
  rw [this]

/-- C109: after an update different entries of the obstacle list have different names, provided the
obstacles have different names without `_`.

Full statement (false, see `C109_negation`): for all different names. -/
theorem C109_distinct_partial {h h' : Heap α} (ha : Acyclic h) {obs l : List Ptr}
    (hobs : ∀ p ∈ obs, p < h.length) (hnd : (obs.map (nameOf h)).Nodup)
    (hbar : ∀ p ∈ obs, Unbarred (nameOf h p)) (hrun : aggregateObstacles h obs = .ok (h', l)) :
    (l.map (nameOf h')).Nodup := by
  obtain ⟨aggs, rest, rfl, hand, hag, hsub, hperm⟩ := C05_partition ha hobs hrun
  have hon : obs.Nodup := hnd.of_map _
  have hinj : ∀ p ∈ obs, ∀ q ∈ obs, nameOf h p = nameOf h q → p = q :=
    fun p hp q hq e => List.inj_on_of_nodup_map hnd hp hq e
  have hpn := hperm.nodup_iff.mpr hon
  have hfn := (List.nodup_append.mp hpn).1
  have hprim : ∀ a ∈ aggs, ∀ r ∈ primitives h' a, r ∈ obs := fun a haa r hr =>
    hperm.mem_iff.mp (List.mem_append.mpr (.inl (List.mem_flatMap.mpr ⟨a, haa, hr⟩)))
  have hname : ∀ a ∈ aggs, nameOf h' a = canonicalName ((primitives h' a).map (nameOf h)) := fun a haa =>
    (C08_update ha hobs hrun (List.mem_append.mpr (.inl haa)) (hag a haa).1).2
  have hne : ∀ a ∈ aggs, primitives h' a ≠ [] := by
    intro a haa h0
    have := (hag a haa).2
    rw [h0] at this; simp at this
  have hrest : ∀ p ∈ rest, nameOf h' p = nameOf h p := fun p hp => update_name ha hobs hrun (hobs p (hsub.subset hp))
  have hbarred : ∀ a ∈ aggs, ¬ Unbarred (nameOf h' a) := by
    intro a haa
    rw [hname a haa]
    exact barred_canonicalName (by simpa using hne a haa)
  rw [List.map_append, List.nodup_append]
  refine ⟨?_, ?_, ?_⟩
  · refine List.Nodup.map_on ?_ hand
    intro a haa b hbb hab
    by_contra hne'
    rw [hname a haa, hname b hbb] at hab
    have heq : (primitives h' a).map (nameOf h) = (primitives h' b).map (nameOf h) := by
      refine C109_code_partial ?_ ?_ hab
      · intro n hn
        obtain ⟨r, hr, rfl⟩ := List.mem_map.mp hn
        exact hbar r (hprim a haa r hr)
      · intro n hn
        obtain ⟨r, hr, rfl⟩ := List.mem_map.mp hn
        exact hbar r (hprim b hbb r hr)
    obtain ⟨r, hr⟩ := List.exists_mem_of_ne_nil _ (hne a haa)
    have : nameOf h r ∈ (primitives h' b).map (nameOf h) := by rw [← heq]; exact List.mem_map_of_mem hr
    obtain ⟨s, hs, hsr⟩ := List.mem_map.mp this
    have hrs : s = r := hinj s (hprim b hbb s hs) r (hprim a haa r hr) hsr
    subst hrs
    have hdis := (List.nodup_flatMap.mp hfn).2
    have hsym : ∀ x ∈ aggs, ∀ y ∈ aggs, x ≠ y → List.Disjoint (primitives h' x) (primitives h' y) := by
      intro x hx y hy hxy
      have : Std.Symm (Function.onFun List.Disjoint (primitives h')) := ⟨fun _ _ h => List.Disjoint.symm h⟩
      exact hdis.forall hx hy hxy
    exact hsym a haa b hbb hne' hr hs
  · have : rest.map (nameOf h') = rest.map (nameOf h) := List.map_congr_left hrest
    rw [this]
    exact (hsub.map _).nodup hnd
  · intro x hx y hy hxy
    obtain ⟨a, haa, rfl⟩ := List.mem_map.mp hx
    obtain ⟨p, hp, rfl⟩ := List.mem_map.mp hy
    apply hbarred a haa
    rw [hxy, hrest p hp]
    exact hbar p (hsub.subset hp)

/-- C109: after an update (in either mode) every entry of the obstacle list, aggregate or not, is found
by its name, whatever happened before.  For obstacles that kept the name they were added under, without
`_` in it.

Full statement (false, see `C109_negation` and `C109_negation_taken`): for all names. -/
theorem C109_found_partial {h : Heap α} {b : Bool} {es : List Event} {w w' : World α}
    (hh : History (World.init h b) es w) (ha : Acyclic w.heap)
    (hl : ∀ k p, live es k = some p → p < w.heap.length ∧ nameOf w.heap p = k ∧ Unbarred k)
    (hup : w.exec .update = .ok w') {p : Ptr} (hp : p ∈ w'.env.list) :
    w'.env.lookup w'.heap (nameOf w'.heap p) = .ok p := by
  obtain ⟨hs, hm⟩ := history_map hh
  have hmap : ∀ e ∈ w.env.map, live es e.1 = some e.2 := by
    intro e he
    rw [← hm]; exact (Env.find_eq_some_iff hs).mpr he
  have hh' : History (World.init h b) (es ++ [event w .update]) w' :=
    hh.call .update (by simp [World.step, hup])
  have hlive : ∀ k, live (es ++ [event w .update]) k = live es k := by
    intro k
    have : event w .update = .nothing := by simp [event, hup]
    rw [this]; simp [live, Spec.apply]
  cases hagg : w.env.aggregated with
  | false =>
    simp only [World.exec, Env.update, hagg, Bool.false_eq_true, if_false, Res.ok_bind] at hup
    cases hup
    obtain ⟨e, he, rfl⟩ := List.mem_map.mp hp
    refine (C01_lookup hh' _).1 _ ?_
    rw [hlive]
    obtain ⟨-, hn, -⟩ := hl _ _ (hmap e he)
    show live es (nameOf w.heap e.2) = some e.2
    rw [hn]; exact hmap e he
  | true =>
    have hobs : ∀ p ∈ w.env.map.map (·.2), p < w.heap.length := by
      intro p hp
      obtain ⟨e, he, rfl⟩ := List.mem_map.mp hp
      exact (hl _ _ (hmap e he)).1
    have hkeys : (w.env.map.map (·.2)).map (nameOf w.heap) = w.env.map.map (·.1) := by
      rw [List.map_map]
      exact List.map_congr_left fun e he => (hl _ _ (hmap e he)).2.1
    have hnd : ((w.env.map.map (·.2)).map (nameOf w.heap)).Nodup := by
      rw [hkeys]
      exact (List.pairwise_map.mpr hs).imp fun h => ne_of_lt h
    have hbar : ∀ p ∈ w.env.map.map (·.2), Unbarred (nameOf w.heap p) := by
      intro p hp
      obtain ⟨e, he, rfl⟩ := List.mem_map.mp hp
      obtain ⟨-, hn, hb⟩ := hl _ _ (hmap e he)
      rw [hn]; exact hb
    obtain ⟨h1, l, hrun⟩ := C07_defined ha hobs
    have hw' : w' = ⟨h1, { w.env with list := l }⟩ := by
      simp only [World.exec, Env.update, hagg, if_true, hrun, Res.ok_bind] at hup
      cases hup; simp [hagg]
    obtain ⟨-, -, hll⟩ := C07_closed ha hobs hrun
    have hdist := C109_distinct_partial ha hobs hnd hbar hrun
    obtain ⟨aggs, rest, hl1, -, hag, hsub, -⟩ := C05_partition ha hobs hrun
    subst hw'
    simp only at hp hup hh' ⊢
    by_cases hpl : p < w.heap.length
    · have hpo : p ∈ w.env.map.map (·.2) := by
        rw [hl1] at hp
        rcases List.mem_append.mp hp with h2 | h2
        · exact absurd hpl (not_lt.mpr (hag p h2).1)
        · exact hsub.subset h2
      obtain ⟨e, he, rfl⟩ := List.mem_map.mp hpo
      refine (C01_lookup hh' _).1 _ ?_
      rw [hlive, update_name ha hobs hrun hpl, (hl _ _ (hmap e he)).2.1]
      exact hmap e he
    · have hpa : p ∈ aggs := by
        rw [hl1] at hp
        rcases List.mem_append.mp hp with h2 | h2
        · exact h2
        · exact absurd (hobs p (hsub.subset h2)) hpl
      have hb : ¬ Unbarred (nameOf h1 p) := by
        rw [(C08_update ha hobs hrun hp (not_lt.mp hpl)).2]
        refine barred_canonicalName ?_
        have := (hag p hpa).2
        intro h0
        rw [List.map_eq_nil_iff] at h0
        rw [h0] at this; simp at this
      have hdead : live es (nameOf h1 p) = none := by
        cases hq : live es (nameOf h1 p) with
        | none => rfl
        | some q => exact absurd (hl _ _ hq).2.2 hb
      have hlook := C03_lookup_partial hh' hll (nameOf h1 p)
      rw [hlive, hdead] at hlook
      simp only [hagg, if_true] at hlook
      have hf : firstNamed h1 (nameOf h1 p) l = some p := by
        cases hf : firstNamed h1 (nameOf h1 p) l with
        | none =>
          have := List.find?_eq_none.mp hf p hp
          simp at this
        | some q =>
          have hq : q ∈ l := List.mem_of_find?_eq_some hf
          have hqn : nameOf h1 q = nameOf h1 p := by simpa using List.find?_some hf
          rw [List.inj_on_of_nodup_map hdist hq hp hqn]
      rw [hf] at hlook
      simpa only [hagg] using hlook

/-! ### Names with a separator -/

/-- If two entries of the list built by an update, both new, have the same name, one of them cannot be
reached by any name. -/
theorem unreachable {h : Heap α} {b : Bool} {es : List Event} {w : World α}
    (hh : History (World.init h b) es w) (hl : ∀ p ∈ w.env.list, p < w.heap.length)
    {p q : Ptr} (hpq : p ≠ q) (hn : nameOf w.heap p = nameOf w.heap q)
    (hp : ∀ k, live es k ≠ some p) (hq : ∀ k, live es k ≠ some q) :
    (∀ k, w.env.lookup w.heap k ≠ .ok p) ∨ ∀ k, w.env.lookup w.heap k ≠ .ok q := by
  have key : ∀ r k, (∀ k, live es k ≠ some r) → w.env.lookup w.heap k = .ok r →
      nameOf w.heap r = k ∧ firstNamed w.heap k w.env.list = some r := by
    intro r k hr hk
    rw [C03_lookup_partial hh hl k] at hk
    cases hv : live es k with
    | some x => rw [hv] at hk; cases hk; exact absurd hv (hr k)
    | none =>
      rw [hv] at hk
      simp only at hk
      split at hk
      · cases hf : firstNamed w.heap k w.env.list with
        | none => rw [hf] at hk; cases hk
        | some x =>
          rw [hf] at hk; cases hk
          exact ⟨by simpa using List.find?_some hf, rfl⟩
      · cases hk
  by_contra hcon
  push Not at hcon
  obtain ⟨⟨k, hk⟩, k', hk'⟩ := hcon
  obtain ⟨h1, h2⟩ := key p k hp hk
  obtain ⟨h3, h4⟩ := key q k' hq hk'
  have : k = k' := by rw [← h1, ← h3, hn]
  rw [this, h4] at h2
  exact hpq (Option.some.inj h2).symm

variable (n0 n1 n2 n3 : String)

/-- Two pairs of overlapping discs, far from each other: the first with the third, and the second with
the fourth. -/
noncomputable def quad : Heap ℝ :=
  [.ellipsoid (circ n0 V3.zero 1), .ellipsoid (circ n1 ⟨1000, 0, 0⟩ 1),
   .ellipsoid (circ n2 ⟨5, 0, 0⟩ 10), .ellipsoid (circ n3 ⟨1005, 0, 0⟩ 10)]

theorem quad_flat : Acyclic (quad n0 n1 n2 n3) := acyclic_flat (by
  intro p a hp
  match p with
  | 0 => simp [quad] at hp
  | 1 => simp [quad] at hp
  | 2 => simp [quad] at hp
  | 3 => simp [quad] at hp
  | n + 4 => simp [quad] at hp)

variable {n0 n1 n2 n3}

theorem quad_linked {i j : Nat} (h : Linked (quad n0 n1 n2 n3) [0, 1, 2, 3] i j) : i % 2 = j % 2 := by
  induction h with
  | rel i j h =>
    obtain ⟨hij, p, q, op, oq, hp, hq, hop, hoq, hi⟩ := h
    have hj : j < 4 := (List.getElem?_eq_some_iff.mp hq).1
    by_contra hne
    have hcases : (i = 0 ∧ j = 1) ∨ (i = 0 ∧ j = 3) ∨ (i = 1 ∧ j = 2) ∨ (i = 2 ∧ j = 3) := by omega
    rcases hcases with ⟨rfl, rfl⟩ | ⟨rfl, rfl⟩ | ⟨rfl, rfl⟩ | ⟨rfl, rfl⟩ <;> cases hp <;> cases hq <;>
      cases hop <;> cases hoq
    · have := circ_apart (n := n0) (m := n1) (c := V3.zero) (d := ⟨1000, 0, 0⟩) one_pos one_pos
        (by norm_num [V3.zero])
      exact absurd (hi.symm.trans this) (by simp)
    · have := circ_apart (n := n0) (m := n3) (c := V3.zero) (d := ⟨1005, 0, 0⟩) (s := 10) one_pos (by norm_num)
        (by norm_num [V3.zero])
      exact absurd (hi.symm.trans this) (by simp)
    · have := UnitTests.circ_apart' (n := n1) (m := n2) (c := ⟨1000, 0, 0⟩) (d := ⟨5, 0, 0⟩) (s := 10) one_pos
        (by norm_num) (by norm_num)
      exact absurd (hi.symm.trans this) (by simp)
    · have := circ_apart (n := n2) (m := n3) (c := ⟨5, 0, 0⟩) (d := ⟨1005, 0, 0⟩) (r := 10) (s := 10)
        (by norm_num) (by norm_num) (by norm_num)
      exact absurd (hi.symm.trans this) (by simp)
  | refl => rfl
  | symm _ _ _ ih => exact ih.symm
  | trans _ _ _ _ _ ih1 ih2 => exact ih1.trans ih2

/-- In an update of `quad`, the discs `p` and `q` of one pair get an aggregate of their own. -/
theorem quad_group {h1 : Heap ℝ} {l : List Ptr} (hrun : aggregateObstacles (quad n0 n1 n2 n3) [0, 1, 2, 3] = .ok (h1, l))
    {p q : Nat} (hq : q < 4) (hpq : p + 2 = q)
    (hm : Meets (quad n0 n1 n2 n3) [0, 1, 2, 3] p q)
    (hle : nameOf (quad n0 n1 n2 n3) p ≤ nameOf (quad n0 n1 n2 n3) q) :
    ∃ a ∈ l, 4 ≤ a ∧ (primitives h1 a).Perm [p, q] ∧
      nameOf h1 a = canonicalName [nameOf (quad n0 n1 n2 n3) p, nameOf (quad n0 n1 n2 n3) q] := by
  have hobs : ∀ r ∈ [0, 1, 2, 3], r < (quad n0 n1 n2 n3).length := by simp [quad]
  have hid : ∀ r : Nat, r < 4 → ([0, 1, 2, 3] : List Ptr)[r]? = some r := by
    intro r hr
    match r, hr with
    | 0, _ => rfl
    | 1, _ => rfl
    | 2, _ => rfl
    | 3, _ => rfl
  have hcomp := fun i j (hi : i < 4) (hj : j < 4) (hij : i ≠ j) =>
    C06_components (quad_flat _ _ _ _) hobs (by simp) hrun (hid i hi) (hid j hj) hij
  obtain ⟨a, hal, hnew, hpa, hqa⟩ := (hcomp p q (by omega) hq (by omega)).1.mpr (.rel _ _ hm)
  have hnew' : 4 ≤ a := hnew
  obtain ⟨aggs, rest, hl1, -, hag, hsub, hperm⟩ := C05_partition (quad_flat _ _ _ _) hobs hrun
  have haa : a ∈ aggs := by
    rw [hl1] at hal
    rcases List.mem_append.mp hal with h2 | h2
    · exact h2
    · exact absurd (hobs a (hsub.subset h2)) (not_lt.mpr hnew)
  have hin : ∀ r ∈ primitives h1 a, r ∈ [0, 1, 2, 3] := fun r hr =>
    hperm.mem_iff.mp (List.mem_append.mpr (.inl (List.mem_flatMap.mpr ⟨a, haa, hr⟩)))
  have hnd : (primitives h1 a).Nodup :=
    (List.nodup_flatMap.mp (List.nodup_append.mp (hperm.nodup_iff.mpr (by simp))).1).1 a haa
  have honly : ∀ r ∈ primitives h1 a, r = p ∨ r = q := by
    intro r hr
    have hr4 : @LT.lt Nat _ r 4 := hobs r (hin r hr)
    by_contra hne
    have hne1 : ¬ @Eq Nat r p := fun h => hne (.inl h)
    have hne2 : ¬ @Eq Nat r q := fun h => hne (.inr h)
    have hlink := (hcomp p r (by omega) hr4 (by omega)).1.mp ⟨a, hal, hnew, hpa, hr⟩
    have := quad_linked hlink
    omega
  have hpm : (primitives h1 a).Perm [p, q] := by
    refine (List.perm_ext_iff_of_nodup hnd
      (by simpa using (fun h => absurd h (by omega) : ¬ @Eq Nat p q))).mpr fun r => ?_
    constructor
    · intro hr; simpa using honly r hr
    · intro hr
      simp only [List.mem_cons, List.not_mem_nil, or_false] at hr
      rcases hr with rfl | rfl
      · exact hpa
      · exact hqa
  obtain ⟨hsort, hname⟩ := C08_update (quad_flat _ _ _ _) hobs hrun hal hnew
  refine ⟨a, hal, hnew', hpm, ?_⟩
  rw [hname]
  congr 1
  refine List.Perm.eq_of_pairwise (le := (· ≤ ·)) ?_ ?_ ?_ (hpm.map _)
  · intro x y _ _ h1 h2; exact le_antisymm h1 h2
  · exact List.pairwise_map.mpr hsort
  · simpa using hle

/-- What an update of `quad` gives, for names in the order of the map. -/
theorem quad_update (h02 : n0 ≤ n2) (h13 : n1 ≤ n3) : ∃ (h1 : Heap ℝ) (l : List Ptr) (a b : Ptr),
    aggregateObstacles (quad n0 n1 n2 n3) [0, 1, 2, 3] = .ok (h1, l) ∧ a ∈ l ∧ b ∈ l ∧ 4 ≤ a ∧ 4 ≤ b ∧ a ≠ b ∧
    (∀ p ∈ l, p < h1.length) ∧
    (primitives h1 a).Perm [0, 2] ∧ (primitives h1 b).Perm [1, 3] ∧
    nameOf h1 a = canonicalName [n0, n2] ∧ nameOf h1 b = canonicalName [n1, n3] := by
  have hobs : ∀ r ∈ [0, 1, 2, 3], r < (quad n0 n1 n2 n3).length := by simp [quad]
  obtain ⟨h1, l, hrun⟩ := C07_defined (quad_flat n0 n1 n2 n3) hobs
  obtain ⟨a, ha1, ha2, ha3, ha4⟩ := quad_group hrun (p := 0) (q := 2) (by omega) rfl
    ⟨by omega, 0, 2, _, _, rfl, rfl, rfl, rfl, circ_meet (by norm_num) (by norm_num [V3.zero])⟩ h02
  obtain ⟨b, hb1, hb2, hb3, hb4⟩ := quad_group hrun (p := 1) (q := 3) (by omega) rfl
    ⟨by omega, 1, 3, _, _, rfl, rfl, rfl, rfl, circ_meet (by norm_num) (by norm_num)⟩ h13
  have hab : a ≠ b := by
    rintro rfl
    have := (ha3.symm.trans hb3).mem_iff (a := 0)
    simp at this
  exact ⟨h1, l, a, b, hrun, ha1, hb1, ha2, hb2, hab, (C07_closed (quad_flat n0 n1 n2 n3) hobs hrun).2.2,
    ha3, hb3, ha4, hb4⟩

/-- Calls that all return normally are a history. -/
theorem history_exec {w0 : World α} : ∀ (cs : List (Call α)) {w w' : World α} {es : List Event},
    History w0 es w → cs.foldlM World.exec w = .ok w' → ∃ es', History w0 es' w' := by
  intro cs
  induction cs with
  | nil => intro w w' es hh h; cases h; exact ⟨es, hh⟩
  | cons c cs ih =>
    intro w w' es hh h
    rw [List.foldlM_cons] at h
    obtain ⟨w1, h1, h2⟩ := Res.bind_eq_ok.mp h
    exact ih (hh.call c (by simp [World.step, h1])) h2

/-- C109: the full statement fails.  After adding four discs "a", "a_b", "b_c" and "c" to an aggregated
environment and updating it, the list has two aggregates, of different members, with the same name, and
one of them cannot be reached by any name. -/
theorem C109_negation : ∃ (w : World ℝ) (a b : Ptr),
    [.add 0, .add 1, .add 2, .add 3, .update].foldlM World.exec (World.init (quad "a" "a_b" "b_c" "c") true)
      = .ok w ∧
    a ∈ w.env.list ∧ b ∈ w.env.list ∧ (primitives w.heap a).Perm [0, 2] ∧ (primitives w.heap b).Perm [1, 3] ∧
    nameOf w.heap a = "aggregate_a_b_c" ∧ nameOf w.heap b = "aggregate_a_b_c" ∧
    ((∀ k, w.env.lookup w.heap k ≠ .ok a) ∨ ∀ k, w.env.lookup w.heap k ≠ .ok b) := by
  obtain ⟨h1, l, a, b, hrun, ha1, hb1, ha2, hb2, hab, hll, ha3, hb3, ha4, hb4⟩ :=
    quad_update (n0 := "a") (n1 := "a_b") (n2 := "b_c") (n3 := "c") (by decide) (by decide)
  have ha4 : nameOf h1 a = "aggregate_a_b_c" := ha4.trans (by decide)
  have hb4 : nameOf h1 b = "aggregate_a_b_c" := hb4.trans (by decide)
  set m : List (String × Ptr) := [("a", 0), ("a_b", 1), ("b_c", 2), ("c", 3)] with hmm
  have hex : [.add 0, .add 1, .add 2, .add 3, .update].foldlM World.exec
      (World.init (quad "a" "a_b" "b_c" "c") true) = .ok ⟨h1, ⟨m, true, l⟩⟩ := by
    have e : [.add 0, .add 1, .add 2, .add 3].foldlM World.exec
      (World.init (quad "a" "a_b" "b_c" "c") true) = .ok ⟨quad "a" "a_b" "b_c" "c", ⟨m, true, []⟩⟩ := rfl
    have : [Call.add 0, .add 1, .add 2, .add 3, .update] = [Call.add 0, .add 1, .add 2, .add 3] ++ [.update (α := ℝ)] := rfl
    rw [this, List.foldlM_append, e, Res.ok_bind]
    have hrun' : aggregateObstacles (quad "a" "a_b" "b_c" "c") (m.map (·.2)) = .ok (h1, l) := hrun
    simp [World.exec, Env.update, hrun']
  obtain ⟨es, hh⟩ := history_exec _ .start hex
  obtain ⟨hs, hm⟩ := history_map hh
  have hlive : ∀ p, 4 ≤ p → ∀ k, live es k ≠ some p := by
    intro p hp k hk
    rw [← hm] at hk
    have := (Env.find_eq_some_iff hs).mp hk
    simp only [hmm, List.mem_cons, Prod.mk.injEq, List.not_mem_nil, or_false] at this
    rcases this with ⟨-, rfl⟩ | ⟨-, rfl⟩ | ⟨-, rfl⟩ | ⟨-, rfl⟩ <;> revert hp <;> decide
  exact ⟨_, a, b, hex, ha1, hb1, ha3, hb3, ha4, hb4,
    unreachable hh hll hab (ha4.trans hb4.symm) (hlive a ha2) (hlive b hb2)⟩

/-- C109: nor does it help that the groups have different names: the name of a group can also be the
name of an obstacle.  With an obstacle called "aggregate_a_b", the aggregate of "a" and "b" cannot be
reached by any name. -/
theorem C109_negation_taken : ∃ (w : World ℝ) (a : Ptr),
    [.add 0, .add 1, .add 2, .add 3, .update].foldlM World.exec (World.init (quad "a" "aggregate_a_b" "b" "c") true)
      = .ok w ∧
    a ∈ w.env.list ∧ (primitives w.heap a).Perm [0, 2] ∧ nameOf w.heap a = "aggregate_a_b" ∧
    w.env.lookup w.heap "aggregate_a_b" = .ok 1 ∧ ∀ k, w.env.lookup w.heap k ≠ .ok a := by
  obtain ⟨h1, l, a, b, hrun, ha1, hb1, ha2, hb2, hab, hll, ha3, hb3, ha4, hb4⟩ :=
    quad_update (n0 := "a") (n1 := "aggregate_a_b") (n2 := "b") (n3 := "c") (by decide) (by decide)
  have ha4 : nameOf h1 a = "aggregate_a_b" := ha4.trans (by decide)
  set m : List (String × Ptr) := [("a", 0), ("aggregate_a_b", 1), ("b", 2), ("c", 3)] with hmm
  have hex : [.add 0, .add 1, .add 2, .add 3, .update].foldlM World.exec
      (World.init (quad "a" "aggregate_a_b" "b" "c") true) = .ok ⟨h1, ⟨m, true, l⟩⟩ := by
    have e : [.add 0, .add 1, .add 2, .add 3].foldlM World.exec
      (World.init (quad "a" "aggregate_a_b" "b" "c") true) =
        .ok ⟨quad "a" "aggregate_a_b" "b" "c", ⟨m, true, []⟩⟩ := rfl
    have : [Call.add 0, .add 1, .add 2, .add 3, .update] = [Call.add 0, .add 1, .add 2, .add 3] ++ [.update (α := ℝ)] := rfl
    rw [this, List.foldlM_append, e, Res.ok_bind]
    have hrun' : aggregateObstacles (quad "a" "aggregate_a_b" "b" "c") (m.map (·.2)) = .ok (h1, l) := hrun
    simp [World.exec, Env.update, hrun']
  obtain ⟨es, hh⟩ := history_exec _ .start hex
  obtain ⟨hs, hm⟩ := history_map hh
  have htaken : (⟨h1, ⟨m, true, l⟩⟩ : World ℝ).env.lookup h1 "aggregate_a_b" = .ok 1 := rfl
  refine ⟨_, a, hex, ha1, ha3, ha4, htaken, ?_⟩
  intro k hk
  have hka := hk
  rw [C03_lookup_partial hh hll k] at hk
  cases hv : live es k with
  | some x =>
    rw [hv] at hk; cases hk
    rw [← hm] at hv
    have := (Env.find_eq_some_iff hs).mp hv
    simp only [hmm, List.mem_cons, Prod.mk.injEq, List.not_mem_nil, or_false] at this
    rcases this with ⟨-, rfl⟩ | ⟨-, rfl⟩ | ⟨-, rfl⟩ | ⟨-, rfl⟩ <;> revert ha2 <;> decide
  | none =>
    rw [hv] at hk
    simp only [if_true] at hk
    cases hf : firstNamed h1 k l with
    | none => rw [hf] at hk; cases hk
    | some x =>
      rw [hf] at hk; cases hk
      have : nameOf h1 a = k := by simpa using List.find?_some hf
      rw [← this, ha4] at hka
      rw [htaken] at hka
      cases hka
      revert ha2; decide

/-- Non-vacuity of C109: four discs "a" to "d" without `_` in the names, in two groups, each found by its
name. -/
example : ∃ (w w' : World ℝ) (es : List Event) (a b : Ptr),
    History (World.init (quad "a" "b" "c" "d") true) es w ∧ Acyclic w.heap ∧
    (∀ k p, live es k = some p → p < w.heap.length ∧ nameOf w.heap p = k ∧ Unbarred k) ∧
    w.exec .update = .ok w' ∧ a ≠ b ∧ a ∈ w'.env.list ∧ b ∈ w'.env.list ∧
    w'.env.lookup w'.heap "aggregate_a_c" = .ok a ∧ w'.env.lookup w'.heap "aggregate_b_d" = .ok b := by
  obtain ⟨h1, l, a, b, hrun, ha1, hb1, ha2, hb2, hab, hll, ha3, hb3, ha4, hb4⟩ :=
    quad_update (n0 := "a") (n1 := "b") (n2 := "c") (n3 := "d") (by decide) (by decide)
  set m : List (String × Ptr) := [("a", 0), ("b", 1), ("c", 2), ("d", 3)] with hmm
  have hex : [.add 0, .add 1, .add 2, .add 3].foldlM World.exec
      (World.init (quad "a" "b" "c" "d") true) = .ok ⟨quad "a" "b" "c" "d", ⟨m, true, []⟩⟩ := rfl
  obtain ⟨es, hh⟩ := history_exec _ .start hex
  obtain ⟨hs, hm⟩ := history_map hh
  have hl : ∀ k p, live es k = some p → p < (quad "a" "b" "c" "d").length ∧
      nameOf (quad "a" "b" "c" "d") p = k ∧ Unbarred k := by
    intro k p hk
    rw [← hm] at hk
    have := (Env.find_eq_some_iff hs).mp hk
    simp only [hmm, List.mem_cons, Prod.mk.injEq, List.not_mem_nil, or_false] at this
    rcases this with ⟨rfl, rfl⟩ | ⟨rfl, rfl⟩ | ⟨rfl, rfl⟩ | ⟨rfl, rfl⟩ <;>
      exact ⟨by simp [quad], rfl, by unfold Unbarred; decide⟩
  have hup : (⟨quad "a" "b" "c" "d", ⟨m, true, []⟩⟩ : World ℝ).exec .update = .ok ⟨h1, ⟨m, true, l⟩⟩ := by
    have hrun' : aggregateObstacles (quad "a" "b" "c" "d") (m.map (·.2)) = .ok (h1, l) := hrun
    simp [World.exec, Env.update, hrun']
  have fa := C109_found_partial hh (quad_flat _ _ _ _) hl hup (p := a) ha1
  have fb := C109_found_partial hh (quad_flat _ _ _ _) hl hup (p := b) hb1
  refine ⟨_, _, es, a, b, hh, quad_flat _ _ _ _, hl, hup, hab, ha1, hb1, ?_, ?_⟩
  · rw [← show nameOf h1 a = "aggregate_a_c" from ha4.trans (by decide)]; exact fa
  · rw [← show nameOf h1 b = "aggregate_b_d" from hb4.trans (by decide)]; exact fb

/-- Non-vacuity of `C109_code_partial`: the empty name is a name without `_`, too. -/
example : canonicalName ["a", "b"] = "aggregate_a_b" ∧ canonicalName ["", "a"] = "aggregate__a" ∧
    (∀ n ∈ ["a", "", "b"], Unbarred n) ∧ canonicalName ["a", "", "b"] = "aggregate_a__b" := by
  refine ⟨by decide, by decide, ?_, by decide⟩
  simp only [Unbarred]; decide

end DOA.Props
