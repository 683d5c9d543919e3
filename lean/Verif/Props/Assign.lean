import Verif.Props.Env

/-!
# C94: assignment through `operator[]`

`operator[]` returns a reference, so `environment["name"] = obstacle` compiles and stores the pointer in whatever
place the name was found: an entry of the map or, in aggregated mode, a slot of the obstacle list.
-/

set_option linter.unusedSectionVars false
set_option linter.unusedSimpArgs false

namespace DOA.Props
open DOA DOA.Spec DOA.Env

variable {α : Type} [Add α] [Sub α] [Mul α] [Div α] [Neg α] [Zero α] [One α]
  [LE α] [LT α] [DecidableLE α] [DecidableLT α] [CMath α]

omit [Add α] [Sub α] [Mul α] [Div α] [Neg α] [Zero α] [One α] [LE α] [LT α] [DecidableLE α]
  [DecidableLT α] [CMath α] in
theorem find_replace (m : List (String × Ptr)) (k : String) (p : Ptr) (k' : String) :
    find (replace m k p) k' = if k' = k then (find m k').map (fun _ => p) else find m k' := by
  induction m with
  | nil => simp [replace, find]
  | cons e m ih =>
    obtain ⟨k1, q⟩ := e
    have ih : find (List.map (fun e => if e.1 = k then (e.1, p) else e) m) k' =
      if k' = k then (find m k').map (fun _ => p) else find m k' := ih
    by_cases h1 : k1 = k
    · subst h1
      by_cases h2 : k1 = k'
      · subst h2; simp [replace, find]
      · have h3 : ¬ k' = k1 := fun h => h2 h.symm
        simp only [if_neg h3] at ih
        simp [replace, find, h2, h3, ih]
    · by_cases h2 : k1 = k'
      · subst h2
        simp [replace, find, h1]
      · simp only [replace, List.map_cons, if_neg h1, find, if_neg h2, ih]

/-- The position found is the first one with that name. -/
theorem findInList_first (h : Heap α) (k : String) (l : List Ptr) (hl : ∀ p ∈ l, p < h.length) (i : Nat)
    (hi : findInList h k l = .ok (some i)) :
    ∃ l1 q l2, l = l1 ++ q :: l2 ∧ l1.length = i ∧ (∀ x ∈ l1, nameOf h x ≠ k) ∧ nameOf h q = k := by
  induction l generalizing i with
  | nil => simp [findInList] at hi
  | cons q l ih =>
    have hq : q < h.length := hl q (by simp)
    have hd : h[q]? = some h[q] := List.getElem?_eq_getElem hq
    by_cases hn : h[q].name = k
    · simp only [findInList, Heap.deref, hd, Res.ok_bind, hn, if_true, Res.ok.injEq, Option.some.injEq] at hi
      subst hi
      exact ⟨[], q, l, rfl, rfl, by simp, by simp [nameOf, hd, hn]⟩
    · simp only [findInList, Heap.deref, hd, Res.ok_bind, hn, if_false, Res.bind_eq_ok, Res.ok.injEq] at hi
      obtain ⟨r, h1, h2⟩ := hi
      cases r with
      | none => simp at h2
      | some j =>
        simp only [Option.map_some, Option.some.injEq] at h2
        obtain ⟨l1, q', l2, h3, h4, h5, h6⟩ := ih (fun p hp => hl p (by simp [hp])) j h1
        refine ⟨q :: l1, q', l2, by simp [h3], by simp [h4, h2], ?_, h6⟩
        intro x hx
        rcases List.mem_cons.mp hx with rfl | hx
        · simpa [nameOf, hd] using hn
        · exact h5 x hx

/-- C94: assignment to the name of an obstacle of the map: it returns, later lookups of that name give the assigned
pointer, lookups of all other names give what they gave before, the list of obstacles and the obstacles are untouched
(every scalar type, after every history). -/
theorem C94_entry {h : Heap α} {b : Bool} {es : List Event} {w : World α} (hh : History (World.init h b) es w)
    {k : String} {q : Ptr} (hk : live es k = some q) (p : Ptr) :
    ∃ w', w.exec (.assign k p) = .ok w' ∧ w'.heap = w.heap ∧ w'.env.list = w.env.list ∧
      w'.env.lookup w'.heap k = .ok p ∧ ∀ k' ≠ k, w'.env.lookup w'.heap k' = w.env.lookup w.heap k' := by
  have hf : find w.env.map k = some q := by rw [(history_map hh).2, hk]
  refine ⟨⟨w.heap, { w.env with map := replace w.env.map k p }⟩, ?_, rfl, rfl, ?_, ?_⟩
  · simp [World.exec, Env.assign, Env.lookupSlot, hf]
  · simp [Env.lookup, Env.lookupSlot, Env.readSlot, find_replace, hf]
  · intro k' hk'
    simp only [Env.lookup, Env.lookupSlot, find_replace, if_neg hk']
    cases hf' : find w.env.map k' with
    | some r => simp [Env.readSlot, find_replace, hk', hf']
    | none =>
      simp only []
      split
      · cases hx : findInList w.heap k' w.env.list with
        | ok r => cases r <;> rfl
        | throw e => rfl
        | ub u => rfl
      · rfl

/-- C94: assignment to any other name: without aggregation, or if no obstacle of the list has the name, it throws.
Otherwise the first slot of the list with an obstacle of that name is overwritten and nothing else.
Full statement: in addition the name refers to the assigned obstacle from then on.  That holds if the assigned obstacle
has that name itself; it fails otherwise (`C94_negation`). -/
theorem C94_slot_partial {h : Heap α} {b : Bool} {es : List Event} {w : World α} (hh : History (World.init h b) es w)
    (hl : ∀ q ∈ w.env.list, q < w.heap.length) {k : String} (hk : live es k = none) (p : Ptr) :
    (w.exec (.assign k p) = .throw (.notInEnvironment k) ∧
      (w.env.aggregated = false ∨ ∀ q ∈ w.env.list, nameOf w.heap q ≠ k)) ∨
    (w.env.aggregated = true ∧ ∃ l1 q l2, w.env.list = l1 ++ q :: l2 ∧ (∀ x ∈ l1, nameOf w.heap x ≠ k) ∧
      nameOf w.heap q = k ∧
      ∃ w', w.exec (.assign k p) = .ok w' ∧ w'.heap = w.heap ∧ w'.env.map = w.env.map ∧ w'.env.aggregated = true ∧
        w'.env.list = l1 ++ p :: l2 ∧
        (p < w.heap.length → nameOf w.heap p = k → w'.env.lookup w'.heap k = .ok p)) := by
  have hf : find w.env.map k = none := by rw [(history_map hh).2, hk]
  by_cases ha : w.env.aggregated = true
  · have hs := findInList_spec w.heap k w.env.list hl
    cases hn : firstNamed w.heap k w.env.list with
    | none =>
      rw [hn] at hs
      refine .inl ⟨by simp [World.exec, Env.assign, Env.lookupSlot, hf, ha, hs], .inr ?_⟩
      intro q hq he
      unfold firstNamed at hn
      rw [List.find?_eq_none] at hn
      exact hn q hq (by simpa using he)
    | some q0 =>
      rw [hn] at hs
      obtain ⟨i, h1, h2⟩ := hs
      obtain ⟨l1, q, l2, h3, h4, h5, h6⟩ := findInList_first w.heap k w.env.list hl i h1
      refine .inr ⟨ha, l1, q, l2, h3, h5, h6, ⟨w.heap, { w.env with list := w.env.list.set i p }⟩, ?_, rfl, rfl, ha,
        ?_, ?_⟩
      · simp [World.exec, Env.assign, Env.lookupSlot, hf, ha, h1]
      · subst h4; simp [h3]
      · intro hp hnp
        have hset : w.env.list.set i p = l1 ++ p :: l2 := by subst h4; simp [h3]
        have hl' : ∀ x ∈ l1 ++ p :: l2, x < w.heap.length := by
          intro x hx
          rcases List.mem_append.mp hx with hx | hx
          · exact hl x (by rw [h3]; simp [hx])
          · rcases List.mem_cons.mp hx with rfl | hx
            · exact hp
            · exact hl x (by rw [h3]; simp [hx])
        have hs' := findInList_spec w.heap k (l1 ++ p :: l2) hl'
        have hn' : firstNamed w.heap k (l1 ++ p :: l2) = some p := by
          unfold firstNamed
          rw [List.find?_append, List.find?_eq_none.mpr (fun x hx => by simpa using h5 x hx)]
          simp [hnp]
        rw [hn'] at hs'
        obtain ⟨j, h7, h8⟩ := hs'
        simp only [Env.lookup, Env.lookupSlot, hf, ha, if_true, hset, h7, Res.ok_bind, Env.readSlot, Res.index, h8]
  · refine .inl ⟨by simp [World.exec, Env.assign, Env.lookupSlot, hf, ha], .inl (by simpa using ha)⟩

/-- C94: an assignment to a slot of the list has no effect beyond the next `update`: it computes the same list and the
same obstacles as if the assignment had not been made. -/
theorem C94_update {h : Heap α} {b : Bool} {es : List Event} {w w' : World α} (hh : History (World.init h b) es w)
    {k : String} (hk : live es k = none) {p : Ptr} (hr : w.exec (.assign k p) = .ok w') :
    w'.exec .update = w.exec .update := by
  have hf : find w.env.map k = none := by rw [(history_map hh).2, hk]
  by_cases ha : w.env.aggregated = true
  · simp only [World.exec, Env.assign, Env.lookupSlot, hf, ha, if_true, Res.bind_eq_ok] at hr
    obtain ⟨e, ⟨s, ⟨r, h1, h2⟩, h3⟩, h4⟩ := hr
    cases r with
    | none => cases h2
    | some i =>
      cases h2; cases h3; cases h4
      simp only [World.exec, Env.update, ha, if_true]
  · simp [World.exec, Env.assign, Env.lookupSlot, hf, ha] at hr

/-- C94: an assignment to the name of an obstacle of the map lasts: the following `update` without aggregation puts the
assigned pointer, and not the previous one, at the place of that name in the list. -/
theorem C94_lasts {h : Heap α} {es : List Event} {w : World α} (hh : History (World.init h false) es w)
    (ha : w.env.aggregated = false) {k : String} {q : Ptr} (hk : live es k = some q) (p : Ptr) :
    ∃ w' w1 w2, w.exec (.assign k p) = .ok w' ∧ w.exec .update = .ok w1 ∧ w'.exec .update = .ok w2 ∧
      ∃ keys : List String, keys.Pairwise (· < ·) ∧ keys.length = w1.env.list.length ∧
        keys.length = w2.env.list.length ∧
        (∀ k' r, (k', r) ∈ keys.zip w1.env.list ↔ live es k' = some r) ∧
        ∀ k' r, (k', r) ∈ keys.zip w2.env.list ↔ (if k' = k then r = p else live es k' = some r) := by
  obtain ⟨hs, hm⟩ := history_map hh
  have hf : find w.env.map k = some q := by rw [hm, hk]
  have hkeys : (replace w.env.map k p).map (·.1) = w.env.map.map (·.1) := by
    simp only [replace, List.map_map]
    refine List.map_congr_left fun e _ => ?_
    simp only [Function.comp]
    split <;> rfl
  have hs' : SortedKeys (replace w.env.map k p) := by
    have h1 : (w.env.map.map (·.1)).Pairwise (· < ·) := by rw [List.pairwise_map]; exact hs
    rw [← hkeys, List.pairwise_map] at h1
    exact h1
  refine ⟨⟨w.heap, { w.env with map := replace w.env.map k p }⟩,
    ⟨w.heap, { w.env with list := w.env.map.map (·.2) }⟩,
    ⟨w.heap, { w.env with map := replace w.env.map k p, list := (replace w.env.map k p).map (·.2) }⟩,
    by simp [World.exec, Env.assign, Env.lookupSlot, hf], by simp [World.exec, Env.update, ha],
    by simp [World.exec, Env.update, ha], w.env.map.map (·.1), ?_, by simp, ?_, ?_, ?_⟩
  · rw [List.pairwise_map]; exact hs
  · rw [← hkeys]; simp
  · intro k' r
    rw [← hm k', find_eq_some_iff hs]
    simp only [List.zip_map']
    simp
  · intro k' r
    rw [← hkeys]
    simp only [List.zip_map']
    have : (k', r) ∈ List.map (fun x => (x.1, x.2)) (replace w.env.map k p) ↔ find (replace w.env.map k p) k' = some r := by
      rw [find_eq_some_iff hs']; simp
    rw [this, find_replace]
    by_cases hkk : k' = k
    · subst hkk
      simp [hf, eq_comm]
    · simp [hkk, hm]

/-! ### Concrete histories -/

/-- Non-vacuity of `C94_entry` and `C94_lasts`: "a" is a key; the obstacle "b" is assigned to it. -/
example : ∃ es, History (World.init twoObs false) es ⟨twoObs, ⟨[("a", 0)], false, []⟩⟩ ∧ live es "a" = some 0 := by
  have h1 := (History.start (w0 := World.init twoObs false)).call (.add 0)
    (w' := ⟨twoObs, ⟨[("a", 0)], false, []⟩⟩) rfl
  exact ⟨_, h1, rfl⟩

/-- C94 is false for names found in the list: after `env["a"] = b` with an obstacle called "b", `env["a"]` throws.
(The obstacle "a" was removed but is still in the list.) -/
theorem C94_negation : ∃ es w w', History (World.init twoObs true) es w ∧ live es "a" = none ∧
    w.exec (.assign "a" 1) = .ok w' ∧ w'.env.lookup w'.heap "a" = .throw (.notInEnvironment "a") ∧
    w'.env.lookup w'.heap "b" = .ok 1 := by
  have h1 := (History.start (w0 := World.init twoObs true)).call (.add 0)
    (w' := ⟨twoObs, ⟨[("a", 0)], true, []⟩⟩) rfl
  have h2 := h1.call .update (w' := ⟨twoObs, ⟨[("a", 0)], true, [0]⟩⟩) rfl
  have h3 := h2.call (.remove "a") (w' := ⟨twoObs, ⟨[], true, [0]⟩⟩) rfl
  exact ⟨_, _, ⟨twoObs, ⟨[], true, [1]⟩⟩, h3, rfl, rfl, rfl, rfl⟩

/-- C94: assignment breaks the correspondence of keys and names: after `env["a"] = b` the obstacle "b" can also be
added, and then `update` puts the same obstacle into the list twice. -/
theorem C94_negation_twice : ∃ es w, History (World.init twoObs false) es w ∧ live es "a" = some 1 ∧
    live es "b" = some 1 ∧ w.env.list = [1, 1] := by
  have h1 := (History.start (w0 := World.init twoObs false)).call (.add 0)
    (w' := ⟨twoObs, ⟨[("a", 0)], false, []⟩⟩) rfl
  have h2 := h1.call (.assign "a" 1) (w' := ⟨twoObs, ⟨[("a", 1)], false, []⟩⟩) rfl
  have h3 := h2.call (.add 1) (w' := ⟨twoObs, ⟨[("a", 1), ("b", 1)], false, []⟩⟩) rfl
  have h4 := h3.call .update (w' := ⟨twoObs, ⟨[("a", 1), ("b", 1)], false, [1, 1]⟩⟩) rfl
  exact ⟨_, _, h4, rfl, rfl, rfl⟩

end DOA.Props
