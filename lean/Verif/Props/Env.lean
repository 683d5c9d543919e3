import Verif.Lemmas.EnvMap
import Verif.Model.RealInst

/-!
# C01, C02, C03: the environment as a map from names to obstacles

All statements hold for every scalar type (the environment does not compute with scalars).
-/

namespace DOA.Props

open DOA.Spec DOA.Env

variable {α : Type} [Add α] [Sub α] [Mul α] [Div α] [Neg α] [Zero α] [One α]
  [LE α] [LT α] [DecidableLE α] [DecidableLT α] [CMath α]

/-- Observations of one step refine the abstract map. -/
private theorem step_map {w w' : World α} {c : Call α} (hs : SortedKeys w.env.map)
    (h : w.step c = .ok w') :
    SortedKeys w'.env.map ∧ ∀ k, find w'.env.map k = apply (find w.env.map) (event w c) k := by
  unfold World.step at h
  cases hx : w.exec c with
  | ub u => rw [hx] at h; cases h
  | throw e =>
    rw [hx] at h; cases h
    refine ⟨hs, fun k => ?_⟩
    simp [event, hx, apply]
  | ok w1 =>
    rw [hx] at h; cases h
    cases c with
    | client h =>
      simp only [World.exec, Res.ok.injEq] at hx; subst hx
      exact ⟨hs, fun k => by simp [event, World.exec, apply]⟩
    | add p =>
      have hx0 := hx
      simp only [World.exec, Env.addObstacle, Heap.deref] at hx
      cases ho : w.heap[p]? with
      | none => simp [ho] at hx
      | some o =>
        simp only [ho, Res.ok_bind] at hx
        cases hf : find w.env.map o.name with
        | some q => simp [hf] at hx
        | none =>
          simp only [hf, Res.ok_bind, Res.ok.injEq] at hx; subst hx
          refine ⟨insert_sorted hs hf, fun k => ?_⟩
          simp [event, hx0, apply, nameOf, ho, find_insert hs hf]
    | remove k' =>
      have hx0 := hx
      simp only [World.exec, Env.removeObstacle] at hx
      cases hf : find w.env.map k' with
      | none => simp [hf] at hx
      | some q =>
        simp only [hf, Res.ok_bind, Res.ok.injEq] at hx; subst hx
        refine ⟨erase_sorted hs k', fun k => ?_⟩
        simp [event, hx0, apply, find_erase hs]
    | update =>
      have hx0 := hx
      simp only [World.exec, Env.update] at hx
      split at hx
      · cases ha : Aggregation.aggregateObstacles w.heap (w.env.map.map (·.2)) with
        | ok r =>
          simp only [ha, Res.ok_bind, Res.ok.injEq] at hx; subst hx
          exact ⟨hs, fun k => by simp [event, hx0, apply]⟩
        | throw e => simp [ha] at hx
        | ub u => simp [ha] at hx
      · simp only [Res.ok_bind, Res.ok.injEq] at hx; subst hx
        exact ⟨hs, fun k => by simp [event, hx0, apply]⟩
    | setAggregated b =>
      have hx0 := hx
      simp only [World.exec, Res.ok.injEq] at hx; subst hx
      exact ⟨hs, fun k => by simp [event, hx0, apply, Env.setAggregated]⟩
    | get k' =>
      have hx0 := hx
      simp only [World.exec] at hx
      cases hl : w.env.lookup w.heap k' with
      | ok q =>
        simp only [hl, Res.ok_bind, Res.ok.injEq] at hx; subst hx
        exact ⟨hs, fun k => by simp [event, hx0, apply]⟩
      | throw e => simp [hl] at hx
      | ub u => simp [hl] at hx
    | assign k' p =>
      have hx0 := hx
      simp only [World.exec, Env.assign, Env.lookupSlot] at hx
      cases hf : find w.env.map k' with
      | some q =>
        simp only [hf, Res.ok_bind, Res.ok.injEq] at hx; subst hx
        refine ⟨replace_sorted hs k' p, fun k => ?_⟩
        simp only [event, hx0, apply, find_replace]
      | none =>
        simp only [hf] at hx
        have hno : ∀ k, ¬ (k = k' ∧ (find w.env.map k).isSome) := by
          rintro k ⟨rfl, h⟩; simp [hf] at h
        split at hx
        · cases hl : findInList w.heap k' w.env.list with
          | ok r =>
            cases r with
            | none => simp [hl] at hx
            | some i =>
              simp only [hl, Res.ok_bind, Res.ok.injEq] at hx; subst hx
              exact ⟨hs, fun k => by simp only [event, hx0, apply, if_neg (hno k)]⟩
          | throw e => simp [hl] at hx
          | ub u => simp [hl] at hx
        · simp at hx

theorem history_map {h : Heap α} {b : Bool} {es : List Event} {w : World α}
    (hh : History (World.init h b) es w) :
    SortedKeys w.env.map ∧ ∀ k, find w.env.map k = live es k := by
  induction hh with
  | start => exact ⟨List.Pairwise.nil, fun k => rfl⟩
  | call c _ hstep ih =>
    obtain ⟨h1, h2⟩ := step_map ih.1 hstep
    refine ⟨h1, fun k => ?_⟩
    rw [h2 k]
    have : find (_ : World α).env.map = live _ := funext ih.2
    rw [this]
    simp [live]

/-- C01: after every history of calls of every client program, `env[k]` is the obstacle most recently
added (or assigned) under the name `k` and not removed since; if there is none and aggregation is
off, `env[k]` throws (for aggregated mode see `C03_lookup_partial`). -/
theorem C01_lookup {h : Heap α} {b : Bool} {es : List Event} {w : World α}
    (hh : History (World.init h b) es w) (k : String) :
    (∀ p, live es k = some p → w.env.lookup w.heap k = .ok p) ∧
    (live es k = none → w.env.aggregated = false →
      w.env.lookup w.heap k = .throw (.notInEnvironment k)) := by
  obtain ⟨-, hm⟩ := history_map hh
  rw [← hm k]
  constructor
  · intro p hp
    simp [Env.lookup, Env.lookupSlot, hp, Env.readSlot]
  · intro hp ha
    simp [Env.lookup, Env.lookupSlot, hp, ha]

/-- C01: `add_obstacle` throws exactly when an obstacle is live under the name of the new one, and
otherwise makes it the live one (all other names are unaffected, by `C01_lookup` for the extended
history). -/
theorem C01_add {h : Heap α} {b : Bool} {es : List Event} {w : World α}
    (hh : History (World.init h b) es w) (p : Ptr) (o : Obj α) (ho : w.heap[p]? = some o) :
    (∀ q, live es o.name = some q → w.exec (.add p) = .throw (.alreadyExists o.name)) ∧
    (live es o.name = none → ∃ w', w.exec (.add p) = .ok w' ∧ w'.heap = w.heap ∧
      w'.env.list = w.env.list ∧ w'.env.aggregated = w.env.aggregated ∧
      live (es ++ [event w (.add p)]) = fun k => if k = o.name then some p else live es k) := by
  obtain ⟨-, hm⟩ := history_map hh
  constructor
  · intro q hq
    simp [World.exec, Env.addObstacle, Heap.deref, ho, hm, hq]
  · intro hn
    have hx : w.exec (.add p) = .ok ⟨w.heap, { w.env with map := insert w.env.map o.name p }⟩ := by
      simp [World.exec, Env.addObstacle, Heap.deref, ho, hm, hn]
    exact ⟨_, hx, rfl, rfl, rfl, by simp [live, event, hx, nameOf, ho, apply]⟩

/-- C01: `remove_obstacle` throws exactly when no obstacle is live under that name, and otherwise
removes just that one. -/
theorem C01_remove {h : Heap α} {b : Bool} {es : List Event} {w : World α}
    (hh : History (World.init h b) es w) (k : String) :
    (live es k = none → w.exec (.remove k) = .throw (.notInEnvironment k)) ∧
    (∀ q, live es k = some q → ∃ w', w.exec (.remove k) = .ok w' ∧ w'.heap = w.heap ∧
      w'.env.list = w.env.list ∧ w'.env.aggregated = w.env.aggregated ∧
      live (es ++ [event w (.remove k)]) = fun k' => if k' = k then none else live es k') := by
  obtain ⟨-, hm⟩ := history_map hh
  constructor
  · intro hn
    simp [World.exec, Env.removeObstacle, hm, hn]
  · intro q hq
    have hx : w.exec (.remove k) = .ok ⟨w.heap, { w.env with map := erase w.env.map k }⟩ := by
      simp [World.exec, Env.removeObstacle, hm, hq]
    exact ⟨_, hx, rfl, rfl, rfl, by simp [live, event, hx, apply]⟩

/-- C01: update, lookup, `set_aggregated`, client activity on obstacles (even renaming them), and
throwing calls leave the abstract map unchanged; a throwing call changes nothing at all. -/
theorem C01_unaffected {w : World α} (c : Call α) :
    (∀ e, w.exec c = .throw e → w.step c = .ok w ∧ ∀ es, live (es ++ [event w c]) = live es) ∧
    ((∀ p, c ≠ .add p) → (∀ k, c ≠ .remove k) → (∀ k p, c ≠ .assign k p) →
      ∀ es, live (es ++ [event w c]) = live es) := by
  constructor
  · intro e he
    exact ⟨by simp [World.step, he], fun es => by simp [live, event, he, apply]⟩
  · intro h1 h2 h3 es
    have : event w c = .nothing := by
      unfold event
      cases w.exec c with
      | ok w' => cases c <;> simp_all
      | throw e => rfl
      | ub u => rfl
    simp [live, this, apply]

/-- C02: the obstacle list changes only when `update` runs — or when the client assigns through
`operator[]` in aggregated mode to a name that is not a key (then a slot of the list is
overwritten). -/
theorem C02_list_stable {h : Heap α} {b : Bool} {es : List Event} {w w' : World α} {c : Call α}
    (hh : History (World.init h b) es w) (hstep : w.step c = .ok w') :
    w'.env.list = w.env.list ∨ c = .update ∨
      (∃ k p, c = .assign k p ∧ live es k = none ∧ w.env.aggregated = true) := by
  obtain ⟨-, hm⟩ := history_map hh
  unfold World.step at hstep
  cases hx : w.exec c with
  | ub u => rw [hx] at hstep; cases hstep
  | throw e => rw [hx] at hstep; cases hstep; exact .inl rfl
  | ok w1 =>
    rw [hx] at hstep; cases hstep
    cases c with
    | client h => simp only [World.exec, Res.ok.injEq] at hx; subst hx; exact .inl rfl
    | add p =>
      simp only [World.exec, Env.addObstacle, Res.bind_eq_ok] at hx
      obtain ⟨e, ⟨o, -, h2⟩, h3⟩ := hx
      split at h2
      · cases h2
      · cases h2; cases h3; exact .inl rfl
    | remove k' =>
      simp only [World.exec, Env.removeObstacle, Res.bind_eq_ok] at hx
      obtain ⟨e, h2, h3⟩ := hx
      split at h2
      · cases h2
      · cases h2; cases h3; exact .inl rfl
    | update => exact .inr (.inl rfl)
    | setAggregated b =>
      simp only [World.exec, Res.ok.injEq] at hx; subst hx; exact .inl rfl
    | get k' =>
      simp only [World.exec, Res.bind_eq_ok] at hx
      obtain ⟨e, -, h3⟩ := hx
      cases h3; exact .inl rfl
    | assign k' p =>
      cases hf : find w.env.map k' with
      | some q =>
        simp only [World.exec, Env.assign, Env.lookupSlot, hf, Res.ok_bind, Res.ok.injEq] at hx
        subst hx; exact .inl rfl
      | none =>
        by_cases ha : w.env.aggregated = true
        · exact .inr (.inr ⟨k', p, rfl, by rw [← hm, hf], ha⟩)
        · simp [World.exec, Env.assign, Env.lookupSlot, hf, ha] at hx

/-- C02: with aggregation off, `update` succeeds, changes no object, and makes the list enumerate
exactly the live obstacles, once per name, in strictly increasing order of the names they were added
under. -/
theorem C02_snapshot {h : Heap α} {b : Bool} {es : List Event} {w : World α}
    (hh : History (World.init h b) es w) (ha : w.env.aggregated = false) :
    ∃ w', w.exec .update = .ok w' ∧ w'.heap = w.heap ∧
      ∃ keys : List String, keys.Pairwise (· < ·) ∧ keys.length = w'.env.list.length ∧
        ∀ k p, (k, p) ∈ keys.zip w'.env.list ↔ live es k = some p := by
  obtain ⟨hs, hm⟩ := history_map hh
  refine ⟨⟨w.heap, { w.env with list := w.env.map.map (·.2) }⟩, ?_, rfl, w.env.map.map (·.1), ?_, ?_, ?_⟩
  · simp [World.exec, Env.update, ha]
  · rw [List.pairwise_map]; exact hs
  · simp
  · intro k p
    rw [← hm k, find_eq_some_iff hs]
    simp only [List.zip_map']
    simp

/-- C02: obstacles added without a following `update` are not in the list: as long as `update` has
not run, it is empty. -/
theorem C02_no_update {h : Heap α} {b : Bool} (cs : List (Call α)) (w : World α)
    (hrun : cs.foldlM World.step (World.init h b) = .ok w) (hno : ∀ c ∈ cs, c ≠ .update) :
    w.env.list = [] := by
  have key : ∀ (cs : List (Call α)) (es : List Event) (w0 : World α),
      History (World.init h b) es w0 → w0.env.list = [] → (∀ c ∈ cs, c ≠ .update) →
      cs.foldlM World.step w0 = .ok w → w.env.list = [] := by
    intro cs
    induction cs with
    | nil => intro es w0 _ hl _ hr; simp only [List.foldlM_nil, Res.pure_eq, Res.ok.injEq] at hr; rw [← hr]; exact hl
    | cons c cs ih =>
      intro es w0 hh hl hn hr
      simp only [List.foldlM_cons, Res.bind_eq_ok] at hr
      obtain ⟨w1, h1, h2⟩ := hr
      refine ih _ w1 (hh.call c h1) ?_ (fun c hc => hn c (by simp [hc])) h2
      rcases C02_list_stable hh h1 with h3 | h3 | ⟨k, p, rfl, h3, h4⟩
      · rw [h3]; exact hl
      · exact absurd h3 (hn c (by simp))
      · have hf : find w0.env.map k = none := by rw [(history_map hh).2]; exact h3
        simp only [World.step, World.exec, Env.assign, Env.lookupSlot, hf, h4, if_true, hl,
          Env.findInList, Res.ok_bind, Res.throw_bind] at h1
        cases h1; exact hl
  exact key cs [] _ .start rfl hno hrun

/-- C02, C03: the mode in which `update` and `operator[]` work is the one last asked for, whatever the other calls do. -/
theorem C02_mode {h : Heap α} {b : Bool} (cs : List (Call α)) (w : World α)
    (hrun : cs.foldlM World.step (World.init h b) = .ok w) : w.env.aggregated = modeOf b cs := by
  have key : ∀ (cs : List (Call α)) (w0 : World α), cs.foldlM World.step w0 = .ok w →
      w.env.aggregated = modeOf w0.env.aggregated cs := by
    intro cs
    induction cs with
    | nil => intro w0 hr; simp only [List.foldlM_nil, Res.pure_eq, Res.ok.injEq] at hr; rw [← hr]; rfl
    | cons c cs ih =>
      intro w0 hr
      simp only [List.foldlM_cons, Res.bind_eq_ok] at hr
      obtain ⟨w1, h1, h2⟩ := hr
      rw [ih w1 h2]
      unfold World.step at h1
      cases hx : w0.exec c with
      | ub u => rw [hx] at h1; cases h1
      | throw e =>
        rw [hx] at h1; cases h1
        cases c with
        | setAggregated b' => simp [World.exec] at hx
        | _ => rfl
      | ok w2 =>
        rw [hx] at h1; cases h1
        cases c with
        | client h' => simp only [World.exec, Res.ok.injEq] at hx; rw [← hx]; rfl
        | setAggregated b' => simp only [World.exec, Res.ok.injEq] at hx; rw [← hx]; rfl
        | add p =>
          simp only [World.exec, Env.addObstacle, Res.bind_eq_ok] at hx
          obtain ⟨e, ⟨o, -, he⟩, hw⟩ := hx
          split at he <;> cases he
          cases hw; rfl
        | remove k =>
          simp only [World.exec, Env.removeObstacle, Res.bind_eq_ok] at hx
          obtain ⟨e, he, hw⟩ := hx
          split at he <;> cases he
          cases hw; rfl
        | update =>
          simp only [World.exec, Env.update, Res.bind_eq_ok] at hx
          obtain ⟨r, hr', hw⟩ := hx
          cases hw
          split at hr'
          · simp only [Res.bind_eq_ok] at hr'
            obtain ⟨r', -, hr''⟩ := hr'
            cases hr''; rfl
          · cases hr'; rfl
        | get k =>
          simp only [World.exec, Res.bind_eq_ok] at hx
          obtain ⟨_, -, hw⟩ := hx
          cases hw; rfl
        | assign k p =>
          simp only [World.exec, Env.assign, Res.bind_eq_ok] at hx
          obtain ⟨e, ⟨sl, -, he⟩, hw⟩ := hx
          cases hw
          cases sl <;> cases he <;> rfl
  exact key cs _ hrun

/-- Non-vacuity: the mode is switched on twice and off once. -/
example : ([.setAggregated true, .setAggregated true, .update, .setAggregated false] : List (Call α)).foldlM World.step
    (World.init [] false) = .ok (World.init [] false) ∧
    modeOf false ([.setAggregated true, .setAggregated true] : List (Call α)) = true := ⟨rfl, rfl⟩

/-- First element of a list of pointers whose object is named `k`. -/
def firstNamed (h : Heap α) (k : String) (l : List Ptr) : Option Ptr :=
  l.find? fun p => decide (nameOf h p = k)

omit [Add α] [Sub α] [Mul α] [Div α] [Neg α] [Zero α] [One α] [LE α] [LT α] [DecidableLE α]
  [DecidableLT α] [CMath α] in
theorem findInList_spec (h : Heap α) (k : String) (l : List Ptr)
    (hl : ∀ p ∈ l, p < h.length) :
    match firstNamed h k l with
    | none => findInList h k l = .ok none
    | some p => ∃ i, findInList h k l = .ok (some i) ∧ l[i]? = some p := by
  induction l with
  | nil => simp [firstNamed, findInList]
  | cons q l ih =>
    have hq : q < h.length := hl q (by simp)
    have ih := ih fun p hp => hl p (by simp [hp])
    have hd : h[q]? = some h[q] := List.getElem?_eq_getElem hq
    by_cases hn : h[q].name = k
    · simp [firstNamed, findInList, Heap.deref, nameOf, hd, hn]
    · have h1 : firstNamed h k (q :: l) = firstNamed h k l := by
        simp [firstNamed, nameOf, hd, hn]
      rw [h1]
      cases hf : firstNamed h k l with
      | none => rw [hf] at ih; simp [findInList, Heap.deref, hd, hn, ih]
      | some p =>
        rw [hf] at ih
        obtain ⟨i, h2, h3⟩ := ih
        exact ⟨i + 1, by simp [findInList, Heap.deref, hd, hn, h2], by simpa using h3⟩

/-- C03: resolution of `env[k]`: the obstacle live under the key `k`, else (aggregated mode only) the
first element of the current list whose current name is `k`, else an exception. -/
theorem C03_lookup_partial {h : Heap α} {b : Bool} {es : List Event} {w : World α}
    (hh : History (World.init h b) es w) (hl : ∀ p ∈ w.env.list, p < w.heap.length) (k : String) :
    w.env.lookup w.heap k =
      match live es k with
      | some p => .ok p
      | none =>
        if w.env.aggregated then
          match firstNamed w.heap k w.env.list with
          | some p => .ok p
          | none => .throw (.notInEnvironment k)
        else .throw (.notInEnvironment k) := by
  cases hk : live es k with
  | some p => exact (C01_lookup hh k).1 p hk
  | none =>
    obtain ⟨-, hm⟩ := history_map hh
    have hf : find w.env.map k = none := by rw [hm, hk]
    by_cases ha : w.env.aggregated = true
    · have hs := findInList_spec w.heap k w.env.list hl
      simp only [Env.lookup, Env.lookupSlot, hf, ha, if_true]
      cases hn : firstNamed w.heap k w.env.list with
      | none => rw [hn] at hs; simp [hs]
      | some p =>
        rw [hn] at hs
        obtain ⟨i, h2, h3⟩ := hs
        simp [h2, Env.readSlot, Res.index, h3]
    · rw [if_neg ha]
      exact (C01_lookup hh k).2 hk (by simpa using ha)

/-! ### Concrete histories -/

/-- Two obstacles called "a" and "b". -/
noncomputable def twoObs : Heap ℝ :=
  [.plain (Base.mkPos "a" V3.zero V3.zero), .plain (Base.mkPos "b" V3.zero V3.zero)]

/-- Non-vacuity of C01 and C02: add "b" then "a"; the second add of "a" throws; after `update` the
list is [a, b]; then "b" is removed, which does not show in the list yet. -/
example : ∃ es, History (World.init twoObs false) es
      ⟨twoObs, ⟨[("a", 0)], false, [0, 1]⟩⟩ ∧
    live es "a" = some 0 ∧ live es "b" = none := by
  have h1 := (History.start (w0 := World.init twoObs false)).call (.add 1)
    (w' := ⟨twoObs, ⟨[("b", 1)], false, []⟩⟩) rfl
  have h2 := h1.call (.add 0) (w' := ⟨twoObs, ⟨[("a", 0), ("b", 1)], false, []⟩⟩) rfl
  have h3 := h2.call (.add 0) (w' := ⟨twoObs, ⟨[("a", 0), ("b", 1)], false, []⟩⟩) rfl
  have h4 := h3.call .update (w' := ⟨twoObs, ⟨[("a", 0), ("b", 1)], false, [0, 1]⟩⟩) rfl
  have h5 := h4.call (.remove "b") (w' := ⟨twoObs, ⟨[("a", 0)], false, [0, 1]⟩⟩) rfl
  exact ⟨_, h5, rfl, rfl⟩

/-- C03, the user's expectation is false: in aggregated mode an obstacle that was removed from the
environment is still reachable by name through the stale list, until the next `update`; without
aggregation the same calls throw. -/
theorem C03_negation : ∃ es w, History (World.init twoObs true) es w ∧
    live es "a" = none ∧ w.env.lookup w.heap "a" = .ok 0 ∧
    ((w.env.setAggregated false).lookup w.heap "a" = .throw (.notInEnvironment "a")) := by
  have h1 := (History.start (w0 := World.init twoObs true)).call (.add 0)
    (w' := ⟨twoObs, ⟨[("a", 0)], true, []⟩⟩) rfl
  have h2 := h1.call .update (w' := ⟨twoObs, ⟨[("a", 0)], true, [0]⟩⟩) rfl
  have h3 := h2.call (.remove "a") (w' := ⟨twoObs, ⟨[], true, [0]⟩⟩) rfl
  exact ⟨_, _, h3, rfl, rfl, rfl⟩

end DOA.Props
