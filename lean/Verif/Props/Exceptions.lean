import Verif.Lemmas.NoThrow
import Verif.Model.Exceptions
import Verif.Model.RealInst

/-!
# C96: exceptions

Which calls throw, and what a handler `catch (const std::exception& e)` can read in `e.what()`.
-/

namespace DOA.Props

open DOA

set_option linter.unusedSectionVars false

variable {α : Type} [Add α] [Sub α] [Mul α] [Div α] [Neg α] [Zero α] [One α]
  [LE α] [LT α] [DecidableLE α] [DecidableLT α] [CMath α]

/-- The name an exception is about. -/
def subject : Exn → String
  | .alreadyExists n => n
  | .notInEnvironment n => n
  | .linspacePtr => ""

/-- A name that can be passed on as a C string. -/
def Printable (n : String) : Prop := '\x00' ∉ n.toList

/-- C96: the only causes of exceptions in the calls of the environment are a name that is taken (`add_obstacle`) and a name
that is unknown (`remove_obstacle`, `operator[]`). -/
theorem C96_cause {w : World α} (hf : Heap.Fine w.heap) {c : Call α} {x : Exn} (hx : w.exec c = .throw x) :
    (∃ p o, c = .add p ∧ w.heap[p]? = some o ∧ Env.find w.env.map o.name ≠ none ∧ x = .alreadyExists o.name) ∨
    (∃ k, (c = .remove k ∨ c = .get k ∨ ∃ p, c = .assign k p) ∧ Env.find w.env.map k = none ∧ x = .notInEnvironment k) := by
  have slot : ∀ {k : String}, w.env.lookupSlot w.heap k = .throw x → Env.find w.env.map k = none ∧ x = .notInEnvironment k := by
    intro k hk
    unfold Env.lookupSlot at hk
    cases hfind : Env.find w.env.map k with
    | some p => rw [hfind] at hk; cases hk
    | none =>
      refine ⟨rfl, ?_⟩
      rw [hfind] at hk
      dsimp only at hk
      have hl : ∀ l, Quiet (Env.findInList w.heap k l) := by
        intro l
        induction l with
        | nil => trivial
        | cons p ps ih =>
          unfold Env.findInList
          refine (Heap.deref_quiet _ _).bind fun o _ => ?_
          split
          · trivial
          · exact ih.bind fun _ _ => trivial
      split at hk
      · cases hr : Env.findInList w.heap k w.env.list with
        | throw y => exact absurd hr ((hl _).not_throw y)
        | ub u => rw [hr] at hk; cases hk
        | ok r =>
          rw [hr, Res.ok_bind] at hk
          cases r with
          | some i => cases hk
          | none => cases hk; rfl
      · cases hk; rfl
  cases c with
  | client h => cases hx
  | setAggregated b => cases hx
  | update =>
    refine absurd hx (Safe.not_throw (P := fun _ => True) ?_ x)
    exact (Env.update_safe hf w.env).bind fun _ _ => trivial
  | add p =>
    left
    simp only [World.exec, Env.addObstacle] at hx
    cases ho : w.heap[p]? with
    | none => rw [show w.heap.deref p = .ub .dangling by unfold Heap.deref; rw [ho]] at hx; cases hx
    | some o =>
      rw [show w.heap.deref p = .ok o by unfold Heap.deref; rw [ho]] at hx
      simp only [Res.ok_bind] at hx
      cases hfind : Env.find w.env.map o.name with
      | none => rw [hfind] at hx; cases hx
      | some q =>
        rw [hfind] at hx
        refine ⟨p, o, rfl, ho, by rw [hfind]; exact Option.some_ne_none q, ?_⟩
        cases hx; rfl
  | remove k =>
    right
    simp only [World.exec, Env.removeObstacle] at hx
    cases hfind : Env.find w.env.map k with
    | some q => rw [hfind] at hx; cases hx
    | none =>
      rw [hfind] at hx
      refine ⟨k, .inl rfl, hfind, ?_⟩
      cases hx; rfl
  | get k =>
    right
    simp only [World.exec, Env.lookup] at hx
    cases hs : w.env.lookupSlot w.heap k with
    | ub u => rw [hs] at hx; cases hx
    | throw y =>
      rw [hs] at hx
      cases hx
      exact ⟨k, .inr (.inl rfl), slot hs⟩
    | ok s =>
      rw [hs, Res.ok_bind] at hx
      refine absurd hx (Safe.not_throw (P := fun _ => True) ?_ x)
      refine Safe.bind (P := fun _ => True) ?_ fun _ _ => trivial
      unfold Env.readSlot
      split
      · split <;> trivial
      · exact index_quiet _ _
  | assign k p =>
    right
    simp only [World.exec, Env.assign] at hx
    cases hs : w.env.lookupSlot w.heap k with
    | ub u => rw [hs] at hx; cases hx
    | throw y =>
      rw [hs] at hx
      cases hx
      exact ⟨k, .inr (.inr ⟨p, rfl⟩), slot hs⟩
    | ok s =>
      rw [hs, Res.ok_bind] at hx
      cases s <;> cases hx

theorem takeWhile_all {β : Type} {p : β → Bool} : ∀ {l : List β}, (∀ c ∈ l, p c = true) → l.takeWhile p = l
  | [], _ => rfl
  | c :: l, h => by
    rw [List.takeWhile_cons, if_pos (h c (List.mem_cons_self ..)),
      takeWhile_all fun d hd => h d (List.mem_cons_of_mem c hd)]

theorem printed {a b n : String} (ha : Printable a) (hb : Printable b) (hn : Printable n) :
    (a ++ n ++ b).toList.takeWhile (· ≠ '\x00') = a.toList ++ n.toList ++ b.toList := by
  rw [String.toList_append, String.toList_append]
  apply takeWhile_all
  intro c hc
  simp only [List.mem_append] at hc
  rw [decide_eq_true_iff]
  rintro rfl
  rcases hc with (h | h) | h
  · exact ha h
  · exact hn h
  · exact hb h

/-- C96: the text of an exception about a name without zero character, in full. -/
theorem C96_text {n : String} (hn : Printable n) :
    (Exn.alreadyExists n).what = some ("Obstacle ".toList ++ n.toList ++ " already exists in the environment".toList) ∧
    (Exn.notInEnvironment n).what = some ("Obstacle ".toList ++ n.toList ++ " is not in the environment".toList) := by
  constructor
  · simp only [Exn.what, Exn.message, Option.map_some]
    rw [printed (by unfold Printable; decide) (by unfold Printable; decide) hn]
  · simp only [Exn.what, Exn.message, Option.map_some]
    rw [printed (by unfold Printable; decide) (by unfold Printable; decide) hn]

/-- C96: the text tells which exception it is and which name it is about. -/
theorem C96_distinct_partial {x y : Exn} (hx : Printable (subject x)) (hy : Printable (subject y)) (hh : x.what ≠ none)
    (h : x.what = y.what) : x = y := by
  have cross : ∀ {n m : String}, "Obstacle ".toList ++ n.toList ++ " already exists in the environment".toList ≠
      "Obstacle ".toList ++ m.toList ++ " is not in the environment".toList := by
    intro n m h
    rw [show " already exists in the environment".toList = " already exists".toList ++ " in the environment".toList by decide,
      show " is not in the environment".toList = " is not".toList ++ " in the environment".toList by decide,
      ← List.append_assoc, ← List.append_assoc] at h
    have h := List.append_cancel_right h
    have h := congrArg List.getLast? h
    rw [List.getLast?_append_of_ne_nil _ (by decide), List.getLast?_append_of_ne_nil _ (by decide)] at h
    exact absurd h (by decide)
  have same : ∀ {n m b : String}, "Obstacle ".toList ++ n.toList ++ b.toList = "Obstacle ".toList ++ m.toList ++ b.toList →
      n = m := fun h => String.toList_inj.mp (List.append_cancel_left (List.append_cancel_right h))
  cases x with
  | linspacePtr => exact absurd rfl hh
  | alreadyExists n =>
    rw [(C96_text (n := n) hx).1] at h
    cases y with
    | linspacePtr => cases h
    | alreadyExists m =>
      rw [(C96_text (n := m) hy).1] at h
      rw [same (Option.some.inj h)]
    | notInEnvironment m =>
      rw [(C96_text (n := m) hy).2] at h
      exact absurd (Option.some.inj h) cross
  | notInEnvironment n =>
    rw [(C96_text (n := n) hx).2] at h
    cases y with
    | linspacePtr => cases h
    | alreadyExists m =>
      rw [(C96_text (n := m) hy).1] at h
      exact absurd (Option.some.inj h).symm cross
    | notInEnvironment m =>
      rw [(C96_text (n := m) hy).2] at h
      rw [same (Option.some.inj h)]

/-- C96: a client that catches `const std::exception&` around a call of the environment sees the text of the cause. -/
theorem C96_handler_partial {w : World α} (hf : Heap.Fine w.heap) {c : Call α} {x : Exn} (hx : w.exec c = .throw x) :
    x.what ≠ none := by
  rcases C96_cause hf hx with ⟨p, o, -, -, -, rfl⟩ | ⟨k, -, -, rfl⟩ <;> exact Option.some_ne_none _

/-- C96: neither the modulation nor the queries of an agent nor the loops of the programs throw anything, whatever the obstacles,
the agent, the environment and the arithmetic are. -/
theorem C96_quiet (h : Heap α) (a : Agent α) (e : Env) (x : Exn) :
    (∀ isLocal rep planar critical power, Modulation.modulateVelocity h a e isLocal rep planar critical power ≠ .throw x) ∧
    (∀ t l, a.existPath h t l ≠ .throw x) ∧ (∀ o, a.inObstacle h o ≠ .throw x) ∧
    (∀ o o', h.isIntersecting o o' ≠ .throw x) ∧ (∀ o p m, h.distanceToAgent o p m ≠ .throw x) ∧
    (∀ o p m, h.normalToAgent o p m ≠ .throw x) ∧ (∀ o p, h.pointIsInside o p ≠ .throw x) ∧
    (∀ p v, h.setRef p v ≠ .throw x) ∧
    (∀ (c : Loop α) n, c.run e n (h, a) ≠ .throw x ∧ c.runWall e n (h, a) ≠ .throw x ∧
      ∀ prev, c.runMixed e n prev (h, a) ≠ .throw x) :=
  ⟨fun _ _ _ _ _ => (Modulation.modulateVelocity_quiet _ _ _ _ _ _ _ _).not_throw x,
    fun _ _ => (Agent.existPath_quiet _ _ _ _).not_throw x, fun _ => (Agent.inObstacle_quiet _ _ _).not_throw x,
    fun _ _ => (Heap.isIntersecting_quiet _ _ _).not_throw x, fun _ _ _ => (Heap.distanceToPoint_quiet _ _ _ _).not_throw x,
    fun _ _ _ => (Heap.normalToAgent_quiet _ _ _ _).not_throw x, fun _ _ => (Heap.pointIsInside_quiet _ _ _).not_throw x,
    fun _ _ => (Heap.setRef_quiet _ _ _).not_throw x,
    fun c n => ⟨(c.run_quiet e n _).not_throw x, (c.runWall_quiet e n _).not_throw x,
      fun prev => (c.runMixed_quiet e n prev _).not_throw x⟩⟩

/-- C96: building aggregates throws nothing, and whatever is built keeps the property this rests on. -/
theorem C96_build {h : Heap α} (hf : Heap.Fine h) :
    (∀ p q u x, h.addPrimitive p q u ≠ .throw x) ∧ (∀ p q u h', h.addPrimitive p q u = .ok h' → Heap.Fine h') ∧
    (∀ ps x, h.mkAggregate ps ≠ .throw x) ∧ (∀ ps r, h.mkAggregate ps = .ok r → Heap.Fine r.1) ∧
    (∀ (e : Env) x, e.update h ≠ .throw x) ∧ (∀ (e : Env) r, e.update h = .ok r → Heap.Fine r.1) := by
  refine ⟨fun p q u => (Heap.addPrimitive_safe hf p q u).not_throw, fun p q u h' e => ?_,
    fun ps => (Heap.mkAggregate_safe hf ps).not_throw, fun ps r e => ?_,
    fun e => (Env.update_safe hf e).not_throw, fun e r he => ?_⟩
  · have := Heap.addPrimitive_safe hf p q u
    rwa [e] at this
  · have := Heap.mkAggregate_safe hf ps
    rwa [e] at this
  · have := Env.update_safe hf e
    rwa [he] at this

/-- C96 is false. A hull with one column throws something that is not caught as `std::exception`, and names that differ only
behind a zero character give the same text. -/
theorem C96_negation :
    (∃ x, Heap.mkHull ([] : Heap ℝ) [] false 1 0 = .throw x ∧ x.what = none) ∧
    (∃ (w : World ℝ) (x y : Exn), w.exec (.get "a\x00b") = .throw x ∧ w.exec (.get "a\x00c") = .throw y ∧ x ≠ y ∧
      x.what = y.what) := by
  refine ⟨⟨.linspacePtr, rfl, rfl⟩, World.init [] false, .notInEnvironment "a\x00b", .notInEnvironment "a\x00c", rfl, rfl, ?_, ?_⟩
  · decide
  · decide

end DOA.Props
