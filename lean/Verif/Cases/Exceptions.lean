import Verif.Props.Exceptions

/-!
# Concrete cases for C96
-/

namespace DOA.Cases

open DOA DOA.Props

/-- An obstacle called `a` and an empty aggregate. -/
noncomputable def small : Heap ℝ :=
  [.ellipsoid (Ellipsoid.ofBase (Base.mkPos "a" V3.zero (V3.const 0))), .aggregate Aggregate.default]

theorem small_fine : Heap.Fine small := by
  intro p a h
  match p with
  | 0 => cases h
  | 1 => cases h; exact ⟨(by decide : 2 ≤ 500), (by decide : 2 ≤ 500)⟩
  | _ + 2 => cases h

/-- Adding the obstacle twice: the second call throws, and the cause is the name. -/
example : ∃ x, (⟨small, ⟨[("a", 0)], true, []⟩⟩ : World ℝ).exec (.add 0) = .throw x ∧
    x.what = some "Obstacle a already exists in the environment".toList := by
  refine ⟨.alreadyExists "a", rfl, ?_⟩
  rw [(C96_text (n := "a") (by unfold Printable; decide)).1]
  decide

/-- `C96_cause` and `C96_handler_partial` apply to it. -/
example {x : Exn} (hx : (⟨small, ⟨[("a", 0)], true, []⟩⟩ : World ℝ).exec (.add 0) = .throw x) :
    x.what ≠ none ∧ x = .alreadyExists "a" := by
  refine ⟨C96_handler_partial small_fine hx, ?_⟩
  rcases C96_cause small_fine hx with ⟨p, o, h1, h2, -, h3⟩ | ⟨k, h | h | ⟨p, h⟩, -⟩
  · cases h1; cases h2; exact h3
  · cases h
  · cases h
  · cases h

/-- `C96_distinct_partial` tells the two exceptions about `a` apart. -/
example : (Exn.alreadyExists "a").what ≠ (Exn.notInEnvironment "a").what := fun h => by
  have := C96_distinct_partial (x := .alreadyExists "a") (y := .notInEnvironment "a") (by unfold Printable; decide)
    (by unfold Printable; decide) (Option.some_ne_none _) h
  cases this

/-- `C96_build` applies to the heap above. -/
example (x : Exn) : small.addPrimitive 1 0 true ≠ .throw x := (C96_build small_fine).1 1 0 true x

end DOA.Cases
