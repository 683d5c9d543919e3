import Verif.Props.Plotting
import Verif.Props.Print
import Verif.Props.Digits
import Verif.Props.Modulation

/-!
# Concrete cases: plotted and printed output

The theorems of `Props/Plotting.lean`, `Props/Print.lean` and `Props/Digits.lean` that are not applied there.
-/

namespace DOA.Props

open DOA DOA.Spec DOA.Plotting DOA.Print DOA.Digits

set_option linter.unusedSimpArgs false

/-! ### Plots (C73) -/

theorem drawing_plot (axis : String) : ∃ d, plotObstacles drawing [0, 1, 2, 3] axis = .ok d := by
  obtain ⟨ds, h, -⟩ := C73_obstacles drawing drawing_acyclic drawing_drawable [0, 1, 2, 3] (by
    intro p hp; show p < 4; simp at hp; rcases hp with rfl | rfl | rfl | rfl <;> simp) axis
  exact ⟨_, h⟩

/-- The configuration of four obstacles, saved and not shown; the same from the side; and the one with a guard. -/
example (a g : Agent ℝ) (goal : V3 ℝ) (hist : List (V3 ℝ)) : ∃ l body,
    plotConfiguration drawing a [0, 1, 2, 3] goal hist "map" false false = .ok l ∧
    l = .figure :: body ++ [.save "/tmp/map.png"] ++ [.close] := by
  obtain ⟨d, hd⟩ := drawing_plot "xy"
  have h1 := C73_plane drawing a [0, 1, 2, 3] goal hist "map" false d hd
  obtain ⟨body, save, win, h2, -, h3, h4, -⟩ := C73_frame drawing a g [0, 1, 2, 3] goal hist "map" false false _ (Or.inl h1)
  refine ⟨_, body, h1, ?_⟩
  rw [h2, h3 (by decide), h4 rfl]
  simp

example (a g : Agent ℝ) (goal : V3 ℝ) (hist : List (V3 ℝ)) :
    (∃ l, plotConfiguration drawing a [0, 1, 2, 3] goal hist "" true true = .ok l) ∧
    (∃ l, plotGuardConfiguration drawing a g [0, 1, 2, 3] goal hist "" true false = .ok l) ∧
    (∃ l, plotGuardConfiguration drawing a g [0, 1, 2, 3] goal hist "" true true = .ok l) ∧
    ∃ l, plotObstacleConfiguration drawing [0, 1, 2, 3] "" true true = .ok l := by
  obtain ⟨d, hd⟩ := drawing_plot "xy"
  obtain ⟨d', hd'⟩ := drawing_plot "xz"
  exact ⟨⟨_, C73_negation_agent drawing a [0, 1, 2, 3] goal hist "" true d d' hd hd'⟩,
    ⟨_, C73_guard drawing a g [0, 1, 2, 3] goal hist "" true d' hd'⟩,
    ⟨_, C73_guard_space drawing a g [0, 1, 2, 3] goal hist "" true d d' hd hd'⟩,
    ⟨_, (C73_obstacles_only drawing [0, 1, 2, 3] "" true d d' hd hd').2⟩⟩

/-! ### Printed objects (C81) -/

/-- Two worlds that differ in the surface of a hull below an aggregate print alike. -/
noncomputable def otherWorld : Heap ℝ :=
  [.ellipsoid ⟨.mkPos "body" ⟨1, 2, 3⟩ (V3.const 1), ⟨2, 5, 1⟩, V3.const 1⟩,
   .hull { Hull.mk' false 9 7 with base := .mkPos "room" V3.zero (V3.const 0) },
   .aggregate { (Aggregate.default : Aggregate ℝ) with base := .mkPos "pair" V3.zero (V3.const 0), prims := [0, 1] },
   .aggregate { (Aggregate.default : Aggregate ℝ) with base := .mkPos "all" V3.zero (V3.const 0), prims := [2, 0] }]

theorem otherWorld_acyclic : Acyclic otherWorld := by
  refine ⟨id, ?_⟩
  rintro p q ⟨a, ha, hq⟩
  have hp : p < 4 := by
    by_contra hc
    rw [List.getElem?_eq_none (not_lt.mp hc)] at ha
    exact absurd ha (by simp)
  interval_cases p <;> simp [otherWorld] at ha <;> subst ha <;> simp at hq <;> rcases hq with rfl | rfl <;>
    simp [otherWorld]

theorem otherWorld_ref (p : Ptr) (o : Obj ℝ) (ho : otherWorld[p]? = some o) : o.base.refPos ≠ none := by
  have hp : p < 4 := by
    by_contra hc
    rw [List.getElem?_eq_none (not_lt.mp hc)] at ho
    exact absurd ho (by simp)
  interval_cases p <;> simp [otherWorld] at ho <;> subst ho <;> simp [Obj.base, Base.mkPos]

example : ∃ t, obj (printWorld 5) ((printWorld 5)[3]'(by simp [printWorld])) = .ok t ∧
    obj otherWorld (otherWorld[3]'(by simp [otherWorld])) = .ok t := by
  obtain ⟨t, ht⟩ := C81_total (printWorld 5) (printWorld_acyclic 5) (fun p o ho => (printWorld_objects 5 p o ho).2) 3 _
    (List.getElem?_eq_getElem (by simp [printWorld]))
  refine ⟨t, ht, C81_same (printWorld 5) otherWorld otherWorld_acyclic otherWorld_ref _ _ 3
    (List.getElem?_eq_getElem (by simp [otherWorld])) ?_ t ht⟩
  refine .aggregate _ _ rfl (.cons 2 2 _ _ _ _ rfl rfl (.aggregate _ _ rfl
    (.cons 0 0 _ _ _ _ rfl rfl (.ellipsoid _) (.cons 1 1 _ _ _ _ rfl rfl (.hull _ _ rfl) .nil)))
    (.cons 0 0 _ _ _ _ rfl rfl (.ellipsoid _) .nil))

/-- The text of the aggregate is composed of those of its members. -/
example : ∃ (b : Text ℝ) (ts : List (Text ℝ)), base "Aggregate" (Base.mkPos "all" V3.zero (V3.const 0) : Base ℝ) = .ok b ∧
    obj (printWorld 5) ((printWorld 5)[3]'(by simp [printWorld])) =
      .ok (b ++ str "\nComposed of:\n" ++ (ts.map fun t => str "---\n" ++ t ++ str "\n").flatten) := by
  obtain ⟨b, ts, h1, h2, -⟩ := C81_aggregate (printWorld 5) (printWorld_acyclic 5)
    (fun p o ho => (printWorld_objects 5 p o ho).2) 3 _ rfl
  exact ⟨b, ts, h1, h2⟩

/-- The lines of the text of a plain obstacle and of an ellipsoid. -/
example : ∃ (t : Text ℝ) (ls : List (Text ℝ)), obj [] (.plain (Base.mkPos "body" ⟨1, 2, 3⟩ (V3.const 1))) = .ok t ∧ lines t = str " body" :: ls := by
  obtain ⟨t, h1, ls, h2, -⟩ := C81_lines [] (.plain (Base.mkPos "body" ⟨1, 2, 3⟩ (V3.const 1) : Base ℝ)) (Or.inl ⟨_, rfl⟩) _ rfl
    (by simp [OneLine, Obj.base, Base.mkPos])
  exact ⟨t, ls, h1, h2.trans (by simp [Obj.type, Obj.name, Obj.base, Base.mkPos])⟩

example : ∃ (t : Text ℝ) (ls : List (Text ℝ)), obj [] (.ellipsoid ⟨.mkPos "body" ⟨1, 2, 3⟩ (V3.const 1), ⟨2, 5, 1⟩, V3.const 1⟩) = .ok t ∧
    lines t = str "Ellipsoid body" :: ls ∧ ls.length = 8 := by
  obtain ⟨t, h1, ls, h2, h3⟩ := C81_ellipsoid [] (⟨.mkPos "body" ⟨1, 2, 3⟩ (V3.const 1), ⟨2, 5, 1⟩, V3.const 1⟩ : Ellipsoid ℝ) _ rfl
    (by simp [OneLine, Obj.base, Base.mkPos])
  refine ⟨t, ls, h1, h2, ?_⟩
  have := congrArg List.length h3
  simpa [commonEntries] using this

example : obj [] (.hull { Hull.mk' false 9 (7 : ℝ) with base := .mkPos "room" V3.zero (V3.const 0) }) =
    obj [] (.hull { Hull.mk' true 5 (1 : ℝ) with base := .mkPos "room" V3.zero (V3.const 0) }) :=
  C81_negation_surface ([] : Heap ℝ) _ _ rfl

/-! ### Printed numbers (C89) -/

/-- A third is printed as 0.333333. -/
theorem third_text : readNumber (format (1 / 3 : ℚ)) = some (333333 / 1000000 : ℚ) := by decide +kernel

theorem half_text : readNumber (format (1 / 2 : ℚ)) = some (1 / 2 : ℚ) := C89_exact _ ⟨5, -1, by norm_num, by norm_num⟩

example : |(333333 / 1000000 : ℚ) - 1 / 3| ≤ 5 / 1000000 * |1 / 3| := C89_accuracy _ _ third_text

example : (0 < (333333 / 1000000 : ℚ) ↔ 0 < (1 / 3 : ℚ)) := (C89_sign _ _ third_text).2

example : (333333 / 1000000 : ℚ) ≤ 1 / 2 := C89_monotone (1 / 3) (1 / 2) _ _ (by norm_num) third_text half_text

example : |(1000001 / 1000000 : ℚ) - 1| ≤ 5 / 1000000 * (|1000001 / 1000000| + |1|) := C89_same _ _ (by decide +kernel)

example : (format (1 / 3 : ℚ)).length ≤ 13 := C89_length _ fun _ => by
  decide +kernel

example : 'e' ∉ format (1 / 3 : ℚ) := by
  rw [C89_notation _ _ third_text]
  norm_num [abs_of_pos]

/-- A state with entries that need more than six digits, and one that is printed alike. -/
example (s : State ℝ) : AgreeState s s := C89_state s s rfl

example (a : Agent ℝ) : AgreeState a.state a.state ∧ Agree a.margin a.margin := C89_agent a a rfl

end DOA.Props
