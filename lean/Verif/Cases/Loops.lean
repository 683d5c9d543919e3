import Verif.Props.Guard
import Verif.Props.Configuration
import Verif.Props.Curvature

/-!
# Concrete cases: programs

The theorems about the loops and programs that are not applied where they are proved.
-/

namespace DOA.Props

open DOA DOA.Spec DOA.Modulation DOA.Ellipsoid

/-- C80: the guard program with the missing call, from the target itself and without noise. -/
example (n : ℕ) : ∃ s', repairedGuard V3.zero V3.zero (fun _ => ⟨V3.zero, 0⟩) n = .ok s' ∧
    1 < gdist (Guard.platformObstacle : Ellipsoid ℝ) 0 s'.platform.state.position :=
  C80_repaired V3.zero V3.zero (by simp [DOA.Props.Within, V3.zero]) _ (fun _ => rfl) n

/-- C70: the configuration program of the repository with `RAND_MAX` of the GNU library. -/
example : ∃ e ∈ Configuration.obstacles 2147483647 (maximal 2147483647), ∃ s f,
    Configuration.program (α := ℝ) 2147483647 (maximal 2147483647) "" 35 = .ok (s, f) ∧ gdist e (1 / 10) s.2.state.position < 1 :=
  (C70_negation_configuration_exists 2147483647 (by norm_num) "").2

/-- C68: steps shorter than a millionth. -/
example : ∃ (x v : V3 ℝ) (M B : M3 ℝ) (t d : ℝ), t * V3.norm v < 1 / 1000000 ∧
    modulationMatrix [] (agentAt x v) (.ellipsoid boxy) = .ok (M, B, d) ∧
    1 < gdist boxy 0 x ∧ gdist boxy 0 (x + V3.smul t (M.mulVec v)) < 1 := by
  obtain ⟨x, v, M, B, t, d, -, -, -, h1, h2, h3, h4⟩ := C68_negation_curvature (1 / 1000000) (by norm_num)
  exact ⟨x, v, M, B, t, d, h1, h2, h3, h4⟩

/-- C70: the loops of the programs without obstacles; the agent has the envelope of its constructor. -/
example (n : ℕ) (prev x : V3 ℝ) (c : Loop ℝ) : ∃ s1,
    c.runMixed (envOf []) (n + 1) (some prev) (Agent.mk2 [] (State.ofPosition x) 0) =
      c.runMixed (envOf []) n (some (c.desired x)) s1 := by
  obtain ⟨s1, -, -, -, h⟩ := C70_mixed c (envOf []) rfl n prev (Agent.mk2 [] (State.ofPosition x) 0) ⟨_, _, rfl, rfl⟩
  exact ⟨s1, h⟩

example (n : ℕ) (x : V3 ℝ) (c : Loop ℝ) : ∃ s1,
    c.runWall (envOf []) (n + 1) (Agent.mk2 [] (State.ofPosition x) 0) = c.runWall (envOf []) n s1 := by
  obtain ⟨-, s1, -, -, -, h⟩ := C70_wall c (envOf []) rfl n (Agent.mk2 [] (State.ofPosition x) 0) ⟨_, _, rfl, rfl⟩
  exact ⟨s1, h⟩

end DOA.Props
