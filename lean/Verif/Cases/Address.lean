import Verif.Props.AggregationHistory
import Verif.Props.Updating

/-! # Concrete cases for C90 and C91 -/

set_option linter.unusedSimpArgs false

namespace DOA.Cases
open DOA DOA.Spec DOA.Modulation DOA.Aggregation DOA.Props

theorem within_flat {α : Type} {h : Heap α} (hf : ∀ (p : Ptr) a, h[p]? ≠ some (.aggregate a)) {p r : Ptr}
    (hw : Within h p r) : r = p := by
  rcases Relation.ReflTransGen.cases_head hw with h1 | ⟨x, ⟨a, hx, -⟩, -⟩
  · exact h1.symm
  · exact absurd hx (hf p a)

theorem apart_flat {α : Type} {h : Heap α} (hf : ∀ (p : Ptr) a, h[p]? ≠ some (.aggregate a)) {l : List Ptr}
    (hl : l.Nodup) : Apart h l := by
  intro i j p q r hij hi hj h1 h2
  have e : p = q := (within_flat hf h1).symm.trans (within_flat hf h2)
  subst e
  obtain ⟨a1, a2⟩ := List.getElem?_eq_some_iff.mp hi
  obtain ⟨b1, b2⟩ := List.getElem?_eq_some_iff.mp hj
  exact hij ((List.Nodup.getElem_inj_iff hl).mp (a2.trans b2.symm))

/-- An envelope, two obstacles that meet and one far away. -/
noncomputable def here : Heap ℝ :=
  [.ellipsoid (circ "envelope" ⟨-9, 0, 0⟩ 1), .ellipsoid (circ "a" V3.zero 1), .ellipsoid (circ "b" ⟨5, 0, 0⟩ 10),
    .ellipsoid (circ "c" ⟨99, 0, 0⟩ 1)]

/-- The same elsewhere in memory, with a further object. -/
noncomputable def there : Heap ℝ :=
  [.ellipsoid (circ "c" ⟨99, 0, 0⟩ 1), .ellipsoid (circ "b" ⟨5, 0, 0⟩ 10), .plain (Base.mkName "other" V3.zero),
    .ellipsoid (circ "envelope" ⟨-9, 0, 0⟩ 1), .ellipsoid (circ "a" V3.zero 1)]

theorem here_flat : ∀ (p : Ptr) a, here[p]? ≠ some (.aggregate a) := by
  intro p a hp
  match p with
  | 0 | 1 | 2 | 3 => simp [here] at hp
  | n + 4 => simp [here] at hp

theorem there_flat : ∀ (p : Ptr) a, there[p]? ≠ some (.aggregate a) := by
  intro p a hp
  match p with
  | 0 | 1 | 2 | 3 | 4 => simp [there] at hp
  | n + 5 => simp [there] at hp

/-- The agent of `here` and of `there`. -/
noncomputable def agentAt (p : Ptr) : Agent ℝ := ⟨State.ofPosition ⟨-9, 0, 0⟩, 1, some p, 1⟩

noncomputable def worldHere : World ℝ := ⟨here, ⟨[("a", 1), ("b", 2), ("c", 3)], true, []⟩⟩
noncomputable def worldThere : World ℝ := ⟨there, ⟨[("a", 4), ("b", 1), ("c", 0)], true, []⟩⟩

theorem twin_abc : Twins here there [1, 2, 3] [4, 1, 0] :=
  .cons ⟨_, _, rfl, rfl, rfl, .ellipsoid _ _ rfl⟩ (.cons ⟨_, _, rfl, rfl, rfl, .ellipsoid _ _ rfl⟩
    (.cons ⟨_, _, rfl, rfl, rfl, .ellipsoid _ _ rfl⟩ .nil))

theorem paired_abc : Paired [1, 2, 3] [4, 1, 0] (here, agentAt 0) (there, agentAt 3) := by
  refine ⟨acyclic_flat here_flat, acyclic_flat there_flat, twin_abc, ⟨rfl, rfl, rfl⟩,
    .inr ⟨0, 3, rfl, rfl, _, _, rfl, rfl, rfl, .ellipsoid _ _ rfl⟩, ?_, ?_⟩
  · rintro p hp q hq hw
    cases hp
    have := within_flat here_flat hw
    subst this
    simp at hq
  · rintro p hp q hq hw
    cases hp
    have := within_flat there_flat hw
    subst this
    simp at hq

-- queries
example (pt : V3 ℝ) : here.pointIsInside (.ellipsoid (circ "b" ⟨5, 0, 0⟩ 10)) pt =
    there.pointIsInside (.ellipsoid (circ "b" ⟨5, 0, 0⟩ 10)) pt :=
  (C90_queries (p := 2) (p' := 1) (acyclic_flat here_flat) (acyclic_flat there_flat) rfl rfl (.ellipsoid _ _ rfl)).1 pt

example : here.isIntersecting (.ellipsoid (circ "a" V3.zero 1)) (.ellipsoid (circ "b" ⟨5, 0, 0⟩ 10)) =
    there.isIntersecting (.ellipsoid (circ "a" V3.zero 1)) (.ellipsoid (circ "b" ⟨5, 0, 0⟩ 10)) :=
  C90_intersects (p := 2) (p' := 1) (acyclic_flat here_flat) (acyclic_flat there_flat) rfl rfl (.ellipsoid _ _ rfl)
    (.ellipsoid _ _ rfl)

example (a : Agent ℝ) : modulationMatrix here a (.ellipsoid (circ "b" ⟨5, 0, 0⟩ 10)) =
    modulationMatrix there a (.ellipsoid (circ "b" ⟨5, 0, 0⟩ 10)) :=
  (C90_repulsion (p := 2) (p' := 1) (acyclic_flat here_flat) (acyclic_flat there_flat) rfl rfl (.ellipsoid _ _ rfl)
    rfl).2.2 a

example : (agentAt 0).existPath here ⟨9, 0, 0⟩ [1, 2, 3] = (agentAt 3).existPath there ⟨9, 0, 0⟩ [4, 1, 0] :=
  C90_path (acyclic_flat here_flat) (acyclic_flat there_flat) twin_abc rfl _

example : (agentAt 0).inObstacle here (.ellipsoid (circ "b" ⟨5, 0, 0⟩ 10)) =
    (agentAt 3).inObstacle there (.ellipsoid (circ "b" ⟨5, 0, 0⟩ 10)) :=
  C90_in_obstacle (p := 2) (p' := 1) (acyclic_flat here_flat) (acyclic_flat there_flat) rfl rfl (.ellipsoid _ _ rfl)
    rfl rfl

-- the modulation with local modulation, repulsion and planar modulation
example : Agree (fun r r' => r.2 = r'.2 ∧ Twins r.1 r'.1 [1, 2, 3] [4, 1, 0])
    (modulateVelocity here (agentAt 0) ⟨[], true, [1, 2, 3]⟩ true true true 1 2)
    (modulateVelocity there (agentAt 3) ⟨[], true, [4, 1, 0]⟩ true true true 1 2) :=
  C90_velocity (a := agentAt 0) (a' := agentAt 3) (e := ⟨[], true, [1, 2, 3]⟩) (e' := ⟨[], true, [4, 1, 0]⟩) (acyclic_flat here_flat)
    (acyclic_flat there_flat) twin_abc rfl rfl paired_abc.envelopes _ _ _ _ _

-- `update` puts "a" and "b" into an aggregate; the lists are twins
theorem update_abc : ∃ w w', worldHere.exec .update = .ok w ∧ worldThere.exec .update = .ok w' ∧
    Twins w.heap w'.heap w.env.list w'.env.list :=
  C90_update (w := worldHere) (w' := worldThere) (acyclic_flat here_flat) (acyclic_flat there_flat) rfl twin_abc
    (apart_flat here_flat (by simp [worldHere])) (apart_flat there_flat (by simp [worldThere]))

example (c : Loop ℝ) : Agree (Paired [1, 2, 3] [4, 1, 0]) (c.run ⟨[], true, [1, 2, 3]⟩ 7 (here, agentAt 0))
    (c.run ⟨[], true, [4, 1, 0]⟩ 7 (there, agentAt 3)) :=
  C90_run c (e := ⟨[], true, [1, 2, 3]⟩) (e' := ⟨[], true, [4, 1, 0]⟩) 7 paired_abc

example (c : Loop ℝ) (v : V3 ℝ) : Agree (Paired [1, 2, 3] [4, 1, 0])
    (c.runMixed ⟨[], true, [1, 2, 3]⟩ 7 (some v) (here, agentAt 0))
    (c.runMixed ⟨[], true, [4, 1, 0]⟩ 7 (some v) (there, agentAt 3)) :=
  C90_run_mixed c (e := ⟨[], true, [1, 2, 3]⟩) (e' := ⟨[], true, [4, 1, 0]⟩) 7 _ paired_abc

example (c : Loop ℝ) : Agree (Paired [1, 2, 3] [4, 1, 0]) (c.runWall ⟨[], true, [1, 2, 3]⟩ 7 (here, agentAt 0))
    (c.runWall ⟨[], true, [4, 1, 0]⟩ 7 (there, agentAt 3)) :=
  C90_run_wall c (e := ⟨[], true, [1, 2, 3]⟩) (e' := ⟨[], true, [4, 1, 0]⟩) 7 paired_abc

-- `update` before the loop, or in every iteration
example (c : Loop ℝ) : ∃ w, worldHere.exec .update = .ok w ∧
    Agree (fun s s' => s.2 = s'.2 ∧ (0 < 7 → Twins s.1 s'.1.heap w.env.list s'.1.env.list))
      (c.run w.env 7 (w.heap, agentAt 0)) (runUpdating c 7 (worldHere, agentAt 0)) := by
  obtain ⟨w, w', h1, -⟩ := update_abc
  refine ⟨w, h1, C91_run c (acyclic_flat here_flat) ?_ (apart_flat here_flat (by simp [worldHere])) ?_ ?_ h1 7⟩
  · simp [worldHere, here]
  · rintro p hp
    cases hp
    exact ⟨_, rfl⟩
  · exact paired_abc.own

end DOA.Cases
