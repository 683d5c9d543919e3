import Verif.Lemmas.Lockstep
import Verif.Lemmas.Alike
import Verif.Model.World
import Verif.Spec.Alike

/-!
# C90, for `update`

`update` lists obstacles that are made of the same things, wherever the obstacles are stored.
-/

set_option linter.unusedSectionVars false

namespace DOA.Props
open DOA DOA.Spec DOA.Modulation DOA.Aggregation

variable {α : Type} [Add α] [Sub α] [Mul α] [Div α] [Neg α] [Zero α] [One α]
  [LE α] [LT α] [DecidableLE α] [DecidableLT α] [CMath α]

/-- C90: `update`, in two worlds whose obstacles are twins one by one (and share no primitives): both runs succeed, and
the lists consist of twins one by one. -/
theorem C90_update {w w' : World α} (ha : Acyclic w.heap) (ha' : Acyclic w'.heap)
    (hagg : w.env.aggregated = w'.env.aggregated)
    (t : Twins w.heap w'.heap (w.env.map.map (·.2)) (w'.env.map.map (·.2)))
    (hd : Apart w.heap (w.env.map.map (·.2))) (hd' : Apart w'.heap (w'.env.map.map (·.2))) :
    ∃ w1 w1', w.exec .update = .ok w1 ∧ w'.exec .update = .ok w1' ∧
      Twins w1.heap w1'.heap w1.env.list w1'.env.list := by
  cases h : w'.env.aggregated with
  | false =>
    rw [h] at hagg
    exact ⟨⟨w.heap, { w.env with list := w.env.map.map (·.2) }⟩, ⟨w'.heap, { w'.env with list := w'.env.map.map (·.2) }⟩,
      by simp [World.exec, Env.update, hagg], by simp [World.exec, Env.update, h], t⟩
  | true =>
    rw [h] at hagg
    have hobs : List.Forall₂ (At w.heap w'.heap) (w.env.map.map (·.2)) (w'.env.map.map (·.2)) :=
      t.imp fun _ _ ⟨o, o', h1, h2, _, h4⟩ => ⟨o, o', h1, h2, h4⟩
    have hl := forall₂_lt hobs
    obtain ⟨h1, g1, aggs, aggs', idx, e1, e2, e3, e4, -, -, -, -⟩ := aggregateObstacles_alike ha ha' hobs
    refine ⟨⟨h1, { w.env with list := _ }⟩, ⟨g1, { w'.env with list := _ }⟩,
      by simp only [World.exec, Env.update, hagg, if_true, e1, Res.ok_bind]; rfl,
      by simp only [World.exec, Env.update, h, if_true, e2, Res.ok_bind]; rfl, ?_⟩
    refine List.rel_append e3 ?_
    have hr := forall₂_mem (remaining_forall₂ t idx)
    refine List.Forall₂.imp (fun p p' hp => ?_) (forall₂_and e4 hr)
    obtain ⟨⟨o, o', k1, k2, k3⟩, ⟨u, u', l1, l2, l3, -⟩, m1, m2⟩ := hp
    have f := aggregateObstacles_alone ha hl.1 hd e1 (List.mem_append_right _ m1) (hl.1 _ (remaining_mem m1))
    have f' := aggregateObstacles_alone ha' hl.2 hd' e2 (List.mem_append_right _ m2) (hl.2 _ (remaining_mem m2))
    rw [k1, l1] at f
    rw [k2, l2] at f'
    cases f
    cases f'
    exact ⟨_, _, k1, k2, l3, k3⟩

end DOA.Props
