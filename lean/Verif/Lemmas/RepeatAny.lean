import Verif.Lemmas.Repeat

/-!
# Aggregating the same obstacles again, later

`aggregateObstacles_repeat` is about two consecutive runs.  Here the second run starts from any heap in
which the old objects are there up to reference positions, and everything else is an aggregate of old
objects.
-/

set_option linter.unusedSectionVars false

namespace DOA.Aggregation
open DOA DOA.Spec

variable {α : Type} [Add α] [Sub α] [Mul α] [Div α] [Neg α] [Zero α] [One α]
  [LE α] [LT α] [DecidableLE α] [DecidableLT α] [CMath α]
variable {h0 h1 k1 : Heap α}

theorem aggregateObstacles_later {rank : Ptr → Nat} (hr : Ranked rank h0) (hi1 : HeapInv h0 h1) {obs : List Ptr}
    (hobs : ∀ p ∈ obs, p < h0.length) {l : List Ptr} (hrun : aggregateObstacles h0 obs = .ok (k1, l)) :
    ∃ k2, aggregateObstacles h1 obs = .ok (k2, l.map fun p => if p < h0.length then p
        else p + (h1.length - h0.length)) ∧ Sim h0 h1 k1 k2 := by
  have hle := hi1.ext.1
  simp only [aggregateObstacles, Res.bind_eq_ok] at hrun
  obtain ⟨s, e1, k, e2, e3⟩ := hrun
  cases e3
  have hstart : SimSt h0 h1 (⟨h0, [], List.replicate obs.length (-1)⟩ : St α)
      ⟨h1, [], List.replicate obs.length (-1)⟩ := by
    refine ⟨⟨⟨ShapeExt.refl h0, fun b o hb ho => ?_⟩, by simp only; omega, ?_, ?_, ?_, ?_⟩, rfl, rfl, by simp⟩
    · exact absurd (List.getElem?_eq_some_iff.mp ho).1 (not_lt.mpr hb)
    · intro b hb
      rw [List.getElem?_eq_none hb, List.getElem?_eq_none (by simp only; omega)]
    · intro r hr'; exact hi1.ext.2 r hr'
    · intro r _ _; rfl
    · intro r _; exact .inr ⟨rfl, rfl⟩
  have hL : ∀ x ∈ indexed obs, x.2 < h0.length := by
    intro x hx
    exact hobs x.2 (List.of_mem_zip hx).2
  obtain ⟨s2, f1, f2⟩ := SimSt.outerLoop hr hi1 hobs _ hL _ _ _ hstart e1
  obtain ⟨k2, f3, f4⟩ := f2.heap.updateHulls hi1 _ f2.new _ _ _ e2
  refine ⟨k2, ?_, f4⟩
  simp only [aggregateObstacles, f1, f2.aggs, f3, Res.ok_bind, f2.idx, List.map_append]
  have c1 : s.aggs.map (fun p => if p < h0.length then p else p + (h1.length - h0.length)) =
      s.aggs.map (· + (h1.length - h0.length)) := by
    apply List.map_congr_left
    intro a ha
    rw [if_neg (not_lt.mpr (f2.new a ha))]
  have c2 : (remaining obs s.idx).map (fun p => if p < h0.length then p else p + (h1.length - h0.length)) =
      remaining obs s.idx := by
    conv_rhs => rw [← List.map_id (remaining obs s.idx)]
    apply List.map_congr_left
    intro p hp
    unfold remaining at hp
    obtain ⟨x, hx, rfl⟩ := List.mem_map.mp hp
    have := hobs x.1 (List.of_mem_zip (List.mem_filter.mp hx).1).1
    rw [if_pos this]; rfl
  rw [c1, c2]

end DOA.Aggregation
