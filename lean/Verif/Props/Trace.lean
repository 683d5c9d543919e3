import Verif.Props.AggregationHistory
import Verif.Props.Combine
import Verif.Props.Duplicates
import Verif.Lemmas.UnitTestsEnv
import Verif.Lemmas.RepeatAny

/-!
# C110: an obstacle that was removed again leaves no trace

A client adds obstacles to an environment, updates it, removes them and updates again.  When the same
names stand for the same obstacles as before, the motion should be as before.
-/

set_option linter.unusedSectionVars false
set_option linter.unusedSimpArgs false

namespace DOA.Props
open DOA DOA.Spec DOA.Modulation DOA.Ellipsoid Aggregation

variable {α : Type} [Add α] [Sub α] [Mul α] [Div α] [Neg α] [Zero α] [One α]
  [LE α] [LT α] [DecidableLE α] [DecidableLT α] [CMath α]

/-- Calls of the environment other than `set_aggregated`. -/
def OfEnv : Call α → Prop
  | .client _ => False
  | .setAggregated _ => False
  | _ => True

theorem map_ext {m m' : List (String × Ptr)} (hm : Env.SortedKeys m) (hm' : Env.SortedKeys m')
    (h : ∀ k, Env.find m k = Env.find m' k) : m = m' := by
  have hmem : ∀ e, e ∈ m ↔ e ∈ m' := by
    rintro ⟨k, p⟩
    rw [← Env.find_eq_some_iff hm, ← Env.find_eq_some_iff hm', h k]
  have hnd : ∀ {l : List (String × Ptr)}, Env.SortedKeys l → l.Nodup := fun hl =>
    List.Pairwise.imp (fun hlt heq => by rw [heq] at hlt; exact lt_irrefl _ hlt) hl
  have hp : m.Perm m' := (List.perm_ext_iff_of_nodup (hnd hm) (hnd hm')).mpr hmem
  unfold Env.SortedKeys at hm hm'
  refine List.Perm.eq_of_pairwise (le := fun (a b : String × Ptr) => a.1 < b.1) ?_ hm hm' hp
  intro a b _ _ h1 h2
  exact absurd (lt_trans h1 h2) (lt_irrefl _)

/-- Without aggregation a call changes no obstacle and not the mode. -/
theorem plain_step {w w' : World α} {c : Call α} (hc : OfEnv c) (ha : w.env.aggregated = false)
    (h : w.step c = .ok w') : w'.heap = w.heap ∧ w'.env.aggregated = false := by
  unfold World.step at h
  cases hx : w.exec c with
  | ub u => rw [hx] at h; cases h
  | throw e => rw [hx] at h; cases h; exact ⟨rfl, ha⟩
  | ok w1 =>
    rw [hx] at h; cases h
    cases c with
    | client h => exact absurd hc id
    | setAggregated b => exact absurd hc id
    | add p =>
      simp only [World.exec, Env.addObstacle, Res.bind_eq_ok] at hx
      obtain ⟨e, ⟨o, -, h2⟩, h3⟩ := hx
      split at h2
      · cases h2
      · cases h2; cases h3; exact ⟨rfl, ha⟩
    | remove k' =>
      simp only [World.exec, Env.removeObstacle, Res.bind_eq_ok] at hx
      obtain ⟨e, h2, h3⟩ := hx
      split at h2
      · cases h2
      · cases h2; cases h3; exact ⟨rfl, ha⟩
    | update =>
      simp only [World.exec, Env.update, ha, Bool.false_eq_true, if_false, Res.ok_bind] at hx
      cases hx; exact ⟨rfl, rfl⟩
    | get k' =>
      simp only [World.exec, Res.bind_eq_ok] at hx
      obtain ⟨e, -, h3⟩ := hx
      cases h3; exact ⟨rfl, ha⟩
    | assign k' p =>
      simp only [World.exec, Env.assign, Res.bind_eq_ok] at hx
      obtain ⟨e, ⟨s, -, h2⟩, h3⟩ := hx
      cases s <;> cases h2 <;> cases h3 <;> exact ⟨rfl, ha⟩

theorem history_steps {w0 : World α} : ∀ (cs : List (Call α)) {w w' : World α} {es : List Event},
    History w0 es w → cs.foldlM World.step w = .ok w' → ∃ es', History w0 es' w' := by
  intro cs
  induction cs with
  | nil => intro w w' es hh h; cases h; exact ⟨es, hh⟩
  | cons c cs ih =>
    intro w w' es hh h
    rw [List.foldlM_cons] at h
    obtain ⟨w1, h1, h2⟩ := Res.bind_eq_ok.mp h
    exact ih (hh.call c h1) h2

/-- C110: without aggregation, for every history before and all calls in between (those that throw are
caught): if after the next update every name stands for the same obstacle as after the first one (or
for none), then obstacles, map and list are exactly as they were. -/
theorem C110_plain {h : Heap α} {b : Bool} {es : List Event} {w w1 w2 w3 : World α}
    (hh : History (World.init h b) es w) (ha : w.env.aggregated = false) (hup : w.exec .update = .ok w1)
    {cs : List (Call α)} (hcs : ∀ c ∈ cs, OfEnv c) (hrun : cs.foldlM World.step w1 = .ok w2)
    (hup' : w2.exec .update = .ok w3)
    (hsame : ∀ k, w3.env.lookup w3.heap k = w1.env.lookup w1.heap k) : w3 = w1 := by
  have hh1 : History (World.init h b) _ w1 := hh.call .update (by simp [World.step, hup])
  have hkeep : ∀ (cs : List (Call α)) (v v' : World α), (∀ c ∈ cs, OfEnv c) → v.env.aggregated = false →
      cs.foldlM World.step v = .ok v' → v'.heap = v.heap ∧ v'.env.aggregated = false := by
    intro cs
    induction cs with
    | nil => intro v v' _ hv hr; cases hr; exact ⟨rfl, hv⟩
    | cons c cs ih =>
      intro v v' hcs hv hr
      rw [List.foldlM_cons] at hr
      obtain ⟨v1, h1, h2⟩ := Res.bind_eq_ok.mp hr
      obtain ⟨e1, e2⟩ := plain_step (hcs c (by simp)) hv h1
      obtain ⟨e3, e4⟩ := ih v1 v' (fun c hc => hcs c (by simp [hc])) e2 h2
      exact ⟨e3.trans e1, e4⟩
  obtain ⟨es2, hh2⟩ := history_steps cs hh1 hrun
  have hh3 : History (World.init h b) _ w3 := hh2.call .update (by simp [World.step, hup'])
  obtain ⟨hs1, hm1⟩ := history_map hh1
  obtain ⟨hs3, hm3⟩ := history_map hh3
  obtain ⟨p1, p2⟩ := plain_step (w' := w1) (c := .update) trivial ha (by simp [World.step, hup])
  obtain ⟨q1, q2⟩ := hkeep cs w1 w2 hcs p2 hrun
  obtain ⟨r1, r2⟩ := plain_step (w' := w3) (c := .update) trivial q2 (by simp [World.step, hup'])
  have hfind : ∀ k, Env.find w3.env.map k = Env.find w1.env.map k := by
    intro k
    have hk := hsame k
    have hl : ∀ v : World α, v.env.aggregated = false → v.env.lookup v.heap k = match Env.find v.env.map k with
        | some p => .ok p
        | none => .throw (.notInEnvironment k) := by
      intro v hv
      cases hf : Env.find v.env.map k <;> simp [Env.lookup, Env.lookupSlot, Env.readSlot, hf, hv]
    rw [hl w3 r2, hl w1 p2] at hk
    cases h1 : Env.find w3.env.map k <;> cases h2 : Env.find w1.env.map k <;> simp [h1, h2] at hk ⊢
    exact hk
  have hmap := map_ext hs3 hs1 hfind
  have l1 : w1.env.list = w1.env.map.map (·.2) := by
    simp only [World.exec, Env.update, ha, Bool.false_eq_true, if_false, Res.ok_bind] at hup
    cases hup; rfl
  have l3 : w3.env.list = w3.env.map.map (·.2) := by
    simp only [World.exec, Env.update, q2, Bool.false_eq_true, if_false, Res.ok_bind] at hup'
    cases hup'; rfl
  obtain ⟨h1, ⟨m1, a1, t1⟩⟩ := w1
  obtain ⟨h3, ⟨m3, a3, t3⟩⟩ := w3
  simp only at *
  subst l1 l3 hmap
  rw [r1, q1, r2, p2]

/-! ### with aggregation -/

/-- Obstacles no two of which meet. -/
structure Scattered (h : Heap α) (S : Ptr → Prop) : Prop where
  there : ∀ p, S p → p < h.length
  apart : ∀ p q op oq, S p → S q → p ≠ q → h[p]? = some op → h[q]? = some oq → h.isIntersecting op oq ≠ .ok true

/-- Adding some of these obstacles, removing, looking up, updating. -/
def Within' (S : Ptr → Prop) : Call α → Prop
  | .add p => S p
  | .remove _ => True
  | .update => True
  | .get _ => True
  | _ => False

/-- What is kept while scattered obstacles come and go. -/
structure Kept (h : Heap α) (S : Ptr → Prop) (w : World α) : Prop where
  heap : w.heap = h
  mode : w.env.aggregated = true
  sorted : Env.SortedKeys w.env.map
  named : ∀ e ∈ w.env.map, S e.2 ∧ nameOf h e.2 = e.1

theorem Kept.updates {h : Heap α} {S : Ptr → Prop} {w : World α} (hac : Acyclic h) (hS : Scattered h S)
    (k : Kept h S w) : w.exec .update = .ok ⟨h, ⟨w.env.map, true, w.env.map.map (·.2)⟩⟩ := by
  have hno : aggregateObstacles h (w.env.map.map (·.2)) = .ok (h, w.env.map.map (·.2)) := by
    refine C06_no_meets hac ?_ ?_
    · intro p hp
      obtain ⟨e, he, rfl⟩ := List.mem_map.mp hp
      exact hS.there _ (k.named e he).1
    · rintro i j ⟨hij, p, q, op, oq, hp, hq, hop, hoq, hi⟩
      rw [List.getElem?_map] at hp hq
      obtain ⟨e, he, rfl⟩ := Option.map_eq_some_iff.mp hp
      obtain ⟨f, hf, rfl⟩ := Option.map_eq_some_iff.mp hq
      have hem := List.mem_of_getElem? he
      have hfm := List.mem_of_getElem? hf
      refine hS.apart _ _ op oq (k.named e hem).1 (k.named f hfm).1 ?_ hop hoq hi
      intro hef
      obtain ⟨he1, he2⟩ := List.getElem?_eq_some_iff.mp he
      obtain ⟨hf1, hf2⟩ := List.getElem?_eq_some_iff.mp hf
      have hlt := List.pairwise_iff_getElem.mp k.sorted i j he1 hf1 hij
      rw [he2, hf2, ← (k.named e hem).2, ← (k.named f hfm).2, hef] at hlt
      exact lt_irrefl _ hlt
  simp only [World.exec, Env.update, k.mode, if_true, k.heap, hno, Res.ok_bind]

theorem Kept.update {h : Heap α} {S : Ptr → Prop} {w w' : World α} (hac : Acyclic h) (hS : Scattered h S)
    (k : Kept h S w) (hup : w.exec .update = .ok w') : w' = ⟨h, ⟨w.env.map, true, w.env.map.map (·.2)⟩⟩ := by
  rw [k.updates hac hS] at hup
  cases hup
  rfl

theorem Kept.step {h : Heap α} {S : Ptr → Prop} {w w' : World α} {c : Call α} (hac : Acyclic h) (hS : Scattered h S)
    (k : Kept h S w) (hc : Within' S c) (hs : w.step c = .ok w') : Kept h S w' := by
  unfold World.step at hs
  cases hx : w.exec c with
  | ub u => rw [hx] at hs; cases hs
  | throw e => rw [hx] at hs; cases hs; exact k
  | ok w1 =>
    rw [hx] at hs; cases hs
    cases c with
    | client h => exact absurd hc id
    | setAggregated b => exact absurd hc id
    | assign k' p => exact absurd hc id
    | add p =>
      simp only [World.exec, Env.addObstacle, Res.bind_eq_ok] at hx
      obtain ⟨e, ⟨o, ho, h2⟩, h3⟩ := hx
      split at h2
      · cases h2
      · rename_i hf
        cases h2; cases h3
        refine ⟨k.heap, k.mode, Env.insert_sorted k.sorted hf, ?_⟩
        intro f hfm
        rcases Env.mem_insert_iff.mp hfm with rfl | hfm
        · refine ⟨hc, ?_⟩
          have ho : w.heap[p]? = some o := by
            unfold Heap.deref at ho
            split at ho
            · rename_i o' ho'; cases ho; exact ho'
            · cases ho
          rw [k.heap] at ho
          simp [nameOf, ho]
        · exact k.named f hfm
    | remove k' =>
      simp only [World.exec, Env.removeObstacle, Res.bind_eq_ok] at hx
      obtain ⟨e, h2, h3⟩ := hx
      split at h2
      · cases h2
      · cases h2; cases h3
        exact ⟨k.heap, k.mode, Env.erase_sorted k.sorted _, fun f hf => k.named f ((Env.erase_sublist _ _).subset hf)⟩
    | update =>
      rw [k.update hac hS hx]
      exact ⟨rfl, rfl, k.sorted, k.named⟩
    | get k' =>
      simp only [World.exec, Res.bind_eq_ok] at hx
      obtain ⟨e, -, h3⟩ := hx
      cases h3; exact k

/-- C110: with aggregation the same holds as long as no two of the obstacles involved meet (obstacles
keep the names they were added under).

Full statement (false, see `C110_negation`): whether they meet or not. -/
theorem C110_apart_partial {h : Heap α} {b : Bool} {es : List Event} {w w1 w2 w3 : World α} {S : Ptr → Prop}
    (hh : History (World.init h b) es w) (ha : w.env.aggregated = true) (hac : Acyclic w.heap) (hS : Scattered w.heap S)
    (hl : ∀ k p, live es k = some p → S p ∧ nameOf w.heap p = k) (hup : w.exec .update = .ok w1)
    {cs : List (Call α)} (hcs : ∀ c ∈ cs, Within' S c) (hrun : cs.foldlM World.step w1 = .ok w2)
    (hup' : w2.exec .update = .ok w3)
    (hsame : ∀ k, w3.env.lookup w3.heap k = w1.env.lookup w1.heap k) : w3 = w1 := by
  obtain ⟨hs, hm⟩ := history_map hh
  have k0 : Kept w.heap S w := by
    refine ⟨rfl, ha, hs, ?_⟩
    rintro ⟨k, p⟩ he
    exact hl k p (by rw [← hm]; exact (Env.find_eq_some_iff hs).mpr he)
  have e1 := k0.update hac hS hup
  have k1 : Kept w.heap S w1 := k0.step hac hS (c := .update) trivial (by simp [World.step, hup])
  have hkeep : ∀ (cs : List (Call α)) (v v' : World α), (∀ c ∈ cs, Within' S c) → Kept w.heap S v →
      cs.foldlM World.step v = .ok v' → Kept w.heap S v' := by
    intro cs
    induction cs with
    | nil => intro v v' _ hv hr; cases hr; exact hv
    | cons c cs ih =>
      intro v v' hcs hv hr
      rw [List.foldlM_cons] at hr
      obtain ⟨v1, h1, h2⟩ := Res.bind_eq_ok.mp hr
      exact ih v1 v' (fun c hc => hcs c (by simp [hc])) (hv.step hac hS (hcs c (by simp)) h1) h2
  have k2 := hkeep cs w1 w2 hcs k1 hrun
  have e3 := k2.update hac hS hup'
  have k3 : Kept w.heap S w3 := k2.step hac hS (c := .update) trivial (by simp [World.step, hup'])
  have hback : ∀ (m m' : List (String × Ptr)), Env.SortedKeys m → Env.SortedKeys m' →
      (∀ e ∈ m', S e.2 ∧ nameOf w.heap e.2 = e.1) →
      (∀ k, Env.lookup w.heap ⟨m, true, m.map (·.2)⟩ k = Env.lookup w.heap ⟨m', true, m'.map (·.2)⟩ k) →
      ∀ k p, Env.find m k = some p → Env.find m' k = some p := by
    intro m m' hs hs' hn hlook k p hk
    have h1 : Env.lookup w.heap ⟨m, true, m.map (·.2)⟩ k = .ok p := by
      simp [Env.lookup, Env.lookupSlot, Env.readSlot, hk]
    rw [hlook k] at h1
    cases hf : Env.find m' k with
    | some q => simpa [Env.lookup, Env.lookupSlot, Env.readSlot, hf] using h1
    | none =>
      exfalso
      have hin : ∀ q ∈ m'.map (·.2), q < w.heap.length := by
        intro q hq
        obtain ⟨e, he, rfl⟩ := List.mem_map.mp hq
        exact hS.there _ (hn e he).1
      have hno : firstNamed w.heap k (m'.map (·.2)) = none := by
        rw [firstNamed, List.find?_eq_none]
        intro q hq hqk
        obtain ⟨e, he, rfl⟩ := List.mem_map.mp hq
        have hek : e.1 = k := by rw [← (hn e he).2]; simpa using hqk
        have := (Env.find_eq_some_iff hs').mpr (show (e.1, e.2) ∈ m' from he)
        rw [hek, hf] at this
        cases this
      have hsp := findInList_spec w.heap k (m'.map (·.2)) hin
      rw [hno] at hsp
      simp [Env.lookup, Env.lookupSlot, hf, hsp] at h1
  have m1 := k1.named
  have m3 := k3.named
  have s1 := k1.sorted
  have s3 := k3.sorted
  rw [e1, e3] at hsame
  rw [e1] at m1 s1
  rw [e3] at m3 s3
  simp only at m1 m3 s1 s3 hsame
  have hmap : w2.env.map = w.env.map := by
    refine map_ext s3 s1 fun k => ?_
    cases hf : Env.find w2.env.map k with
    | some p => exact (hback _ _ s3 s1 m1 hsame k p hf).symm
    | none =>
      cases hg : Env.find w.env.map k with
      | none => rfl
      | some q =>
        have := hback _ _ s1 s3 m3 (fun k => (hsame k).symm) k q hg
        rw [hf] at this
        cases this
  rw [e1, e3, hmap]

/-! ### obstacles that meet -/

/-- What is kept while the obstacles of the memory `h` come and go: objects made later are aggregates. -/
structure Grown (h : Heap α) (w : World α) : Prop where
  inv : HeapInv h w.heap
  mode : w.env.aggregated = true
  sorted : Env.SortedKeys w.env.map
  old : ∀ e ∈ w.env.map, e.2 < h.length

theorem Grown.update {h : Heap α} {w : World α} (hac : Acyclic h) (g : Grown h w) :
    ∃ k1 l k2, aggregateObstacles h (w.env.map.map (·.2)) = .ok (k1, l) ∧ Sim h w.heap k1 k2 ∧
      w.exec .update = .ok ⟨k2, ⟨w.env.map, true,
        l.map fun p => if p < h.length then p else p + (w.heap.length - h.length)⟩⟩ := by
  have hobs : ∀ p ∈ w.env.map.map (·.2), p < h.length := by
    intro p hp
    obtain ⟨e, he, rfl⟩ := List.mem_map.mp hp
    exact g.old e he
  obtain ⟨k1, l, hrun⟩ := C07_defined hac hobs
  obtain ⟨rank, hr⟩ := exists_ranked hac
  obtain ⟨k2, hrun2, hs⟩ := aggregateObstacles_later hr g.inv hobs hrun
  refine ⟨k1, l, k2, hrun, hs, ?_⟩
  simp only [World.exec, Env.update, g.mode, if_true, hrun2, Res.ok_bind]

theorem Grown.step {h : Heap α} {w w' : World α} {c : Call α} (hac : Acyclic h) (g : Grown h w)
    (hc : Within' (· < h.length) c) (hs : w.step c = .ok w') : Grown h w' := by
  unfold World.step at hs
  cases hx : w.exec c with
  | ub u => rw [hx] at hs; cases hs
  | throw e => rw [hx] at hs; cases hs; exact g
  | ok w1 =>
    rw [hx] at hs; cases hs
    cases c with
    | client h => exact absurd hc id
    | setAggregated b => exact absurd hc id
    | assign k' p => exact absurd hc id
    | add p =>
      simp only [World.exec, Env.addObstacle, Res.bind_eq_ok] at hx
      obtain ⟨e, ⟨o, ho, h2⟩, h3⟩ := hx
      split at h2
      · cases h2
      · rename_i hf
        cases h2; cases h3
        refine ⟨g.inv, g.mode, Env.insert_sorted g.sorted hf, ?_⟩
        intro f hfm
        rcases Env.mem_insert_iff.mp hfm with rfl | hfm
        · exact hc
        · exact g.old f hfm
    | remove k' =>
      simp only [World.exec, Env.removeObstacle, Res.bind_eq_ok] at hx
      obtain ⟨e, h2, h3⟩ := hx
      split at h2
      · cases h2
      · cases h2; cases h3
        exact ⟨g.inv, g.mode, Env.erase_sorted g.sorted _, fun f hf => g.old f ((Env.erase_sublist _ _).subset hf)⟩
    | update =>
      obtain ⟨k1, l, k2, -, hsim, hup⟩ := g.update hac
      rw [hup] at hx; cases hx
      exact ⟨hsim.inv2 g.inv, rfl, g.sorted, g.old⟩
    | get k' =>
      simp only [World.exec, Res.bind_eq_ok] at hx
      obtain ⟨e, -, h3⟩ := hx
      cases h3; exact g

theorem Grown.steps {h : Heap α} (hac : Acyclic h) : ∀ (cs : List (Call α)) {w w' : World α}, Grown h w →
    (∀ c ∈ cs, Within' (· < h.length) c) → cs.foldlM World.step w = .ok w' → Grown h w' := by
  intro cs
  induction cs with
  | nil => intro w w' g _ hr; cases hr; exact g
  | cons c cs ih =>
    intro w w' g hcs hr
    rw [List.foldlM_cons] at hr
    obtain ⟨v, h1, h2⟩ := Res.bind_eq_ok.mp hr
    exact ih (g.step hac (hcs c (by simp)) h1) (fun c hc => hcs c (by simp [hc])) h2

/-- C110: with aggregation, whether obstacles meet or not, in all histories: obstacles present at the
first update come and go, and in the end the names of the environment stand for the same obstacles as
then.  The last update is defined and gives a list in which every aggregate made by it is equal, in
every respect, to the one at the same place of the first list, and every obstacle on its own is the
very same; each obstacle is as it was after the first update, except that those left alone by both
updates may have another reference position.

Full statement (false, see `C110_negation`): these have the same reference position, too. -/
theorem C110_meet_partial {h : Heap α} {b : Bool} {es : List Event} {w w1 w2 : World α}
    (hh : History (World.init h b) es w) (ha : w.env.aggregated = true) (hac : Acyclic w.heap)
    (hl : ∀ k p, live es k = some p → p < w.heap.length) (hup : w.exec .update = .ok w1)
    {cs : List (Call α)} (hcs : ∀ c ∈ cs, Within' (· < w.heap.length) c) (hrun : cs.foldlM World.step w1 = .ok w2)
    (hsame : ∀ k, Env.find w2.env.map k = Env.find w1.env.map k) :
    ∃ w3, w2.exec .update = .ok w3 ∧ w3.env.map = w1.env.map ∧ w3.env.list.length = w1.env.list.length ∧
      (∀ (i : Nat) (p : Ptr), w1.env.list[i]? = some p → ∃ q, w3.env.list[i]? = some q ∧
        if p < w.heap.length then q = p else w2.heap.length ≤ q ∧ w3.heap[q]? = w1.heap[p]?) ∧
      ∀ r, r < w.heap.length → (w3.heap[r]?).map shape = (w1.heap[r]?).map shape ∧
        (w3.heap[r]? ≠ w1.heap[r]? → w1.heap[r]? = w.heap[r]? ∧ w3.heap[r]? = w2.heap[r]?) := by
  obtain ⟨hs, hm⟩ := history_map hh
  have g0 : Grown w.heap w := by
    refine ⟨⟨ShapeExt.refl _, fun b o hb ho => absurd (List.getElem?_eq_some_iff.mp ho).1 (not_lt.mpr hb)⟩, ha, hs, ?_⟩
    rintro ⟨k, p⟩ he
    exact hl k p (by rw [← hm]; exact (Env.find_eq_some_iff hs).mpr he)
  have g1 : Grown w.heap w1 := g0.step hac (c := .update) trivial (by simp [World.step, hup])
  have g2 := Grown.steps hac cs g1 hcs hrun
  obtain ⟨k1, l, k1', hr1, hs1, hu1⟩ := g0.update hac
  obtain ⟨k2, l2, k2', hr2, hs2, hu2⟩ := g2.update hac
  have hmap : w2.env.map = w1.env.map := map_ext g2.sorted g1.sorted hsame
  rw [hu1] at hup
  cases hup
  simp only at hmap
  rw [hmap, hr1] at hr2
  cases hr2
  have hk : ∀ r : Ptr, k1'[r]? = k1[r]? := by
    intro r
    by_cases hr : r < w.heap.length
    · rcases hs1.old r hr with h1 | ⟨h1, h2⟩
      · exact h1
      · rw [h1, h2]
    · have := hs1.new r (not_lt.mp hr)
      simpa using this
  have hle := g2.inv.ext.1
  refine ⟨_, hu2, hmap, by simp, ?_, ?_⟩
  · intro i p hi
    simp only [List.getElem?_map, Option.map_eq_some_iff, Nat.sub_self, Nat.add_zero, ite_self] at hi
    obtain ⟨p', hi, rfl⟩ := hi
    refine ⟨_, by simp only [List.getElem?_map, hi, Option.map_some]; rfl, ?_⟩
    split
    · rfl
    · rename_i hp
      refine ⟨?_, ?_⟩
      · have hp := not_lt.mp hp
        revert hle hp
        generalize w2.heap.length = x, w.heap.length = y
        intro hle hp
        exact (by omega : ∀ x y z : Nat, y ≤ x → y ≤ z → x ≤ z + (x - y)) x y p' hle hp
      simp only
      rw [hs2.new p' (not_lt.mp hp), hk]
  · intro r hr
    simp only
    refine ⟨by rw [hs2.shp r hr, hk], fun hne => ?_⟩
    rcases hs2.old r hr with h1 | ⟨h1, h2⟩
    · exact absurd (h1.trans (hk r).symm) hne
    · exact ⟨(hk r).trans h1, h2⟩

theorem group_ref {h h' : Heap α} (ha : Acyclic h) {obs l : List Ptr} (hobs : ∀ p ∈ obs, p < h.length)
    (hdis : Disjoint h obs) (hrun : aggregateObstacles h obs = .ok (h', l)) {a : Ptr} (hal : a ∈ l) (hnew : h.length ≤ a)
    {q r : Ptr} (hq : q ∈ primitives h' a) (hw : Within h q r) : refOf h' r = refOf h' a := by
  obtain ⟨rank, hr⟩ := exists_ranked ha
  obtain ⟨h1, aggs, idx, hrun', hI⟩ := aggregateObstacles_ok hr hobs
  rw [hrun] at hrun'; cases hrun'
  have haggs : a ∈ aggs := by
    rcases List.mem_append.mp hal with h1 | h1
    · exact h1
    · exact absurd (members_lt hobs a h1) (not_lt.mpr hnew)
  obtain ⟨n, hn⟩ := List.mem_iff_getElem?.mp haggs
  obtain ⟨-, ag, hag, hok⟩ := hI.agg n a hn
  simp only at hag
  obtain ⟨ps, h1, h2, h3⟩ := hok.canon
  have hpsl : ∀ q ∈ ps, q < h.length := fun q hq => members_lt hobs q (h1.mem_iff.mp hq)
  have hprims : primitives h' a = (sortedInfo h ps).map (·.1) := by
    simp [primitives, hag, h2, canonAgg]
  rw [hprims] at hq
  rw [hI.refs hdis n a ag hn hag q (h1.mem_iff.mp ((prims_perm hpsl).mem_iff.mp hq)) r hw]
  simp only [refOf, hag, Option.bind_some, Obj.base]

/-- C110: and if no two of the obstacles named in the environment share primitives, everything nested in an
aggregate of the list is in every respect as it was after the first update: the trace is confined to
obstacles that are on their own. -/
theorem C110_members_partial {h : Heap α} {b : Bool} {es : List Event} {w w1 w2 w3 : World α}
    (hh : History (World.init h b) es w) (ha : w.env.aggregated = true) (hac : Acyclic w.heap)
    (hl : ∀ k p, live es k = some p → p < w.heap.length)
    (hdis : ∀ k k' p q r, k ≠ k' → live es k = some p → live es k' = some q → Within w.heap p r → ¬ Within w.heap q r)
    (hup : w.exec .update = .ok w1)
    {cs : List (Call α)} (hcs : ∀ c ∈ cs, Within' (· < w.heap.length) c) (hrun : cs.foldlM World.step w1 = .ok w2)
    (hsame : ∀ k, Env.find w2.env.map k = Env.find w1.env.map k) (hup' : w2.exec .update = .ok w3)
    {a : Ptr} (hal : a ∈ w1.env.list) (hnew : w.heap.length ≤ a) {r : Ptr} (hw : Within w1.heap a r)
    (hr : r < w.heap.length) : w3.heap[r]? = w1.heap[r]? := by
  obtain ⟨w3', hu, hmap3, -, hlist, hold⟩ := C110_meet_partial hh ha hac hl hup hcs hrun hsame
  rw [hup'] at hu
  cases hu
  obtain ⟨hs, hm⟩ := history_map hh
  have g0 : Grown w.heap w := by
    refine ⟨⟨ShapeExt.refl _, fun b o hb ho => absurd (List.getElem?_eq_some_iff.mp ho).1 (not_lt.mpr hb)⟩, ha, hs, ?_⟩
    rintro ⟨k, p⟩ he
    exact hl k p (by rw [← hm]; exact (Env.find_eq_some_iff hs).mpr he)
  have g1 : Grown w.heap w1 := g0.step hac (c := .update) trivial (by simp [World.step, hup])
  have g2 := Grown.steps hac cs g1 hcs hrun
  have g3 : Grown w.heap w3 := g2.step hac (c := .update) trivial (by simp [World.step, hup'])
  have hmap : w2.env.map = w1.env.map := map_ext g2.sorted g1.sorted hsame
  obtain ⟨rank, hrk⟩ := exists_ranked hac
  have hac2 : Acyclic w2.heap := ⟨_, (g2.inv.ranked hrk).child⟩
  -- the two runs
  have hobs : ∀ p ∈ w.env.map.map (·.2), p < w.heap.length := by
    intro p hp
    obtain ⟨e, he, rfl⟩ := List.mem_map.mp hp
    exact g0.old e he
  have hd0 : Disjoint w.heap (w.env.map.map (·.2)) := by
    intro i j p q r hij hi hj h1 h2
    rw [List.getElem?_map] at hi hj
    obtain ⟨e, he, rfl⟩ := Option.map_eq_some_iff.mp hi
    obtain ⟨f, hf, rfl⟩ := Option.map_eq_some_iff.mp hj
    have hem := List.mem_of_getElem? he
    have hfm := List.mem_of_getElem? hf
    refine hdis e.1 f.1 e.2 f.2 r ?_ (by rw [← hm]; exact (Env.find_eq_some_iff hs).mpr hem)
      (by rw [← hm]; exact (Env.find_eq_some_iff hs).mpr hfm) h1 h2
    intro hef
    obtain ⟨he1, he2⟩ := List.getElem?_eq_some_iff.mp he
    obtain ⟨hf1, hf2⟩ := List.getElem?_eq_some_iff.mp hf
    rcases lt_or_gt_of_ne hij with hlt | hlt
    · have := List.pairwise_iff_getElem.mp hs i j he1 hf1 hlt
      rw [he2, hf2, hef] at this
      exact lt_irrefl _ this
    · have := List.pairwise_iff_getElem.mp hs j i hf1 he1 hlt
      rw [he2, hf2, hef] at this
      exact lt_irrefl _ this
  have hwmap : w1.env.map = w.env.map := by
    obtain ⟨_, _, _, _, _, hu⟩ := g0.update hac
    rw [hup] at hu; cases hu; rfl
  have run1 : aggregateObstacles w.heap (w.env.map.map (·.2)) = .ok (w1.heap, w1.env.list) := by
    obtain ⟨k, l, hk⟩ := C07_defined hac hobs
    have hu := hup
    simp only [World.exec, Env.update, g0.mode, if_true, hk, Res.ok_bind] at hu
    cases hu
    exact hk
  have run2 : aggregateObstacles w2.heap (w.env.map.map (·.2)) = .ok (w3.heap, w3.env.list) := by
    have hu := hup'
    simp only [World.exec, Env.update, g2.mode, if_true, Res.bind_eq_ok, hmap, hwmap] at hu
    obtain ⟨x, ⟨y, h1, h2⟩, h3⟩ := hu
    cases h2; cases h3
    exact h1
  have hle := g2.inv.ext.1
  have hobs2 : ∀ p ∈ w.env.map.map (·.2), p < w2.heap.length := fun p hp => lt_of_lt_of_le (hobs p hp) hle
  have hd2 : Disjoint w2.heap (w.env.map.map (·.2)) := by
    intro i j p q r hij hi hj h1 h2
    exact hd0 i j p q r hij hi hj ((g2.inv.ext.within hrk (hobs p (List.mem_of_getElem? hi))).mp h1)
      ((g2.inv.ext.within hrk (hobs q (List.mem_of_getElem? hj))).mp h2)
  -- the member of the aggregate below which `r` is
  obtain ⟨i, hi⟩ := List.mem_iff_getElem?.mp hal
  obtain ⟨q, hq, hqq⟩ := hlist i a hi
  rw [if_neg (not_lt.mpr hnew)] at hqq
  obtain ⟨hq1, hq2⟩ := hqq
  rcases Relation.ReflTransGen.cases_head hw with rfl | ⟨c, ⟨ag, hag, hcm⟩, hcr⟩
  · exact absurd hr (not_lt.mpr hnew)
  have hcl : c < w.heap.length := by
    obtain ⟨ag', e1, e2⟩ := g1.inv.new a _ hnew hag
    cases e1
    exact e2 c hcm
  have hc0 : Within w.heap c r := (g1.inv.ext.within hrk hcl).mp hcr
  have p1 : c ∈ primitives w1.heap a := by simpa [primitives, hag] using hcm
  have p2 : c ∈ primitives w3.heap q := by simpa [primitives, hq2, hag] using hcm
  have r1 := group_ref hac hobs hd0 run1 hal hnew p1 hc0
  have r2 := group_ref hac2 hobs2 hd2 run2 (List.mem_of_getElem? hq) hq1 p2 ((g2.inv.ext.within hrk hcl).mpr hc0)
  have r3 : refOf w3.heap q = refOf w1.heap a := by unfold refOf; rw [hq2]
  obtain ⟨hsh, -⟩ := hold r hr
  have hr1 : r < w1.heap.length := lt_of_lt_of_le hr g1.inv.ext.1
  have hr3 : r < w3.heap.length := lt_of_lt_of_le hr g3.inv.ext.1
  rw [List.getElem?_eq_getElem hr1, List.getElem?_eq_getElem hr3] at hsh ⊢
  simp only [Option.map_some, Option.some.injEq] at hsh ⊢
  refine eq_of_shape_ref hsh ?_
  have := r2.trans (r3.trans r1.symm)
  unfold refOf at this
  rw [List.getElem?_eq_getElem hr1, List.getElem?_eq_getElem hr3] at this
  simpa using this

/-- The push a unit disc with reference point `(c, 0, 0)` gives to an agent at `(0, 2, 0)` that heads for
its centre. -/
theorem head_push (h : Heap ℝ) (s : String) (c : ℝ) (hc : c ^ 2 < 4) (o : Obj ℝ)
    (ho : o = Named s (.ellipsoid (ball ⟨c, 0, 0⟩))) :
    ∃ M B, modulationMatrix h (agentAt ⟨0, 2, 0⟩ ⟨0, -1, 0⟩) o = .ok (M, B, 4) ∧
      M.mulVec ⟨0, -1, 0⟩ = ⟨-(c / 4), -(3 / 4), 0⟩ := by
  subst ho
  set a := agentAt ⟨0, 2, 0⟩ ⟨0, -1, 0⟩ with ha
  have hd : gdist (ball ⟨c, 0, 0⟩) a.margin a.state.position = 4 := by
    show gdist (ball ⟨c, 0, 0⟩) 0 ⟨0, 2, 0⟩ = 4
    rw [ball_dist]; norm_num
  have hin : gdist (ball ⟨c, 0, 0⟩) a.margin ⟨c, 0, 0⟩ < gdist (ball ⟨c, 0, 0⟩) a.margin a.state.position := by
    rw [hd]
    show gdist (ball ⟨c, 0, 0⟩) 0 ⟨c, 0, 0⟩ < 4
    rw [ball_dist]; simpa using hc
  have hpl : InPlane (ball ⟨c, 0, 0⟩) a.state.position ⟨c, 0, 0⟩ :=
    ⟨⟨0, 2, (ball_apply _ _).symm⟩, ⟨c, 0, (ball_apply _ _).symm⟩⟩
  obtain ⟨M, B, h1, h2⟩ := C36_reference h a (ball ⟨c, 0, 0⟩) 1 (ball_smooth _) ⟨c, 0, 0⟩ rfl hin
  obtain ⟨M', B', h3, h4⟩ := C36_tangent_partial h a (ball ⟨c, 0, 0⟩) 1 (ball_smooth _) ⟨c, 0, 0⟩ rfl hin (.inl hpl)
  rw [h1] at h3
  cases h3
  have hsl : Slope (ball ⟨c, 0, 0⟩) a.margin a.state.position ⟨1, 0, 0⟩ 0 := by
    show HasDerivAt (fun t : ℝ => gdist (ball ⟨c, 0, 0⟩) 0 ((⟨0, 2, 0⟩ : V3 ℝ) + V3.smul t ⟨1, 0, 0⟩)) 0 0
    have he : (fun t : ℝ => gdist (ball ⟨c, 0, 0⟩) 0 ((⟨0, 2, 0⟩ : V3 ℝ) + V3.smul t ⟨1, 0, 0⟩)) = fun t => t ^ 2 + 4 := by
      funext t
      rw [ball_dist]
      simp [V3.smul]; ring
    rw [he]
    simpa using ((hasDerivAt_pow 2 (0 : ℝ)).add_const 4)
  have h5 := h4 _ hsl
  rw [hd] at h1 h2 h5
  refine ⟨M, B, by rw [named_matrix]; exact h1, ?_⟩
  have hv : (⟨0, -1, 0⟩ : V3 ℝ) = V3.smul (-(1 / 2)) (a.state.position - ⟨c, 0, 0⟩) + V3.smul (-(c / 2)) ⟨1, 0, 0⟩ := by
    show (⟨0, -1, 0⟩ : V3 ℝ) = V3.smul (-(1 / 2)) ((⟨0, 2, 0⟩ : V3 ℝ) - ⟨c, 0, 0⟩) + V3.smul (-(c / 2)) ⟨1, 0, 0⟩
    ext <;> simp [V3.smul]; ring
  rw [hv, M3.mulVec_add, M3.mulVec_smul, M3.mulVec_smul, h2, h5]
  show V3.smul (-(1 / 2)) (V3.smul _ ((⟨0, 2, 0⟩ : V3 ℝ) - ⟨c, 0, 0⟩)) + _ = _
  rw [max_eq_right (by norm_num), min_eq_right (by norm_num)]
  ext <;> simp [V3.smul] <;> ring

/-- The velocity of that agent when this disc is the only obstacle. -/
theorem head_pushed (h : Heap ℝ) (e : Env) (s : String) (c critical power : ℝ) (hc : c ^ 2 < 4) (p : Ptr)
    (hl : e.list = [p]) (hp : h[p]? = some (Named s (.ellipsoid (ball ⟨c, 0, 0⟩)))) :
    ∃ out, modulateVelocity h (agentAt ⟨0, 2, 0⟩ ⟨0, -1, 0⟩) e false false false critical power = .ok (h, out) ∧
      V3.norm (out - ⟨-(c / 4), -(3 / 4), 0⟩) ≤ 1 / 10 ^ 8 * V3.norm (⟨-(c / 4), -(3 / 4), 0⟩ : V3 ℝ) := by
  obtain ⟨M, B, h1, h2⟩ := head_push h s c hc _ rfl
  obtain ⟨out, h3, -, h4⟩ := C39_single h (agentAt ⟨0, 2, 0⟩ ⟨0, -1, 0⟩) e false critical power p _ M B 4 hl hp
    ⟨rfl, rfl⟩ ((ball_smooth (⟨c, 0, 0⟩ : V3 ℝ)).unit) h1 rfl (fun hf => by cases hf)
  have hv : (agentAt ⟨0, 2, 0⟩ ⟨0, -1, 0⟩).state.linearVelocity = (⟨0, -1, 0⟩ : V3 ℝ) := rfl
  rw [hv, h2] at h4
  exact ⟨out, h3, h4⟩

private theorem abs_x_le (v : V3 ℝ) : |v.x| ≤ V3.norm v := by
  have h := V3.norm_nonneg v
  have h2 := V3.norm_sq v
  simp only [V3.sqNorm, V3.dot] at h2
  refine abs_le_of_sq_le_sq ?_ h
  nlinarith [mul_self_nonneg v.y, mul_self_nonneg v.z]

private theorem norm_push {c : ℝ} (hc : c ^ 2 ≤ 1) : V3.norm (⟨-(c / 4), -(3 / 4), 0⟩ : V3 ℝ) ≤ 1 := by
  have h2 := V3.norm_sq (⟨-(c / 4), -(3 / 4), 0⟩ : V3 ℝ)
  simp only [V3.sqNorm, V3.dot] at h2
  nlinarith [V3.norm_nonneg (⟨-(c / 4), -(3 / 4), 0⟩ : V3 ℝ)]

/-- C110: the full statement fails with aggregation.  A disc "a" stands alone in the environment; a second
disc "b" that meets it is added, the environment updated, "b" removed and the environment updated
again.  The environment then has the same obstacles under the same names and the same list, but "a"
keeps the reference point it got from the aggregate, and an agent that was slowed down straight ahead
is now pushed aside. -/
theorem C110_negation : ∃ (h : Heap ℝ) (w1 w2 : World ℝ) (a : Agent ℝ) (out1 out2 : V3 ℝ),
    [Call.add 0, .update].foldlM World.exec (World.init h true) = .ok w1 ∧
    [Call.add 1, .update, .remove "b", .update].foldlM World.exec w1 = .ok w2 ∧
    (∀ k, w2.env.lookup w2.heap k = w1.env.lookup w1.heap k) ∧ w2.env.list = w1.env.list ∧
    modulateVelocity w1.heap a w1.env false false false 1 2 = .ok (w1.heap, out1) ∧
    modulateVelocity w2.heap a w2.env false false false 1 2 = .ok (w2.heap, out2) ∧
    -(1 / 100) < out1.x ∧ out2.x < -(1 / 10) := by
  obtain ⟨h1, g, hrun, hac, hnew, -, hh0, hh1⟩ := two_update (ea := circ "a" V3.zero 1) (eb := circ "b" ⟨1, 0, 0⟩ 10)
    (circ_meet (by norm_num) (by norm_num [V3.zero]))
  have hm : mean [(circ "a" V3.zero 1).base.position, (circ "b" ⟨1, 0, 0⟩ 10).base.position] = ⟨1 / 2, 0, 0⟩ := by
    ext <;> simp [mean, circ, Ellipsoid.ofBase, Base.mkPos, Base.position, State.position,
      State.ofPosition, Pose.ofPosition, V3.zero]
  rw [hm] at hh0
  set h0 : Heap ℝ := [.ellipsoid (circ "a" V3.zero 1), .ellipsoid (circ "b" ⟨1, 0, 0⟩ 10)] with hh0'
  have hac0 : Acyclic h0 := acyclic_flat (by
    intro p a hp
    match p with
    | 0 => simp [hh0'] at hp
    | 1 => simp [hh0'] at hp
    | n + 2 => simp [hh0'] at hp)
  have hone : ∀ {k : Heap ℝ}, Acyclic k → 0 < k.length → aggregateObstacles k [0] = .ok (k, [0]) := by
    intro k hk hl
    refine C06_no_meets hk (by simpa using hl) ?_
    rintro i j ⟨hij, p, q, op, oq, hp, hq, -⟩
    have h2 := (List.getElem?_eq_some_iff.mp hq).1
    simp at h2
    omega
  have hl1 : 0 < h1.length := (List.getElem?_eq_some_iff.mp hh0).1
  have r0 := hone hac0 (by simp [hh0'])
  have r1 := hone hac hl1
  have n0 : h0[0]? = some (Named "a" (.ellipsoid (ball ⟨0, 0, 0⟩))) := by
    simp [hh0', Named, circ, ball, Ellipsoid.ofBase, Base.mkPos, Base.mkRef, Base.setName, V3.zero, V3.const]
  replace hh0 : h1[0]? = some (Named "a" (.ellipsoid (ball ⟨1 / 2, 0, 0⟩))) := by
    rw [hh0]
    simp [Named, circ, ball, Ellipsoid.ofBase, Base.mkPos, Base.mkRef, Base.setName, V3.zero, V3.const]
  obtain ⟨out1, o1, b1⟩ := head_pushed h0 ⟨[("a", 0)], true, [0]⟩ "a" 0 1 2 (by norm_num) 0 rfl n0
  obtain ⟨out2, o2, b2⟩ := head_pushed h1 ⟨[("a", 0)], true, [0]⟩ "a" (1 / 2) 1 2 (by norm_num) 0 rfl hh0
  refine ⟨h0, ⟨h0, ⟨[("a", 0)], true, [0]⟩⟩, ⟨h1, ⟨[("a", 0)], true, [0]⟩⟩, _, out1, out2, ?_, ?_, ?_, rfl, o1, o2, ?_, ?_⟩
  · have e : [Call.add 0].foldlM World.exec (World.init h0 true) = .ok ⟨h0, ⟨[("a", 0)], true, []⟩⟩ := rfl
    have : [Call.add 0, .update] = [Call.add 0] ++ [.update (α := ℝ)] := rfl
    rw [this, List.foldlM_append, e, Res.ok_bind]
    simp [World.exec, Env.update, r0]
  · have e : [Call.add 1].foldlM World.exec (⟨h0, ⟨[("a", 0)], true, [0]⟩⟩ : World ℝ)
        = .ok ⟨h0, ⟨[("a", 0), ("b", 1)], true, [0]⟩⟩ := rfl
    have : [Call.add 1, .update, .remove "b", .update] = [Call.add 1] ++ [.update (α := ℝ), .remove "b", .update] := rfl
    rw [this, List.foldlM_append, e, Res.ok_bind]
    have e2 : (⟨h0, ⟨[("a", 0), ("b", 1)], true, [0]⟩⟩ : World ℝ).exec .update
        = .ok ⟨h1, ⟨[("a", 0), ("b", 1)], true, [g]⟩⟩ := by
      simp [World.exec, Env.update, hrun]
    have e3 : (⟨h1, ⟨[("a", 0), ("b", 1)], true, [g]⟩⟩ : World ℝ).exec (.remove "b")
        = .ok ⟨h1, ⟨[("a", 0)], true, [g]⟩⟩ := rfl
    have e4 : (⟨h1, ⟨[("a", 0)], true, [g]⟩⟩ : World ℝ).exec .update = .ok ⟨h1, ⟨[("a", 0)], true, [0]⟩⟩ := by
      simp [World.exec, Env.update, r1]
    simp only [List.foldlM_cons, List.foldlM_nil, e2, e3, e4, Res.ok_bind]
    rfl
  · intro k
    have hn : ∀ {k' : Heap ℝ} {o : Obj ℝ}, k'[0]? = some o → o.name = "a" →
        Env.lookup k' ⟨[("a", 0)], true, [0]⟩ k = if k = "a" then .ok 0 else .throw (.notInEnvironment k) := by
      intro k' o hk ho
      by_cases hka : k = "a"
      · subst hka; rfl
      · have hf : Env.find [("a", (0 : Ptr))] k = none := by
          simp [Env.find, Ne.symm hka]
        simp [Env.lookup, Env.lookupSlot, hf, Env.findInList, Heap.deref, hk, ho, Ne.symm hka, hka]
    rw [hn n0 rfl, hn hh0 rfl]
  · have h2 := (abs_le.mp (abs_x_le (out1 - ⟨-(0 / 4), -(3 / 4), 0⟩))).1
    have h3 := norm_push (c := 0) (by norm_num)
    have h4 : (out1 - (⟨-(0 / 4), -(3 / 4), 0⟩ : V3 ℝ)).x = out1.x := by simp
    rw [h4] at h2
    linarith
  · have h2 := (abs_le.mp (abs_x_le (out2 - ⟨-((1 / 2) / 4), -(3 / 4), 0⟩))).2
    have h3 := norm_push (c := 1 / 2) (by norm_num)
    have h4 : (out2 - (⟨-((1 / 2) / 4), -(3 / 4), 0⟩ : V3 ℝ)).x = out2.x + 1 / 8 := by simp; norm_num
    rw [h4] at h2
    linarith

/-! ### the hypotheses can be met -/

/-- A call that throws (removing what is not there) included. -/
example : ∃ (es : List Event) (w w1 w2 w3 : World ℝ) (cs : List (Call ℝ)), History (World.init twoObs false) es w ∧
    w.env.aggregated = false ∧ w.exec .update = .ok w1 ∧ cs = [.add 1, .update, .remove "z", .get "b", .remove "b"] ∧
    (∀ c ∈ cs, OfEnv c) ∧ cs.foldlM World.step w1 = .ok w2 ∧ w2.exec .update = .ok w3 ∧
    (∀ k, w3.env.lookup w3.heap k = w1.env.lookup w1.heap k) ∧ w1.env.list = [0] := by
  refine ⟨_, ⟨twoObs, ⟨[("a", 0)], false, []⟩⟩, ⟨twoObs, ⟨[("a", 0)], false, [0]⟩⟩,
    ⟨twoObs, ⟨[("a", 0)], false, [0, 1]⟩⟩, ⟨twoObs, ⟨[("a", 0)], false, [0]⟩⟩, _,
    (History.start).call (.add 0) rfl, rfl, rfl, rfl, ?_, rfl, rfl, fun k => rfl, rfl⟩
  intro c hc
  simp only [List.mem_cons, List.not_mem_nil, or_false] at hc
  rcases hc with rfl | rfl | rfl | rfl | rfl <;> trivial

/-- Two discs that do not meet. -/
noncomputable def aloof : Heap ℝ := [.ellipsoid (circ "a" V3.zero 1), .ellipsoid (circ "b" ⟨100, 0, 0⟩ 1)]

theorem aloof_scattered : Scattered aloof (· < 2) := by
  refine ⟨fun p hp => hp, ?_⟩
  have key : ∀ p q op oq, @LT.lt Nat _ p 2 → @LT.lt Nat _ q 2 → @Ne Nat p q → aloof[p]? = some op → aloof[q]? = some oq →
      aloof.isIntersecting op oq ≠ .ok true := by
    intro p q op oq hp hq hpq hop hoq
    have h1 : (circ "a" V3.zero 1).isIntersectingEllipsoid (circ "b" ⟨100, 0, 0⟩ 1) = .ok false :=
      circ_apart (by norm_num) (by norm_num) (by norm_num [V3.zero])
    have h2 : (circ "b" ⟨100, 0, 0⟩ 1).isIntersectingEllipsoid (circ "a" V3.zero 1) = .ok false :=
      UnitTests.circ_apart' (by norm_num) (by norm_num) (by norm_num [V3.zero])
    match p, q, hp, hq, hpq, hop, hoq with
    | 0, 1, _, _, _, hop, hoq =>
      simp only [aloof, List.getElem?_cons_zero, List.getElem?_cons_succ, Option.some.injEq] at hop hoq
      subst hop hoq
      intro hi
      have hi : (circ "a" V3.zero 1).isIntersectingEllipsoid (circ "b" ⟨100, 0, 0⟩ 1) = .ok true := hi
      rw [h1] at hi; cases hi
    | 1, 0, _, _, _, hop, hoq =>
      simp only [aloof, List.getElem?_cons_zero, List.getElem?_cons_succ, Option.some.injEq] at hop hoq
      subst hop hoq
      intro hi
      have hi : (circ "b" ⟨100, 0, 0⟩ 1).isIntersectingEllipsoid (circ "a" V3.zero 1) = .ok true := hi
      rw [h2] at hi; cases hi
    | 0, 0, _, _, hpq, _, _ => exact absurd rfl hpq
    | 1, 1, _, _, hpq, _, _ => exact absurd rfl hpq
    | n + 2, _, hp, _, _, _, _ => omega
    | _, n + 2, _, hq, _, _, _ => omega
  exact fun p q op oq hp hq hpq => key p q op oq hp hq hpq

example : ∃ (es : List Event) (w w1 w2 w3 : World ℝ) (cs : List (Call ℝ)), History (World.init aloof true) es w ∧
    w.env.aggregated = true ∧ Acyclic w.heap ∧ Scattered w.heap (· < 2) ∧
    (∀ k p, live es k = some p → p < 2 ∧ nameOf w.heap p = k) ∧ w.exec .update = .ok w1 ∧
    cs = [.add 1, .update, .remove "z", .get "b", .remove "b"] ∧
    (∀ c ∈ cs, Within' (· < 2) c) ∧ cs.foldlM World.step w1 = .ok w2 ∧ w2.exec .update = .ok w3 ∧
    (∀ k, w3.env.lookup w3.heap k = w1.env.lookup w1.heap k) ∧ w1.env.list = [0] := by
  have hac : Acyclic aloof := acyclic_flat (by
    intro p a hp
    match p with
    | 0 => simp [aloof] at hp
    | 1 => simp [aloof] at hp
    | n + 2 => simp [aloof] at hp)
  have hh : History (World.init aloof true) _ ⟨aloof, ⟨[("a", 0)], true, []⟩⟩ := (History.start).call (.add 0) rfl
  have k1 : ∀ l, Kept aloof (· < 2) (⟨aloof, ⟨[("a", 0)], true, l⟩⟩ : World ℝ) := fun l =>
    ⟨rfl, rfl, by simp [Env.SortedKeys], by
      intro e he
      simp only [List.mem_cons, List.not_mem_nil, or_false] at he
      subst he
      exact ⟨by decide, rfl⟩⟩
  have sc := aloof_scattered
  have k2 : Kept aloof (· < 2) (⟨aloof, ⟨[("a", 0), ("b", 1)], true, [0]⟩⟩ : World ℝ) :=
    (k1 [0]).step hac sc (c := .add 1) (show (1 : Nat) < 2 by decide) rfl
  have u1 := (k1 []).updates hac sc
  have u2 := k2.updates hac sc
  have u3 := (k1 [0, 1]).updates hac sc
  obtain ⟨hs, hm⟩ := history_map hh
  refine ⟨_, _, _, ⟨aloof, ⟨[("a", 0)], true, [0, 1]⟩⟩, ⟨aloof, ⟨[("a", 0)], true, [0]⟩⟩, _, hh, rfl, hac, sc, ?_, u1, rfl,
    ?_, ?_, u3, fun k => rfl, rfl⟩
  · intro k p hk
    rw [← hm] at hk
    have := (Env.find_eq_some_iff hs).mp hk
    simp only [List.mem_cons, Prod.mk.injEq, List.not_mem_nil, or_false] at this
    obtain ⟨rfl, rfl⟩ := this
    exact ⟨by decide, rfl⟩
  · intro c hc
    simp only [List.mem_cons, List.not_mem_nil, or_false] at hc
    rcases hc with rfl | rfl | rfl | rfl | rfl
    · exact (show (1 : Nat) < 2 by decide)
    all_goals trivial
  · have e1 : (⟨aloof, ⟨[("a", 0)], true, [0]⟩⟩ : World ℝ).step (.add 1)
        = .ok ⟨aloof, ⟨[("a", 0), ("b", 1)], true, [0]⟩⟩ := rfl
    have e2 : (⟨aloof, ⟨[("a", 0), ("b", 1)], true, [0]⟩⟩ : World ℝ).step .update
        = .ok ⟨aloof, ⟨[("a", 0), ("b", 1)], true, [0, 1]⟩⟩ := by
      rw [World.step, u2]; rfl
    have e3 : [Call.remove "z", .get "b", .remove "b"].foldlM World.step
        (⟨aloof, ⟨[("a", 0), ("b", 1)], true, [0, 1]⟩⟩ : World ℝ) = .ok ⟨aloof, ⟨[("a", 0)], true, [0, 1]⟩⟩ := rfl
    have : [Call.add 1, .update, .remove "z", .get "b", .remove "b"]
        = [Call.add (α := ℝ) 1, .update] ++ [.remove "z", .get "b", .remove "b"] := rfl
    rw [this, List.foldlM_append]
    simp only [List.map_cons, List.map_nil, List.foldlM_cons, List.foldlM_nil, e1, e2, Res.ok_bind] at e3 ⊢
    exact e3

/-- Two discs that meet; the second is removed, the environment updated, and the disc added again. -/
example : ∃ (es : List Event) (w w1 w2 : World ℝ) (cs : List (Call ℝ)) (a : Ptr), History (World.init pair true) es w ∧
    w.env.aggregated = true ∧ Acyclic w.heap ∧ (∀ k p, live es k = some p → p < w.heap.length) ∧
    (∀ k k' p q r, k ≠ k' → live es k = some p → live es k' = some q → Within w.heap p r → ¬ Within w.heap q r) ∧
    w.exec .update = .ok w1 ∧ cs = [.remove "b", .update, .add 1] ∧ (∀ c ∈ cs, Within' (· < w.heap.length) c) ∧
    cs.foldlM World.step w1 = .ok w2 ∧ (∀ k, Env.find w2.env.map k = Env.find w1.env.map k) ∧
    w1.env.list = [a] ∧ w2.env.list = [0] ∧ (primitives w1.heap a).Perm [0, 1] := by
  obtain ⟨h1, a, hrun, hac1, hnew, hprims, hh0, hh1⟩ := two_update pair_meet
  have hac : Acyclic pair := acyclic_flat (by
    intro p a hp
    match p with
    | 0 => simp [pair] at hp
    | 1 => simp [pair] at hp
    | n + 2 => simp [pair] at hp)
  have hh : History (World.init pair true) _ ⟨pair, ⟨[("a", 0), ("b", 1)], true, []⟩⟩ :=
    ((History.start).call (.add 0) rfl).call (.add 1) rfl
  obtain ⟨hs, hm⟩ := history_map hh
  have hrun' : aggregateObstacles pair [0, 1] = .ok (h1, [a]) := hrun
  have hl1 : 0 < h1.length := (List.getElem?_eq_some_iff.mp hh0).1
  have hone : aggregateObstacles h1 [0] = .ok (h1, [0]) := by
    refine C06_no_meets hac1 (by simpa using hl1) ?_
    rintro i j ⟨hij, p, q, op, oq, hp, hq, -⟩
    have h2 := (List.getElem?_eq_some_iff.mp hq).1
    simp at h2
    omega
  refine ⟨_, _, ⟨h1, ⟨[("a", 0), ("b", 1)], true, [a]⟩⟩, ⟨h1, ⟨[("a", 0), ("b", 1)], true, [0]⟩⟩, _, a, hh, rfl, hac, ?_, ?_,
    by simp [World.exec, Env.update, hrun'], rfl, ?_, ?_, fun k => rfl, rfl, rfl, hprims⟩
  · intro k p hk
    rw [← hm] at hk
    have := (Env.find_eq_some_iff hs).mp hk
    simp only [List.mem_cons, Prod.mk.injEq, List.not_mem_nil, or_false] at this
    rcases this with ⟨-, rfl⟩ | ⟨-, rfl⟩ <;> simp [pair]
  · intro k k' p q r hk hp hq h1 h2
    have hself : ∀ {p r : Ptr}, Within pair p r → r = p := by
      intro p r hw
      rcases Relation.ReflTransGen.cases_head hw with rfl | ⟨c, ⟨ag, hag, -⟩, -⟩
      · rfl
      · match p with
        | 0 => simp [pair] at hag
        | 1 => simp [pair] at hag
        | n + 2 => simp [pair] at hag
    have hpq : p = q := (hself h1).symm.trans (hself h2)
    rw [← hm] at hp hq
    have h3 := (Env.find_eq_some_iff hs).mp hp
    have h4 := (Env.find_eq_some_iff hs).mp hq
    simp only [List.mem_cons, Prod.mk.injEq, List.not_mem_nil, or_false] at h3 h4
    rcases h3 with ⟨rfl, rfl⟩ | ⟨rfl, rfl⟩ <;> rcases h4 with ⟨rfl, rfl⟩ | ⟨rfl, rfl⟩ <;> first | exact hk rfl | cases hpq
  · intro c hc
    simp only [List.mem_cons, List.not_mem_nil, or_false] at hc
    rcases hc with rfl | rfl | rfl
    · trivial
    · trivial
    · simp [Within', pair]
  · have e1 : (⟨h1, ⟨[("a", 0), ("b", 1)], true, [a]⟩⟩ : World ℝ).step (.remove "b")
        = .ok ⟨h1, ⟨[("a", 0)], true, [a]⟩⟩ := rfl
    have e2 : (⟨h1, ⟨[("a", 0)], true, [a]⟩⟩ : World ℝ).step .update = .ok ⟨h1, ⟨[("a", 0)], true, [0]⟩⟩ := by
      simp [World.step, World.exec, Env.update, hone]
    have e3 : (⟨h1, ⟨[("a", 0)], true, [0]⟩⟩ : World ℝ).step (.add 1)
        = .ok ⟨h1, ⟨[("a", 0), ("b", 1)], true, [0]⟩⟩ := by
      simp only [World.step, World.exec, Env.addObstacle, Heap.deref, hh1, Res.ok_bind]
      rfl
    simp only [List.foldlM_cons, List.foldlM_nil, e1, e2, e3, Res.ok_bind]
    rfl

end DOA.Props
