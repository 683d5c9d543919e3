import Verif.Props.AddressLoop

/-!
# C91: calling `update` in every iteration does not change the motion of the agent

While no obstacle moves, `update` builds its aggregates anew in every iteration. The new aggregates equal the old ones, so
that the agent moves exactly as with a single call of `update` before the loop.
-/

set_option linter.unusedSectionVars false
set_option linter.unusedSimpArgs false

namespace DOA.Props
open DOA DOA.Spec DOA.Modulation DOA.Aggregation

variable {α : Type} [Add α] [Sub α] [Mul α] [Div α] [Neg α] [Zero α] [One α]
  [LE α] [LT α] [DecidableLE α] [DecidableLT α] [CMath α]

/-- What `update` lists is made of the obstacles. -/
private theorem within_listed {h h1 : Heap α} (ha : Acyclic h) {obs l : List Ptr} (hobs : ∀ p ∈ obs, p < h.length)
    (hrun : aggregateObstacles h obs = .ok (h1, l)) {q r : Ptr} (hq : q ∈ l) (hw : Within h1 q r) (hr : r < h.length) :
    reach h obs r := by
  obtain ⟨rank, hrk⟩ := exists_ranked ha
  obtain ⟨h', aggs, idx, e, hI⟩ := aggregateObstacles_ok hrk hobs
  rw [hrun] at e
  cases e
  have old : ∀ x ∈ obs, Within h1 x r → reach h obs r := fun x hx hw =>
    ⟨x, hx, (hI.heap.ext.within hrk (hobs x hx)).mp hw⟩
  rcases List.mem_append.mp hq with hq | hq
  · obtain ⟨m, hm⟩ := List.mem_iff_getElem?.mp hq
    obtain ⟨h2, ag, h3, h4⟩ := hI.agg m q hm
    rcases Relation.ReflTransGen.cases_head hw with rfl | ⟨x, ⟨ag', hx1, hx2⟩, hx3⟩
    · exact absurd hr (not_lt.mpr h2)
    · simp only at h3
      rw [h3] at hx1
      cases hx1
      have := (h4.pre (members_lt hobs)).perm.mem_iff.mp hx2
      obtain ⟨k, k1, -⟩ := mem_members.mp this
      exact old x (List.mem_of_getElem? k1) hx3
  · obtain ⟨k, k1, -⟩ := mem_members.mp hq
    exact old q (List.mem_of_getElem? k1) hw

/-- The obstacles, wherever they were changed in reference positions only, are reached in the same way. -/
private theorem within_keepsOn {h k : Heap α} {obs : List Ptr} (s : KeepsOn (reach h obs) h k) (ha : Acyclic h)
    (hobs : ∀ p ∈ obs, p < h.length) {p r : Ptr} (hp : p ∈ obs) : Within k p r ↔ Within h p r := by
  obtain ⟨rank, hrk⟩ := ha
  have lt : ∀ x, Within h p x → x < h.length := by
    intro x hx
    rcases Relation.ReflTransGen.cases_tail hx with rfl | ⟨y, -, hy⟩
    · exact hobs _ hp
    · exact (hrk y x hy).1
  have ch : ∀ x y, Within h p x → (Child k x y ↔ Child h x y) := by
    intro x y hx
    obtain ⟨o1, e1, e2⟩ := s x _ ⟨p, hp, hx⟩ (List.getElem?_eq_getElem (lt x hx))
    constructor
    · rintro ⟨a, k1, k2⟩
      rw [e1] at k1
      cases k1
      obtain ⟨b, hb, hb'⟩ := prims_of_shape e2.symm
      exact ⟨b, by rw [List.getElem?_eq_getElem (lt x hx), hb], hb' ▸ k2⟩
    · rintro ⟨a, k1, k2⟩
      rw [List.getElem?_eq_getElem (lt x hx)] at k1
      cases k1' : h[x]'(lt x hx) <;> rw [k1'] at k1 <;> cases k1
      rw [k1'] at e2
      obtain ⟨b, rfl, hb'⟩ := prims_of_shape e2
      exact ⟨b, e1, hb' ▸ k2⟩
  constructor
  · intro hw
    induction hw with
    | refl => exact .refl
    | tail _ hc ih => exact ih.tail ((ch _ _ ih).mp hc)
  · intro hw
    induction hw with
    | refl => exact .refl
    | tail hb hc ih => exact ih.tail ((ch _ _ hb).mpr hc)

/-- The loop with `update` in every iteration, at the beginning of an iteration, beside the loop without. `h` is the heap
before the first `update`, `h1` the heap after it, `l` the list. -/
private structure Beside (h h1 : Heap α) (obs l : List Ptr) (s s' : Heap α × Agent α) : Prop where
  agent : s.2 = s'.2
  acyclic : Acyclic s.1
  acyclic' : Acyclic s'.1
  shape : ∀ r, s.2.envelope ≠ some r → (s.1[r]?).map Spec.shape = (h1[r]?).map Spec.shape
  keeps : KeepsOn (reach h obs) h s'.1
  envelope : ∀ p, s.2.envelope = some p → p < h.length ∧ (∀ q ∈ obs, ¬ Within h q p) ∧ ∃ e, s.1[p]? = some (.ellipsoid e) ∧
    s'.1[p]? = some (.ellipsoid e)
  refs : ∀ p ∈ l, p < h.length → refOf s'.1 p = refOf s.1 p
  fixed : ∀ (q : Ptr) (ag : Aggregate α), h1[q]? = some (.aggregate ag) → s.1[q]? = some (.aggregate ag)

private theorem forall₂_diag {β : Type} {R : β → β → Prop} : ∀ {l : List β}, List.Forall₂ R l l → ∀ x ∈ l, R x x
  | [], _, _, h => absurd h List.not_mem_nil
  | _ :: _, .cons h1 h2, x, hx => by
    rcases List.mem_cons.mp hx with rfl | hx
    · exact h1
    · exact forall₂_diag h2 x hx

private theorem forall₂_split {β γ : Type} {R : β → γ → Prop} : ∀ {a : List β} {b : List γ} {c : List β} {d : List γ},
    a.length = b.length → List.Forall₂ R (a ++ c) (b ++ d) → List.Forall₂ R a b ∧ List.Forall₂ R c d
  | [], [], _, _, _, h => ⟨.nil, h⟩
  | _ :: _, _ :: _, _, _, hl, .cons h1 h2 => by
    obtain ⟨k1, k2⟩ := forall₂_split (by simpa using hl) h2
    exact ⟨.cons h1 k1, k2⟩
  | [], _ :: _, _, _, hl, _ => by simp at hl
  | _ :: _, [], _, _, hl, _ => by simp at hl

/-- The `update` at the beginning of an iteration. -/
private theorem Beside.update {h h1 : Heap α} (ha : Acyclic h) {obs l : List Ptr} (hobs : ∀ p ∈ obs, p < h.length)
    (hd : Apart h obs) (hrun : aggregateObstacles h obs = .ok (h1, l)) {s s' : Heap α × Agent α}
    (b : Beside h h1 obs l s s') :
    ∃ g1 l', aggregateObstacles s'.1 obs = .ok (g1, l') ∧ Paired l l' s (g1, s'.2) ∧ ShapeExt s'.1 g1 ∧
      ∃ A A' rem, l = A ++ rem ∧ l' = A' ++ rem ∧ A.length = A'.length ∧ ∀ q ∈ A, h.length ≤ q := by
  have hAt : List.Forall₂ (At h s'.1) obs obs := by
    refine List.forall₂_same.mpr fun p hp => ?_
    have hp' := List.getElem?_eq_getElem (hobs p hp)
    exact at_keepsOn (closed_reach h obs) (closed_reach h obs) (fun p o _ ho => ⟨o, ho, rfl⟩) b.keeps ha
      ⟨p, hp, .refl⟩ ⟨p, hp, .refl⟩ ⟨_, _, hp', hp', alike_refl ha _ _ hp'⟩
  obtain ⟨k1, g1, A, A', idx, e1, e2, e3, e4, e5, e6, e7, e8⟩ := aggregateObstacles_alike ha b.acyclic' hAt
  rw [hrun] at e1
  cases e1
  have hobs' := (forall₂_lt hAt).2
  obtain ⟨rank, hrk⟩ := exists_ranked ha
  obtain ⟨rank', hrk'⟩ := exists_ranked b.acyclic'
  have hac1 : Acyclic h1 := ⟨_, (e7.ranked hrk).child⟩
  have hwk : ∀ {p r : Ptr}, p ∈ obs → (Within s'.1 p r ↔ Within h p r) := fun hp => within_keepsOn b.keeps ha hobs hp
  have hd' : Aggregation.Disjoint s'.1 obs := fun i j p q r hij hi hj h2 h3 =>
    hd i j p q r hij hi hj ((hwk (List.mem_of_getElem? hi)).mp h2) ((hwk (List.mem_of_getElem? hj)).mp h3)
  have own1 : ∀ p, s.2.envelope = some p → ∀ q ∈ A ++ remaining obs idx, ¬ Within h1 q p := by
    intro p hp q hq hw
    obtain ⟨c1, c2, -⟩ := b.envelope p hp
    obtain ⟨x, hx, hxw⟩ := within_listed ha hobs hrun hq hw c1
    exact c2 x hx hxw
  have keepA : KeepsOn (reach h1 (A ++ remaining obs idx)) h1 s.1 := by
    rintro r o ⟨q, hq, hw⟩ ho
    have := b.shape r (fun hr => own1 r hr q hq hw)
    rw [ho] at this
    cases hr : s.1[r]? with
    | none => rw [hr] at this; cases this
    | some u =>
      rw [hr] at this
      exact ⟨u, rfl, Option.some.inj this⟩
  have ident : KeepsOn (fun _ => True) g1 g1 := fun p o _ ho => ⟨o, ho, rfl⟩
  have cl : Closed g1 (fun _ => True) := fun _ _ _ _ => trivial
  have wA : ∀ {q r : Ptr}, q ∈ A ++ remaining obs idx → (Within s.1 q r ↔ Within h1 q r) := fun hq =>
    within_keepsOn keepA hac1 (fun x hx => by
      rcases List.mem_append.mp hx with hx | hx
      · obtain ⟨n, hn⟩ := List.mem_iff_getElem?.mp hx
        obtain ⟨c, -, o, o', hc, -⟩ := forall₂_get e3 n x hn
        exact (List.getElem?_eq_some_iff.mp hc).1
      · exact lt_of_lt_of_le (hobs x (remaining_mem hx)) e7.ext.1) hq
  refine ⟨g1, _, e2, ⟨b.acyclic, ⟨_, (e8.ranked hrk').child⟩, ?_, ?_, ?_, ?_, ?_⟩, e8.ext, A, A', _, rfl, rfl,
    e3.length_eq, e5⟩
  · refine List.rel_append ((forall₂_mem e3).imp fun q q' hq => ?_) (List.forall₂_same.mpr fun p hp => ?_)
    · have hq1 := List.mem_append_left (remaining obs idx) hq.2.1
      refine twin_keepsOn (closed_reach h1 _) cl keepA ident hac1 ⟨q, hq1, .refl⟩ trivial hq.1 ?_ rfl
      obtain ⟨o, o', k1, -⟩ := hq.1
      obtain ⟨ag, rfl, -⟩ := e7.new q o (e5 q hq.2.1) k1
      simp only [refOf, b.fixed q ag k1, k1]
    · have hp1 := List.mem_append_right A hp
      have hlt := hobs p (remaining_mem hp)
      obtain ⟨u, u', k1, k2, k3⟩ := at_keepsOn (closed_reach h1 _) cl keepA ident hac1 ⟨p, hp1, .refl⟩ trivial
        (forall₂_diag e4 p hp)
      refine ⟨u, u', k1, k2, ?_, k3⟩
      have c1 := b.refs p hp1 hlt
      have c2 := aggregateObstacles_alone b.acyclic' hobs' hd' e2 (List.mem_append_right A' hp)
        (hobs' p (remaining_mem hp))
      simp only [refOf, ← c2, k1, k2, Option.bind_some] at c1
      exact c1.symm
  · rw [b.agent]; exact ⟨rfl, rfl, rfl⟩
  · cases hE : s.2.envelope with
    | none => exact .inl ⟨hE, by rw [← b.agent]; exact hE⟩
    | some p =>
      obtain ⟨c1, c2, e, c3, c4⟩ := b.envelope p hE
      refine .inr ⟨p, p, hE, by rw [← b.agent]; exact hE, .ellipsoid e, .ellipsoid e, c3, ?_, rfl, .ellipsoid _ _ rfl⟩
      have hp := (List.getElem?_eq_some_iff.mp c4).1
      rw [aggregateObstacles_other b.acyclic' hobs' e2 hp (fun q hq hw => c2 q hq ((hwk hq).mp hw)), c4]
  · intro p hp q hq
    rw [wA hq]
    exact own1 p hp q hq
  · intro p hp q hq hw
    obtain ⟨c1, c2, e, c3, c4⟩ := b.envelope p (by rw [b.agent]; exact hp)
    obtain ⟨x, hx, hxw⟩ := within_listed b.acyclic' hobs' e2 hq hw (List.getElem?_eq_some_iff.mp c4).1
    exact c2 x hx ((hwk hx).mp hxw)

/-- One iteration. -/
private theorem Beside.iterate {h h1 : Heap α} (ha : Acyclic h) {obs : List Ptr} {e : Env}
    (hobs : ∀ p ∈ obs, p < h.length) (hd : Apart h obs) (hrun : aggregateObstacles h obs = .ok (h1, e.list)) (c : Loop α)
    (v : V3 α) {s s' : Heap α × Agent α} (b : Beside h h1 obs e.list s s') :
    ∃ g1 l', aggregateObstacles s'.1 obs = .ok (g1, l') ∧ ∀ e' : Env, e'.list = l' →
      Agree (fun t t' => Beside h h1 obs e.list t t' ∧ Twins t.1 t'.1 e.list l') (c.iterate e v s)
        (c.iterate e' v (g1, s'.2)) := by
  obtain ⟨g1, l', e2, hp, hext, A, A', rem, hl, hl', hlen, hA⟩ := b.update ha hobs hd hrun
  refine ⟨g1, l', e2, fun e' he' => ?_⟩
  subst he'
  refine Agree.imp (iterate_paired c v hp) fun t t' ⟨p, f, f'⟩ => ⟨⟨?_, p.acyclic, p.acyclic', fun r hr => ?_, ?_, ?_, ?_, ?_⟩,
    p.twins⟩
  · have h1 := p.agent
    have h2 := f.envelope
    have h3 := f'.envelope
    have h4 := congrArg Agent.envelope b.agent
    have h5 : t.2.envelope = t'.2.envelope := h2.trans (h4.trans h3.symm)
    cases ht : t.2
    cases ht' : t'.2
    rw [ht, ht'] at h1 h5
    cases h1
    simp_all
  · have := f.shape r (by rw [← f.envelope]; exact hr)
    rw [this]
    exact b.shape r (by rw [← f.envelope]; exact hr)
  · rintro r o hr ho
    obtain ⟨u, k1, k2⟩ := b.keeps r o hr ho
    obtain ⟨u', k3, k4⟩ := hext.get k1
    have hne : s'.2.envelope ≠ some r := by
      intro hE
      obtain ⟨x, hx, hw⟩ := hr
      exact (b.envelope r (by rw [b.agent]; exact hE)).2.1 x hx hw
    have := f'.shape r hne
    simp only [k3] at this
    cases hr' : t'.1[r]? with
    | none => rw [hr'] at this; cases this
    | some z =>
      rw [hr'] at this
      exact ⟨z, rfl, (Option.some.inj this).trans (k4.trans k2)⟩
  · intro q hq
    have hq0 : s.2.envelope = some q := by rw [← f.envelope]; exact hq
    obtain ⟨c1, c2, -⟩ := b.envelope q hq0
    refine ⟨c1, c2, ?_⟩
    rcases p.envelopes with ⟨k, -⟩ | ⟨x, x', k1, k2, o, o', k3, k4, k5, k6⟩
    · rw [hq] at k; cases k
    · have hx : q = x := Option.some.inj (hq.symm.trans k1)
      have hx' : q = x' := by
        have := f'.envelope
        simp only [← b.agent, k2, hq0] at this
        exact (Option.some.inj this).symm
      subst hx
      subst hx'
      obtain ⟨-, -, d, hd1, -⟩ := b.envelope q hq0
      obtain ⟨d', hd'⟩ := f.kind q d hq0 hd1
      rw [hd'] at k3
      cases k3
      have hb := k6.base_eq k5
      cases k6 with
      | ellipsoid _ d2 hs =>
        refine ⟨d', hd', ?_⟩
        rw [k4]
        have := shape_cases hs
        simp only [Obj.mapBase, Obj.ellipsoid.injEq, Obj.base] at this hb
        rw [this, hb]
  · intro q hq hlt
    have ht := p.twins
    rw [hl, hl'] at ht
    have hq' : q ∈ rem := by
      rw [hl] at hq
      rcases List.mem_append.mp hq with hq | hq
      · exact absurd hlt (not_lt.mpr (hA q hq))
      · exact hq
    obtain ⟨o, o', k1, k2, k3, -⟩ := forall₂_diag (forall₂_split hlen ht).2 q hq'
    simp only [refOf, k1, k2, Option.bind_some, k3]
  · intro q ag hq
    exact f.fixed q ag (b.fixed q ag hq)

/-- The loops, from any pair of states. -/
private theorem Beside.run {h h1 : Heap α} (ha : Acyclic h) {e : Env} (hobs : ∀ p ∈ e.map.map (·.2), p < h.length)
    (hd : Apart h (e.map.map (·.2))) (hagg : e.aggregated = true)
    (hrun : aggregateObstacles h (e.map.map (·.2)) = .ok (h1, e.list)) (c : Loop α) (n : Nat) :
    ∀ {s s' : Heap α × Agent α} (l : List Ptr), Beside h h1 (e.map.map (·.2)) e.list s s' →
    Agree (fun t t' => t.2 = t'.2 ∧ (0 < n ∨ Twins s.1 s'.1 e.list l → Twins t.1 t'.1.heap e.list t'.1.env.list)) (c.run e n s)
      (runUpdating c n (⟨s'.1, { e with list := l }⟩, s'.2)) := by
  induction n with
  | zero =>
    intro s s' l b
    exact ⟨b.agent, fun h => h.resolve_left (lt_irrefl _)⟩
  | succ n ih =>
    intro s s' l b
    obtain ⟨g1, l', e2, hit⟩ := b.iterate ha hobs hd hrun c (c.desired s'.2.state.position)
    simp only [Loop.run, runUpdating, World.exec, Env.update, hagg, if_true, e2, Res.ok_bind, b.agent]
    refine Agree.bind (hit { e with list := l' } rfl) fun t t' _ _ ⟨b1, t1⟩ => ?_
    have := ih l' b1
    simp only [hagg] at this
    exact Agree.imp this fun u u' hu => ⟨hu.1, fun _ => hu.2 (.inr t1)⟩

/-- The same without aggregation. -/
private theorem run_plain (c : Loop α) (map : List (String × Ptr)) (n : Nat) : ∀ (s : Heap α × Agent α) (l : List Ptr),
    Paired (map.map (·.2)) (map.map (·.2)) s s →
    Agree (fun t t' => t = (t'.1.heap, t'.2) ∧ Paired (map.map (·.2)) (map.map (·.2)) t t ∧
        (0 < n ∨ l = map.map (·.2) → t'.1.env.list = map.map (·.2)))
      (c.run ⟨map, false, map.map (·.2)⟩ n s) (runUpdating c n (⟨s.1, ⟨map, false, l⟩⟩, s.2)) := by
  induction n with
  | zero => intro s l p; exact ⟨rfl, p, fun h => h.resolve_left (lt_irrefl _)⟩
  | succ n ih =>
    intro s l p
    simp only [Loop.run, runUpdating, World.exec, Env.update, Bool.false_eq_true, if_false, Res.ok_bind]
    have hit := iterate_paired c (e := ⟨map, false, map.map (·.2)⟩) (e' := ⟨map, false, map.map (·.2)⟩)
      (c.desired s.2.state.position) p
    cases hx : c.iterate ⟨map, false, map.map (·.2)⟩ (c.desired s.2.state.position) s with
    | throw x => exact rfl
    | ub x => exact rfl
    | ok t =>
      rw [hx] at hit
      simp only [hx, Res.ok_bind]
      exact Agree.imp (ih t (map.map (·.2)) hit.1) fun u u' hu => ⟨hu.1, hu.2.1, fun _ => hu.2.2 (.inr rfl)⟩

/-- C91: a loop that calls `update` in every iteration moves the agent exactly as the loop that calls `update` once,
before the loop; and the obstacles the two programs work with are twins. This holds for every scalar type (in particular
for doubles), both modes of the environment, every number of iterations, all options of the modulation; if one of the
programs fails, the other one fails in the same way. -/
theorem C91_run (c : Loop α) {w w1 : World α} {a : Agent α} (ha : Acyclic w.heap)
    (hobs : ∀ p ∈ w.env.map.map (·.2), p < w.heap.length) (hd : Apart w.heap (w.env.map.map (·.2)))
    (henv : ∀ p, a.envelope = some p → ∃ e, w.heap[p]? = some (.ellipsoid e))
    (hown : OwnEnvelope w.heap a (w.env.map.map (·.2))) (hup : w.exec .update = .ok w1) (n : Nat) :
    Agree (fun s s' => s.2 = s'.2 ∧ (0 < n → Twins s.1 s'.1.heap w1.env.list s'.1.env.list))
      (c.run w1.env n (w1.heap, a)) (runUpdating c n (w, a)) := by
  obtain ⟨h, ⟨map, agg, list⟩⟩ := w
  cases agg with
  | false =>
    simp only [World.exec, Env.update, Bool.false_eq_true, if_false, Res.ok_bind] at hup
    cases hup
    have p : Paired (map.map (·.2)) (map.map (·.2)) (h, a) (h, a) := by
      refine ⟨ha, ha, List.forall₂_same.mpr fun p hp => ?_, ⟨rfl, rfl, rfl⟩, ?_, hown, hown⟩
      · have hp' := List.getElem?_eq_getElem (hobs p hp)
        exact ⟨_, _, hp', hp', rfl, alike_refl ha _ _ hp'⟩
      · cases hE : a.envelope with
        | none => exact .inl ⟨hE, hE⟩
        | some p =>
          obtain ⟨e, he⟩ := henv p hE
          exact .inr ⟨p, p, hE, hE, _, _, he, he, rfl, .ellipsoid _ _ rfl⟩
    refine Agree.imp (run_plain c map n (h, a) list p) fun u u' ⟨hu, hp, hl⟩ => ⟨by rw [hu], fun hn => ?_⟩
    have := hp.twins
    rw [hu] at this
    rw [hu, hl (.inl hn)]
    exact this
  | true =>
    simp only [World.exec, Env.update, if_true] at hup
    obtain ⟨r, hr, hup⟩ := Res.bind_eq_ok.mp hup
    obtain ⟨r1, hr1, hr⟩ := Res.bind_eq_ok.mp hr
    cases hr
    cases hup
    obtain ⟨h1, l⟩ := r1
    obtain ⟨rank, hrk⟩ := exists_ranked ha
    obtain ⟨h', aggs, idx, e, hI⟩ := aggregateObstacles_ok hrk hobs
    rw [hr1] at e
    cases e
    have b : Beside h h1 (map.map (·.2)) (aggs ++ members (map.map (·.2)) idx (-1)) (h1, a) (h, a) := by
      refine ⟨rfl, ⟨_, (hI.heap.ranked hrk).child⟩, ha, fun r _ => rfl, fun p o _ ho => ⟨o, ho, rfl⟩, fun p hp => ?_,
        fun p hp hlt => ?_, fun q ag hq => hq⟩
      · obtain ⟨e, he⟩ := henv p hp
        have hlt := (List.getElem?_eq_some_iff.mp he).1
        refine ⟨hlt, hown p hp, e, ?_, he⟩
        rw [← he]
        exact aggregateObstacles_other ha hobs hr1 hlt (hown p hp)
      · have := aggregateObstacles_alone ha hobs hd hr1 hp hlt
        simp only [refOf, this]
    have := Beside.run (e := ⟨map, true, aggs ++ members (map.map (·.2)) idx (-1)⟩) ha hobs hd rfl hr1 c n list b
    exact Agree.imp this fun u u' hu => ⟨hu.1, fun hn => hu.2 (.inl hn)⟩

end DOA.Props
