import Verif.Lemmas.AddressLoop
import Verif.Props.Trace
import Verif.Spec.Several

/-! # C112: agents do not get in each other's way -/

set_option linter.unusedSectionVars false
set_option linter.unusedSimpArgs false

namespace DOA.Props
open DOA DOA.Spec DOA.Modulation DOA.Ellipsoid Aggregation

section
variable {ι : Type} [DecidableEq ι] {α : Type} [Add α] [Sub α] [Mul α] [Div α] [Neg α] [Zero α] [One α]
  [LE α] [LT α] [DecidableLE α] [DecidableLT α] [CMath α]

/-- A change of the state of an agent writes its envelope only. -/
theorem withState_only {h h1 : Heap α} {a a1 : Agent α} {st : State α} (hw : a.withState h st = .ok (h1, a1)) :
    a1 = { a with state := st } ∧ ∃ q d0 d, a.envelope = some q ∧ h[q]? = some (.ellipsoid d0) ∧
      h1 = h.set q (.ellipsoid d) ∧ ∀ b : Agent α, b.envelopeFor d = b.envelopeFor d0 := by
  unfold Agent.withState Agent.updateEnvelope at hw
  cases he : a.envelope with
  | none => simp [he] at hw
  | some q =>
    simp only [he] at hw
    cases hd : h[q]? with
    | none => simp [Heap.deref, hd] at hw
    | some o =>
      cases o <;> simp [Heap.deref, hd] at hw
      exact ⟨hw.2.symm, q, _, _, rfl, hd, hw.1.symm, fun _ => rfl⟩

theorem modulate_unshifted {h h1 : Heap α} {a : Agent α} {e : Env} {loc rep planar : Bool} {critical power : α} {v : V3 α}
    (hs : planar = true → ∀ p ∈ e.list, ∀ d, h[p]? ≠ some (.ellipsoid d))
    (hm : modulateVelocity h a e loc rep planar critical power = .ok (h1, v)) : h1 = h := by
  cases hp : planar with
  | false => exact C47_not_planar (hp ▸ hm)
  | true =>
    obtain ⟨g1, g2, g3⟩ := C47_frame hm
    refine List.ext_getElem? fun p => ?_
    by_cases hl : p ∈ e.list
    · cases ho : h[p]? with
      | none => simpa [ho] using g1 p
      | some o =>
        refine g3 p o ho ?_
        cases o with
        | ellipsoid d => exact absurd ho (hs hp p hl d)
        | _ => rfl
    · exact g2 p hl

/-- One iteration that shifts no reference position writes the envelope of the agent only. -/
theorem iterate_only {c : Loop α} {e : Env} {v : V3 α} {h h1 : Heap α} {a a1 : Agent α} (hc : ¬ Shifts c h e.list)
    (hl : ∀ q, a.envelope = some q → q ∉ e.list) (hi : c.iterate e v (h, a) = .ok (h1, a1)) :
    a1.envelope = a.envelope ∧ ∃ q d0 d, a.envelope = some q ∧ h[q]? = some (.ellipsoid d0) ∧
      h1 = h.set q (.ellipsoid d) ∧ ∀ b : Agent α, b.envelopeFor d = b.envelopeFor d0 := by
  unfold Loop.iterate Agent.setLinearVelocity Agent.setPosition at hi
  obtain ⟨⟨k, b⟩, w1, hi⟩ := Res.bind_eq_ok.mp hi
  obtain ⟨⟨k2, out⟩, w2, hi⟩ := Res.bind_eq_ok.mp hi
  obtain ⟨rfl, q, d0, d, h1', h2', rfl, h3'⟩ := withState_only w1
  simp only at h1' h2'
  have hk := modulate_unshifted (fun hp p hpl d' hd' => hc ⟨hp, p, hpl, d', by
    have hne : q ≠ p := by rintro rfl; exact hl _ h1' hpl
    simpa only [List.getElem?_set_ne hne] using hd'⟩) w2
  subst hk
  obtain ⟨rfl, q', d1, d2, g1, g2, rfl, g3⟩ := withState_only hi
  simp only at g1
  rw [h1'] at g1
  cases g1
  rw [List.getElem?_set_self (List.getElem?_eq_some_iff.mp h2').1] at g2
  cases g2
  exact ⟨rfl, q, d0, d2, h1', h2', by rw [List.set_set], fun b => (g3 b).trans (h3' b)⟩

/-- What the envelope was before does not matter, as long as it was an envelope. -/
theorem iterate_absorb {c : Loop α} {e : Env} {v : V3 α} {h : Heap α} {a : Agent α} {q : Ptr} {d0 d : Ellipsoid α}
    (ha : a.envelope = some q) (hq : h[q]? = some (.ellipsoid d0)) (hd : ∀ b : Agent α, b.envelopeFor d = b.envelopeFor d0) :
    c.iterate e v (h.set q (.ellipsoid d), a) = c.iterate e v (h, a) := by
  unfold Loop.iterate Agent.setLinearVelocity Agent.withState Agent.updateEnvelope
  simp only [ha, Heap.deref, hq, List.getElem?_set_self (List.getElem?_eq_some_iff.mp hq).1, Res.ok_bind, hd, List.set_set]

/-- An agent does not notice that the envelope of another agent is written. -/
theorem paired_other {l : List Ptr} {h k : Heap α} {b b' : Agent α} (p : Paired l l (h, b) (k, b')) {q : Ptr}
    (hq : ∀ x ∈ l, ¬ Within h x q) (hb : b.envelope ≠ some q)
    (hel : ∃ r d, b.envelope = some r ∧ h[r]? = some (.ellipsoid d)) (d : Ellipsoid α) :
    Paired l l (h.set q (.ellipsoid d), b) (k, b') := by
  refine ⟨acyclic_set p.acyclic q d, p.acyclic', ?_, p.agent, ?_, ?_, p.own'⟩
  · refine (forall₂_mem p.twins).imp fun x x' ht => ?_
    refine twin_keepsOn (closed_reach h l) (closed_reach k l) (keepsOn_set _ hq)
      (fun r o _ ho => ⟨o, ho, rfl⟩) p.acyclic ⟨x, ht.2.1, .refl⟩ ⟨x', ht.2.2, .refl⟩ ht.1 (refOf_set _ ?_) rfl
    rintro rfl; exact hq _ ht.2.1 .refl
  · obtain ⟨r, d1, hr, hd1⟩ := hel
    rcases p.envelopes with ⟨h1, -⟩ | ⟨r1, r', h1, h2, o, o', h3, h4, h5, h6⟩
    · simp only at h1; rw [hr] at h1; cases h1
    · simp only at h1 h3
      rw [hr] at h1; cases h1
      rw [hd1] at h3; cases h3
      have hne : q ≠ r := by rintro rfl; exact hb hr
      refine .inr ⟨r, r', hr, h2, _, o', by simp only [List.getElem?_set_ne hne]; exact hd1, h4, h5, ?_⟩
      cases h6 with
      | ellipsoid _ e' hs => exact .ellipsoid _ _ hs
  · intro r hr x hx
    simp only
    rw [within_set _ (hq x hx)]
    exact p.own r hr x hx

/-- What the agents have to do with states they would be in alone: paired, up to what was in the envelope before. -/
structure Tracked (cs : ι → Loop α) (l : List Ptr) (s : Heap α × (ι → Agent α)) (t : ι → Heap α × Agent α) : Prop where
  unshifted : ∀ i, ¬ Shifts (cs i) s.1 l
  own : ∀ i, OwnEnvelope s.1 (s.2 i) l
  paired : ∀ i, ∃ q d0 d, (s.2 i).envelope = some q ∧ s.1[q]? = some (.ellipsoid d0) ∧
    (∀ b : Agent α, b.envelopeFor d = b.envelopeFor d0) ∧ Paired l l (s.1.set q (.ellipsoid d), s.2 i) (t i)

theorem tracked_step {cs : ι → Loop α} {e : Env} {s : Heap α × (ι → Agent α)}
    {t : ι → Heap α × Agent α} (p : Tracked cs e.list s t) (i : ι) :
    Agree (fun s1 t1 => Tracked cs e.list s1 (Function.update t i t1) ∧
        (∀ j, (s1.2 j).envelope = (s.2 j).envelope) ∧
        ∀ r, (∀ j, (s.2 j).envelope ≠ some r) → s1.1[r]? = s.1[r]?)
      (moveOne cs e s i) ((cs i).iterate e ((cs i).desired (t i).2.state.position) (t i)) := by
  obtain ⟨q, d0, d, g2, hq0, hd, pi⟩ := p.paired i
  have key := iterate_paired (cs i) (e := e) (e' := e) ((cs i).desired (s.2 i).state.position) pi
  rw [iterate_absorb g2 hq0 hd] at key
  rw [show (t i).2.state.position = (s.2 i).state.position from by rw [← pi.agent.state]]
  unfold moveOne
  cases hx : (cs i).iterate e ((cs i).desired (s.2 i).state.position) (s.1, s.2 i) with
  | throw x =>
    cases hy : (cs i).iterate e ((cs i).desired (s.2 i).state.position) (t i) <;> (rw [hx, hy] at key; exact key)
  | ub x =>
    cases hy : (cs i).iterate e ((cs i).desired (s.2 i).state.position) (t i) <;> (rw [hx, hy] at key; exact key)
  | ok r =>
    cases hy : (cs i).iterate e ((cs i).desired (s.2 i).state.position) (t i) with
    | throw x => rw [hx, hy] at key; exact key
    | ub x => rw [hx, hy] at key; exact key
    | ok r' =>
      rw [hx, hy] at key
      obtain ⟨p1, -, -⟩ := key
      obtain ⟨h1, a1⟩ := r
      have hqs : ∀ x ∈ e.list, ¬ Within s.1 x q := fun x hx => p.own i q g2 x hx
      have hql : q ∉ e.list := fun hl => hqs q hl .refl
      obtain ⟨g1, q', d0', d', g2', hq', rfl, hd'⟩ := iterate_only (p.unshifted i)
        (fun q1 h1 => by rw [g2] at h1; cases h1; exact hql) hx
      rw [g2] at g2'; cases g2'
      rw [hq0] at hq'; cases hq'
      have hqlt := (List.getElem?_eq_some_iff.mp hq0).1
      have hen : ∀ j, (Function.update s.2 i a1 j).envelope = (s.2 j).envelope := by
        intro j
        by_cases hj : j = i
        · subst hj; rw [Function.update_self]; exact g1
        · rw [Function.update_of_ne hj]
      refine ⟨⟨fun j hs => ?_, fun j r hr x hx => ?_, fun j => ?_⟩, hen, fun r hr => ?_⟩
      · obtain ⟨k1, r, k2, dr, k3⟩ := hs
        have hne : q ≠ r := by rintro rfl; exact hql k2
        exact p.unshifted j ⟨k1, r, k2, dr, by simpa only [List.getElem?_set_ne hne] using k3⟩
      · simp only [hen] at hr ⊢
        rw [within_set _ (hqs x hx)]
        exact p.own j r hr x hx
      · by_cases hj : j = i
        · subst hj
          simp only [Function.update_self]
          exact ⟨q, d', d', g1.trans g2, List.getElem?_set_self hqlt, fun _ => rfl, by rw [List.set_set]; exact p1⟩
        · simp only [Function.update_of_ne hj]
          obtain ⟨r, c0, c, f1, f2, f3, pj⟩ := p.paired j
          by_cases hrq : q = r
          · subst hrq
            rw [hq0] at f2; cases f2
            exact ⟨q, d', c, f1, List.getElem?_set_self hqlt, fun b => (f3 b).trans (hd' b).symm,
              by rw [List.set_set]; exact pj⟩
          · refine ⟨r, c0, c, f1, by rw [List.getElem?_set_ne hrq]; exact f2, f3, ?_⟩
            rw [List.set_comm _ _ hrq]
            refine paired_other pj (fun x hx => ?_) (fun h => hrq (Option.some.inj (h.symm.trans f1)))
              ⟨r, c, f1, List.getElem?_set_self (List.getElem?_eq_some_iff.mp f2).1⟩ d'
            rw [within_set _ (p.own j r f1 x hx)]
            exact hqs x hx
      · have : q ≠ r := by rintro rfl; exact hr i g2
        simp only [List.getElem?_set_ne this]

theorem tracked_run {cs : ι → Loop α} {e : Env} (schedule : List ι) :
    ∀ {s s' : Heap α × (ι → Agent α)} {t : ι → Heap α × Agent α}, Tracked cs e.list s t →
      runAll cs e schedule s = .ok s' →
      (∀ i, ∃ k, (cs i).run e (schedule.count i) (t i) = .ok k ∧ (s'.2 i).state = k.2.state) ∧
      (∀ j, (s'.2 j).envelope = (s.2 j).envelope) ∧
      ∀ r, (∀ j, (s.2 j).envelope ≠ some r) → s'.1[r]? = s.1[r]? := by
  induction schedule with
  | nil =>
    intro s s' t p hr
    cases hr
    exact ⟨fun i => ⟨t i, rfl, by obtain ⟨_, _, _, -, -, -, pi⟩ := p.paired i; exact pi.agent.state⟩, fun _ => rfl, fun _ _ => rfl⟩
  | cons j rest ih =>
    intro s s' t p hr
    simp only [runAll, List.foldlM_cons] at hr
    obtain ⟨s1, w1, hr⟩ := Res.bind_eq_ok.mp hr
    have key := tracked_step p j
    rw [w1] at key
    cases hy : (cs j).iterate e ((cs j).desired (t j).2.state.position) (t j) with
    | throw x => rw [hy] at key; exact absurd key (by simp [Agree])
    | ub x => rw [hy] at key; exact absurd key (by simp [Agree])
    | ok t1 =>
      rw [hy] at key
      obtain ⟨k1, k2, k3⟩ := key
      obtain ⟨m1, m2, m3⟩ := ih k1 hr
      refine ⟨fun i => ?_, fun i => (m2 i).trans (k2 i), fun r h0 => ?_⟩
      · obtain ⟨k, n1, n2⟩ := m1 i
        refine ⟨k, ?_, n2⟩
        by_cases hij : i = j
        · subst hij
          rw [List.count_cons_self]
          simp only [Loop.run, hy, Res.ok_bind]
          simpa only [Function.update_self] using n1
        · rw [List.count_cons_of_ne (Ne.symm hij)]
          simpa only [Function.update_of_ne hij] using n1
      · rw [m3 r (fun i => by rw [k2 i]; exact h0 i), k3 r h0]

theorem tracked_completes {cs : ι → Loop α} {e : Env} (schedule : List ι) :
    ∀ {s : Heap α × (ι → Agent α)} {t : ι → Heap α × Agent α}, Tracked cs e.list s t →
      (∀ i, ∃ k, (cs i).run e (schedule.count i) (t i) = .ok k) → ∃ s', runAll cs e schedule s = .ok s' := by
  induction schedule with
  | nil => intro s t _ _; exact ⟨s, rfl⟩
  | cons j rest ih =>
    intro s t p hr
    obtain ⟨k, hk⟩ := hr j
    rw [List.count_cons_self] at hk
    simp only [Loop.run] at hk
    obtain ⟨t1, w1, w2⟩ := Res.bind_eq_ok.mp hk
    have key := tracked_step p j
    rw [w1] at key
    cases hx : moveOne cs e s j with
    | throw x => rw [hx] at key; exact absurd key (by simp [Agree])
    | ub x => rw [hx] at key; exact absurd key (by simp [Agree])
    | ok s1 =>
      rw [hx] at key
      simp only [runAll, List.foldlM_cons, hx, Res.ok_bind]
      refine ih key.1 fun i => ?_
      by_cases hij : i = j
      · subst hij
        exact ⟨k, by simpa only [Function.update_self] using w2⟩
      · obtain ⟨k', hk'⟩ := hr i
        rw [List.count_cons_of_ne (Ne.symm hij)] at hk'
        exact ⟨k', by simpa only [Function.update_of_ne hij] using hk'⟩

theorem tracked_start {h : Heap α} (ha : Acyclic h) {l : List Ptr} (hl : ∀ p ∈ l, p < h.length)
    {cs : ι → Loop α}
    (hc : ∀ i, ¬ Shifts (cs i) h l) {agents : ι → Agent α} (hk : Enveloped h l agents) :
    Tracked cs l (h, agents) fun i => (h, agents i) := by
  have tw : ∀ p : Ptr, p < h.length → Twin h h p p := fun p hp =>
    ⟨h[p], h[p], List.getElem?_eq_getElem hp, List.getElem?_eq_getElem hp, rfl,
      alike_refl ha p _ (List.getElem?_eq_getElem hp)⟩
  refine ⟨hc, hk.own, fun i => ?_⟩
  obtain ⟨q, d, h1, h2⟩ := hk.ellipsoid i
  refine ⟨q, d, d, h1, h2, fun _ => rfl, ?_⟩
  have hset : h.set q (.ellipsoid d) = h := by
    rw [← (List.getElem?_eq_some_iff.mp h2).2]; exact List.set_getElem_self _
  simp only [hset]
  refine ⟨ha, ha, List.forall₂_same.mpr fun p hp => tw p (hl p hp), ⟨rfl, rfl, rfl⟩, ?_, hk.own i, hk.own i⟩
  exact .inr ⟨q, q, h1, h1, tw q (List.getElem?_eq_some_iff.mp h2).1⟩

/-- C112: whatever the schedule, every agent ends in the state it would have reached alone with as many
iterations, and nothing but the envelopes has changed (every scalar type).
PARTIAL: planar modulation only where there are no ellipsoids, and no obstacle is changed in between. -/
theorem C112_alone_partial {cs : ι → Loop α} {e : Env} {h : Heap α} (hc : ∀ i, ¬ Shifts (cs i) h e.list)
    (ha : Acyclic h) (hl : ∀ p ∈ e.list, p < h.length) {agents : ι → Agent α} (hk : Enveloped h e.list agents)
    {schedule : List ι} {h' : Heap α} {agents' : ι → Agent α}
    (hr : runAll cs e schedule (h, agents) = .ok (h', agents')) :
    (∀ i, ∃ k b, (cs i).run e (schedule.count i) (h, agents i) = .ok (k, b) ∧ (agents' i).state = b.state) ∧
      ∀ p : Ptr, (∀ i, (agents i).envelope ≠ some p) → h'[p]? = h[p]? := by
  obtain ⟨h1, -, h3⟩ := tracked_run schedule (tracked_start ha hl hc hk) hr
  refine ⟨fun i => ?_, h3⟩
  obtain ⟨⟨k, b⟩, g1, g2⟩ := h1 i
  exact ⟨k, b, g1, g2⟩

/-- C112: all of them get through if each one does alone (every scalar type). PARTIAL as before. -/
theorem C112_completes_partial {cs : ι → Loop α} {e : Env} {h : Heap α} (hc : ∀ i, ¬ Shifts (cs i) h e.list)
    (ha : Acyclic h) (hl : ∀ p ∈ e.list, p < h.length) {agents : ι → Agent α} (hk : Enveloped h e.list agents)
    {schedule : List ι} (hr : ∀ i, ∃ s, (cs i).run e (schedule.count i) (h, agents i) = .ok s) :
    ∃ s, runAll cs e schedule (h, agents) = .ok s :=
  tracked_completes schedule (tracked_start ha hl hc hk) hr

/-- C112: the order in which the agents take their turns does not matter (every scalar type). PARTIAL as
before. -/
theorem C112_order_partial {cs : ι → Loop α} {e : Env} {h : Heap α} (hc : ∀ i, ¬ Shifts (cs i) h e.list)
    (ha : Acyclic h) (hl : ∀ p ∈ e.list, p < h.length) {agents : ι → Agent α} (hk : Enveloped h e.list agents)
    {schedule schedule' : List ι} (hs : schedule.Perm schedule') {h' : Heap α} {agents' : ι → Agent α}
    (hr : runAll cs e schedule (h, agents) = .ok (h', agents')) :
    ∃ h'' agents'', runAll cs e schedule' (h, agents) = .ok (h'', agents'') ∧
      ∀ i, (agents'' i).state = (agents' i).state := by
  obtain ⟨h1, -⟩ := C112_alone_partial hc ha hl hk hr
  obtain ⟨⟨h'', agents''⟩, h2⟩ := C112_completes_partial (cs := cs) hc ha hl hk (schedule := schedule') fun i => by
    obtain ⟨k, b, g, -⟩ := h1 i
    exact ⟨_, by rw [← hs.count_eq i]; exact g⟩
  refine ⟨h'', agents'', h2, fun i => ?_⟩
  obtain ⟨k, b, g1, g2⟩ := h1 i
  obtain ⟨k', b', g3, g4⟩ := (C112_alone_partial hc ha hl hk h2).1 i
  rw [← hs.count_eq i, g1] at g3
  cases g3
  rw [g2, g4]

/-! ## Obstacles that change in between -/

theorem child_congr {h k : Heap α} (hh : ∀ (p : Ptr) ps, (∃ a, h[p]? = some (.aggregate a) ∧ a.prims = ps) ↔
    ∃ a, k[p]? = some (.aggregate a) ∧ a.prims = ps) : Child k = Child h := by
  funext p q
  refine propext ⟨?_, ?_⟩
  · rintro ⟨a, h1, h2⟩
    obtain ⟨b, g1, g2⟩ := (hh p a.prims).mpr ⟨a, h1, rfl⟩
    exact ⟨b, g1, g2 ▸ h2⟩
  · rintro ⟨a, h1, h2⟩
    obtain ⟨b, g1, g2⟩ := (hh p a.prims).mp ⟨a, h1, rfl⟩
    exact ⟨b, g1, g2 ▸ h2⟩

theorem within_congr {h k : Heap α} (hc : Child k = Child h) : Within k = Within h := by
  funext p q
  unfold Within
  rw [hc]

theorem acyclic_congr {h k : Heap α} (hc : Child k = Child h) (hl : k.length = h.length) (ha : Acyclic h) : Acyclic k := by
  unfold Acyclic
  rw [hc, hl]
  exact ha

theorem child_edit {h : Heap α} {p : Ptr} {o : Obj α} (ho : h[p]? = some o) (f : Base α → Base α) :
    Child (h.set p (o.mapBase f)) = Child h := by
  refine child_congr fun q ps => ?_
  by_cases hq : p = q
  · subst hq
    rw [List.getElem?_set_self (List.getElem?_eq_some_iff.mp ho).1, ho]
    cases o <;> simp [Obj.mapBase]
  · rw [List.getElem?_set_ne hq]

/-- What the run of all agents has to do with the run without the other agents. -/
structure Follows (cs : ι → Loop α) (l : List Ptr) (i : ι) (s t : Heap α × (ι → Agent α)) : Prop where
  unshifted : ∀ j, ¬ Shifts (cs j) s.1 l
  acyclic : Acyclic s.1
  valid : ∀ p ∈ l, p < s.1.length
  kit : Enveloped s.1 l s.2
  len : t.1.length = s.1.length
  off : ∀ p : Ptr, (∀ j, (s.2 j).envelope ≠ some p) → t.1[p]? = s.1[p]?
  agent : t.2 i = s.2 i
  envelope : ∀ j q d, (s.2 j).envelope = some q → s.1[q]? = some (.ellipsoid d) →
    ∃ d', t.1[q]? = some (.ellipsoid d') ∧ ∀ b : Agent α, b.envelopeFor d' = b.envelopeFor d

theorem Follows.child {cs : ι → Loop α} {l : List Ptr} {i : ι} {s t : Heap α × (ι → Agent α)} (f : Follows cs l i s t) :
    Child t.1 = Child s.1 := by
  refine child_congr fun p ps => ?_
  by_cases hp : ∃ j, (s.2 j).envelope = some p
  · obtain ⟨j, hj⟩ := hp
    obtain ⟨q, d, h1, h2⟩ := f.kit.ellipsoid j
    rw [hj] at h1; cases h1
    obtain ⟨d', h3, -⟩ := f.envelope j p d hj h2
    simp [h2, h3]
  · rw [f.off p fun j hj => hp ⟨j, hj⟩]

/-- The writing of an envelope in the run of all. -/
theorem Follows.write {cs : ι → Loop α} {l : List Ptr} {i j : ι} {s t : Heap α × (ι → Agent α)} (f : Follows cs l i s t)
    {q : Ptr} {d0 d : Ellipsoid α} (hq : (s.2 j).envelope = some q) (h0 : s.1[q]? = some (.ellipsoid d0))
    (hd : ∀ b : Agent α, b.envelopeFor d = b.envelopeFor d0) {a1 : Agent α} (ha : a1.envelope = (s.2 j).envelope)
    {t1 : Heap α × (ι → Agent α)} (ht1 : t1.1 = t.1 ∨ ∃ d1, t1.1 = t.1.set q (.ellipsoid d1) ∧
      ∀ b : Agent α, b.envelopeFor d1 = b.envelopeFor d0)
    (hag : t1.2 i = Function.update s.2 j a1 i) :
    Follows cs l i (s.1.set q (.ellipsoid d), Function.update s.2 j a1) t1 := by
  have hqs : ∀ x ∈ l, ¬ Within s.1 x q := fun x hx => f.kit.own j q hq x hx
  have hql : q ∉ l := fun hl => hqs q hl .refl
  have hqlt := (List.getElem?_eq_some_iff.mp h0).1
  have hen : ∀ k, (Function.update s.2 j a1 k).envelope = (s.2 k).envelope := by
    intro k
    by_cases hk : k = j
    · subst hk; rw [Function.update_self]; exact ha
    · rw [Function.update_of_ne hk]
  obtain ⟨d', e1, e2⟩ := f.envelope j q d0 hq h0
  refine ⟨fun k hs => ?_, acyclic_set f.acyclic q d, fun p hp => ?_, ⟨fun k => ?_, fun k r hr x hx => ?_⟩, ?_, fun p hp => ?_, hag,
    fun k r dr hr hdr => ?_⟩
  · obtain ⟨k1, r, k2, dr, k3⟩ := hs
    have hne : q ≠ r := by rintro rfl; exact hql k2
    exact f.unshifted k ⟨k1, r, k2, dr, by simpa only [List.getElem?_set_ne hne] using k3⟩
  · simpa using f.valid p hp
  · obtain ⟨r, dr, f1, f2⟩ := f.kit.ellipsoid k
    simp only [hen]
    by_cases hrq : q = r
    · subst hrq
      exact ⟨q, d, f1, List.getElem?_set_self hqlt⟩
    · exact ⟨r, dr, f1, by rw [List.getElem?_set_ne hrq]; exact f2⟩
  · simp only [hen] at hr ⊢
    rw [within_set _ (hqs x hx)]
    exact f.kit.own k r hr x hx
  · rcases ht1 with h | ⟨d1, h, -⟩ <;> simp [h, f.len]
  · simp only [hen] at hp
    have hne : q ≠ p := by rintro rfl; exact hp j hq
    rcases ht1 with h | ⟨d1, h, -⟩ <;> simp only [h, List.getElem?_set_ne hne] <;> exact f.off p hp
  · simp only [hen] at hr
    by_cases hrq : q = r
    · subst hrq
      simp only [List.getElem?_set_self hqlt, Option.some.injEq, Obj.ellipsoid.injEq] at hdr
      subst hdr
      rcases ht1 with h | ⟨d1, h, h'⟩
      · exact ⟨d', by rw [h]; exact e1, fun b => (e2 b).trans (hd b).symm⟩
      · exact ⟨d1, by rw [h, List.getElem?_set_self (List.getElem?_eq_some_iff.mp e1).1], fun b => (h' b).trans (hd b).symm⟩
    · simp only [List.getElem?_set_ne hrq] at hdr
      obtain ⟨d2, g1, g2⟩ := f.envelope k r dr hr hdr
      refine ⟨d2, ?_, g2⟩
      rcases ht1 with h | ⟨d1, h, -⟩ <;> simp only [h, List.getElem?_set_ne hrq] <;> exact g1

/-- The agent makes the same step in both runs. -/
theorem Follows.step {cs : ι → Loop α} {e : Env} {i : ι} {s t s1 : Heap α × (ι → Agent α)} (f : Follows cs e.list i s t)
    (hs : moveOne cs e s i = .ok s1) : ∃ t1, moveOne cs e t i = .ok t1 ∧ Follows cs e.list i s1 t1 := by
  unfold moveOne at hs
  obtain ⟨⟨h1, a1⟩, hx, hs⟩ := Res.bind_eq_ok.mp hs
  cases hs
  obtain ⟨q, d0, g2, hq0⟩ := f.kit.ellipsoid i
  have hqs : ∀ x ∈ e.list, ¬ Within s.1 x q := fun x hx => f.kit.own i q g2 x hx
  have hql : ∀ q', (s.2 i).envelope = some q' → q' ∉ e.list := fun q' h' hl => f.kit.own i q' h' q' hl .refl
  obtain ⟨g1, q', d0', d, g2', hq', rfl, hd⟩ := iterate_only (f.unshifted i) hql hx
  rw [g2] at g2'; cases g2'
  rw [hq0] at hq'; cases hq'
  obtain ⟨dt, ht0, hdt⟩ := f.envelope i q d0 g2 hq0
  have hta : (t.2 i).envelope = some q := by rw [f.agent]; exact g2
  set k := t.1.set q (.ellipsoid d0) with hk
  have hkc : Child k = Child s.1 := by
    rw [← f.child]
    refine child_congr fun p ps => ?_
    by_cases hp : q = p
    · subst hp
      rw [hk, List.getElem?_set_self (List.getElem?_eq_some_iff.mp ht0).1, ht0]; simp
    · rw [hk, List.getElem?_set_ne hp]
  have hkeep : ∀ r, DOA.reach s.1 e.list r → k[r]? = s.1[r]? := by
    rintro r ⟨x, hx, hw⟩
    have hne : q ≠ r := by rintro rfl; exact hqs x hx hw
    rw [hk, List.getElem?_set_ne hne]
    exact f.off r fun j hj => f.kit.own j r hj x hx hw
  have tw : ∀ p : Ptr, p < s.1.length → Twin s.1 s.1 p p := fun p hp =>
    ⟨s.1[p], s.1[p], List.getElem?_eq_getElem hp, List.getElem?_eq_getElem hp, rfl,
      alike_refl f.acyclic p _ (List.getElem?_eq_getElem hp)⟩
  have pr : Paired e.list e.list (s.1, s.2 i) (k, t.2 i) := by
    refine ⟨f.acyclic, acyclic_congr hkc (by rw [hk, List.length_set, f.len]) f.acyclic, List.forall₂_same.mpr fun p hp => ?_,
      by rw [f.agent]; exact ⟨rfl, rfl, rfl⟩, .inr ⟨q, q, g2, hta, _, _, hq0,
        List.getElem?_set_self (List.getElem?_eq_some_iff.mp ht0).1, rfl, .ellipsoid _ _ rfl⟩, f.kit.own i, ?_⟩
    · refine twin_keepsOn (closed_reach s.1 e.list) (closed_reach s.1 e.list) (fun r o _ ho => ⟨o, ho, rfl⟩)
        (fun r o hr ho => ⟨o, (hkeep r hr).trans ho, rfl⟩) f.acyclic ⟨p, hp, .refl⟩ ⟨p, hp, .refl⟩ (tw p (f.valid p hp)) rfl ?_
      simp only [refOf, hkeep p ⟨p, hp, .refl⟩]
    · intro r hr x hx
      simp only [within_congr hkc]
      rw [f.agent] at hr
      exact f.kit.own i r hr x hx
  have key := iterate_paired (cs i) ((cs i).desired (s.2 i).state.position) pr
  rw [hx, hk, iterate_absorb hta ht0 (fun b => (hdt b).symm)] at key
  cases hy : (cs i).iterate e ((cs i).desired (s.2 i).state.position) (t.1, t.2 i) with
  | throw x => rw [hy] at key; exact absurd key (by simp [Agree])
  | ub x => rw [hy] at key; exact absurd key (by simp [Agree])
  | ok r =>
    rw [hy] at key
    obtain ⟨h2, a2⟩ := r
    obtain ⟨p1, -, -⟩ := key
    have hun : ¬ Shifts (cs i) t.1 e.list := by
      rintro ⟨k1, r, k2, dr, k3⟩
      refine f.unshifted i ⟨k1, r, k2, dr, ?_⟩
      rw [← k3, f.off r fun j hj => f.kit.own j r hj r k2 .refl]
    obtain ⟨m1, q', d0', d', m2, m3, rfl, hd'⟩ := iterate_only hun (by rw [f.agent]; exact hql) hy
    rw [hta] at m2; cases m2
    rw [ht0] at m3; cases m3
    have ha : a2 = a1 := by
      have e1 : a1.state = a2.state := p1.agent.state
      have e2 : a1.margin = a2.margin := p1.agent.margin
      have e3 : a1.deltaT = a2.deltaT := p1.agent.deltaT
      have e4 : a1.envelope = a2.envelope := by rw [g1, m1, f.agent]
      cases a1; cases a2
      simp only at e1 e2 e3 e4
      subst e1 e2 e3 e4
      rfl
    refine ⟨(t.1.set q (.ellipsoid d'), Function.update t.2 i a2), ?_, ?_⟩
    · unfold moveOne
      rw [show (t.2 i).state.position = (s.2 i).state.position from by rw [f.agent], hy]
      rfl
    · exact f.write g2 hq0 hd g1 (.inr ⟨d', rfl, fun b => (hd' b).trans (hdt b)⟩)
        (by simp only [Function.update_self]; exact ha)

/-- The agent does not notice a step of another one. -/
theorem Follows.skip {cs : ι → Loop α} {e : Env} {i j : ι} (hij : j ≠ i) {s t s1 : Heap α × (ι → Agent α)}
    (f : Follows cs e.list i s t) (hs : moveOne cs e s j = .ok s1) : Follows cs e.list i s1 t := by
  unfold moveOne at hs
  obtain ⟨⟨h1, a1⟩, hx, hs⟩ := Res.bind_eq_ok.mp hs
  cases hs
  obtain ⟨g1, q, d0, d, g2, hq, rfl, hd⟩ := iterate_only (f.unshifted j)
    (fun q' h' hl => f.kit.own j q' h' q' hl .refl) hx
  exact f.write g2 hq hd g1 (.inl rfl) (by rw [Function.update_of_ne (Ne.symm hij)]; exact f.agent)

/-- A setter of an obstacle is called in both runs. -/
theorem Follows.edit {cs : ι → Loop α} {e : Env} {i : ι} {s t s1 : Heap α × (ι → Agent α)} (f : Follows cs e.list i s t)
    {p : Ptr} {g : Base α → Base α} (hp : ∀ j, (s.2 j).envelope ≠ some p)
    (hs : takeTurn cs e s (.obstacle p g) = .ok s1) :
    ∃ t1, takeTurn cs e t (.obstacle p g) = .ok t1 ∧ Follows cs e.list i s1 t1 := by
  cases ho : s.1[p]? with
  | none => simp [takeTurn, Heap.deref, ho] at hs
  | some o =>
    simp only [takeTurn, Heap.deref, ho, Res.ok_bind, Res.ok.injEq] at hs
    subst hs
    have hto : t.1[p]? = some o := (f.off p hp).trans ho
    have hch := child_edit ho g
    refine ⟨_, by simp only [takeTurn, Heap.deref, hto, Res.ok_bind]; rfl, ?_⟩
    have hne : ∀ {j q}, (s.2 j).envelope = some q → p ≠ q := by rintro j q hq rfl; exact hp j hq
    refine ⟨fun j hsh => ?_, acyclic_congr hch (by simp) f.acyclic, fun q hq => by simpa using f.valid q hq,
      ⟨fun j => ?_, fun j q hq x hx => ?_⟩, by simp [f.len], fun q hq => ?_, f.agent, fun j q d hq hd => ?_⟩
    · obtain ⟨k1, r, k2, dr, k3⟩ := hsh
      by_cases hr : p = r
      · subst hr
        rw [List.getElem?_set_self (List.getElem?_eq_some_iff.mp ho).1] at k3
        cases o with
        | ellipsoid d => exact f.unshifted j ⟨k1, p, k2, d, ho⟩
        | plain b => simp [Obj.mapBase] at k3
        | hull b => simp [Obj.mapBase] at k3
        | aggregate b => simp [Obj.mapBase] at k3
      · exact f.unshifted j ⟨k1, r, k2, dr, by simpa only [List.getElem?_set_ne hr] using k3⟩
    · obtain ⟨q, d, h1, h2⟩ := f.kit.ellipsoid j
      exact ⟨q, d, h1, by rw [List.getElem?_set_ne (hne h1)]; exact h2⟩
    · simp only [within_congr hch]
      exact f.kit.own j q hq x hx
    · by_cases hqp : p = q
      · subst hqp
        simp only [List.getElem?_set_self (List.getElem?_eq_some_iff.mp ho).1,
          List.getElem?_set_self (List.getElem?_eq_some_iff.mp hto).1]
      · simp only [List.getElem?_set_ne hqp]
        exact f.off q hq
    · simp only at hq hd
      rw [List.getElem?_set_ne (hne hq)] at hd
      obtain ⟨d', h1, h2⟩ := f.envelope j q d hq hd
      exact ⟨d', by simp only [List.getElem?_set_ne (hne hq)]; exact h1, h2⟩

theorem takeTurn_envelopes {cs : ι → Loop α} {e : Env} {s s1 : Heap α × (ι → Agent α)} {u : Turn ι α}
    {l : List Ptr} {i : ι} {t : Heap α × (ι → Agent α)} (hl : l = e.list) (f : Follows cs l i s t)
    (hs : takeTurn cs e s u = .ok s1) (j : ι) : (s1.2 j).envelope = (s.2 j).envelope := by
  subst hl
  cases u with
  | obstacle p g =>
    cases ho : s.1[p]? with
    | none => simp [takeTurn, Heap.deref, ho] at hs
    | some o =>
      simp only [takeTurn, Heap.deref, ho, Res.ok_bind, Res.ok.injEq] at hs
      subst hs
      rfl
  | agent k =>
    simp only [takeTurn, moveOne] at hs
    obtain ⟨⟨h1, a1⟩, hx, hs⟩ := Res.bind_eq_ok.mp hs
    cases hs
    obtain ⟨g1, -⟩ := iterate_only (f.unshifted k) (fun q' h' hl => f.kit.own k q' h' q' hl .refl) hx
    by_cases hj : j = k
    · subst hj; simp only [Function.update_self]; exact g1
    · simp only [Function.update_of_ne hj]

theorem follows_run {cs : ι → Loop α} {e : Env} {i : ι} (turns : List (Turn ι α)) :
    ∀ {s s' t : Heap α × (ι → Agent α)}, Follows cs e.list i s t →
      (∀ p g, Turn.obstacle p g ∈ turns → ∀ j, (s.2 j).envelope ≠ some p) → runTurns cs e turns s = .ok s' →
      ∃ t', runTurns cs e (turns.filter (concerns i)) t = .ok t' ∧ Follows cs e.list i s' t' ∧
        ∀ j, (s'.2 j).envelope = (s.2 j).envelope := by
  induction turns with
  | nil => intro s s' t f _ hr; cases hr; exact ⟨t, rfl, f, fun _ => rfl⟩
  | cons u rest ih =>
    intro s s' t f hp hr
    simp only [runTurns, List.foldlM_cons] at hr
    obtain ⟨s1, w1, w2⟩ := Res.bind_eq_ok.mp hr
    have hen := takeTurn_envelopes rfl f w1
    have hp1 : ∀ p g, Turn.obstacle p g ∈ rest → ∀ j, (s1.2 j).envelope ≠ some p := fun p g hm j => by
      rw [hen]; exact hp p g (List.mem_cons_of_mem _ hm) j
    have both : (∃ t1, takeTurn cs e t u = .ok t1 ∧ Follows cs e.list i s1 t1) → concerns i u = true →
        ∃ t', runTurns cs e ((u :: rest).filter (concerns i)) t = .ok t' ∧ Follows cs e.list i s' t' ∧
          ∀ j, (s'.2 j).envelope = (s.2 j).envelope := by
      rintro ⟨t1, k1, k2⟩ hcn
      obtain ⟨t', m1, m2, m3⟩ := ih k2 hp1 w2
      refine ⟨t', ?_, m2, fun j => (m3 j).trans (hen j)⟩
      rw [List.filter_cons_of_pos hcn]
      simp only [runTurns, List.foldlM_cons, k1, Res.ok_bind]
      exact m1
    cases u with
    | obstacle p g => exact both (f.edit (hp p g List.mem_cons_self) w1) rfl
    | agent j =>
      by_cases hij : j = i
      · subst hij
        exact both (f.step w1) (by simp [concerns])
      · obtain ⟨t', m1, m2, m3⟩ := ih (f.skip hij w1) hp1 w2
        refine ⟨t', ?_, m2, fun k => (m3 k).trans (hen k)⟩
        rw [List.filter_cons_of_neg (by simp [concerns, hij])]
        exact m1

/-- C112: the obstacles may be moved, turned, renamed, ... between the turns.  Leaving out all turns of the
other agents changes neither where an agent ends nor any obstacle (every scalar type).
PARTIAL: planar modulation only where there are no ellipsoids. -/
theorem C112_moving_partial {cs : ι → Loop α} {e : Env} {h : Heap α} (hc : ∀ i, ¬ Shifts (cs i) h e.list)
    (ha : Acyclic h) (hl : ∀ p ∈ e.list, p < h.length) {agents : ι → Agent α} (hk : Enveloped h e.list agents)
    {turns : List (Turn ι α)} (hp : ∀ p g, Turn.obstacle p g ∈ turns → ∀ i, (agents i).envelope ≠ some p)
    {h' : Heap α} {agents' : ι → Agent α} (hr : runTurns cs e turns (h, agents) = .ok (h', agents')) (i : ι) :
    ∃ k b, runTurns cs e (turns.filter (concerns i)) (h, agents) = .ok (k, b) ∧ b i = agents' i ∧
      ∀ p : Ptr, (∀ j, (agents j).envelope ≠ some p) → k[p]? = h'[p]? := by
  obtain ⟨⟨k, b⟩, h1, h2, h3⟩ := follows_run turns (i := i) (t := (h, agents))
    ⟨hc, ha, hl, hk, rfl, fun _ _ => rfl, rfl, fun j q d _ hd => ⟨d, hd, fun _ => rfl⟩⟩ hp hr
  exact ⟨k, b, h1, h2.agent, fun p hp => h2.off p fun j => by rw [h3 j]; exact hp j⟩

end

/-! ## Planar modulation -/

/-- The push a unit disc with reference point `(0, c, 0)` gives to an agent at `(2, 0, 0)` that heads for
its centre. -/
theorem side_push (h : Heap ℝ) (q : Option Ptr) (c : ℝ) (hc : c ^ 2 < 4) :
    ∃ M B, modulationMatrix h { agentAt ⟨2, 0, 0⟩ ⟨-1, 0, 0⟩ with envelope := q } (.ellipsoid (ball ⟨0, c, 0⟩)) =
        .ok (M, B, 4) ∧ M.mulVec ⟨-1, 0, 0⟩ = ⟨-(3 / 4), -(c / 4), 0⟩ := by
  set a : Agent ℝ := { agentAt ⟨2, 0, 0⟩ ⟨-1, 0, 0⟩ with envelope := q } with ha
  have hd : gdist (ball ⟨0, c, 0⟩) a.margin a.state.position = 4 := by
    show gdist (ball ⟨0, c, 0⟩) 0 ⟨2, 0, 0⟩ = 4
    rw [ball_dist]; norm_num
  have hin : gdist (ball ⟨0, c, 0⟩) a.margin ⟨0, c, 0⟩ < gdist (ball ⟨0, c, 0⟩) a.margin a.state.position := by
    rw [hd]
    show gdist (ball ⟨0, c, 0⟩) 0 ⟨0, c, 0⟩ < 4
    rw [ball_dist]; simpa using hc
  have hpl : InPlane (ball ⟨0, c, 0⟩) a.state.position ⟨0, c, 0⟩ :=
    ⟨⟨2, 0, (ball_apply _ _).symm⟩, ⟨0, c, (ball_apply _ _).symm⟩⟩
  obtain ⟨M, B, h1, h2⟩ := C36_reference h a (ball ⟨0, c, 0⟩) 1 (ball_smooth _) ⟨0, c, 0⟩ rfl hin
  obtain ⟨M', B', h3, h4⟩ := C36_tangent_partial h a (ball ⟨0, c, 0⟩) 1 (ball_smooth _) ⟨0, c, 0⟩ rfl hin (.inl hpl)
  rw [h1] at h3
  cases h3
  have hsl : Slope (ball ⟨0, c, 0⟩) a.margin a.state.position ⟨0, 1, 0⟩ 0 := by
    show HasDerivAt (fun t : ℝ => gdist (ball ⟨0, c, 0⟩) 0 ((⟨2, 0, 0⟩ : V3 ℝ) + V3.smul t ⟨0, 1, 0⟩)) 0 0
    have he : (fun t : ℝ => gdist (ball ⟨0, c, 0⟩) 0 ((⟨2, 0, 0⟩ : V3 ℝ) + V3.smul t ⟨0, 1, 0⟩)) = fun t => t ^ 2 + 4 := by
      funext t
      rw [ball_dist]
      simp [V3.smul]; ring
    rw [he]
    simpa using ((hasDerivAt_pow 2 (0 : ℝ)).add_const 4)
  have h5 := h4 _ hsl
  rw [hd] at h1 h2 h5
  refine ⟨M, B, h1, ?_⟩
  have hv : (⟨-1, 0, 0⟩ : V3 ℝ) = V3.smul (-(1 / 2)) (a.state.position - ⟨0, c, 0⟩) + V3.smul (-(c / 2)) ⟨0, 1, 0⟩ := by
    show (⟨-1, 0, 0⟩ : V3 ℝ) = V3.smul (-(1 / 2)) ((⟨2, 0, 0⟩ : V3 ℝ) - ⟨0, c, 0⟩) + V3.smul (-(c / 2)) ⟨0, 1, 0⟩
    ext <;> simp [V3.smul]; ring
  rw [hv, M3.mulVec_add, M3.mulVec_smul, M3.mulVec_smul, h2, h5]
  show V3.smul (-(1 / 2)) (V3.smul _ ((⟨2, 0, 0⟩ : V3 ℝ) - ⟨0, c, 0⟩)) + _ = _
  rw [max_eq_right (by norm_num), min_eq_right (by norm_num)]
  ext <;> simp [V3.smul] <;> ring

/-- The loop of the agent that heads for the disc. -/
noncomputable def walker : Loop ℝ := ⟨1, 1, ⟨1, 0, 0⟩, none, false, false, false, 1, 2⟩

/-- The loop of an agent that passes above its centre, with planar modulation. -/
noncomputable def passer : Loop ℝ := ⟨1, 1, ⟨-1, 3 / 5, 0⟩, none, false, false, true, 1, 2⟩

/-- An agent at rest with the envelope `q`. -/
noncomputable def agentOf (x : V3 ℝ) (q : Ptr) : Agent ℝ := ⟨⟨Pose.ofPosition x, V3.zero, V3.zero⟩, 0, some q, 0⟩

theorem withState_ok {h : Heap ℝ} {a : Agent ℝ} {q : Ptr} {d : Ellipsoid ℝ} (ha : a.envelope = some q)
    (hq : h[q]? = some (.ellipsoid d)) (st : State ℝ) :
    ∃ d', a.withState h st = .ok (h.set q (.ellipsoid d'), { a with state := st }) := by
  simp only [Agent.withState, Agent.updateEnvelope, ha, Heap.deref, hq, Res.ok_bind]
  exact ⟨_, rfl⟩

theorem walker_step (h : Heap ℝ) (c : ℝ) (hc : c ^ 2 ≤ 1) (h0 : h[0]? = some (.ellipsoid (ball ⟨0, c, 0⟩)))
    {d : Ellipsoid ℝ} (h1 : h[1]? = some (.ellipsoid d)) :
    ∃ k b, walker.run (envOf [0]) 1 (h, agentOf ⟨2, 0, 0⟩ 1) = .ok (k, b) ∧
      |b.state.position.y + c / 4| ≤ 1 / 10 ^ 8 := by
  have hv : walker.desired (agentOf ⟨2, 0, 0⟩ 1).state.position = ⟨-1, 0, 0⟩ := by
    show V3.smul (-1) ((⟨2, 0, 0⟩ : V3 ℝ) - ⟨1, 0, 0⟩) = _
    ext <;> simp [V3.smul]; norm_num
  obtain ⟨d1, e1⟩ := withState_ok (a := agentOf ⟨2, 0, 0⟩ 1) rfl h1
    ((agentOf ⟨2, 0, 0⟩ 1).state.setLinearVelocity ⟨-1, 0, 0⟩)
  set k1 := h.set 1 (.ellipsoid d1) with hk1
  have g0 : k1[0]? = some (.ellipsoid (ball ⟨0, c, 0⟩)) := by
    rw [hk1, List.getElem?_set_ne (by decide)]; exact h0
  have g1 : k1[1]? = some (.ellipsoid d1) := by
    rw [hk1, List.getElem?_set_self (List.getElem?_eq_some_iff.mp h1).1]
  set a1 : Agent ℝ := { agentAt ⟨2, 0, 0⟩ ⟨-1, 0, 0⟩ with envelope := some 1 } with ha1
  have e1' : (agentOf ⟨2, 0, 0⟩ 1).setLinearVelocity h ⟨-1, 0, 0⟩ = .ok (k1, a1) := e1
  obtain ⟨M, B, m1, m2⟩ := side_push k1 (some 1) c (by linarith)
  obtain ⟨out, o1, -, o2⟩ := C39_single k1 a1 (envOf [0]) false 1 2 0 _ M B 4 rfl g0
    ⟨rfl, rfl⟩ ((ball_smooth (⟨0, c, 0⟩ : V3 ℝ)).unit) m1 rfl (fun hf => by cases hf)
  have hv1 : a1.state.linearVelocity = (⟨-1, 0, 0⟩ : V3 ℝ) := rfl
  rw [hv1, m2] at o2
  obtain ⟨d2, e2⟩ := withState_ok (a := a1) rfl g1
    (a1.state.setPosition ((⟨2, 0, 0⟩ : V3 ℝ) + V3.smul 1 out))
  have e2' : a1.setPosition k1 ((agentOf ⟨2, 0, 0⟩ 1).state.position + V3.smul walker.dt (walker.limit out)) = _ := e2
  refine ⟨k1.set 1 (.ellipsoid d2), { a1 with state := a1.state.setPosition ((⟨2, 0, 0⟩ : V3 ℝ) + V3.smul 1 out) }, ?_, ?_⟩
  · simp only [Loop.run, hv]
    unfold Loop.iterate
    simp only [e1', Res.ok_bind]
    have o1' : modulateVelocity k1 a1 (envOf [0]) walker.isLocal walker.addRepulsion walker.planar walker.critical
      walker.power = .ok (k1, out) := o1
    simp only [o1', Res.ok_bind, e2']
  · have hy : |out.y + c / 4| ≤ V3.norm (out - ⟨-(3 / 4), -(c / 4), 0⟩) := by
      have n1 := V3.norm_nonneg (out - ⟨-(3 / 4), -(c / 4), 0⟩)
      have n2 := V3.norm_sq (out - ⟨-(3 / 4), -(c / 4), 0⟩)
      simp only [V3.sqNorm, V3.dot] at n2
      refine abs_le_of_sq_le_sq ?_ n1
      have : (out - ⟨-(3 / 4), -(c / 4), 0⟩ : V3 ℝ).y = out.y + c / 4 := by simp
      rw [this] at n2
      nlinarith [mul_self_nonneg (out - ⟨-(3 / 4), -(c / 4), 0⟩ : V3 ℝ).x, mul_self_nonneg (out - ⟨-(3 / 4), -(c / 4), 0⟩ : V3 ℝ).z]
    have hn : V3.norm (⟨-(3 / 4), -(c / 4), 0⟩ : V3 ℝ) ≤ 1 := by
      have h2 := V3.norm_sq (⟨-(3 / 4), -(c / 4), 0⟩ : V3 ℝ)
      simp only [V3.sqNorm, V3.dot] at h2
      nlinarith [V3.norm_nonneg (⟨-(3 / 4), -(c / 4), 0⟩ : V3 ℝ)]
    have hfin : ((⟨2, 0, 0⟩ : V3 ℝ) + V3.smul 1 out).y = out.y := by simp [V3.smul]
    show |((⟨2, 0, 0⟩ : V3 ℝ) + V3.smul 1 out).y + c / 4| ≤ _
    rw [hfin]
    refine hy.trans (o2.trans ?_)
    have : (0 : ℝ) ≤ 1 / 10 ^ 8 := by positivity
    nlinarith

/-- The disc and the envelopes of two agents. -/
noncomputable def discWithTwo : Heap ℝ := [.ellipsoid (ball V3.zero), .ellipsoid (ball V3.zero), .ellipsoid (ball V3.zero)]

/-- The two agents. -/
noncomputable def twoAgents (i : Fin 2) : Agent ℝ := if i = 0 then agentOf ⟨2, 0, 0⟩ 1 else agentOf ⟨-2, 3 / 5, 0⟩ 2

theorem discWithTwo_flat (p : Ptr) (a : Aggregate ℝ) : discWithTwo[p]? ≠ some (.aggregate a) := by
  intro h
  match p with
  | 0 => cases h
  | 1 => cases h
  | 2 => cases h
  | n + 3 => cases h

theorem discWithTwo_acyclic : Acyclic discWithTwo := acyclic_flat discWithTwo_flat

theorem twoAgents_own : Enveloped discWithTwo (envOf [0]).list twoAgents := by
  refine ⟨fun i => ?_, fun i q hq x hx hw => ?_⟩
  · fin_cases i
    · exact ⟨1, _, rfl, rfl⟩
    · exact ⟨2, _, rfl, rfl⟩
  · have hx0 : x = 0 := by simpa [envOf] using hx
    subst hx0
    have hq0 : q = 0 := by
      rcases Relation.ReflTransGen.cases_head hw with h | ⟨c, ⟨a, ha, -⟩, -⟩
      · exact h.symm
      · exact absurd ha (discWithTwo_flat _ a)
    subst hq0
    fin_cases i <;> simp [twoAgents, agentOf] at hq

theorem passer_step : ∃ h1 a1, passer.run (envOf [0]) 1 (discWithTwo, agentOf ⟨-2, 3 / 5, 0⟩ 2) = .ok (h1, a1) ∧
    h1[0]? = some (.ellipsoid (ball ⟨0, 3 / 5, 0⟩)) ∧ ∃ d, h1[1]? = some (.ellipsoid d) := by
  have hv : passer.desired (agentOf ⟨-2, 3 / 5, 0⟩ 2).state.position = ⟨1, 0, 0⟩ := by
    show V3.smul (-1) ((⟨-2, 3 / 5, 0⟩ : V3 ℝ) - ⟨-1, 3 / 5, 0⟩) = _
    ext <;> simp [V3.smul]; norm_num
  obtain ⟨d1, e1⟩ := withState_ok (h := discWithTwo) (a := agentOf ⟨-2, 3 / 5, 0⟩ 2) rfl rfl
    ((agentOf ⟨-2, 3 / 5, 0⟩ 2).state.setLinearVelocity ⟨1, 0, 0⟩)
  set k1 := discWithTwo.set 2 (.ellipsoid d1) with hk1
  set a1 : Agent ℝ := { agentAt ⟨-2, 3 / 5, 0⟩ ⟨1, 0, 0⟩ with envelope := some 2 } with ha1
  have e1' : (agentOf ⟨-2, 3 / 5, 0⟩ 2).setLinearVelocity discWithTwo ⟨1, 0, 0⟩ = .ok (k1, a1) := e1
  obtain ⟨k2, out, o1, -⟩ := C61_total k1 a1 (envOf [0]) false false true 1 2 (fun p hp => by
    have : p = 0 := by simpa [envOf] using hp
    subst this
    exact ⟨ball V3.zero, V3.zero, rfl, rfl⟩) (fun hf => by cases hf)
  have hlen : halfLengths (ball V3.zero) V3.zero = ⟨1, 1, 1⟩ := by
    simp [halfLengths, ball, Ellipsoid.ofBase, V3.const, V3.zero, Base.mkRef]
  obtain ⟨u1, v1, u2, v2, ref, f1, f2, f3, -⟩ := C47_chord_partial o1 (fun hf => by cases hf) (p := 0) (by simp [envOf])
    (el := ball V3.zero) rfl (ball_smooth V3.zero).unit (ball_smooth V3.zero).curv (by rw [hlen]; norm_num [AllGt])
    ⟨-2, 3 / 5, 0⟩ ⟨-1, 3 / 5, 0⟩ (by rw [ball_apply]; rfl)
    (by rw [ball_apply]; show (⟨-2, 3 / 5, 0⟩ : V3 ℝ) + ⟨1, 0, 0⟩ = _; ext <;> simp; norm_num) (by norm_num)
    ⟨0, 3 / 5, ⟨2, by norm_num, by norm_num⟩, by rw [hlen]; norm_num⟩
  simp only [hlen] at f1
  have hP := (f1 u1 v1).mpr (.inl ⟨rfl, rfl⟩)
  have hQ := (f1 u2 v2).mpr (.inr ⟨rfl, rfl⟩)
  have hA := (f1 (4 / 5) (3 / 5)).mp ⟨⟨14 / 5, by norm_num, by norm_num⟩, by norm_num⟩
  have hB := (f1 (-(4 / 5)) (3 / 5)).mp ⟨⟨6 / 5, by norm_num, by norm_num⟩, by norm_num⟩
  have hmid : ref = ⟨0, 3 / 5, 0⟩ := by
    rw [f3, ball_apply]
    rcases hA with ⟨a1, a2⟩ | ⟨a1, a2⟩ <;> rcases hB with ⟨b1, b2⟩ | ⟨b1, b2⟩
    · exfalso; linarith
    · rw [← a1, ← a2, ← b1, ← b2]; ext <;> norm_num
    · rw [← a1, ← a2, ← b1, ← b2]; ext <;> norm_num
    · exfalso; linarith
  obtain ⟨g1, g2, -⟩ := C47_frame o1
  obtain ⟨o, g3, g4⟩ := g1.get (show k1[0]? = some (.ellipsoid (ball V3.zero)) from rfl)
  have g5 : o = .ellipsoid (ball ⟨0, 3 / 5, 0⟩) := by
    have hr : o.base.refPos = some ⟨0, 3 / 5, 0⟩ := by
      simpa [refOf, g3, hmid] using f2
    rw [shape_cases g4, hr]
    rfl
  subst g5
  have g6 : k2[1]? = some (.ellipsoid (ball V3.zero)) := by
    rw [g2 1 (by simp [envOf])]; rfl
  have g7 : k2[2]? = some (.ellipsoid d1) := by
    rw [g2 2 (by simp [envOf])]; rfl
  obtain ⟨d2, e2⟩ := withState_ok (h := k2) (a := a1) rfl g7
    (a1.state.setPosition ((agentOf ⟨-2, 3 / 5, 0⟩ 2).state.position + V3.smul passer.dt (passer.limit out)))
  refine ⟨k2.set 2 (.ellipsoid d2), _, Eq.trans ?_ e2, by rw [List.getElem?_set_ne (by decide)]; exact g3,
    _, by rw [List.getElem?_set_ne (by decide)]; exact g6⟩
  · simp only [Loop.run, hv]
    unfold Loop.iterate
    simp only [e1', Res.ok_bind]
    have o1' : modulateVelocity k1 a1 (envOf [0]) passer.isLocal passer.addRepulsion passer.planar passer.critical
      passer.power = .ok (k2, out) := o1
    simp only [o1', Res.ok_bind, Agent.setPosition, e2]

/-- C112: the full statement fails with planar modulation.  Two agents with envelopes of their own share an
environment with one disc.  The first heads for its centre; the second one passes above, and its loop uses
planar modulation, which moves the reference point of the disc.  Alone, the first agent goes straight
ahead; after one iteration of the second one it is pushed aside. -/
theorem C112_negation : ∃ (cs : Fin 2 → Loop ℝ) (e : Env) (h : Heap ℝ) (agents : Fin 2 → Agent ℝ) (h' k : Heap ℝ)
    (agents' : Fin 2 → Agent ℝ) (b : Agent ℝ), Acyclic h ∧ (∀ p ∈ e.list, p < h.length) ∧ Enveloped h e.list agents ∧
    (cs 0).planar = false ∧ runAll cs e [1, 0] (h, agents) = .ok (h', agents') ∧
    (cs 0).run e 1 (h, agents 0) = .ok (k, b) ∧
    (agents' 0).state.position.y < -(1 / 10) ∧ -(1 / 100) < b.state.position.y := by
  obtain ⟨k, b, hb1, hb2⟩ := walker_step discWithTwo 0 (by norm_num) rfl rfl
  obtain ⟨h1, a1, p1, p2, d, p3⟩ := passer_step
  obtain ⟨h', b', hw1, hw2⟩ := walker_step h1 (3 / 5) (by norm_num) p2 p3
  simp only [Loop.run] at p1 hw1 hb1
  obtain ⟨⟨h1', a1'⟩, p1, q1⟩ := Res.bind_eq_ok.mp p1
  obtain ⟨⟨h2', a2'⟩, hw1, q2⟩ := Res.bind_eq_ok.mp hw1
  cases q1
  cases q2
  refine ⟨fun i => if i = 0 then walker else passer, envOf [0], discWithTwo, twoAgents, h', k, Function.update (Function.update twoAgents 1 a1) 0 b', b, ?_, by simp [envOf, discWithTwo], twoAgents_own,
    rfl, ?_, ?_, ?_, ?_⟩
  · exact discWithTwo_acyclic
  · have e1 : moveOne (fun i : Fin 2 => if i = 0 then walker else passer) (envOf [0]) (discWithTwo, twoAgents) 1 =
        .ok (h1, Function.update twoAgents 1 a1) := by
      unfold moveOne
      show (passer.iterate (envOf [0]) (passer.desired (agentOf ⟨-2, 3 / 5, 0⟩ 2).state.position)
        (discWithTwo, agentOf ⟨-2, 3 / 5, 0⟩ 2) >>= _) = _
      rw [p1]; rfl
    have e2 : moveOne (fun i : Fin 2 => if i = 0 then walker else passer) (envOf [0]) (h1, Function.update twoAgents 1 a1) 0 =
        .ok (h', Function.update (Function.update twoAgents 1 a1) 0 b') := by
      unfold moveOne
      show (walker.iterate (envOf [0]) (walker.desired (agentOf ⟨2, 0, 0⟩ 1).state.position)
        (h1, agentOf ⟨2, 0, 0⟩ 1) >>= _) = _
      rw [hw1]; rfl
    simp only [runAll, List.foldlM_cons, List.foldlM_nil, e1, e2, Res.ok_bind]
    rfl
  · exact hb1
  · rw [Function.update_self]
    have := (abs_le.mp hw2).2
    norm_num at this ⊢
    linarith
  · have := (abs_le.mp hb2).1
    norm_num at this ⊢
    linarith

theorem iterate_ready (c : Loop ℝ) (hp : c.planar = false) (hloc : c.isLocal = false) (e : Env) (v : V3 ℝ) {h : Heap ℝ}
    {a : Agent ℝ} {q : Ptr} {d : Ellipsoid ℝ} (ha : a.envelope = some q) (hq : h[q]? = some (.ellipsoid d))
    (hl : q ∉ e.list) (hr : Ready h e.list) : ∃ s, c.iterate e v (h, a) = .ok s := by
  obtain ⟨d1, e1⟩ := withState_ok ha hq (a.state.setLinearVelocity v)
  have e1' : a.setLinearVelocity h v = _ := e1
  obtain ⟨k, out, o1, -⟩ := C61_total (h.set q (.ellipsoid d1)) { a with state := a.state.setLinearVelocity v } e c.isLocal
    c.addRepulsion c.planar c.critical c.power (fun p hp => by
      obtain ⟨el, ref, g1, g2⟩ := hr p hp
      have : q ≠ p := by rintro rfl; exact hl hp
      exact ⟨el, ref, by rw [List.getElem?_set_ne this]; exact g1, g2⟩) (fun hf => by rw [hloc] at hf; cases hf)
  have hk : k = _ := C47_not_planar (hp ▸ o1)
  subst hk
  unfold Loop.iterate
  simp only [e1', Res.ok_bind, o1]
  have hq1 : (h.set q (.ellipsoid d1))[q]? = some (.ellipsoid d1) :=
    List.getElem?_set_self (List.getElem?_eq_some_iff.mp hq).1
  exact ⟨_, (withState_ok (a := { a with state := a.state.setLinearVelocity v }) ha hq1 _).choose_spec⟩

/-- The hypotheses are met by the two agents when neither uses planar modulation; they take turns in both
orders. -/
example : ∃ h1 A1 h2 A2 k b, runAll (fun _ => walker) (envOf [0]) [0, 1] (discWithTwo, twoAgents) = .ok (h1, A1) ∧
    runAll (fun _ => walker) (envOf [0]) [1, 0] (discWithTwo, twoAgents) = .ok (h2, A2) ∧
    walker.run (envOf [0]) 1 (discWithTwo, twoAgents 0) = .ok (k, b) ∧
    (A1 0).state = b.state ∧ ∀ i, (A2 i).state = (A1 i).state := by
  have hl : ∀ p ∈ (envOf [0]).list, p < discWithTwo.length := by simp [envOf, discWithTwo]
  have hr : Ready discWithTwo (envOf [0]).list := fun p hp => by
    have : p = 0 := by simpa [envOf] using hp
    subst this
    exact ⟨ball V3.zero, V3.zero, rfl, rfl⟩
  have alone : ∀ i : Fin 2, ∃ s, walker.run (envOf [0]) (([0, 1] : List (Fin 2)).count i) (discWithTwo, twoAgents i) = .ok s := by
    intro i
    obtain ⟨q, d, g1, g2⟩ := twoAgents_own.ellipsoid i
    obtain ⟨s, hs⟩ := iterate_ready walker rfl rfl (envOf [0]) (walker.desired (twoAgents i).state.position) g1 g2
      (fun hq => twoAgents_own.own i q g1 q hq .refl) hr
    have hc : ([0, 1] : List (Fin 2)).count i = 1 := by fin_cases i <;> rfl
    rw [hc]
    exact ⟨s, by simp only [Loop.run, hs, Res.ok_bind]⟩
  obtain ⟨⟨h1, A1⟩, r1⟩ := C112_completes_partial (cs := fun _ : Fin 2 => walker) (fun _ hs => by cases hs.1) discWithTwo_acyclic hl twoAgents_own alone
  obtain ⟨k, b, g1, g2⟩ := (C112_alone_partial (fun _ hs => by cases hs.1) discWithTwo_acyclic hl twoAgents_own r1).1 0
  obtain ⟨h2, A2, r2, r3⟩ := C112_order_partial (fun _ hs => by cases hs.1) discWithTwo_acyclic hl twoAgents_own (List.Perm.swap 1 0 []) r1
  exact ⟨h1, A1, h2, A2, k, b, r1, r2, g1, g2, r3⟩

/-- The disc is moved before the turns of the two agents. -/
example : ∃ h1 A1 k b, runTurns (fun _ => walker) (envOf [0])
      [.obstacle 0 (·.setPosition ⟨0, 1, 0⟩), .agent 1, .agent 0] (discWithTwo, twoAgents) = .ok (h1, A1) ∧
    runTurns (fun _ => walker) (envOf [0]) [.obstacle 0 (·.setPosition ⟨0, 1, 0⟩), .agent 0] (discWithTwo, twoAgents) =
      .ok (k, b) ∧ b 0 = A1 0 := by
  have hl : ∀ p ∈ (envOf [0]).list, p < discWithTwo.length := by simp [envOf, discWithTwo]
  obtain ⟨h0, hh0⟩ : ∃ h0, h0 = discWithTwo.set 0 ((Obj.ellipsoid (ball V3.zero)).mapBase (·.setPosition ⟨0, 1, 0⟩)) :=
    ⟨_, rfl⟩
  have e0 : takeTurn (fun _ => walker) (envOf [0]) (discWithTwo, twoAgents) (.obstacle 0 (·.setPosition ⟨0, 1, 0⟩)) =
      .ok (h0, twoAgents) := by rw [hh0]; rfl
  have r0 : Ready h0 (envOf [0]).list := fun p hp => by
    have : p = 0 := by simpa [envOf] using hp
    subst this
    rw [hh0]
    exact ⟨_, V3.zero, rfl, rfl⟩
  have hc : ¬ Shifts walker h0 (envOf [0]).list := fun hs => by cases hs.1
  obtain ⟨⟨h1, a1⟩, w1⟩ := iterate_ready walker rfl rfl (envOf [0]) (walker.desired (twoAgents 1).state.position)
    (h := h0) (a := twoAgents 1) (q := 2) (d := ball V3.zero) rfl (by rw [hh0]; rfl) (by simp [envOf]) r0
  obtain ⟨-, q, d0, d, g1, -, rfl, -⟩ := iterate_only hc (fun q hq => by
    have : q = 2 := (Option.some.inj hq).symm
    subst this; simp [envOf]) w1
  have hq2 : q = 2 := (Option.some.inj g1).symm
  subst hq2
  have e1 : takeTurn (fun _ => walker) (envOf [0]) (h0, twoAgents) (.agent 1) =
      .ok (h0.set 2 (.ellipsoid d), Function.update twoAgents 1 a1) := by
    simp only [takeTurn, moveOne, w1, Res.ok_bind]
  have hz : Function.update twoAgents 1 a1 0 = twoAgents 0 := Function.update_of_ne (by decide) _ _
  obtain ⟨⟨h2, a2⟩, w2⟩ := iterate_ready walker rfl rfl (envOf [0]) (walker.desired (twoAgents 0).state.position)
    (h := h0.set 2 (.ellipsoid d)) (a := twoAgents 0) (q := 1) (d := ball V3.zero) rfl
    (by rw [List.getElem?_set_ne (by decide), hh0]; rfl) (by simp [envOf]) (fun p hp => by
      obtain ⟨el, ref, k1, k2⟩ := r0 p hp
      have : p = 0 := by simpa [envOf] using hp
      subst this
      exact ⟨el, ref, by rw [List.getElem?_set_ne (by decide)]; exact k1, k2⟩)
  have e2 : takeTurn (fun _ => walker) (envOf [0]) (h0.set 2 (.ellipsoid d), Function.update twoAgents 1 a1) (.agent 0) =
      .ok (h2, Function.update (Function.update twoAgents 1 a1) 0 a2) := by
    simp only [takeTurn, moveOne, hz, w2, Res.ok_bind]
  have hr : runTurns (fun _ => walker) (envOf [0]) [.obstacle 0 (·.setPosition ⟨0, 1, 0⟩), .agent 1, .agent 0]
      (discWithTwo, twoAgents) = .ok (h2, Function.update (Function.update twoAgents 1 a1) 0 a2) := by
    simp only [runTurns, List.foldlM_cons, List.foldlM_nil, e0, e1, e2, Res.ok_bind]
    rfl
  obtain ⟨k, b, m1, m2, -⟩ := C112_moving_partial (fun _ hs => by cases hs.1) discWithTwo_acyclic hl twoAgents_own
    (fun p g hm j hj => by
      have hp : p = 0 := by
        simp only [List.mem_cons, Turn.obstacle.injEq, reduceCtorEq, List.not_mem_nil, or_false] at hm
        exact hm.1
      subst hp
      exact twoAgents_own.own j 0 hj 0 (by simp [envOf]) .refl) hr 0
  exact ⟨_, _, k, b, hr, m1, m2⟩

end DOA.Props
