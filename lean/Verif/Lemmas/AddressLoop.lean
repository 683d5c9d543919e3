import Verif.Lemmas.Lockstep
import Verif.Model.Loop
import Verif.Props.Address
import Verif.Props.Order

/-! # Control loops depend only on what the obstacles are made of -/

set_option linter.unusedSectionVars false
set_option linter.unusedSimpArgs false

namespace DOA
open DOA.Spec DOA.Modulation DOA.Aggregation

variable {α : Type} [Add α] [Sub α] [Mul α] [Div α] [Neg α] [Zero α] [One α]
  [LE α] [LT α] [DecidableLE α] [DecidableLT α] [CMath α]

/-- The objects in `S` are still there, up to their reference positions. -/
def KeepsOn (S : Ptr → Prop) (h k : Heap α) : Prop :=
  ∀ (p : Ptr) (o : Obj α), S p → h[p]? = some o → ∃ o1, k[p]? = some o1 ∧ shape o1 = shape o

/-- A set of objects that contains the primitives of its aggregates. -/
def Closed (h : Heap α) (S : Ptr → Prop) : Prop := ∀ p q, S p → Child h p q → S q

section
variable {h h' k k' : Heap α} {S S' : Ptr → Prop} (c : Closed h S) (c' : Closed h' S') (s : KeepsOn S h k)
  (s' : KeepsOn S' h' k')

include c c' s s' in
theorem alikeAll_keepsOn : ∀ (n : Nat) (l l' : List Ptr) (rank : Ptr → Nat), (∀ p q, Child h p q → rank q < rank p) →
    (∀ q ∈ l, S q ∧ rank q < n) → (∀ q ∈ l', S' q) → AlikeAll h h' l l' → AlikeAll k k' l l' := by
  intro n
  induction n with
  | zero =>
    intro l l' rank _ hl _ t
    cases t with
    | nil => exact .nil
    | cons p _ _ _ _ _ _ _ _ _ => exact absurd (hl p List.mem_cons_self).2 (by omega)
  | succ n ih =>
    intro l
    induction l with
    | nil => intro l' rank _ _ _ t; cases t; exact .nil
    | cons p l ihl =>
      intro l' rank hrk hl hl' t
      cases t with
      | cons _ p' _ l' o o' h1 h2 h3 h4 =>
        have hp := hl p List.mem_cons_self
        have hp' := hl' p' List.mem_cons_self
        obtain ⟨u, e1, e2⟩ := s p o hp.1 h1
        obtain ⟨u', e3, e4⟩ := s' p' o' hp' h2
        refine .cons p p' l l' u u' e1 e3 (Alike.reshape ?_ e2 e4) (ihl l' rank hrk
          (fun x hx => hl x (List.mem_cons_of_mem _ hx)) (fun x hx => hl' x (List.mem_cons_of_mem _ hx)) h4)
        cases h3 with
        | plain b b' hs => exact .plain b b' hs
        | ellipsoid b b' hs => exact .ellipsoid b b' hs
        | hull b b' hs => exact .hull b b' hs
        | aggregate a a' hs hps =>
          refine .aggregate a a' hs (ih a.prims a'.prims rank hrk (fun q hq => ?_) (fun q hq => ?_) hps)
          · have hc : Child h p q := ⟨a, h1, hq⟩
            have := hrk p q hc
            exact ⟨c p q hp.1 hc, by omega⟩
          · exact c' p' q hp' ⟨a', h2, hq⟩

include c c' s s' in
theorem at_keepsOn (ha : Acyclic h) {p p' : Ptr} (hp : S p) (hp' : S' p') (t : At h h' p p') : At k k' p p' := by
  obtain ⟨rank, hr⟩ := ha
  obtain ⟨o, o', h1, h2, h3⟩ := t
  have := alikeAll_keepsOn c c' s s' (rank p + 1) [p] [p'] rank (fun p q hc => (hr p q hc).2) (by simp [hp])
    (by simp [hp']) (.cons p p' [] [] o o' h1 h2 h3 .nil)
  cases this with
  | cons _ _ _ _ u u' e1 e2 e3 _ => exact ⟨u, u', e1, e2, e3⟩

include c c' s s' in
/-- Twins remain twins if their reference positions remain. -/
theorem twin_keepsOn (ha : Acyclic h) {p p' : Ptr} (hp : S p) (hp' : S' p') (t : Twin h h' p p')
    (e : refOf k p = refOf h p) (e' : refOf k' p' = refOf h' p') : Twin k k' p p' := by
  obtain ⟨o, o', h1, h2, h3, h4⟩ := t
  obtain ⟨u, u', e1, e2, e3⟩ := at_keepsOn c c' s s' ha hp hp' ⟨o, o', h1, h2, h4⟩
  refine ⟨u, u', e1, e2, ?_, e3⟩
  simp only [refOf, e1, h1, e2, h2, Option.bind_some] at e e'
  rw [e, e', h3]
end

theorem _root_.DOA.Spec.Twin.at {h h' : Heap α} {p p' : Ptr} (t : Twin h h' p p') : At h h' p p' := by
  obtain ⟨o, o', h1, h2, -, h4⟩ := t
  exact ⟨o, o', h1, h2, h4⟩

/-- Everything that belongs to the obstacles of a list. -/
def reach (h : Heap α) (l : List Ptr) (r : Ptr) : Prop := ∃ q ∈ l, Within h q r

theorem closed_reach (h : Heap α) (l : List Ptr) : Closed h (reach h l) := by
  rintro p q ⟨x, hx, hw⟩ hc
  exact ⟨x, hx, hw.tail hc⟩

theorem child_sameShape {h k : Heap α} (s : SameShape h k) : Child k = Child h := by
  have key : ∀ {h k : Heap α}, SameShape h k → ∀ p q, Child h p q → Child k p q := by
    rintro h k s p q ⟨a, hp, hq⟩
    obtain ⟨o, h1, h2⟩ := s.get hp
    obtain ⟨b, rfl, hb⟩ := prims_of_shape h2
    exact ⟨b, h1, hb ▸ hq⟩
  funext p q
  exact propext ⟨key s.symm p q, key s p q⟩

theorem within_sameShape {h k : Heap α} (s : SameShape h k) : Within k = Within h := by
  funext p q
  unfold Within
  rw [child_sameShape s]

/-- Outside the object `p`, nothing is reached differently. -/
theorem within_set {h : Heap α} {p q r : Ptr} (o : Obj α) (hq : ¬ Within h q p) :
    Within (h.set p o) q r ↔ Within h q r := by
  have hc : ∀ x y, x ≠ p → (Child (h.set p o) x y ↔ Child h x y) := by
    intro x y hx
    simp only [Child, List.getElem?_set_ne (Ne.symm hx)]
  constructor
  · intro hw
    induction hw with
    | refl => exact .refl
    | @tail b c _ hbc ih =>
      have : b ≠ p := by rintro rfl; exact hq ih
      exact ih.tail ((hc _ _ this).mp hbc)
  · intro hw
    induction hw with
    | refl => exact .refl
    | @tail b c hb hbc ih =>
      have : b ≠ p := by rintro rfl; exact hq hb
      exact ih.tail ((hc _ _ this).mpr hbc)

theorem acyclic_set {h : Heap α} (ha : Acyclic h) (p : Ptr) (e : Ellipsoid α) : Acyclic (h.set p (.ellipsoid e)) := by
  obtain ⟨rank, hr⟩ := ha
  refine ⟨rank, ?_⟩
  rintro x y ⟨a, hx, hy⟩
  rw [List.length_set]
  by_cases hxp : x = p
  · subst hxp
    have hl := (List.getElem?_eq_some_iff.mp hx).1
    rw [List.getElem?_set_self (by simpa using hl)] at hx
    cases hx
  · rw [List.getElem?_set_ne (Ne.symm hxp)] at hx
    exact hr x y ⟨a, hx, hy⟩

theorem keepsOn_set {h : Heap α} {l : List Ptr} {p : Ptr} (o : Obj α) (hp : ∀ q ∈ l, ¬ Within h q p) :
    KeepsOn (reach h l) h (h.set p o) := by
  rintro r u ⟨q, hq, hw⟩ hu
  have : p ≠ r := by rintro rfl; exact hp q hq hw
  exact ⟨u, by rw [List.getElem?_set_ne this, hu], rfl⟩

theorem refOf_set {h : Heap α} {p q : Ptr} (o : Obj α) (hq : p ≠ q) : refOf (h.set p o) q = refOf h q := by
  simp only [refOf, List.getElem?_set_ne hq]

/-- Twins do not notice changes of other objects. -/
theorem twins_set {h h' : Heap α} (ha : Acyclic h) {l l' : List Ptr} (t : Twins h h' l l') {p p' : Ptr}
    (hp : ∀ q ∈ l, ¬ Within h q p) (hp' : ∀ q ∈ l', ¬ Within h' q p') (o o' : Obj α) :
    Twins (h.set p o) (h'.set p' o') l l' := by
  refine (forall₂_mem t).imp fun x x' ht => ?_
  refine twin_keepsOn (closed_reach h l) (closed_reach h' l') (keepsOn_set o hp) (keepsOn_set o' hp') ha
    ⟨x, ht.2.1, .refl⟩ ⟨x', ht.2.2, .refl⟩ ht.1 (refOf_set o ?_) (refOf_set o' ?_)
  · rintro rfl; exact hp _ ht.2.1 .refl
  · rintro rfl; exact hp' _ ht.2.2 .refl

/-! ### The state of a loop -/

/-- How one step of a loop may change the heap. -/
structure Frame (l : List Ptr) (s t : Heap α × Agent α) : Prop where
  envelope : t.2.envelope = s.2.envelope
  len : t.1.length = s.1.length
  shape : ∀ r, s.2.envelope ≠ some r → (t.1[r]?).map shape = (s.1[r]?).map shape
  other : ∀ r, s.2.envelope ≠ some r → r ∉ l → t.1[r]? = s.1[r]?
  kind : ∀ (r : Ptr) (e : Ellipsoid α), s.2.envelope = some r → s.1[r]? = some (.ellipsoid e) → ∃ e', t.1[r]? = some (.ellipsoid e')
  fixed : ∀ (r : Ptr) (ag : Aggregate α), s.1[r]? = some (.aggregate ag) → t.1[r]? = some (.aggregate ag)

theorem Frame.trans {l : List Ptr} {s t u : Heap α × Agent α} (f : Frame l s t) (g : Frame l t u) : Frame l s u := by
  refine ⟨g.envelope.trans f.envelope, g.len.trans f.len, fun r hr => ?_, fun r hr hl => ?_, fun r e hr he => ?_,
    fun r ag hr => g.fixed r ag (f.fixed r ag hr)⟩
  · exact (g.shape r (by rw [f.envelope]; exact hr)).trans (f.shape r hr)
  · exact (g.other r (by rw [f.envelope]; exact hr) hl).trans (f.other r hr hl)
  · obtain ⟨e', he'⟩ := f.kind r e hr he
    exact g.kind r e' (by rw [f.envelope]; exact hr) he'

theorem Frame.refl (l : List Ptr) (s : Heap α × Agent α) : Frame l s s :=
  ⟨rfl, rfl, fun _ _ => rfl, fun _ _ _ => rfl, fun _ e _ he => ⟨e, he⟩, fun _ _ h => h⟩

/-- A change of the agent's state in both. -/
theorem withState_paired {l l' : List Ptr} {s s' : Heap α × Agent α} (p : Paired l l' s s') (st : State α) :
    Agree (fun t t' => Paired l l' t t' ∧ Frame l s t ∧ Frame l' s' t') (s.2.withState s.1 st) (s'.2.withState s'.1 st) := by
  obtain ⟨h, a⟩ := s
  obtain ⟨h', a'⟩ := s'
  unfold Agent.withState
  rcases p.envelopes with ⟨h1, h2⟩ | ⟨q, q', h1, h2, o, o', h3, h4, h5, h6⟩
  · simp only at h1 h2
    simp [Agent.updateEnvelope, h1, h2, Agree]
  · simp only at h1 h2 h3 h4
    have hag : SameAgent a a' := p.agent
    have own : OwnEnvelope h a l := p.own
    have own' : OwnEnvelope h' a' l' := p.own'
    have ht : Twins h h' l l' := p.twins
    have hb := h6.base_eq h5
    have hq := (List.getElem?_eq_some_iff.mp h3).1
    have hq' := (List.getElem?_eq_some_iff.mp h4).1
    cases h6 with
    | plain => simp [Agent.updateEnvelope, h1, h2, h3, h4, Heap.deref, Agree]
    | hull => simp [Agent.updateEnvelope, h1, h2, h3, h4, Heap.deref, Agree]
    | aggregate => simp [Agent.updateEnvelope, h1, h2, h3, h4, Heap.deref, Agree]
    | ellipsoid e e' hs =>
      simp only [Agent.updateEnvelope, h1, h2, h3, h4, Heap.deref, Res.ok_bind, Agree]
      have he : e = e' := by
        have := shape_cases hs
        simp only [Obj.mapBase, Obj.ellipsoid.injEq, Obj.base] at this hb
        rw [this, hb]
      subst he
      have hen : ∀ x y : Option Ptr, (Agent.mk st a.margin x a.deltaT).envelopeFor e =
          (Agent.mk st a'.margin y a'.deltaT).envelopeFor e := by
        intro x y
        simp only [Agent.envelopeFor, Agent.effMargin, hag.margin, hag.deltaT]
      have frame : ∀ (h : Heap α) (a : Agent α) (l : List Ptr) (q : Ptr) (d : Ellipsoid α), a.envelope = some q →
          h[q]? = some (.ellipsoid e) → q < h.length → Frame l (h, a) (h.set q (.ellipsoid d), { a with state := st }) := by
        intro h a l q d he hqe hql
        refine ⟨rfl, by simp, fun r hr => ?_, fun r hr _ => ?_, fun r e hr _ => ?_, fun r ag hr => ?_⟩
        · have : q ≠ r := by rintro rfl; exact hr he
          simp only [List.getElem?_set_ne this]
        · have : q ≠ r := by rintro rfl; exact hr he
          simp only [List.getElem?_set_ne this]
        · simp only [he, Option.some.injEq] at hr
          subst hr
          exact ⟨d, by simp only [List.getElem?_set_self hql]⟩
        · have : q ≠ r := by rintro rfl; simp only [hqe] at hr; cases hr
          simpa only [List.getElem?_set_ne this] using hr
      refine ⟨⟨acyclic_set p.acyclic q _, acyclic_set p.acyclic' q' _, ?_, ⟨rfl, hag.margin, hag.deltaT⟩, .inr ?_, ?_, ?_⟩,
        ?_, ?_⟩
      · exact twins_set p.acyclic ht (fun x hx => own q h1 x hx) (fun x hx => own' q' h2 x hx) _ _
      · refine ⟨q, q', rfl, rfl, _, _, List.getElem?_set_self hq, List.getElem?_set_self hq', ?_, ?_⟩
        · rw [hen (some q) (some q')]
        · rw [hen (some q) (some q')]; exact .ellipsoid _ _ rfl
      · intro r hr x hx
        have hr' : q = r := Option.some.inj hr
        subst hr'
        rw [within_set _ (own q h1 x hx)]
        exact own q h1 x hx
      · intro r hr x hx
        have hr' : q' = r := Option.some.inj hr
        subst hr'
        rw [within_set _ (own' q' h2 x hx)]
        exact own' q' h2 x hx
      · simpa only [h1] using frame h a l q _ h1 h3 hq
      · simpa only [h2] using frame h' a' l' q' _ h2 h4 hq'

theorem Agree.bind {β γ δ ε : Type} {R : β → γ → Prop} {S : δ → ε → Prop} {x : Res β} {y : Res γ} {f : β → Res δ}
    {g : γ → Res ε} (h : Agree R x y) (k : ∀ b c, x = .ok b → y = .ok c → R b c → Agree S (f b) (g c)) :
    Agree S (x >>= f) (y >>= g) := by
  cases x <;> cases y <;> simp only [Agree] at h
  · exact k _ _ rfl rfl h
  · subst h; exact rfl
  · subst h; exact rfl

theorem Agree.imp {β γ : Type} {R S : β → γ → Prop} {x : Res β} {y : Res γ} (h : Agree R x y)
    (k : ∀ b c, R b c → S b c) : Agree S x y := by
  cases x <;> cases y <;> simp only [Agree] at h ⊢
  · exact k _ _ h
  · exact h
  · exact h

/-- What `modulate_velocity` may change. -/
theorem modulate_frame {h k : Heap α} {a : Agent α} {e : Env} {loc rep planar : Bool} {critical power : α} {v : V3 α}
    (hm : modulateVelocity h a e loc rep planar critical power = .ok (k, v)) (own : OwnEnvelope h a e.list) :
    Frame e.list (h, a) (k, a) := by
  obtain ⟨h1, h2, h3⟩ := Props.C47_frame hm
  refine ⟨rfl, h1.length, fun r _ => h1 r, fun r _ hr => h2 r hr, fun r d hr hd => ⟨d, ?_⟩, fun r ag hr => ?_⟩
  · simp only at hr hd ⊢
    rw [h2 r (fun hl => own r hr r hl .refl), hd]
  · exact h3 r _ hr rfl

/-- The modulation in both. -/
theorem modulate_paired (c : Loop α) {e e' : Env} {s s' : Heap α × Agent α} (p : Paired e.list e'.list s s') :
    Agree (fun r r' => r.2 = r'.2 ∧ Paired e.list e'.list (r.1, s.2) (r'.1, s'.2) ∧ Frame e.list s (r.1, s.2) ∧
        Frame e'.list s' (r'.1, s'.2))
      (modulateVelocity s.1 s.2 e c.isLocal c.addRepulsion c.planar c.critical c.power)
      (modulateVelocity s'.1 s'.2 e' c.isLocal c.addRepulsion c.planar c.critical c.power) := by
  have key := Props.C90_velocity p.acyclic p.acyclic' p.twins p.agent.state p.agent.margin p.envelopes c.isLocal
    c.addRepulsion c.planar c.critical c.power
  cases hx : modulateVelocity s.1 s.2 e c.isLocal c.addRepulsion c.planar c.critical c.power with
  | throw x => cases hy : modulateVelocity s'.1 s'.2 e' c.isLocal c.addRepulsion c.planar c.critical c.power <;>
      (rw [hx, hy] at key; exact key)
  | ub x => cases hy : modulateVelocity s'.1 s'.2 e' c.isLocal c.addRepulsion c.planar c.critical c.power <;>
      (rw [hx, hy] at key; exact key)
  | ok r =>
    cases hy : modulateVelocity s'.1 s'.2 e' c.isLocal c.addRepulsion c.planar c.critical c.power with
    | throw x => rw [hx, hy] at key; exact key
    | ub x => rw [hx, hy] at key; exact key
    | ok r' =>
      rw [hx, hy] at key
      obtain ⟨k, v⟩ := r
      obtain ⟨k', v'⟩ := r'
      obtain ⟨key1, key2⟩ := key
      have g1 := (Props.C47_frame hx).1
      have g2 := (Props.C47_frame hy).1
      have f1 := (Props.C47_frame hx).2.1
      have f2 := (Props.C47_frame hy).2.1
      refine ⟨key1, ⟨acyclic_sameShape g1 p.acyclic, acyclic_sameShape g2 p.acyclic', key2, p.agent, ?_, ?_, ?_⟩,
        modulate_frame hx p.own, modulate_frame hy p.own'⟩
      · rcases p.envelopes with h1 | ⟨q, q', h1, h2, o, o', h3, h4, h5, h6⟩
        · exact .inl h1
        · refine .inr ⟨q, q', h1, h2, o, o', ?_, ?_, h5, h6.keeps g1.keeps g2.keeps⟩
          · rw [f1 q (fun hl => p.own q h1 q hl .refl), h3]
          · rw [f2 q' (fun hl => p.own' q' h2 q' hl .refl), h4]
      · intro q hq x hx
        simp only [within_sameShape g1]
        exact p.own q hq x hx
      · intro q hq x hx
        simp only [within_sameShape g2]
        exact p.own' q hq x hx

/-- One iteration in both. -/
theorem iterate_paired (c : Loop α) {e e' : Env} (v : V3 α) {s s' : Heap α × Agent α}
    (p : Paired e.list e'.list s s') :
    Agree (fun t t' => Paired e.list e'.list t t' ∧ Frame e.list s t ∧ Frame e'.list s' t')
      (c.iterate e v s) (c.iterate e' v s') := by
  unfold Loop.iterate Agent.setLinearVelocity Agent.setPosition
  simp only [p.agent.state]
  refine Agree.bind (withState_paired p _) fun t t' _ _ ⟨p1, f1, f1'⟩ => ?_
  refine Agree.bind (modulate_paired c p1) fun r r' _ _ ⟨e2, p2, f2, f2'⟩ => ?_
  have := withState_paired p2
  simp only [p1.agent.state, e2]
  refine Agree.imp (withState_paired p2 _) fun u u' ⟨p3, f3, f3'⟩ => ⟨p3, (f1.trans f2).trans f3, (f1'.trans f2').trans f3'⟩


end DOA
