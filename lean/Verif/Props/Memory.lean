import Verif.Spec.Memory
import Verif.Props.Several

/-!
# C114 without planar modulation an agent has no memory but its place
-/

set_option linter.unusedSectionVars false
set_option linter.unusedSimpArgs false

namespace DOA.Props
open DOA DOA.Spec DOA.Modulation DOA.Ellipsoid Aggregation

section
variable {α : Type} [Add α] [Sub α] [Mul α] [Div α] [Neg α] [Zero α] [One α]
  [LE α] [LT α] [DecidableLE α] [DecidableLT α] [CMath α]

/-- No agent with the envelope `q` can tell the two memories apart once it has set its state. -/
structure Forgets (q : Option Ptr) (h h' : Heap α) : Prop where
  env : ∀ b : Agent α, b.envelope = q → b.updateEnvelope h' = b.updateEnvelope h
  length : h'.length = h.length
  off : ∀ r : Ptr, q ≠ some r → h'[r]? = h[r]?

theorem Forgets.refl (q : Option Ptr) (h : Heap α) : Forgets q h h := ⟨fun _ _ => rfl, rfl, fun _ _ => rfl⟩

theorem withState_forgets {h h' : Heap α} {a a' : Agent α} {st : State α} (hw : a.withState h st = .ok (h', a')) :
    a'.envelope = a.envelope ∧ Forgets a.envelope h h' := by
  unfold Agent.withState at hw
  obtain ⟨k, hk, hw⟩ := Res.bind_eq_ok.mp hw
  cases hw
  refine ⟨rfl, ?_⟩
  unfold Agent.updateEnvelope at hk
  cases ha : a.envelope with
  | none => simp only [ha] at hk; cases hk
  | some p =>
    simp only [ha] at hk
    cases hp : h[p]? with
    | none => simp only [Heap.deref, hp] at hk; cases hk
    | some o =>
      simp only [Heap.deref, hp] at hk
      cases o with
      | plain b => cases hk
      | hull k => cases hk
      | aggregate a => cases hk
      | ellipsoid e =>
        cases hk
        refine ⟨fun b hb => ?_, List.length_set, fun r hr => List.getElem?_set_ne fun he => hr (congrArg some he)⟩
        unfold Agent.updateEnvelope
        rw [hb]
        simp only [Heap.deref, hp, List.getElem?_set_self (List.getElem?_eq_some_iff.mp hp).1, Res.ok_bind, List.set_set]
        rfl

theorem Forgets.trans {q : Option Ptr} {h k m : Heap α} (h1 : Forgets q h k) (h2 : Forgets q k m) : Forgets q h m :=
  ⟨fun b hb => (h2.env b hb).trans (h1.env b hb), h2.length.trans h1.length, fun r hr => (h2.off r hr).trans (h1.off r hr)⟩

theorem iterate_forgets {c : Loop α} (hc : c.planar = false) {e : Env} {v : V3 α} {s s' : Heap α × Agent α}
    (hi : c.iterate e v s = .ok s') : s'.2.envelope = s.2.envelope ∧ Forgets s.2.envelope s.1 s'.1 := by
  unfold Loop.iterate at hi
  obtain ⟨⟨k, b⟩, w1, hi⟩ := Res.bind_eq_ok.mp hi
  obtain ⟨⟨k2, out⟩, w2, hi⟩ := Res.bind_eq_ok.mp hi
  rw [hc] at w2
  have hk := C47_not_planar w2
  subst hk
  obtain ⟨e1, f1⟩ := withState_forgets w1
  obtain ⟨e2, f2⟩ := withState_forgets (h' := s'.1) (a' := s'.2) hi
  rw [show (k2, b).2.envelope = s.2.envelope from e1] at e2 f2
  exact ⟨e2, f1.trans f2⟩

theorem run_forgets {c : Loop α} (hc : c.planar = false) {e : Env} : ∀ (n : Nat) {s s' : Heap α × Agent α},
    c.run e n s = .ok s' → s'.2.envelope = s.2.envelope ∧ Forgets s.2.envelope s.1 s'.1
  | 0, _, _, hr => by cases hr; exact ⟨rfl, .refl _ _⟩
  | n + 1, s, s', hr => by
    obtain ⟨t, h1, hr⟩ := Res.bind_eq_ok.mp hr
    obtain ⟨e1, f1⟩ := iterate_forgets hc h1
    obtain ⟨e2, f2⟩ := run_forgets hc n hr
    rw [e1] at e2 f2
    exact ⟨e2, f1.trans f2⟩

theorem runMixed_forgets {c : Loop α} (hc : c.planar = false) {e : Env} : ∀ (n : Nat) {p : Option (V3 α)}
    {s s' : Heap α × Agent α}, c.runMixed e n p s = .ok s' → s'.2.envelope = s.2.envelope ∧ Forgets s.2.envelope s.1 s'.1
  | 0, _, _, _, hr => by cases hr; exact ⟨rfl, .refl _ _⟩
  | _ + 1, none, _, _, hr => by cases hr
  | n + 1, some p, s, s', hr => by
    obtain ⟨t, h1, hr⟩ := Res.bind_eq_ok.mp hr
    obtain ⟨e1, f1⟩ := iterate_forgets hc h1
    obtain ⟨e2, f2⟩ := runMixed_forgets hc n hr
    rw [e1] at e2 f2
    exact ⟨e2, f1.trans f2⟩

theorem runWall_forgets {c : Loop α} (hc : c.planar = false) {e : Env} : ∀ (n : Nat) {s s' : Heap α × Agent α},
    c.runWall e n s = .ok s' → s'.2.envelope = s.2.envelope ∧ Forgets s.2.envelope s.1 s'.1
  | 0, _, _, hr => by cases hr; exact ⟨rfl, .refl _ _⟩
  | n + 1, s, s', hr => by
    obtain ⟨t, h1, hr⟩ := Res.bind_eq_ok.mp hr
    have key : t.2.envelope = s.2.envelope ∧ Forgets s.2.envelope s.1 t.1 := by
      unfold Loop.iterateWall at h1
      obtain ⟨b, -, h1⟩ := Res.bind_eq_ok.mp h1
      cases b with
      | false => exact withState_forgets (h' := t.1) (a' := t.2) h1
      | true =>
        obtain ⟨u, h2, h1⟩ := Res.bind_eq_ok.mp h1
        obtain ⟨e1, f1⟩ := withState_forgets (h' := u.1) (a' := u.2) h2
        obtain ⟨e2, f2⟩ := iterate_forgets hc h1
        rw [e1] at e2 f2
        exact ⟨e2, f1.trans f2⟩
    obtain ⟨e2, f2⟩ := runWall_forgets hc n hr
    rw [key.1] at e2 f2
    exact ⟨e2, key.2.trans f2⟩

theorem life_forgets : ∀ (l : List (Stage α)), (∀ g ∈ l, g.loop.planar = false) → ∀ {s s' : Heap α × Agent α},
    life l s = .ok s' → s'.2.envelope = s.2.envelope ∧ Forgets s.2.envelope s.1 s'.1
  | [], _, _, _, hr => by cases hr; exact ⟨rfl, .refl _ _⟩
  | g :: l, hg, s, s', hr => by
    simp only [life, List.foldlM_cons] at hr
    obtain ⟨t, h1, hr⟩ := Res.bind_eq_ok.mp hr
    have hc := hg g (List.mem_cons_self ..)
    have key : t.2.envelope = s.2.envelope ∧ Forgets s.2.envelope s.1 t.1 := by
      cases g with
      | plain c e n => exact run_forgets hc n h1
      | mixed c e n p => exact runMixed_forgets hc n h1
      | wall c e n => exact runWall_forgets hc n h1
    obtain ⟨e2, f2⟩ := life_forgets l (fun g h => hg g (List.mem_cons_of_mem _ h)) hr
    rw [key.1] at e2 f2
    exact ⟨e2, key.2.trans f2⟩

theorem setLinearVelocity_forgetting {h k : Heap α} {a b : Agent α} (hp : SamePlace a b) (hf : Forgets a.envelope h k)
    (v : V3 α) : b.setLinearVelocity k v = a.setLinearVelocity h v := by
  have hst : ({ b with state := b.state.setLinearVelocity v } : Agent α) =
      { a with state := a.state.setLinearVelocity v } := by
    rw [hp]
    rfl
  unfold Agent.setLinearVelocity Agent.withState
  simp only [hst]
  rw [hf.env { a with state := a.state.setLinearVelocity v } rfl]

theorem iterate_forgetting {h k : Heap α} {a b : Agent α} (hp : SamePlace a b) (hf : Forgets a.envelope h k) (c : Loop α)
    (e : Env) (v : V3 α) : c.iterate e v (k, b) = c.iterate e v (h, a) := by
  have hx : b.state.position = a.state.position := by rw [hp]; rfl
  unfold Loop.iterate
  simp only [setLinearVelocity_forgetting hp hf, hx]

/-- What is inside an obstacle depends only on the objects it is made of. -/
theorem inside_apart {h k : Heap α} {S : Ptr → Prop} (hc : Closed h S) (hk : ∀ r, S r → k[r]? = h[r]?) (pt : V3 α) :
    ∀ (f : Nat) (p : Ptr) (o : Obj α), S p → h[p]? = some o → Heap.pointIsInsideAux f k o pt = Heap.pointIsInsideAux f h o pt
  | 0, _, _, _, _ => rfl
  | f + 1, p, o, hp, ho => by
    cases o with
    | plain b => rfl
    | ellipsoid e => rfl
    | hull k => rfl
    | aggregate a =>
      have hs : ∀ q ∈ a.prims, S q := fun q hq => hc p q hp ⟨a, ho, hq⟩
      have key : ∀ (l : List Ptr), (∀ q ∈ l, S q) → ∀ b : Bool,
          l.foldlM (fun acc q => do
            let oq ← k.deref q
            let b ← Heap.pointIsInsideAux f k oq pt
            Res.ok (acc || b)) b =
          l.foldlM (fun acc q => do
            let oq ← h.deref q
            let b ← Heap.pointIsInsideAux f h oq pt
            Res.ok (acc || b)) b := by
        intro l
        induction l with
        | nil => intro _ b; rfl
        | cons q l ih =>
          intro hl b
          have hq := hl q (List.mem_cons_self ..)
          have hd : (do
              let oq ← k.deref q
              let b' ← Heap.pointIsInsideAux f k oq pt
              Res.ok (b || b')) = (do
              let oq ← h.deref q
              let b' ← Heap.pointIsInsideAux f h oq pt
              Res.ok (b || b')) := by
            simp only [Heap.deref, hk q hq]
            cases hx : h[q]? with
            | none => rfl
            | some u =>
              simp only [Res.ok_bind]
              rw [inside_apart hc hk pt f q u hq hx]
          simp only [List.foldlM_cons]
          rw [hd]
          congr 1
          funext b'
          exact ih (fun q h => hl q (List.mem_cons_of_mem _ h)) b'
      simp only [Heap.pointIsInsideAux, key a.prims hs]

theorem existPath_apart {h k : Heap α} (hlen : k.length = h.length) {l : List Ptr}
    (hk : ∀ r, DOA.reach h l r → k[r]? = h[r]?) (a : Agent α) (t : V3 α) : a.existPath k t l = a.existPath h t l := by
  have hin : ∀ (p : Ptr) (o : Obj α) (pt : V3 α), DOA.reach h l p → h[p]? = some o →
      k.pointIsInside o pt = h.pointIsInside o pt := by
    intro p o pt hp ho
    unfold Heap.pointIsInside Heap.fuel
    rw [hlen]
    exact inside_apart (closed_reach h l) hk pt _ p o hp ho
  have key : ∀ (m : List Ptr), (∀ q ∈ m, DOA.reach h l q) → ∀ b : Bool,
      m.foldlM (fun acc q => do
        let o ← k.deref q
        let b ← Agent.pathTest k a.state.position t o
        Res.ok (acc && b)) b =
      m.foldlM (fun acc q => do
        let o ← h.deref q
        let b ← Agent.pathTest h a.state.position t o
        Res.ok (acc && b)) b := by
    intro m
    induction m with
    | nil => intro _ b; rfl
    | cons q m ih =>
      intro hm b
      have hq := hm q (List.mem_cons_self ..)
      have hd : (do
          let o ← k.deref q
          let b' ← Agent.pathTest k a.state.position t o
          Res.ok (b && b')) = (do
          let o ← h.deref q
          let b' ← Agent.pathTest h a.state.position t o
          Res.ok (b && b')) := by
        simp only [Heap.deref, hk q hq]
        cases hx : h[q]? with
        | none => rfl
        | some u =>
          simp only [Res.ok_bind, Agent.pathTest]
          rw [hin q u t hq hx, hin q u a.state.position hq hx]
      simp only [List.foldlM_cons]
      rw [hd]
      congr 1
      funext b'
      exact ih (fun q h => hm q (List.mem_cons_of_mem _ h)) b'
  exact key l (fun q hq => ⟨q, hq, .refl⟩) true

theorem forgets_both {h k k' : Heap α} {q q' q'' : Option Ptr} (ha : q' = q) (e1 : q'' = q) (f1 : Forgets q h k)
    (f2 : Forgets q' h k') : Forgets q'' k k' := by
  subst ha
  subst e1
  exact ⟨fun b hb => (f2.env b hb).trans (f1.env b hb).symm, f2.length.trans f1.length.symm,
    fun r hr => (f2.off r hr).trans (f1.off r hr).symm⟩

/-- C114: two agents with the same envelope start among the same obstacles and live two different lives (other targets, gains,
environments, options, without planar modulation). If they end at the same place, all that follows is the same for both: in
each further iteration both have the same outcome, memory included. -/
theorem C114_memoryless {h : Heap α} {a a' : Agent α} (ha : a'.envelope = a.envelope) {l l' : List (Stage α)}
    (hl : ∀ g ∈ l, g.loop.planar = false) (hl' : ∀ g ∈ l', g.loop.planar = false) {s s' : Heap α × Agent α}
    (hs : life l (h, a) = .ok s) (hs' : life l' (h, a') = .ok s') (hp : SamePlace s.2 s'.2) (c : Loop α) (e : Env) (n : Nat) :
    c.run e (n + 1) s' = c.run e (n + 1) s ∧ ∀ p, c.runMixed e (n + 1) (some p) s' = c.runMixed e (n + 1) (some p) s := by
  obtain ⟨e1, f1⟩ := life_forgets l hl hs
  obtain ⟨-, f2⟩ := life_forgets l' hl' hs'
  have f3 : Forgets s.2.envelope s.1 s'.1 := forgets_both ha e1 f1 f2
  have hx : s'.2.state.position = s.2.state.position := by rw [hp]; rfl
  have key : ∀ v, c.iterate e v s' = c.iterate e v s := fun v => iterate_forgetting hp f3 c e v
  constructor
  · simp only [Loop.run, hx, key]
  · intro p
    simp only [Loop.runMixed, hx, key]

/-- C114, the loop that asks `exist_path` before it moves (testWall.cpp), if the envelope is not among the obstacles. -/
theorem C114_wall {h : Heap α} {a a' : Agent α} (ha : a'.envelope = a.envelope) {l l' : List (Stage α)}
    (hl : ∀ g ∈ l, g.loop.planar = false) (hl' : ∀ g ∈ l', g.loop.planar = false) {s s' : Heap α × Agent α}
    (hs : life l (h, a) = .ok s) (hs' : life l' (h, a') = .ok s') (hp : SamePlace s.2 s'.2) (c : Loop α) (e : Env)
    (ho : OwnEnvelope h a e.list) (n : Nat) : c.runWall e (n + 1) s' = c.runWall e (n + 1) s := by
  obtain ⟨e1, f1⟩ := life_forgets l hl hs
  obtain ⟨-, f2⟩ := life_forgets l' hl' hs'
  have f3 : Forgets s.2.envelope s.1 s'.1 := forgets_both ha e1 f1 f2
  have hx : s'.2.state.position = s.2.state.position := by rw [hp]; rfl
  have hne : ∀ r, DOA.reach h e.list r → a.envelope ≠ some r := by
    rintro r ⟨x, hx, hw⟩ hr
    exact ho r hr x hx hw
  have hpath : s'.2.existPath s'.1 c.target e.list = s.2.existPath s.1 c.target e.list := by
    rw [existPath_apart f2.length (fun r hr => f2.off r (by rw [show (h, a').2.envelope = a.envelope from ha]; exact hne r hr)),
      existPath_apart f1.length (fun r hr => f1.off r (hne r hr))]
    unfold Agent.existPath
    rw [hx]
  have hit : c.iterateWall e s' = c.iterateWall e s := by
    unfold Loop.iterateWall
    simp only [hpath, hx, setLinearVelocity_forgetting hp f3]
  simp only [Loop.runWall, hit]

end

/-- C114 is about something: an agent that comes from a step of `walker`, and one that has been put at its place by hand. -/
example : ∃ (s s' : Heap ℝ × Agent ℝ), life [.plain walker (envOf [0]) 1] (discWithTwo, agentOf ⟨2, 0, 0⟩ 1) = .ok s ∧
    life [] (discWithTwo, { s.2 with state := { s.2.state with linearVelocity := V3.zero } }) = .ok s' ∧ SamePlace s.2 s'.2 ∧
    s'.1 = discWithTwo ∧
    ∀ (c : Loop ℝ) (n : ℕ), c.run (envOf [0]) (n + 1) s' = c.run (envOf [0]) (n + 1) s ∧
      c.runWall (envOf [0]) (n + 1) s' = c.runWall (envOf [0]) (n + 1) s := by
  obtain ⟨k, b, h1, -⟩ := walker_step discWithTwo 0 (by norm_num) rfl (d := ball V3.zero) rfl
  have h1' : life [.plain walker (envOf [0]) 1] (discWithTwo, agentOf ⟨2, 0, 0⟩ 1) = .ok (k, b) := by
    show (walker.run (envOf [0]) 1 (discWithTwo, agentOf ⟨2, 0, 0⟩ 1) >>= fun s => .ok s) = _
    rw [h1]; rfl
  have hpl : ∀ g ∈ [Stage.plain walker (envOf [0]) 1], g.loop.planar = false := by
    intro g hg
    rw [List.mem_singleton.mp hg]
    rfl
  have he : b.envelope = (agentOf ⟨2, 0, 0⟩ 1).envelope := (life_forgets _ hpl h1').1
  refine ⟨(k, b), _, h1', rfl, rfl, rfl, fun c n => ?_⟩
  refine ⟨(C114_memoryless (a' := { b with state := { b.state with linearVelocity := V3.zero } }) he hpl
    (l' := []) (fun g hg => by cases hg) h1' rfl rfl c (envOf [0]) n).1,
    C114_wall (a' := { b with state := { b.state with linearVelocity := V3.zero } }) he hpl
      (l' := []) (fun g hg => by cases hg) h1' rfl rfl c (envOf [0]) ?_ n⟩
  intro q hq
  exact twoAgents_own.own 0 q hq

end DOA.Props
