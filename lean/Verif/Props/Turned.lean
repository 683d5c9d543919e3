import Verif.Spec.Motion
import Verif.Lemmas.AddressLoop
import Verif.Model.RealInst

/-!
# C108: it does not matter how the agent is turned
-/

set_option linter.unusedSectionVars false

namespace DOA.Props
open DOA DOA.Spec DOA.Modulation

variable {α : Type} [Add α] [Sub α] [Mul α] [Div α] [Neg α] [Zero α] [One α]
  [LE α] [LT α] [DecidableLE α] [DecidableLT α] [CMath α]

theorem agree_refl {β : Type} (x : Res β) : Agree (· = ·) x x := by cases x <;> exact Eq.refl _

/-- an agent with another orientation and angular velocity -/
def turnedTo (a : Agent α) (q : Quat α) (w : V3 α) : Agent α :=
  { a with state := ⟨⟨a.state.pose.position, q⟩, a.state.linearVelocity, w⟩ }

theorem turned_of {a a' : Agent α} (h : SameMotion a a') :
    a' = turnedTo a a'.state.pose.orientation a'.state.angularVelocity := by
  obtain ⟨⟨⟨p, q⟩, v, w⟩, m, env, dt⟩ := a'
  obtain ⟨h1, h2, h3, h4, h5⟩ := h
  simp only at h1 h2 h3 h4 h5
  simp only [turnedTo, h1, h2, h3, h4, h5]

theorem same_turned (a : Agent α) (q : Quat α) (w : V3 α) : SameMotion a (turnedTo a q w) := ⟨rfl, rfl, rfl, rfl, rfl⟩

theorem collect_turned (planar : Bool) (a : Agent α) (q : Quat α) (w : V3 α) (l : List Ptr) : ∀ h : Heap α,
    collect planar (turnedTo a q w) h l = collect planar a h l := by
  induction l with
  | nil => intro h; rfl
  | cons p l ih =>
    intro h
    simp only [collect, ih]
    rfl

/-- C108: the commanded velocity (and what the call does to the obstacles) is the same for all orientations and angular
velocities of the agent, for all obstacles, options and number types. -/
theorem C108_velocity (h : Heap α) {a a' : Agent α} (hs : SameMotion a a') (E : Env) (isLocal addRepulsion planar : Bool)
    (critical power : α) :
    modulateVelocity h a E isLocal addRepulsion planar critical power =
      modulateVelocity h a' E isLocal addRepulsion planar critical power := by
  rw [turned_of hs]
  unfold modulateVelocity
  simp only [collect_turned]
  rfl

/-- C108: so are the answers of `in_obstacle` and `exist_path`. -/
theorem C108_queries (h : Heap α) {a a' : Agent α} (hs : SameMotion a a') :
    (∀ o, a.inObstacle h o = a'.inObstacle h o) ∧ ∀ target l, a.existPath h target l = a'.existPath h target l := by
  rw [turned_of hs]
  exact ⟨fun _ => rfl, fun _ _ => rfl⟩

/-- a change of the state that does not turn the agent -/
theorem withState_same (h : Heap α) {a a' : Agent α} (hs : SameMotion a a') (st st' : State α)
    (hp : st.pose.position = st'.pose.position) (hv : st.linearVelocity = st'.linearVelocity) :
    Agree (fun r r' => SameSetting r r' ∧ r.2.state = st ∧ r'.2.state = st') (Agent.withState h a st) (Agent.withState h a' st') := by
  have hu : Agent.updateEnvelope h { a with state := st } = Agent.updateEnvelope h { a' with state := st' } := by
    unfold Agent.updateEnvelope
    have : ∀ e, Agent.envelopeFor { a with state := st } e = Agent.envelopeFor { a' with state := st' } e := by
      intro e
      have h1 : ({ a with state := st } : Agent α).state.position = ({ a' with state := st' } : Agent α).state.position := hp
      simp only [Agent.envelopeFor, Agent.effMargin, h1, hv, hs.margin, hs.deltaT]
    simp only [this]
    rw [hs.envelope]
  unfold Agent.withState
  simp only [hu]
  cases Agent.updateEnvelope h { a' with state := st' } with
  | throw x => exact rfl
  | ub x => exact rfl
  | ok h1 => exact ⟨⟨rfl, hp, hv, hs.margin, hs.deltaT, hs.envelope⟩, rfl, rfl⟩

theorem iterate_same (c : Loop α) (E : Env) (v : V3 α) {s s' : Heap α × Agent α} (hs : SameSetting s s') :
    Agree (fun r r' => SameSetting r r' ∧ SameTurn r.2 s.2 ∧ SameTurn r'.2 s'.2) (c.iterate E v s) (c.iterate E v s') := by
  obtain ⟨h, a⟩ := s
  obtain ⟨h', a'⟩ := s'
  obtain ⟨h1, h2⟩ := hs
  simp only at h1 h2
  subst h1
  unfold Loop.iterate
  simp only []
  refine Agree.bind (withState_same h h2 _ _ h2.position rfl) fun t t' _ _ ht => ?_
  obtain ⟨⟨e1, e2⟩, e3, e4⟩ := ht
  rw [← e1, C108_velocity t.1 e2]
  cases modulateVelocity t.1 t'.2 E c.isLocal c.addRepulsion c.planar c.critical c.power with
  | throw x => exact rfl
  | ub x => exact rfl
  | ok r =>
    simp only [Res.ok_bind]
    have hx : a.state.position = a'.state.position := h2.position
    refine Agree.imp (withState_same r.1 e2 _ _ ?_ e2.velocity) fun u u' hu => ⟨hu.1, ?_, ?_⟩
    · show a.state.position + _ = a'.state.position + _
      rw [hx]
    · rw [SameTurn, hu.2.1, e3]; exact ⟨rfl, rfl⟩
    · rw [SameTurn, hu.2.2, e4]; exact ⟨rfl, rfl⟩

theorem turn_trans {a b c : Agent α} (h : SameTurn a b) (h' : SameTurn b c) : SameTurn a c :=
  ⟨h.1.trans h'.1, h.2.trans h'.2⟩

theorem desired_same (c : Loop α) {s s' : Heap α × Agent α} (hs : SameSetting s s') :
    c.desired s.2.state.position = c.desired s'.2.state.position := by
  rw [show s.2.state.position = s'.2.state.position from hs.2.position]

/-- C108, for the loop of testKIT.cpp and testConfiguration.cpp: after any number of iterations the obstacles and the places of
the agents are the same (or both programs failed in the same way), and both agents are turned as in the beginning. -/
theorem C108_run (c : Loop α) (E : Env) (n : ℕ) : ∀ s s' : Heap α × Agent α, SameSetting s s' →
    Agree (fun r r' => SameSetting r r' ∧ SameTurn r.2 s.2 ∧ SameTurn r'.2 s'.2) (c.run E n s) (c.run E n s') := by
  induction n with
  | zero => intro s s' hs; exact ⟨hs, ⟨rfl, rfl⟩, rfl, rfl⟩
  | succ n ih =>
    intro s s' hs
    simp only [Loop.run, desired_same c hs]
    refine Agree.bind (iterate_same c E _ hs) fun t t' _ _ ht => ?_
    exact Agree.imp (ih t t' ht.1) fun u u' hu => ⟨hu.1, turn_trans hu.2.1 ht.2.1, turn_trans hu.2.2 ht.2.2⟩

/-- a unit ball and the envelope of the agent -/
noncomputable def turnedHeap : Heap ℝ :=
  [.ellipsoid (Ellipsoid.ofBase (Base.mkRef "ball" (State.ofPosition V3.zero) V3.zero V3.zero)), Agent.newEnvelope ⟨2, 0, 0⟩]

/-- Non-vacuity: an agent before the unit ball, looking forward, and another one at the same place that looks to the left and
turns. (The loops do move such agents: C69, C84.) -/
example (c : Loop ℝ) (n : ℕ) : Agree (fun r r' => r.2.state.position = r'.2.state.position)
    (c.run ⟨[], false, [0]⟩ n (turnedHeap, ⟨⟨Pose.ofPosition ⟨2, 0, 0⟩, V3.zero, V3.zero⟩, 0, some 1, 0⟩))
    (c.run ⟨[], false, [0]⟩ n
      (turnedHeap, ⟨⟨⟨⟨2, 0, 0⟩, Quat.ofAngleZ (Real.pi / 2)⟩, V3.zero, ⟨0, 0, 1⟩⟩, 0, some 1, 0⟩)) :=
  Agree.imp (C108_run c ⟨[], false, [0]⟩ n _ _ ⟨rfl, ⟨rfl, rfl, rfl, rfl, rfl⟩⟩) fun _ _ h => h.1.2.position

/-- C108, for the loop of testSingleConfiguration.cpp and test3D.cpp. -/
theorem C108_run_mixed (c : Loop α) (E : Env) (n : ℕ) : ∀ (prev : Option (V3 α)) (s s' : Heap α × Agent α), SameSetting s s' →
    Agree (fun r r' => SameSetting r r' ∧ SameTurn r.2 s.2 ∧ SameTurn r'.2 s'.2) (c.runMixed E n prev s)
      (c.runMixed E n prev s') := by
  induction n with
  | zero => intro prev s s' hs; exact ⟨hs, ⟨rfl, rfl⟩, rfl, rfl⟩
  | succ n ih =>
    intro prev s s' hs
    cases prev with
    | none => exact rfl
    | some v =>
      simp only [Loop.runMixed, desired_same c hs]
      refine Agree.bind (iterate_same c E _ hs) fun t t' _ _ ht => ?_
      exact Agree.imp (ih _ t t' ht.1) fun u u' hu => ⟨hu.1, turn_trans hu.2.1 ht.2.1, turn_trans hu.2.2 ht.2.2⟩

theorem velocity_same (v : V3 α) {s s' : Heap α × Agent α} (hs : SameSetting s s') :
    Agree (fun r r' => SameSetting r r' ∧ SameTurn r.2 s.2 ∧ SameTurn r'.2 s'.2) (s.2.setLinearVelocity s.1 v)
      (s'.2.setLinearVelocity s'.1 v) := by
  obtain ⟨h, a⟩ := s
  obtain ⟨h', a'⟩ := s'
  obtain ⟨h1, h2⟩ := hs
  simp only at h1 h2
  subst h1
  refine Agree.imp (withState_same h h2 _ _ h2.position rfl) fun u u' hu => ⟨hu.1, ?_, ?_⟩
  · rw [SameTurn, hu.2.1]; exact ⟨rfl, rfl⟩
  · rw [SameTurn, hu.2.2]; exact ⟨rfl, rfl⟩

/-- C108, for the loop of testWall.cpp. -/
theorem C108_run_wall (c : Loop α) (E : Env) (n : ℕ) : ∀ s s' : Heap α × Agent α, SameSetting s s' →
    Agree (fun r r' => SameSetting r r' ∧ SameTurn r.2 s.2 ∧ SameTurn r'.2 s'.2) (c.runWall E n s) (c.runWall E n s') := by
  induction n with
  | zero => intro s s' hs; exact ⟨hs, ⟨rfl, rfl⟩, rfl, rfl⟩
  | succ n ih =>
    intro s s' hs
    simp only [Loop.runWall]
    refine Agree.bind (R := fun r r' => SameSetting r r' ∧ SameTurn r.2 s.2 ∧ SameTurn r'.2 s'.2) ?_ fun t t' _ _ ht =>
      Agree.imp (ih t t' ht.1) fun u u' hu => ⟨hu.1, turn_trans hu.2.1 ht.2.1, turn_trans hu.2.2 ht.2.2⟩
    unfold Loop.iterateWall
    rw [(C108_queries s.1 hs.2).2, desired_same c hs, hs.1]
    cases s'.2.existPath s'.1 c.target E.list with
    | throw x => exact rfl
    | ub x => exact rfl
    | ok b =>
      cases b with
      | false =>
        simp only [Res.ok_bind, Bool.false_eq_true, if_false, ← hs.1]
        exact hs.1 ▸ velocity_same _ hs
      | true =>
        simp only [Res.ok_bind, if_true]
        refine Agree.bind (hs.1 ▸ velocity_same _ hs) fun t t' _ _ ht => ?_
        exact Agree.imp (iterate_same c E _ ht.1) fun u u' hu => ⟨hu.1, turn_trans hu.2.1 ht.2.1, turn_trans hu.2.2 ht.2.2⟩

/-- C108, for the loop of testMovingObstacle.cpp. -/
theorem C108_run_moving (c : Loop α) (E : Env) (name : String) (goal : V3 α) (n : ℕ) : ∀ s s' : Heap α × Agent α,
    SameSetting s s' → Agree (fun r r' => SameSetting r r' ∧ SameTurn r.2 s.2 ∧ SameTurn r'.2 s'.2) (c.runMoving E name goal n s)
      (c.runMoving E name goal n s') := by
  induction n with
  | zero => intro s s' hs; exact ⟨hs, ⟨rfl, rfl⟩, rfl, rfl⟩
  | succ n ih =>
    intro s s' hs
    simp only [Loop.runMoving]
    refine Agree.bind (R := fun r r' => SameSetting r r' ∧ SameTurn r.2 s.2 ∧ SameTurn r'.2 s'.2) ?_ fun t t' _ _ ht =>
      Agree.imp (ih t t' ht.1) fun u u' hu => ⟨hu.1, turn_trans hu.2.1 ht.2.1, turn_trans hu.2.2 ht.2.2⟩
    obtain ⟨h, a⟩ := s
    obtain ⟨h', a'⟩ := s'
    obtain ⟨h1, h2⟩ := hs
    simp only at h1 h2
    subst h1
    have hx : a.state.position = a'.state.position := h2.position
    unfold Loop.iterateMoving
    simp only [hx]
    refine Agree.bind (R := (· = ·)) (agree_refl _) fun p _ _ _ hp => ?_
    subst hp
    refine Agree.bind (R := (· = ·)) (agree_refl _) fun o _ _ _ ho => ?_
    subst ho
    refine Agree.bind (velocity_same (s := (h, a)) (s' := (h, a')) _ ⟨rfl, h2⟩) fun t t' _ _ ht => ?_
    obtain ⟨⟨e1, e2⟩, e3, e4⟩ := ht
    rw [← e1]
    refine Agree.bind (R := (· = ·)) (agree_refl _) fun o1 _ _ _ ho => ?_
    subst ho
    rw [C108_velocity _ e2]
    refine Agree.bind (R := (· = ·)) (agree_refl _) fun r _ _ _ hr => ?_
    subst hr
    refine Agree.bind (withState_same r.1 e2 _ _ rfl e2.velocity) fun u u' _ _ hu => ?_
    obtain ⟨⟨f1, f2⟩, f3, f4⟩ := hu
    rw [← f1]
    refine Agree.bind (R := (· = ·)) (agree_refl _) fun o2 _ _ _ ho => ?_
    subst ho
    refine Agree.bind (R := (· = ·)) (agree_refl _) fun h3 _ _ _ ho => ?_
    subst ho
    refine ⟨⟨rfl, f2⟩, turn_trans ?_ e3, turn_trans ?_ e4⟩
    · rw [SameTurn, f3]; exact ⟨rfl, rfl⟩
    · rw [SameTurn, f4]; exact ⟨rfl, rfl⟩

/-- Of two changes of the state only the second one counts, also for the envelope. -/
theorem withState_withState (h : Heap α) (a : Agent α) (st st' : State α) :
    ((Agent.withState h a st) >>= fun s => Agent.withState s.1 s.2 st') = Agent.withState h a st' := by
  unfold Agent.withState Agent.updateEnvelope
  simp only []
  cases he : a.envelope with
  | none => rfl
  | some p =>
    simp only [Heap.deref]
    cases ho : h[p]? with
    | none => rfl
    | some o =>
      have hlt : p < h.length := by
        by_contra hn
        rw [List.getElem?_eq_none (Nat.le_of_not_lt hn)] at ho
        cases ho
      cases o with
      | plain b => rfl
      | hull k => rfl
      | aggregate g => rfl
      | ellipsoid e =>
        simp only [Res.ok_bind, List.getElem?_set_self hlt, List.set_set]
        rfl

theorem withState_cases (h : Heap α) (a : Agent α) (st : State α) :
    (∃ h', Agent.withState h a st = .ok (h', { a with state := st })) ∨
      (∃ x, ∀ st', Agent.withState h a st' = .throw x) ∨ ∃ x, ∀ st', Agent.withState h a st' = .ub x := by
  cases hw : Agent.withState h a st with
  | throw x => exact .inr (.inl ⟨x, fun st' => by rw [← withState_withState h a st st', hw]; rfl⟩)
  | ub x => exact .inr (.inr ⟨x, fun st' => by rw [← withState_withState h a st st', hw]; rfl⟩)
  | ok r =>
    refine .inl ⟨r.1, ?_⟩
    simp only [Agent.withState, Res.bind_eq_ok] at hw
    obtain ⟨h', -, hr⟩ := hw
    cases hr
    rfl

/-- An iteration begins with a change of the state, so earlier ones do not count. -/
theorem iterate_withState (c : Loop α) (E : Env) (v : V3 α) (h : Heap α) (a : Agent α) (st : State α)
    (hp : st.pose.position = a.state.pose.position) :
    Agree SameSetting (c.iterate E v (h, a)) (Agent.withState h a st >>= fun s => c.iterate E v s) := by
  rcases withState_cases h a st with ⟨h', hok⟩ | ⟨x, hx⟩ | ⟨x, hx⟩
  · have hw : ∀ st', Agent.withState h' { a with state := st } st' = Agent.withState h a st' := by
      intro st'
      have := withState_withState h a st st'
      rw [hok, Res.ok_bind] at this
      exact this
    rw [hok, Res.ok_bind]
    unfold Loop.iterate
    simp only [Agent.setLinearVelocity, hw]
    have hx : st.position = a.state.position := hp
    simp only [hx]
    refine Agree.bind (withState_same h (a := a) (a' := a) ⟨rfl, rfl, rfl, rfl, rfl⟩ _ _ hp.symm rfl) fun t t' _ _ ht => ?_
    obtain ⟨⟨e1, e2⟩, -, -⟩ := ht
    rw [← e1, C108_velocity t.1 e2]
    refine Agree.bind (R := (· = ·)) (agree_refl _) fun r _ _ _ hr => ?_
    subst hr
    exact Agree.imp (withState_same r.1 e2 _ _ rfl e2.velocity) fun _ _ hu => hu.1
  · unfold Loop.iterate
    simp only [Agent.setLinearVelocity, hx]
    exact rfl
  · unfold Loop.iterate
    simp only [Agent.setLinearVelocity, hx]
    exact rfl

theorem SameSetting_trans {s t u : Heap α × Agent α} (h : SameSetting s t) (h' : SameSetting t u) : SameSetting s u :=
  ⟨h.1.trans h'.1, h.2.position.trans h'.2.position, h.2.velocity.trans h'.2.velocity, h.2.margin.trans h'.2.margin,
    h.2.deltaT.trans h'.2.deltaT, h.2.envelope.trans h'.2.envelope⟩

theorem agree_trans {x y z : Res (Heap α × Agent α)} (h : Agree SameSetting x y) (h' : Agree SameSetting y z) :
    Agree SameSetting x z := by
  cases x <;> cases y <;> cases z <;> simp only [Agree] at h h' ⊢
  · exact SameSetting_trans h h'
  · exact h.trans h'
  · exact h.trans h'

theorem run_turning_step (c : Loop α) (E : Env) (q : Quat α) (w : V3 α) {s s' : Heap α × Agent α} (hs : SameSetting s s') :
    Agree SameSetting (c.iterate E (c.desired s.2.state.position) s) (do
      let s1 ← s'.2.setOrientation s'.1 q
      let s2 ← s1.2.setAngularVelocity s1.1 w
      c.iterate E (c.desired s2.2.state.position) s2) := by
  rw [desired_same c hs]
  refine agree_trans (Agree.imp (iterate_same c E _ hs) fun _ _ h => h.1) ?_
  obtain ⟨h, a⟩ := s'
  refine agree_trans (iterate_withState c E _ h a ((a.state.setOrientation q).setAngularVelocity w) rfl) ?_
  rw [← withState_withState h a (a.state.setOrientation q)]
  simp only [Agent.setOrientation, Agent.setAngularVelocity]
  rcases withState_cases h a (a.state.setOrientation q) with ⟨h', hok⟩ | ⟨x, hx⟩ | ⟨x, hx⟩
  · simp only [hok, Res.ok_bind]
    rcases withState_cases h' { a with state := a.state.setOrientation q } ((a.state.setOrientation q).setAngularVelocity w) with
      ⟨h2, hok2⟩ | ⟨x, hx⟩ | ⟨x, hx⟩
    · simp only [hok2, Res.ok_bind]
      refine Agree.imp (iterate_same c E _ (s := (h2, _)) (s' := (h2, _)) ⟨rfl, ⟨rfl, rfl, rfl, rfl, rfl⟩⟩) fun _ _ h => h.1
    · simp only [hx]; exact rfl
    · simp only [hx]; exact rfl
  · simp only [hx]; exact rfl
  · simp only [hx]; exact rfl

/-- C108: turning the agent between the iterations, in any way, does not change its path. -/
theorem C108_turning (c : Loop α) (E : Env) (turn : ℕ → Quat α × V3 α) (n : ℕ) : ∀ s s' : Heap α × Agent α, SameSetting s s' →
    Agree SameSetting (c.run E n s) (runTurning c E turn n s') := by
  induction n with
  | zero => intro s s' hs; exact hs
  | succ n ih =>
    intro s s' hs
    have h1 := Agree.bind (run_turning_step c E (turn n).1 (turn n).2 hs) fun t t' _ _ ht => ih t t' ht
    simp only [Loop.run, runTurning]
    simpa only [bind_assoc] using h1

/-- C108, for the guard program (testGuardAvoidance.cpp): how the guard is turned, and how fast the two agents turn, does not
matter. The orientation of the platform does matter there, since the guard is carried by it. -/
theorem C108_guard (c : GuardLoop α) (ep eg : Env) (noise : ℕ → Noise α) (n : ℕ) (s s' : Duo α) (hs : SameDuo s s') :
    Agree (fun r r' => SameDuo r r' ∧ SameTurn r.platform s.platform ∧ SameTurn r.guard s.guard ∧
      SameTurn r'.platform s'.platform ∧ SameTurn r'.guard s'.guard)
      (c.run ep eg noise n s) (c.run ep eg noise n s') := by
  induction n with
  | zero => exact ⟨hs, ⟨rfl, rfl⟩, ⟨rfl, rfl⟩, ⟨rfl, rfl⟩, rfl, rfl⟩
  | succ n ih =>
    simp only [GuardLoop.run]
    refine Agree.bind ih fun t t' _ _ ht => ?_
    obtain ⟨⟨g1, g2, g3, g4⟩, k1, k2, k3, k4⟩ := ht
    obtain ⟨h, a, b⟩ := t
    obtain ⟨h', a', b'⟩ := t'
    simp only at g1 g2 g3 g4 k1 k2 k3 k4
    subst g1
    have hx : a.state.position = a'.state.position := g2.position
    have hy : b.state.position = b'.state.position := g3.position
    unfold GuardLoop.iterate
    simp only [hx, hy]
    refine Agree.bind (velocity_same (s := (h, b)) (s' := (h, b')) _ ⟨rfl, g3⟩) fun t t' _ _ ht => ?_
    obtain ⟨⟨e1, e2⟩, e3, e4⟩ := ht
    rw [← e1, C108_velocity _ e2]
    refine Agree.bind (R := (· = ·)) (agree_refl _) fun r _ _ _ hr => ?_
    subst hr
    refine Agree.bind (velocity_same (s := (r.1, a)) (s' := (r.1, a')) _ ⟨rfl, g2⟩) fun u u' _ _ hu => ?_
    obtain ⟨⟨f1, f2⟩, f3, f4⟩ := hu
    rw [← f1, C108_velocity _ f2]
    refine Agree.bind (R := (· = ·)) (agree_refl _) fun r2 _ _ _ hr => ?_
    subst hr
    refine Agree.bind (withState_same r2.1 f2 _ _ rfl f2.velocity) fun x x' _ _ hx => ?_
    obtain ⟨⟨d1, d2⟩, d3, d4⟩ := hx
    have hq : x.2.state.pose = x'.2.state.pose := by
      have h1 := d2.position
      have h2 : x.2.state.pose.orientation = x'.2.state.pose.orientation := by
        rw [d3, d4]
        exact f3.1.trans (g4.trans f4.1.symm)
      exact Pose.ext h1 h2
    rw [← d1, hq]
    refine Agree.bind (withState_same x.1 e2 _ _ rfl e2.velocity) fun y y' _ _ hy => ?_
    obtain ⟨⟨c1, c2⟩, c3, c4⟩ := hy
    refine ⟨⟨c1, d2, c2, congrArg Pose.orientation hq⟩, ?_, ?_, ?_, ?_⟩
    · refine turn_trans (turn_trans ?_ f3) k1
      rw [SameTurn, d3]; exact ⟨rfl, rfl⟩
    · refine turn_trans (turn_trans ?_ e3) k2
      rw [SameTurn, c3]; exact ⟨rfl, rfl⟩
    · refine turn_trans (turn_trans ?_ f4) k3
      rw [SameTurn, d4]; exact ⟨rfl, rfl⟩
    · refine turn_trans (turn_trans ?_ e4) k4
      rw [SameTurn, c4]; exact ⟨rfl, rfl⟩

end DOA.Props
