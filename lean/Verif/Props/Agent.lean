import Verif.Lemmas.Agent
import Verif.Props.Total

/-!
# C49–C51: the agent, its envelope and its copies
-/

set_option linter.unusedSectionVars false
set_option linter.unusedSimpArgs false

namespace DOA.Props
open DOA DOA.Spec DOA.Modulation

/-! ## C49 the envelope follows the agent -/

section
variable {α : Type} [Add α] [Sub α] [Mul α] [Div α] [Neg α] [Zero α] [One α]
  [LE α] [LT α] [DecidableLE α] [DecidableLT α] [CMath α]

/-- C49: every sequence of calls on a constructed agent returns normally; state and margin are what
the calls say; nothing but the agent's own envelope changes in memory (every scalar type). -/
theorem C49_calls (h0 : Heap α) (st : State α) (m : α) (cs : List (AgentCall α)) :
    ∃ h' a', runCalls (Agent.mk2 h0 st m) cs = .ok (h', a') ∧
      (a'.state, a'.margin) = cs.foldl expected (st, m) ∧
      (∀ q < h0.length, h'[q]? = h0[q]?) ∧ h'.length = h0.length + 1 := by
  obtain ⟨s', h1, h2, h3⟩ := inv_calls cs (inv_mk2 h0 st m)
  exact ⟨s'.1, s'.2, h1, h3, h2.others, h2.len⟩

/-- what the envelope shows after a history -/
theorem shown_calls {h0 : Heap α} (cs : List (AgentCall α)) : ∀ {s : Heap α × Agent α} {o : Option α}, AgentInv h0 s →
    (∀ r, o = some r → ∃ e : Ellipsoid α, e.base.margin = V3.const 0 ∧ e.curv = V3.const 1 ∧
      s.1[h0.length]? = some (.ellipsoid (Agent.envelopeFor { s.2 with margin := r } e))) →
    ∃ s', runCalls s cs = .ok s' ∧ AgentInv h0 s' ∧
      (∀ r, (cs.foldl shown (s.2.margin, o)).2 = some r → ∃ e : Ellipsoid α, e.base.margin = V3.const 0 ∧
        e.curv = V3.const 1 ∧
        s'.1[h0.length]? = some (.ellipsoid (Agent.envelopeFor { s'.2 with margin := r } e))) := by
  induction cs with
  | nil => intro s o hi ho; exact ⟨s, rfl, hi, ho⟩
  | cons c cs ih =>
    intro s o hi ho
    obtain ⟨s1, h1, h2, h3, h4⟩ := inv_call hi c
    have hm : s1.2.margin = (shown (s.2.margin, o) c).1 := by
      have := congrArg Prod.snd h3
      refine (show s1.2.margin = _ from this).trans ?_
      cases c <;> rfl
    have ho' : ∀ r, (shown (s.2.margin, o) c).2 = some r → ∃ e : Ellipsoid α, e.base.margin = V3.const 0 ∧
        e.curv = V3.const 1 ∧
        s1.1[h0.length]? = some (.ellipsoid (Agent.envelopeFor { s1.2 with margin := r } e)) := by
      intro r hr
      cases hc : c.isState with
      | true =>
        obtain ⟨e, h5, h6, h7⟩ := h4 hc
        refine ⟨e, h5, h6, ?_⟩
        have : s1.2.margin = r := by
          rw [hm]; cases c <;> first | (cases hc; done) | (injection hr)
        rw [h7, ← this]
      | false =>
        cases c <;> cases hc
        rename_i m
        simp only [runCall, Res.ok.injEq] at h1
        obtain ⟨e, h5, h6, h7⟩ := ho r hr
        exact ⟨e, h5, h6, by rw [← h1]; exact h7⟩
    obtain ⟨s2, h5, h6, h7⟩ := ih h2 ho'
    refine ⟨s2, by simp only [runCalls, h1, Res.ok_bind, h5], h6, fun r hr => h7 r ?_⟩
    rw [← hr, List.foldl_cons, hm]

end

/-- C49: after every history of calls with at least one pose or velocity setter, the envelope has the
prescribed centre, half lengths and heading for the *current* position and velocity, contains the
position, and is inflated by the margin that was in force at the last setter.
Full statement: after *any* sequence of setters.  It fails for the empty sequence (`C49_negation`): the
constructors do not call `update_envelope`. -/
theorem C49_envelope_partial (h0 : Heap ℝ) (st : State ℝ) (m r : ℝ) (cs : List (AgentCall ℝ))
    (hr : shownMargin m cs = some r) :
    ∃ h' a' env, runCalls (Agent.mk2 h0 st m) cs = .ok (h', a') ∧
      a'.getEnvelope h' = .ok (.ellipsoid env) ∧
      EnvelopeOf a'.state.position a'.state.linearVelocity r env := by
  obtain ⟨s', h1, h2, h3⟩ := shown_calls (o := none) cs (inv_mk2 h0 st m) (by intro r h; cases h)
  obtain ⟨e, h4, h5, h6⟩ := h3 r hr
  refine ⟨s'.1, s'.2, _, h1, ?_, envelopeFor_spec (a := { s'.2 with margin := r }) h2.dt h4 h5⟩
  simp only [Agent.getEnvelope, h2.env, Heap.deref, h6]

/-- C49, the empty sequence: the envelope of every freshly constructed agent is the unit ball around its
position, whatever its velocity and margin. -/
theorem C49_fresh (h0 : Heap ℝ) (st : State ℝ) (m : ℝ) :
    ∃ env, (Agent.mk2 h0 st m).2.getEnvelope (Agent.mk2 h0 st m).1 = .ok (.ellipsoid env) ∧
      env.base.position = st.position ∧ env.axis = ⟨1, 1, 1⟩ := by
  refine ⟨Ellipsoid.ofBase (Base.mkState "envelope" (State.ofPosition st.position) (V3.const 0)), ?_, rfl, rfl⟩
  simp only [Agent.mk2, Agent.getEnvelope, Heap.deref, List.getElem?_concat_length, Agent.newEnvelope]

/-- C49 is false for a freshly constructed agent. -/
theorem C49_negation : ∃ (st : State ℝ) (m : ℝ) (env : Ellipsoid ℝ),
    (Agent.mk2 [] st m).2.getEnvelope (Agent.mk2 [] st m).1 = .ok (.ellipsoid env) ∧
    ¬ EnvelopeOf st.position st.linearVelocity m env := by
  obtain ⟨env, h1, h2, h3⟩ := C49_fresh [] (⟨Pose.ofPosition V3.zero, ⟨1, 0, 0⟩, V3.zero⟩ : State ℝ) 2
  refine ⟨_, _, env, h1, fun h => ?_⟩
  have h4 := (h.moving (by intro h; have := congrArg V3.x h; simp [V3.zero] at this)).2
  rw [h3] at h4
  have := congrArg V3.y h4
  norm_num at this

/-- Non-vacuity of C49: an agent moving with velocity (3,4,0) from (1,1,0). -/
example : ∃ h' a' env, runCalls (Agent.mk2 ([] : Heap ℝ) (State.ofPosition V3.zero) 0)
      [.setPosition ⟨1, 1, 0⟩, .setSafetyMargin (1 / 5), .setLinearVelocity ⟨3, 4, 0⟩] = .ok (h', a') ∧
    a'.getEnvelope h' = .ok (.ellipsoid env) ∧ env.base.position = ⟨13 / 10, 14 / 10, 0⟩ ∧
    env.axis = ⟨7 / 10, 1 / 5, 1 / 5⟩ ∧ env.base.pose.orientation.rotate ⟨1, 0, 0⟩ = ⟨3 / 5, 4 / 5, 0⟩ := by
  obtain ⟨h', a', env, h1, h2, h3⟩ := C49_envelope_partial [] (State.ofPosition V3.zero) 0 (1 / 5)
    [.setPosition ⟨1, 1, 0⟩, .setSafetyMargin (1 / 5), .setLinearVelocity ⟨3, 4, 0⟩] rfl
  obtain ⟨h'', a'', h4, h5, -⟩ := C49_calls ([] : Heap ℝ) (State.ofPosition V3.zero) 0
    [.setPosition ⟨1, 1, 0⟩, .setSafetyMargin (1 / 5), .setLinearVelocity ⟨3, 4, 0⟩]
  rw [h1] at h4
  obtain ⟨rfl, rfl⟩ : h' = h'' ∧ a' = a'' := by
    injection h4 with h4; injection h4 with h4 h4'; exact ⟨h4, h4'⟩
  have hs := congrArg Prod.fst h5
  have hp : a'.state.position = ⟨1, 1, 0⟩ := by rw [show a'.state = _ from hs]; rfl
  have hv : a'.state.linearVelocity = ⟨3, 4, 0⟩ := by rw [show a'.state = _ from hs]; rfl
  rw [hp, hv] at h3
  have hn : V3.norm (⟨3, 4, 0⟩ : V3 ℝ) = 5 := by
    simp only [V3.norm, V3.sqNorm, V3.dot, sqrt_real]
    rw [Real.sqrt_eq_iff_mul_self_eq_of_pos (by norm_num)]; norm_num
  have h35 : √((3 : ℝ) ^ 2 + 4 ^ 2) = 5 := by
    rw [Real.sqrt_eq_iff_mul_self_eq_of_pos (by norm_num)]; norm_num
  have hne : (⟨3, 4, 0⟩ : V3 ℝ) ≠ V3.zero := by
    intro h; have := congrArg V3.x h; simp [V3.zero] at this
  have hmax : max (1 / 10 : ℝ) (1 / 5) = 1 / 5 := by norm_num
  refine ⟨h', a', env, h1, h2, ?_, ?_, ?_⟩
  · rw [(h3.moving hne).1, hn]; ext <;> norm_num [V3.smul]
  · rw [(h3.moving hne).2, hmax]; norm_num
  · have hd : ((3 : ℝ) ^ 2 + 4 ^ 2 ≠ 0) := by norm_num
    have h6 := h3.heading hd
    rw [h6]
    simp only [h35]

/-! ## C50 changes of the safety margin -/

/-- C50, what the code does: `set_safety_margin` changes neither the envelope nor the test "is anything in
sight" of local modulation, for every agent, margin and scalar type. -/
theorem C50_ignored {α : Type} [Add α] [Sub α] [Mul α] [Div α] [Neg α] [Zero α] [One α]
    [LE α] [LT α] [DecidableLE α] [DecidableLT α] [CMath α] (h : Heap α) (a : Agent α) (m : α) (l : List Ptr) :
    (a.setSafetyMargin m).getEnvelope h = a.getEnvelope h ∧
    sightOf h (a.setSafetyMargin m) true l = sightOf h a true l := ⟨rfl, rfl⟩

/-- C50 is false: an agent at rest that has been positioned and then given the margin 5 still has the
envelope of radius 1/10. -/
theorem C50_negation : ∃ h' a' env, runCalls (Agent.mk2 ([] : Heap ℝ) (State.ofPosition V3.zero) 0)
      [.setPosition V3.zero, .setSafetyMargin 5] = .ok (h', a') ∧ a'.margin = 5 ∧
    a'.getEnvelope h' = .ok (.ellipsoid env) ∧ env.axis = ⟨1 / 10, 1 / 10, 1 / 10⟩ ∧
    ¬ EnvelopeOf a'.state.position a'.state.linearVelocity a'.margin env := by
  obtain ⟨h', a', env, h1, h2, h3⟩ := C49_envelope_partial [] (State.ofPosition V3.zero) 0 0
    [.setPosition V3.zero, .setSafetyMargin 5] rfl
  obtain ⟨h'', a'', h4, h5, -⟩ := C49_calls ([] : Heap ℝ) (State.ofPosition V3.zero) 0
    [.setPosition V3.zero, .setSafetyMargin 5]
  rw [h1] at h4
  obtain ⟨rfl, rfl⟩ : h' = h'' ∧ a' = a'' := by
    injection h4 with h4; injection h4 with h4 h4'; exact ⟨h4, h4'⟩
  have hm : a'.margin = 5 := congrArg Prod.snd h5
  have hv : a'.state.linearVelocity = V3.zero := by
    rw [show a'.state = _ from congrArg Prod.fst h5]; rfl
  have hax : env.axis = ⟨1 / 10, 1 / 10, 1 / 10⟩ := by
    rw [(h3.rest hv).2]; norm_num
  refine ⟨h', a', env, h1, hm, h2, hax, fun h => ?_⟩
  have := (h.rest hv).2
  rw [hax, hm] at this
  have := congrArg V3.x this
  norm_num at this

/-- C50, the part that holds: the new margin takes effect with the next pose or velocity setter.
Full statement (false, see `C50_negation`): immediately after `set_safety_margin`. -/
theorem C50_next_setter_partial (h0 : Heap ℝ) (st : State ℝ) (m r : ℝ) (cs : List (AgentCall ℝ)) (c : AgentCall ℝ)
    (hc : c.isState = true) :
    ∃ h' a' env, runCalls (Agent.mk2 h0 st m) (cs ++ [.setSafetyMargin r, c]) = .ok (h', a') ∧
      a'.margin = r ∧ a'.getEnvelope h' = .ok (.ellipsoid env) ∧
      EnvelopeOf a'.state.position a'.state.linearVelocity a'.margin env := by
  have hs : shownMargin m (cs ++ [.setSafetyMargin r, c]) = some r := by
    rw [shownMargin, List.foldl_append]
    cases c <;> first | (cases hc; done) | rfl
  obtain ⟨h', a', env, h1, h2, h3⟩ := C49_envelope_partial h0 st m r _ hs
  obtain ⟨h'', a'', h4, h5, -⟩ := C49_calls h0 st m (cs ++ [.setSafetyMargin r, c])
  rw [h1] at h4
  obtain ⟨rfl, rfl⟩ : h' = h'' ∧ a' = a'' := by
    injection h4 with h4; injection h4 with h4 h4'; exact ⟨h4, h4'⟩
  have hm : a'.margin = r := by
    have := congrArg Prod.snd h5
    rw [List.foldl_append] at this
    rw [show a'.margin = _ from this]
    cases c <;> first | (cases hc; done) | rfl
  exact ⟨h', a', env, h1, hm, h2, by rw [hm]; exact h3⟩

/-! ## C51 copies -/

section
variable {α : Type} [Add α] [Sub α] [Mul α] [Div α] [Neg α] [Zero α] [One α]
  [LE α] [LT α] [DecidableLE α] [DecidableLT α] [CMath α]

/-- C51 is false for the copy constructor: for *every* agent, reading the envelope of the copy, calling any
pose or velocity setter on it, and local modulation with it (unless nothing is in the list) dereference a null
pointer; so does `transformed()` for every agent and every pose. -/
theorem C51_negation_copy (h : Heap α) (a : Agent α) :
    a.copy.getEnvelope h = .ub .nullDeref ∧
    (∀ c : AgentCall α, c.isState = true → runCall (h, a.copy) c = .ub .nullDeref) ∧
    (∀ p, a.transformed h p = .ub .nullDeref) ∧
    (∀ (e : Env) (rep planar : Bool) (critical power : α), e.list ≠ [] →
      modulateVelocity h a.copy e true rep planar critical power = .ub .nullDeref) := by
  refine ⟨rfl, ?_, fun p => rfl, ?_⟩
  · intro c hc
    cases c <;> first | rfl | cases hc
  · intro e rep planar critical power hne
    have : e.list.isEmpty = false := by
      cases h : e.list with
      | nil => exact absurd h hne
      | cons => rfl
    rw [modulateVelocity_eq, this]
    rfl

/-- C51, assignment shares the envelope: whatever agents `a` and `b` (with an envelope), after `b = a` a setter
on `b` rewrites the envelope of `a`. -/
theorem C51_negation_shared {h : Heap α} {a b : Agent α} {p : Ptr} {env : Ellipsoid α}
    (hp : a.envelope = some p) (he : h[p]? = some (.ellipsoid env)) (st : State α) :
    ∃ h' b', Agent.withState h (b.assign a) st = .ok (h', b') ∧
      a.getEnvelope h' = .ok (.ellipsoid (Agent.envelopeFor { a with state := st } env)) := by
  have hlt : p < h.length := by
    by_contra hge
    rw [List.getElem?_eq_none (Nat.le_of_not_lt hge)] at he; cases he
  refine ⟨h.set p (.ellipsoid (Agent.envelopeFor { a with state := st } env)), { a with state := st }, ?_, ?_⟩
  · simp only [Agent.withState, Agent.assign, Agent.updateEnvelope, hp, Heap.deref, he, Res.ok_bind]
  · simp only [Agent.getEnvelope, hp, Heap.deref, List.getElem?_set_self hlt]

/-- C51, the part that holds for the copy constructor: the copy has the state and the margin of the original, and
everything that does not need the envelope — non-local modulation, `in_obstacle`, `exist_path`,
`set_safety_margin` — works on it exactly as on the original; changing the margin of the copy leaves the
original alone.
Full statement (false, see `C51_negation_copy`, `C51_negation_shared`, `C51_negation`): every operation is
defined on copies, and changes of a copy never affect the original. -/
theorem C51_copy_partial (h : Heap α) (a : Agent α) :
    a.copy.state = a.state ∧ a.copy.margin = a.margin ∧
    (∀ (e : Env) (rep planar : Bool) (critical power : α),
      modulateVelocity h a.copy e false rep planar critical power =
        modulateVelocity h a e false rep planar critical power) ∧
    (∀ o, a.copy.inObstacle h o = a.inObstacle h o) ∧
    (∀ t l, a.copy.existPath h t l = a.existPath h t l) ∧
    (∀ m, runCall (h, a.copy) (.setSafetyMargin m) = .ok (h, { a.copy with margin := m })) := by
  refine ⟨rfl, rfl, ?_, fun o => rfl, fun t l => rfl, fun m => rfl⟩
  intro e rep planar critical power
  simp only [modulateVelocity_eq, sightOf, Res.ok_bind, if_true]
  have hc : ∀ (l : List Ptr) (h : Heap α), collect planar a.copy h l = collect planar a h l := by
    intro l
    induction l with
    | nil => intro h; rfl
    | cons p l ih =>
      intro h
      simp only [collect, ih]
      rfl
  rw [hc]
  rfl

end

/-- C51 is false for assignment, concretely: `b = a; b.set_position((7,0,0))` moves the envelope of `a`
(whose own position is still 0) to 7. -/
theorem C51_negation : ∃ (h : Heap ℝ) (a b b' : Agent ℝ) (h' : Heap ℝ) (env : Ellipsoid ℝ),
    runCall (h, b.assign a) (.setPosition ⟨7, 0, 0⟩) = .ok (h', b') ∧ a.state.position = V3.zero ∧
    a.getEnvelope h' = .ok (.ellipsoid env) ∧ env.base.position = ⟨7, 0, 0⟩ := by
  obtain ⟨h', b', h1, h2⟩ := C51_negation_shared (h := (Agent.mk2 ([] : Heap ℝ) (State.ofPosition V3.zero) 0).1)
    (a := (Agent.mk2 ([] : Heap ℝ) (State.ofPosition V3.zero) 0).2)
    (b := (Agent.mk2 ([] : Heap ℝ) (State.ofPosition V3.zero) 0).2) (p := 0) rfl rfl
    ((State.ofPosition V3.zero).setPosition ⟨7, 0, 0⟩)
  refine ⟨_, _, (Agent.mk2 ([] : Heap ℝ) (State.ofPosition V3.zero) 0).2, b', h', _, h1, rfl, h2, ?_⟩
  have hs := envelopeFor_spec (a := { (Agent.mk2 ([] : Heap ℝ) (State.ofPosition V3.zero) 0).2 with
    state := (State.ofPosition V3.zero).setPosition ⟨7, 0, 0⟩ }) (e := Ellipsoid.ofBase
      (Base.mkState "envelope" (State.ofPosition (State.ofPosition V3.zero).position) (V3.const 0))) rfl rfl rfl
  exact (hs.rest rfl).1

end DOA.Props
