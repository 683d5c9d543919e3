import Verif.Spec.Hurry
import Verif.Props.Faster

/-!
# C113 an agent in a hurry takes the same path

Among obstacles at rest the modulation is positively homogeneous, so that a control loop depends on gain and time step
only through their product.
-/

set_option linter.unusedSimpArgs false

namespace DOA.Props
open DOA DOA.Spec DOA.Modulation DOA.Ellipsoid Aggregation

theorem static_state {μ : ℝ} {s : State ℝ} (h1 : s.linearVelocity = V3.zero) (h2 : s.angularVelocity = V3.zero) :
    fasterState μ s = s := by
  cases s with
  | mk p v w =>
    have e1 : v = V3.zero := h1
    have e2 : w = V3.zero := h2
    simp only [fasterState, e1, e2, V3.smul_zero']

theorem static_faster {μ : ℝ} {o : Obj ℝ} (ho : Static o) : faster μ o = o := by
  obtain ⟨h1, h2⟩ := ho
  cases o <;> simp only [faster, Obj.mapBase] <;> simp only [Obj.base] at h1 h2 <;> rw [static_state h1 h2]

theorem static_heap {μ : ℝ} {h : Heap ℝ} (hs : AllStatic h) : fasterHeap μ h = h := by
  have : h.map (faster μ) = h.map id := List.map_congr_left fun o ho => static_faster (hs o ho)
  rw [List.map_id] at this
  exact this

theorem static_shape {h h' : Heap ℝ} (hs : AllStatic h) (hh : SameShape h h') : AllStatic h' := by
  intro o ho
  obtain ⟨p, hp⟩ := List.getElem?_of_mem ho
  have h1 := hh p
  rw [hp] at h1
  cases hq : h[p]? with
  | none => rw [hq] at h1; cases h1
  | some u =>
    rw [hq] at h1
    have h2 : shape o = shape u := Option.some.inj h1
    have h3 := hs u (List.mem_of_getElem? hq)
    have e1 : ∀ o : Obj ℝ, (shape o).base.state = o.base.state := fun o => by cases o <;> rfl
    have e2 : o.base.state = u.base.state := by rw [← e1 o, h2, e1]
    rw [e2]
    exact h3

/-- C113, the part that holds for one velocity: among obstacles at rest, of all kinds, with `is_local` and planar modulation
as one likes, an agent that wants to go `μ` times as fast is commanded `μ` times the velocity, and the reference points are
shifted to the same places. Exceptions and undefined behaviour are the same too.
Full statement (false, see `C113_negation`): also with the repulsion. -/
theorem C113_velocity_partial {μ : ℝ} (hμ : 0 < μ) {h : Heap ℝ} (hs : AllStatic h) (a : Agent ℝ) (E : Env)
    (loc planar : Bool) (critical power : ℝ) :
    modulateVelocity h (fasterAgent μ a) E loc false planar critical power =
      modulateVelocity h a E loc false planar critical power >>= fun r => .ok (r.1, V3.smul μ r.2) := by
  have key := C98_time_partial hμ h a E loc planar critical power
  rw [static_heap hs] at key
  rw [key]
  cases hr : modulateVelocity h a E loc false planar critical power with
  | throw e => rfl
  | ub u => rfl
  | ok r =>
    simp only [Res.ok_bind]
    rw [static_heap (static_shape hs (C47_frame hr).1)]

/-- C113, what holds with the repulsion: the modulated velocity is multiplied by `μ`, the repulsion `out - mv` stays as it
is, whatever the speed. So the part of the code that is not homogeneous is the repulsion and nothing else. -/
theorem C113_repulsion_partial {h h' : Heap ℝ} (hs : AllStatic h) {a : Agent ℝ} {E : Env} {loc planar : Bool}
    {critical power : ℝ} {out : V3 ℝ} (ho : modulateVelocity h a E loc true planar critical power = .ok (h', out)) :
    ∃ mv, modulateVelocity h a E loc false planar critical power = .ok (h', mv) ∧
      ∀ μ : ℝ, 0 < μ → modulateVelocity h (fasterAgent μ a) E loc true planar critical power =
        .ok (h', V3.smul μ mv + (out - mv)) := by
  obtain ⟨mv, h1, h2⟩ := C98_time_repulsion_partial ho
  refine ⟨mv, h1, fun μ hμ => ?_⟩
  have h3 := h2 μ hμ
  rwa [static_heap hs, static_heap (static_shape hs (C47_frame h1).1)] at h3

theorem withState_static {h : Heap ℝ} (hs : AllStatic h) {a : Agent ℝ} {st : State ℝ} {r : Heap ℝ × Agent ℝ}
    (hr : a.withState h st = .ok r) : AllStatic r.1 := by
  simp only [Agent.withState, Agent.updateEnvelope] at hr
  cases ha : a.envelope with
  | none => simp only [ha] at hr; cases hr
  | some p =>
    simp only [ha] at hr
    cases hp : h[p]? with
    | none => simp only [Heap.deref, hp] at hr; cases hr
    | some o =>
      simp only [Heap.deref, hp] at hr
      cases o with
      | plain b => cases hr
      | hull k => cases hr
      | aggregate a => cases hr
      | ellipsoid e =>
        cases hr
        intro o ho
        rcases List.mem_or_eq_of_mem_set ho with ho | rfl
        · exact hs o ho
        · exact hs (.ellipsoid e) (List.mem_of_getElem? hp)

theorem iterate_static {h : Heap ℝ} (hs : AllStatic h) {a : Agent ℝ} {c : Loop ℝ} {E : Env} {v : V3 ℝ} {r : Heap ℝ × Agent ℝ}
    (hr : c.iterate E v (h, a) = .ok r) : AllStatic r.1 := by
  unfold Loop.iterate at hr
  obtain ⟨s1, h1, hr⟩ := Res.bind_eq_ok.mp hr
  obtain ⟨r1, h2, hr⟩ := Res.bind_eq_ok.mp hr
  exact withState_static (static_shape (withState_static hs h1) (C47_frame (h' := r1.1) (v := r1.2) h2).1) hr

theorem run_static (c : Loop ℝ) (E : Env) : ∀ (n : ℕ) {h : Heap ℝ} {a : Agent ℝ} {r : Heap ℝ × Agent ℝ}, AllStatic h →
    c.run E n (h, a) = .ok r → AllStatic r.1
  | 0, _, _, _, hs, hr => by cases hr; exact hs
  | n + 1, _, _, _, hs, hr => by
    obtain ⟨s, h1, hr⟩ := Res.bind_eq_ok.mp hr
    exact run_static c E n (iterate_static hs h1) hr

/-- C113, the part that holds for the control loop: gain and largest speed times `μ`, the time step divided by `μ`; the agent
passes through the same places, with the same envelopes and reference points on the way. -/
theorem C113_loop_partial {μ : ℝ} (hμ : 0 < μ) (c : Loop ℝ) (hr : c.addRepulsion = false) (E : Env) (n : ℕ) {h : Heap ℝ}
    (hs : AllStatic h) (a : Agent ℝ) : (fasterLoop μ c).run E n (h, fasterAgent μ a) =
      c.run E n (h, a) >>= fun r => .ok (r.1, fasterAgent μ r.2) := by
  have key := C98_time_loop_partial hμ c hr E n h a
  rw [static_heap hs] at key
  rw [key]
  cases hx : c.run E n (h, a) with
  | throw e => rfl
  | ub u => rfl
  | ok r =>
    simp only [Res.ok_bind]
    rw [static_heap (run_static c E n hs hx)]

theorem runMixed_static (c : Loop ℝ) (E : Env) : ∀ (n : ℕ) {prev : Option (V3 ℝ)} {h : Heap ℝ} {a : Agent ℝ}
    {r : Heap ℝ × Agent ℝ}, AllStatic h → c.runMixed E n prev (h, a) = .ok r → AllStatic r.1
  | 0, _, _, _, _, hs, hr => by cases hr; exact hs
  | _ + 1, none, _, _, _, _, hr => by cases hr
  | n + 1, some _, _, _, _, hs, hr => by
    obtain ⟨s, h1, hr⟩ := Res.bind_eq_ok.mp hr
    exact runMixed_static c E n (iterate_static hs h1) hr

theorem runWall_static (c : Loop ℝ) (E : Env) : ∀ (n : ℕ) {h : Heap ℝ} {a : Agent ℝ} {r : Heap ℝ × Agent ℝ}, AllStatic h →
    c.runWall E n (h, a) = .ok r → AllStatic r.1
  | 0, _, _, _, hs, hr => by cases hr; exact hs
  | n + 1, h, a, r, hs, hr => by
    obtain ⟨s, h1, hr⟩ := Res.bind_eq_ok.mp hr
    refine runWall_static c E n ?_ hr
    unfold Loop.iterateWall at h1
    obtain ⟨b, -, h1⟩ := Res.bind_eq_ok.mp h1
    cases b with
    | false => exact withState_static hs h1
    | true =>
      obtain ⟨s1, h2, h1⟩ := Res.bind_eq_ok.mp h1
      exact iterate_static (withState_static hs h2) h1

/-- C113, the loop that mixes in the previous velocity. -/
theorem C113_mixed_partial {μ : ℝ} (hμ : 0 < μ) (c : Loop ℝ) (hr : c.addRepulsion = false) (E : Env) (n : ℕ)
    (prev : Option (V3 ℝ)) {h : Heap ℝ} (hs : AllStatic h) (a : Agent ℝ) :
    (fasterLoop μ c).runMixed E n (prev.map (V3.smul μ)) (h, fasterAgent μ a) =
      c.runMixed E n prev (h, a) >>= fun r => .ok (r.1, fasterAgent μ r.2) := by
  have key := C98_time_mixed_partial hμ c hr E n prev h a
  rw [static_heap hs] at key
  rw [key]
  cases hx : c.runMixed E n prev (h, a) with
  | throw e => rfl
  | ub u => rfl
  | ok r =>
    simp only [Res.ok_bind]
    rw [static_heap (runMixed_static c E n hs hx)]

/-- C113, the loop that moves only where `exist_path` finds a path. -/
theorem C113_wall_partial {μ : ℝ} (hμ : 0 < μ) (c : Loop ℝ) (hr : c.addRepulsion = false) (E : Env) (n : ℕ) {h : Heap ℝ}
    (hs : AllStatic h) (a : Agent ℝ) : (fasterLoop μ c).runWall E n (h, fasterAgent μ a) =
      c.runWall E n (h, a) >>= fun r => .ok (r.1, fasterAgent μ r.2) := by
  have key := C98_time_wall_partial hμ c hr E n h a
  rw [static_heap hs] at key
  rw [key]
  cases hx : c.runWall E n (h, a) with
  | throw e => rfl
  | ub u => rfl
  | ok r =>
    simp only [Res.ok_bind]
    rw [static_heap (runWall_static c E n hs hx)]

/-- C113, the path depends on the product of gain and time step only: an agent that starts at rest, without limit of the speed
and without repulsion, among obstacles at rest of all kinds. -/
theorem C113_product_partial (c : Loop ℝ) (hr : c.addRepulsion = false) (hm : c.maxVel = none) (hg : 0 < c.gain) {gain dt : ℝ}
    (hg' : 0 < gain) (hp : gain * dt = c.gain * c.dt) (E : Env) (n : ℕ) {h : Heap ℝ} (hs : AllStatic h) {a : Agent ℝ}
    (h1 : a.state.linearVelocity = V3.zero) (h2 : a.state.angularVelocity = V3.zero) :
    Agree (fun s s' => s'.1 = s.1 ∧ s'.2.state.pose = s.2.state.pose) (c.run E n (h, a))
      ((retimed c gain dt).run E n (h, a)) := by
  have hμ : 0 < gain / c.gain := div_pos hg' hg
  have ha : fasterAgent (gain / c.gain) a = a := by
    unfold fasterAgent
    rw [static_state h1 h2]
  have hc : fasterLoop (gain / c.gain) c = retimed c gain dt := by
    have e1 : c.gain * (gain / c.gain) = gain := by field_simp
    have e2 : c.dt / (gain / c.gain) = dt := by
      rw [div_div_eq_mul_div, div_eq_iff hg'.ne', mul_comm c.dt, ← hp, mul_comm]
    simp only [fasterLoop, retimed, e1, e2, hm, Option.map_none]
  have key := C113_loop_partial hμ c hr E n hs a
  rw [ha, hc] at key
  rw [key]
  cases c.run E n (h, a) with
  | throw e => rfl
  | ub u => rfl
  | ok r => exact ⟨rfl, rfl⟩

/-! ### With repulsion -/

/-- An agent that has arrived at its target on the surface of the unit ball, and the ball pushes it away. -/
noncomputable def leaver (gain dt : ℝ) : Loop ℝ := ⟨gain, dt, ⟨1, 0, 0⟩, none, false, true, false, 1, 2⟩

/-- The ball and the envelope of the agent. -/
noncomputable def discWithOne : Heap ℝ := [.ellipsoid (ball V3.zero), .ellipsoid (ball V3.zero)]

theorem ball_pushes {k1 : Heap ℝ} (g0 : k1[0]? = some (.ellipsoid (ball V3.zero))) :
    modulateVelocity k1 { agentAt ⟨1, 0, 0⟩ V3.zero with envelope := some 1 } (envOf [0]) false true false 1 2 =
      .ok (k1, ⟨2, 0, 0⟩) := by
  set a1 : Agent ℝ := { agentAt ⟨1, 0, 0⟩ V3.zero with envelope := some 1 } with ha1
  have hd : gdist (ball V3.zero) 0 ⟨1, 0, 0⟩ = 1 := by rw [ball_dist]; norm_num
  have hm := matrix_ellipsoid k1 a1 (ball V3.zero) rfl
  obtain ⟨mv, o1, -, o2⟩ := C39_single k1 a1 (envOf [0]) false 1 2 0 (.ellipsoid (ball V3.zero)) _ _ _ rfl g0 ⟨rfl, rfl⟩
    (ball_smooth _).unit hm rfl (by intro h; cases h)
  have hz : ∀ M : M3 ℝ, M.mulVec a1.state.linearVelocity = V3.zero := by
    intro M
    show M.mulVec V3.zero = V3.zero
    ext <;> simp [M3.mulVec, V3.zero]
  rw [hz, V3.sub_zero', V3.norm_eq_zero.mpr rfl, mul_zero] at o2
  have hmv : mv = V3.zero := V3.norm_eq_zero.mp (le_antisymm o2 (V3.norm_nonneg _))
  subst hmv
  have hr := C42_near k1 (ball V3.zero) V3.zero ⟨1, 0, 0⟩ 0 (11 / 10) rfl (by rw [hd]; norm_num)
  rw [hd] at hr
  have l1 : V3.lsum [V3.smul (2 / 1) ((⟨1, 0, 0⟩ : V3 ℝ) - V3.zero)] = ⟨2, 0, 0⟩ := by
    simp only [V3.lsum_cons, V3.lsum_nil]
    ext <;> norm_num [V3.smul, V3.zero]
  have h3 := C42_added k1 k1 a1 (envOf [0]) false false 1 2 V3.zero _
    (by simp [envOf]) (by intro h; cases h) o1 (.cons ⟨_, g0, hr⟩ .nil)
  rw [l1, if_pos (by rw [norm_on_axis]; norm_num), V3.zero_add'] at h3
  exact h3

theorem leaver_step (gain dt : ℝ) : ∃ k b, (leaver gain dt).run (envOf [0]) 1 (discWithOne, agentOf ⟨1, 0, 0⟩ 1) = .ok (k, b) ∧
    b.state.position = ⟨1 + 2 * dt, 0, 0⟩ := by
  have hv : (leaver gain dt).desired (agentOf ⟨1, 0, 0⟩ 1).state.position = V3.zero := by
    show V3.smul (-gain) ((⟨1, 0, 0⟩ : V3 ℝ) - ⟨1, 0, 0⟩) = _
    ext <;> simp [V3.smul, V3.zero]
  obtain ⟨d1, e1⟩ := withState_ok (h := discWithOne) (a := agentOf ⟨1, 0, 0⟩ 1) rfl rfl
    ((agentOf ⟨1, 0, 0⟩ 1).state.setLinearVelocity V3.zero)
  set k1 := discWithOne.set 1 (.ellipsoid d1) with hk1
  have g0 : k1[0]? = some (.ellipsoid (ball V3.zero)) := rfl
  have g1 : k1[1]? = some (.ellipsoid d1) := rfl
  set a1 : Agent ℝ := { agentAt ⟨1, 0, 0⟩ V3.zero with envelope := some 1 } with ha1
  have e1' : (agentOf ⟨1, 0, 0⟩ 1).setLinearVelocity discWithOne V3.zero = .ok (k1, a1) := e1
  have h3 := ball_pushes g0
  obtain ⟨d2, e2⟩ := withState_ok (a := a1) rfl g1 (a1.state.setPosition ((⟨1, 0, 0⟩ : V3 ℝ) + V3.smul dt ⟨2, 0, 0⟩))
  have e2' : a1.setPosition k1 ((agentOf ⟨1, 0, 0⟩ 1).state.position +
    V3.smul (leaver gain dt).dt ((leaver gain dt).limit ⟨2, 0, 0⟩)) = _ := e2
  refine ⟨k1.set 1 (.ellipsoid d2),
    { a1 with state := a1.state.setPosition ((⟨1, 0, 0⟩ : V3 ℝ) + V3.smul dt ⟨2, 0, 0⟩) }, ?_, ?_⟩
  · simp only [Loop.run, hv]
    unfold Loop.iterate
    simp only [e1', Res.ok_bind]
    have o1' : modulateVelocity k1 a1 (envOf [0]) (leaver gain dt).isLocal (leaver gain dt).addRepulsion
      (leaver gain dt).planar (leaver gain dt).critical (leaver gain dt).power = .ok (k1, ⟨2, 0, 0⟩) := h3
    simp only [o1', Res.ok_bind, e2']
  · show (⟨1, 0, 0⟩ : V3 ℝ) + V3.smul dt ⟨2, 0, 0⟩ = _
    ext <;> simp [V3.smul]; ring

theorem discWithOne_static : AllStatic discWithOne := by
  intro o ho
  simp only [discWithOne, List.mem_cons, List.not_mem_nil, or_false, or_self] at ho
  subst ho
  exact ⟨rfl, rfl⟩

/-- C113 is false with repulsion: an agent at its target on the surface of a ball is pushed away by a velocity that does not
depend on the gain, so that with twice the gain and half the time step it gets half as far. -/
theorem C113_negation : ∃ (c : Loop ℝ) (gain dt : ℝ) (h : Heap ℝ) (a : Agent ℝ) (s s' : Heap ℝ × Agent ℝ), 0 < c.gain ∧
    0 < gain ∧ gain * dt = c.gain * c.dt ∧ c.maxVel = none ∧ AllStatic h ∧ a.state.linearVelocity = V3.zero ∧
    a.state.angularVelocity = V3.zero ∧ c.run (envOf [0]) 1 (h, a) = .ok s ∧
    (retimed c gain dt).run (envOf [0]) 1 (h, a) = .ok s' ∧ s.2.state.position = ⟨3, 0, 0⟩ ∧
    s'.2.state.position = ⟨2, 0, 0⟩ := by
  obtain ⟨k, b, h1, h2⟩ := leaver_step 1 1
  obtain ⟨k', b', h1', h2'⟩ := leaver_step 2 (1 / 2)
  refine ⟨leaver 1 1, 2, 1 / 2, discWithOne, agentOf ⟨1, 0, 0⟩ 1, (k, b), (k', b'), one_pos, two_pos, ?_, rfl,
    discWithOne_static, rfl, rfl, h1, h1', ?_, ?_⟩
  · show (2 : ℝ) * (1 / 2) = 1 * 1
    norm_num
  · rw [h2]; norm_num
  · rw [h2']; norm_num

/-- C113 applies to the planar agent of C112: ten times the gain, a tenth of the time step. -/
example : ∃ s s', passer.run (envOf [0]) 1 (discWithTwo, agentOf ⟨-2, 3 / 5, 0⟩ 2) = .ok s ∧
    (retimed passer 10 (1 / 10)).run (envOf [0]) 1 (discWithTwo, agentOf ⟨-2, 3 / 5, 0⟩ 2) = .ok s' ∧
    s'.2.state.pose = s.2.state.pose := by
  obtain ⟨h1, a1, e, -⟩ := passer_step
  have hs : AllStatic discWithTwo := by
    intro o ho
    simp only [discWithTwo, List.mem_cons, List.not_mem_nil, or_false, or_self] at ho
    subst ho
    exact ⟨rfl, rfl⟩
  have key := C113_product_partial passer rfl rfl one_pos (gain := 10) (dt := 1 / 10) (by norm_num)
    (by show (10 : ℝ) * (1 / 10) = 1 * 1; norm_num) (envOf [0]) 1 hs (a := agentOf ⟨-2, 3 / 5, 0⟩ 2) rfl rfl
  rw [e] at key
  cases hx : (retimed passer 10 (1 / 10)).run (envOf [0]) 1 (discWithTwo, agentOf ⟨-2, 3 / 5, 0⟩ 2) with
  | throw e => rw [hx] at key; exact key.elim
  | ub u => rw [hx] at key; exact key.elim
  | ok s' => rw [hx] at key; exact ⟨_, _, e, rfl, key.2⟩

/-- The other two loops, in the scene with one ball. -/
example (n : ℕ) (p : V3 ℝ) (a : Agent ℝ) :
    (fasterLoop 3 passer).runMixed (envOf [0]) n (some (V3.smul 3 p)) (discWithOne, fasterAgent 3 a) =
      (passer.runMixed (envOf [0]) n (some p) (discWithOne, a) >>= fun r => .ok (r.1, fasterAgent 3 r.2)) ∧
    (fasterLoop 3 passer).runWall (envOf [0]) n (discWithOne, fasterAgent 3 a) =
      (passer.runWall (envOf [0]) n (discWithOne, a) >>= fun r => .ok (r.1, fasterAgent 3 r.2)) :=
  ⟨C113_mixed_partial three_pos passer rfl _ n (some p) discWithOne_static a,
    C113_wall_partial three_pos passer rfl _ n discWithOne_static a⟩

/-- The repulsion: an agent at rest on the surface of a ball is pushed in the same way in a hurry. -/
example : ∃ (a : Agent ℝ) (mv : V3 ℝ), modulateVelocity discWithOne a (envOf [0]) false true false 1 2 =
      .ok (discWithOne, ⟨2, 0, 0⟩) ∧
    ∀ μ : ℝ, 0 < μ → modulateVelocity discWithOne (fasterAgent μ a) (envOf [0]) false true false 1 2 =
      .ok (discWithOne, V3.smul μ mv + (⟨2, 0, 0⟩ - mv)) := by
  have h1 := ball_pushes (k1 := discWithOne) rfl
  obtain ⟨mv, -, h2⟩ := C113_repulsion_partial discWithOne_static h1
  exact ⟨_, mv, h1, h2⟩

end DOA.Props
