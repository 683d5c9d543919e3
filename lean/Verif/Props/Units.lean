import Verif.Lemmas.Units
import Verif.Props.View
import Verif.Props.Agent
import Verif.Props.Intersection

/-!
# C98 the choice of the units
-/

namespace DOA.Props
open DOA DOA.Spec DOA.Modulation DOA.Ellipsoid
set_option linter.unusedSectionVars false
set_option linter.unusedSimpArgs false
set_option linter.unnecessarySeqFocus false

/-- C98: every ellipsoid that is not too thin exists in the new units. -/
theorem C98_exists {U : Units} (e : Ellipsoid ℝ) {r : ℝ} {c : ℕ} (hc : HasCurv e c c c)
    (hl : AllGt (halfLengths e (V3.const r)) (1 / 10000))
    (hl' : AllGt (V3.smul U.k (halfLengths e (V3.const r))) (1 / 10000)) : ∃ e', ScaledEllipsoid U r e e' := by
  refine ⟨{ e with
    axis := V3.smul U.k e.axis
    base := { e.base with
      margin := V3.smul U.k e.base.margin
      state := ⟨⟨V3.smul U.k e.base.state.pose.position, e.base.state.pose.orientation⟩,
        V3.smul U.m e.base.state.linearVelocity, V3.smul (U.m / U.k) e.base.state.angularVelocity⟩
      refPos := e.base.refPos.map (V3.smul U.k) } }, rfl, rfl, rfl, rfl, rfl, rfl, rfl, rfl, ⟨c, hc⟩, hl, ?_⟩
  obtain ⟨h1, h2, h3⟩ := hl'
  simp only [V3.smul, halfLengths, V3.const, mul_add] at h1 h2 h3
  exact ⟨h1, h2, h3⟩

/-- C98, the distances and normals: the same in all units. -/
theorem C98_measures {U : Units} (hU : U.Valid) {r : ℝ} {e e' : Ellipsoid ℝ} (s : ScaledEllipsoid U r e e') (x : V3 ℝ) :
    e'.distanceToPoint (V3.smul U.k x) (V3.const (U.k * r)) = e.distanceToPoint x (V3.const r) ∧
    e'.normalToAgent (V3.smul U.k x) (U.k * r) = e.normalToAgent x r :=
  ⟨s.distance hU x, s.normal hU x⟩

/-- C98, the part that holds for the velocity: without repulsion and `is_local`, for any number of ellipsoids in any
motion, `modulate_velocity` gives the same velocity in all units of length and time, and leaves the same reference points.
Full statement (false, see the negations): for all options and all ellipsoids. -/
theorem C98_velocity_partial {U : Units} (hU : U.Valid) {h h' : Heap ℝ} {a a' : Agent ℝ} {E : Env}
    (hs : ScaledObstacles U a.margin h h' E.list) (ha : ScaledAgent U a a') (planar : Bool) (critical power : ℝ) :
    Agree (fun r r' => r'.2 = V3.smul U.m r.2 ∧ ScaledObstacles U a.margin r.1 r'.1 E.list)
      (modulateVelocity h a E false false planar critical power)
      (modulateVelocity h' a' E false false planar critical power) := by
  rw [modulateVelocity_eq, modulateVelocity_eq]
  split
  · exact ⟨ha.velocity, hs⟩
  simp only [sightOf, Bool.false_eq_true, if_false, Res.ok_bind, if_true, repOf]
  refine Agree.bind (collect_scale hU ha planar E.list h h' (fun _ hx => hx) hs) fun r r' _ _ ⟨q1, q2⟩ => ?_
  rw [ha.position, ha.velocity, combine_scale hU a.state.position a.state.linearVelocity critical power q2]
  exact ⟨rfl, q1⟩

/-- C98, the part that holds with repulsion: if the unit of time is kept, the velocities agree except for the cut-off of
repulsions shorter than 1e-4. -/
theorem C98_repulsion_partial {U : Units} (hU : U.Valid) (hkm : U.m = U.k) {h h' : Heap ℝ} {a a' : Agent ℝ} {E : Env}
    (hs : ScaledObstacles U a.margin h h' E.list) (ha : ScaledAgent U a a') (planar : Bool) (critical power : ℝ) :
    Agree (fun r r' => V3.norm (r'.2 - V3.smul U.k r.2) ≤ max 1 U.k / 10000 ∧
        ScaledObstacles U a.margin r.1 r'.1 E.list)
      (modulateVelocity h a E false true planar critical power)
      (modulateVelocity h' a' E false true planar critical power) := by
  have hk := hU.1
  have hself : ∀ v : V3 ℝ, v - v = V3.zero := fun v => by v3_ring
  have h0 : V3.norm (V3.zero : V3 ℝ) ≤ max 1 U.k / 10000 := by
    rw [V3.norm_eq_zero.mpr rfl]; positivity
  rw [modulateVelocity_eq, modulateVelocity_eq]
  split
  · refine ⟨?_, hs⟩
    show V3.norm (a'.state.linearVelocity - V3.smul U.k a.state.linearVelocity) ≤ _
    rw [ha.velocity, hkm, hself]; exact h0
  simp only [sightOf, Bool.false_eq_true, if_false, Res.ok_bind, if_true]
  refine Agree.bind (collect_scale hU ha planar E.list h h' (fun _ hx => hx) hs) fun r r' _ _ ⟨q1, q2⟩ => ?_
  have hcomb := combine_scale hU a.state.position a.state.linearVelocity critical power q2
  rw [ha.position, ha.velocity, hcomb, hkm]
  have hrep := repulsion_scale hU ha q1 E.list (fun _ hx => hx) V3.zero
  rw [V3.smul_zero'] at hrep
  simp only [repOf, bind_assoc, Res.ok_bind, if_true]
  refine Agree.bind hrep fun v v' _ _ hv => ?_
  subst hv
  refine ⟨?_, q1⟩
  generalize combine a.state.position a.state.linearVelocity r.2 critical power = w
  show V3.norm (finish (some (V3.smul U.k v)) (V3.smul U.k w) - V3.smul U.k (finish (some v) w)) ≤ _
  have hnan : ∀ v : V3 ℝ, v.hasNaN = false := fun v => by simp [V3.hasNaN]
  have hlit : (lit 1 10000 : ℝ) = 1 / 10000 := by simp [lit_real]
  unfold finish
  simp only [hnan, Bool.false_eq_true, if_false, V3.norm_smul_pos hk, hlit]
  have m1 := le_max_left 1 U.k
  have m2 := le_max_right 1 U.k
  by_cases c1 : 1 / 10000 < U.k * V3.norm v <;> by_cases c2 : 1 / 10000 < V3.norm v
  · rw [if_pos c1, if_pos c2, V3.smul_add', hself]; exact h0
  · rw [if_pos c1, if_neg c2]
    have : V3.smul U.k w + V3.smul U.k v - V3.smul U.k w = V3.smul U.k v := by v3_ring
    rw [this, V3.norm_smul_pos hk]
    have := mul_le_mul_of_nonneg_left (not_lt.mp c2) hk.le
    linarith
  · rw [if_neg c1, if_pos c2, V3.smul_add']
    have : V3.smul U.k w - (V3.smul U.k w + V3.smul U.k v) = -V3.smul U.k v := by v3_ring
    have hneg : ∀ u : V3 ℝ, V3.norm (-u) = V3.norm u := fun u => by
      simp only [V3.norm, V3.sqNorm, V3.dot, V3.neg_x, V3.neg_y, V3.neg_z, neg_mul_neg]
    rw [this, hneg, V3.norm_smul_pos hk]
    linarith
  · rw [if_neg c1, if_neg c2, hself]; exact h0

theorem withState_scaled {U : Units} {l : List Ptr} {s s' : Heap ℝ × Agent ℝ} (sc : ScaledScene U l s s')
    (st st' : State ℝ) (h1 : st'.position = V3.smul U.k st.position)
    (h2 : st'.linearVelocity = V3.smul U.m st.linearVelocity) :
    ∃ t t', s.2.withState s.1 st = .ok t ∧ s'.2.withState s'.1 st' = .ok t' ∧ ScaledScene U l t t' ∧
      t.2 = { s.2 with state := st } ∧ t'.2 = { s'.2 with state := st' } := by
  obtain ⟨q, e, e1, e2, e3⟩ := sc.envelope
  obtain ⟨q', e', e1', e2', e3'⟩ := sc.envelope'
  have l1 := (List.getElem?_eq_some_iff.mp e2).1
  have l1' := (List.getElem?_eq_some_iff.mp e2').1
  refine ⟨(s.1.set q (.ellipsoid (({ s.2 with state := st } : Agent ℝ).envelopeFor e)), { s.2 with state := st }),
    (s'.1.set q' (.ellipsoid (({ s'.2 with state := st' } : Agent ℝ).envelopeFor e')), { s'.2 with state := st' }),
    ?_, ?_, ?_, rfl, rfl⟩
  · simp only [Agent.withState, Agent.updateEnvelope, e1, Heap.deref_ok' e2, Res.ok_bind]
  · simp only [Agent.withState, Agent.updateEnvelope, e1', Heap.deref_ok' e2', Res.ok_bind]
  · have ne : ∀ p ∈ l, q ≠ p := fun p hp hqp => e3 (hqp ▸ hp)
    have ne' : ∀ p ∈ l, q' ≠ p := fun p hp hqp => e3' (hqp ▸ hp)
    refine ⟨fun p hp => ?_, ⟨h1, h2, sc.agent.margin⟩, ⟨q, _, e1, List.getElem?_set_self l1, e3⟩,
      ⟨q', _, e1', List.getElem?_set_self l1', e3'⟩⟩
    obtain ⟨f, f', g1, g2, g3⟩ := sc.obstacles p hp
    exact ⟨f, f', by rw [List.getElem?_set_ne (ne p hp), g1], by rw [List.getElem?_set_ne (ne' p hp), g2], g3⟩

/-- C98, the part that holds for the control loop: without repulsion and `is_local`, after any number of iterations the agent
is at the same place in all units of length and time, with gain, time step, target and largest speed converted. -/
theorem C98_loop_partial {U : Units} (hU : U.Valid) (c : Loop ℝ) (hc : c.isLocal = false) (hr : c.addRepulsion = false)
    {E : Env} :
    ∀ (n : ℕ) {s s' : Heap ℝ × Agent ℝ}, ScaledScene U E.list s s' →
    Agree (fun t t' => t'.2.state.position = V3.smul U.k t.2.state.position ∧ ScaledScene U E.list t t')
      (c.run E n s) ((U.loop c).run E n s')
  | 0, _, _, sc => ⟨sc.agent.position, sc⟩
  | n + 1, s, s', sc => by
    have hk := hU.1
    have hm := hU.2
    unfold Loop.run
    refine Agree.bind (R := ScaledScene U E.list) ?_ fun t t' _ _ ht => C98_loop_partial hU c hc hr n ht
    have hdes : (U.loop c).desired s'.2.state.position = V3.smul U.m (c.desired s.2.state.position) := by
      simp only [Loop.desired, Units.loop, sc.agent.position, ← V3.smul_sub', V3.smul_smul']
      congr 1
      field_simp
    rw [hdes]
    generalize c.desired s.2.state.position = v
    unfold Loop.iterate Agent.setLinearVelocity Agent.setPosition
    obtain ⟨t, t', h1, h2, sc1, h3, h4⟩ := withState_scaled sc (s.2.state.setLinearVelocity v)
      (s'.2.state.setLinearVelocity (V3.smul U.m v)) sc.agent.position rfl
    rw [h1, h2, Res.ok_bind, Res.ok_bind]
    have key := C98_velocity_partial hU sc1.obstacles sc1.agent c.planar c.critical c.power
    have key2 : Agree (fun r r' => r'.2 = V3.smul U.m r.2 ∧ ScaledScene U E.list (r.1, t.2) (r'.1, t'.2))
        (modulateVelocity t.1 t.2 E false false c.planar c.critical c.power)
        (modulateVelocity t'.1 t'.2 E false false c.planar c.critical c.power) := by
      cases hx : modulateVelocity t.1 t.2 E false false c.planar c.critical c.power <;>
        cases hy : modulateVelocity t'.1 t'.2 E false false c.planar c.critical c.power <;>
        rw [hx, hy] at key <;> try exact key
      obtain ⟨k1, k2⟩ := key
      have f1 := C47_frame hx
      have f2 := C47_frame hy
      refine ⟨k1, k2, sc1.agent, ?_, ?_⟩
      · obtain ⟨q, e, g1, g2, g3⟩ := sc1.envelope
        exact ⟨q, e, g1, by rw [f1.2.1 q g3]; exact g2, g3⟩
      · obtain ⟨q, e, g1, g2, g3⟩ := sc1.envelope'
        exact ⟨q, e, g1, by rw [f2.2.1 q g3]; exact g2, g3⟩
    have hl1 : (U.loop c).isLocal = false := hc
    have hl2 : (U.loop c).addRepulsion = false := hr
    have hl3 : (U.loop c).planar = c.planar ∧ (U.loop c).critical = c.critical ∧ (U.loop c).power = c.power := ⟨rfl, rfl, rfl⟩
    rw [hl1, hl2, hl3.1, hl3.2.1, hl3.2.2, hc, hr]
    refine Agree.bind key2 fun r r' _ _ ⟨k1, sc2⟩ => ?_
    have hlim : (U.loop c).limit (V3.smul U.m r.2) = V3.smul U.m (c.limit r.2) := by
      unfold Loop.limit Units.loop
      cases c.maxVel with
      | none => rfl
      | some M =>
        simp only [Option.map_some, V3.norm_smul_pos hm, V3.normalized_smul_pos hm, mul_lt_mul_iff_right₀ hm]
        split
        · rw [V3.smul_smul']
        · rfl
    rw [k1, hlim, sc.agent.position]
    have hpos : V3.smul U.k s.2.state.position + V3.smul (U.loop c).dt (V3.smul U.m (c.limit r.2)) =
        V3.smul U.k (s.2.state.position + V3.smul c.dt (c.limit r.2)) := by
      rw [V3.smul_add', V3.smul_smul', V3.smul_smul']
      congr 2
      simp only [Units.loop]
      field_simp
    obtain ⟨u, u', g1, g2, sc3, -, -⟩ := withState_scaled sc2
      (t.2.state.setPosition (s.2.state.position + V3.smul c.dt (c.limit r.2)))
      (t'.2.state.setPosition (V3.smul U.k s.2.state.position + V3.smul (U.loop c).dt (V3.smul U.m (c.limit r.2)))) hpos
      sc1.agent.velocity
    rw [g1, g2]
    exact sc3

/-! ### What depends on the units -/

theorem norm_on_axis (c : ℝ) : V3.norm (⟨c, 0, 0⟩ : V3 ℝ) = |c| := by
  simp [V3.norm, V3.sqNorm, V3.dot, CMath.sqrt, Real.sqrt_mul_self_eq_abs]

/-- the ball in units of length -/
theorem ball_scaled {U : Units} (h : 1 / 10000 < U.k) :
    ScaledEllipsoid U 0 (ball V3.zero) { ball V3.zero with axis := V3.const U.k } := by
  have hz : ∀ c : ℝ, V3.smul c V3.zero = V3.zero := V3.smul_zero'
  refine ⟨(hz _).symm, rfl, ?_, (hz _).symm, rfl, ?_, (hz _).symm, (hz _).symm, ⟨1, (ball_smooth _).curv⟩,
    (ball_smooth _).long, ?_⟩
  · show V3.const U.k = V3.smul U.k (V3.const 1)
    ext <;> simp [V3.const, V3.smul]
  · show some V3.zero = some (V3.smul U.k V3.zero)
    rw [hz]
  · norm_num [AllGt, halfLengths, ball, Ellipsoid.ofBase, V3.const, V3.zero, Base.mkRef] at h ⊢
    exact h

/-- C98 is false for the unit of time when `add_repulsion` is set: the repulsion is a length that is added to the velocity.
An agent at rest on the surface of the unit ball gets the velocity (2,0,0), whatever the unit of time: in units where all
speeds are doubled this should be (4,0,0). -/
theorem C98_negation : ∃ (U : Units) (h : Heap ℝ) (a : Agent ℝ) (out : V3 ℝ), U.Valid ∧ U.k = 1 ∧
    ScaledObstacles U a.margin h h [0] ∧ ScaledAgent U a a ∧
    modulateVelocity h a (envOf [0]) false true false 1 2 = .ok (h, out) ∧ out = ⟨2, 0, 0⟩ ∧
    out ≠ V3.smul U.m out := by
  have hd : gdist (ball V3.zero) 0 ⟨1, 0, 0⟩ = 1 := by rw [ball_dist]; norm_num
  have hm := matrix_ellipsoid [.ellipsoid (ball V3.zero)] (agentAt ⟨1, 0, 0⟩ V3.zero) (ball V3.zero) rfl
  obtain ⟨mv, h1, -, h2⟩ := C39_single [.ellipsoid (ball V3.zero)] (agentAt ⟨1, 0, 0⟩ V3.zero) (envOf [0])
    false 1 2 0 (.ellipsoid (ball V3.zero)) _ _ _ rfl rfl ⟨rfl, rfl⟩ (ball_smooth _).unit hm rfl
    (by intro h; cases h)
  have hz : ∀ M : M3 ℝ, M.mulVec (agentAt ⟨1, 0, 0⟩ V3.zero).state.linearVelocity = V3.zero := by
    intro M
    show M.mulVec V3.zero = V3.zero
    ext <;> simp [M3.mulVec, V3.zero]
  rw [hz, V3.sub_zero', V3.norm_eq_zero.mpr rfl, mul_zero] at h2
  have hmv : mv = V3.zero := V3.norm_eq_zero.mp (le_antisymm h2 (V3.norm_nonneg _))
  subst hmv
  have hr := C42_near [.ellipsoid (ball V3.zero)] (ball V3.zero) V3.zero ⟨1, 0, 0⟩ 0 (11 / 10) rfl
    (by rw [hd]; norm_num)
  rw [hd] at hr
  have e1 : V3.lsum [V3.smul (2 / 1) ((⟨1, 0, 0⟩ : V3 ℝ) - V3.zero)] = ⟨2, 0, 0⟩ := by
    simp only [V3.lsum_cons, V3.lsum_nil]
    ext <;> norm_num [V3.smul, V3.zero]
  have h3 := C42_added _ _ (agentAt ⟨1, 0, 0⟩ V3.zero) (envOf [0]) false false 1 2 V3.zero _
    (by simp [envOf]) (by intro h; cases h) h1 (.cons ⟨_, rfl, hr⟩ .nil)
  rw [e1, if_pos (by rw [norm_on_axis]; norm_num), V3.zero_add'] at h3
  have hU : (⟨1, 2⟩ : Units).Valid := ⟨one_pos, two_pos⟩
  refine ⟨⟨1, 2⟩, _, _, _, hU, rfl, ?_, ⟨?_, ?_, ?_⟩, h3, rfl, ?_⟩
  · intro p hp
    rw [List.mem_singleton.mp hp]
    exact ⟨_, _, rfl, rfl, ball_scaled (by norm_num)⟩
  · show (⟨1, 0, 0⟩ : V3 ℝ) = V3.smul 1 ⟨1, 0, 0⟩
    ext <;> simp [V3.smul]
  · exact (V3.smul_zero' _).symm
  · show (0 : ℝ) = 1 * 0
    norm_num
  · intro h
    have := congrArg V3.x h
    norm_num [V3.smul] at this

/-- C98 is false for the unit of length when `is_local` is set: the agent looks half a unit ahead, whatever the unit.  An agent
1/4 before the unit ball, heading for its centre, sees it and is slowed down.  With lengths and speeds in a unit ten times
smaller it is 5/2 before the ball, does not see it, and keeps its velocity. -/
theorem C98_negation_local : ∃ (U : Units) (s s' : Heap ℝ × Agent ℝ) (out out' : V3 ℝ), U.Valid ∧ U.k = 10 ∧ U.m = 10 ∧
    runCalls (Agent.mk2 [.ellipsoid (ball V3.zero)] (State.ofPosition ⟨5 / 4, 0, 0⟩) 0)
      [.setLinearVelocity ⟨-1, 0, 0⟩] = .ok s ∧
    runCalls (Agent.mk2 [.ellipsoid { ball V3.zero with axis := V3.const U.k }]
      (State.ofPosition (V3.smul U.k ⟨5 / 4, 0, 0⟩)) 0) [.setLinearVelocity (V3.smul U.m ⟨-1, 0, 0⟩)] = .ok s' ∧
    ScaledScene U [0] s s' ∧
    modulateVelocity s.1 s.2 (envOf [0]) true false false 1 2 = .ok (s.1, out) ∧
    modulateVelocity s'.1 s'.2 (envOf [0]) true false false 1 2 = .ok (s'.1, out') ∧
    out' = ⟨-10, 0, 0⟩ ∧ out' ≠ V3.smul U.m out := by
  have hU : (⟨10, 10⟩ : Units).Valid := ⟨by norm_num, by norm_num⟩
  set b' : Ellipsoid ℝ := { ball V3.zero with axis := V3.const 10 } with hb'
  have hsb : ScaledEllipsoid ⟨10, 10⟩ 0 (ball V3.zero) b' := ball_scaled (by norm_num)
  have n1 : (⟨-1, 0, 0⟩ : V3 ℝ) ≠ V3.zero := fun h => by have := congrArg V3.x h; norm_num [V3.zero] at this
  have n2 : (⟨-10, 0, 0⟩ : V3 ℝ) ≠ V3.zero := fun h => by have := congrArg V3.x h; norm_num [V3.zero] at this
  have ev : V3.smul 10 (⟨-1, 0, 0⟩ : V3 ℝ) = ⟨-10, 0, 0⟩ := by ext <;> simp [V3.smul]
  have ex : V3.smul 10 (⟨5 / 4, 0, 0⟩ : V3 ℝ) = ⟨25 / 2, 0, 0⟩ := by ext <;> simp [V3.smul]; norm_num
  have scene : ∀ (e : Ellipsoid ℝ) (x v : V3 ℝ), ∃ (h : Heap ℝ) (a : Agent ℝ) (env : Ellipsoid ℝ),
      runCalls (Agent.mk2 [.ellipsoid e] (State.ofPosition x) 0) [.setLinearVelocity v] = .ok (h, a) ∧
      a.state.position = x ∧ a.state.linearVelocity = v ∧ a.margin = 0 ∧ h[0]? = some (.ellipsoid e) ∧
      a.envelope = some 1 ∧ h[1]? = some (.ellipsoid env) ∧ a.getEnvelope h = .ok (.ellipsoid env) ∧
      EnvelopeOf x v 0 env := by
    intro e x v
    obtain ⟨h, a, env, h1, h2, h3⟩ := C49_envelope_partial [.ellipsoid e] (State.ofPosition x) 0 0 [.setLinearVelocity v] rfl
    obtain ⟨h', a', h4, h5, h6, -⟩ := C49_calls [.ellipsoid e] (State.ofPosition x) 0 [.setLinearVelocity v]
    rw [h1] at h4
    cases h4
    have hst : a.state = ⟨Pose.ofPosition x, v, V3.zero⟩ := congrArg Prod.fst h5
    have hmar : a.margin = 0 := congrArg Prod.snd h5
    have hpos : a.state.position = x := by rw [hst]; rfl
    have hvel : a.state.linearVelocity = v := by rw [hst]
    have henv : a.envelope = some 1 := by
      obtain ⟨s', g1, g2, -⟩ := inv_calls [.setLinearVelocity v] (inv_mk2 [.ellipsoid e] (State.ofPosition x) 0)
      rw [h1] at g1
      cases g1
      exact g2.env
    rw [hpos, hvel] at h3
    refine ⟨h, a, env, h1, hpos, hvel, hmar, by rw [h6 0 (by simp)]; rfl, henv, ?_, h2, h3⟩
    simp only [Agent.getEnvelope, henv, Heap.deref] at h2
    split at h2
    · rename_i o ho
      cases h2
      exact ho
    · cases h2
  obtain ⟨h, a, env, c1, c2, c3, c4, c5, c6, c7, c8, c9⟩ := scene (ball V3.zero) ⟨5 / 4, 0, 0⟩ ⟨-1, 0, 0⟩
  obtain ⟨h', a', env', d1, d2, d3, d4, d5, d6, d7, d8, d9⟩ := scene b' ⟨25 / 2, 0, 0⟩ ⟨-10, 0, 0⟩
  have zb : ∀ e : Ellipsoid ℝ, e.base = (ball V3.zero).base → ZRotated e := by
    intro e he
    unfold ZRotated
    rw [he]
    exact ⟨(ball_smooth _).unit, rfl, rfl⟩
  -- the first agent sees the ball
  have hsight : InSight h a (envOf [0]) true := by
    intro _
    refine ⟨_, c8, ?_⟩
    have hmeet : env.isIntersectingEllipsoid (ball V3.zero) = .ok true := by
      refine C29_detects_centres env (ball V3.zero) c9.rotated (zb _ rfl) (Or.inr ?_)
      have hp := (c9.moving n1).1
      rw [norm_on_axis] at hp
      refine ⟨3 / 4, 0, ?_, ?_, ?_⟩
      · norm_num [halfLengths, ball, Ellipsoid.ofBase, V3.const, V3.zero, Base.mkRef]
      · rw [ball_apply, hp]; simp only [V3.add_x, V3.smul]; norm_num
      · rw [ball_apply, hp]; simp only [V3.add_y, V3.smul]; norm_num
    show Heap.isIntersectingList h (.ellipsoid env) [0] = .ok true
    simp [Heap.isIntersectingList, Heap.deref, c5, Heap.isIntersecting, Heap.isIntersectingAux, Heap.fuel, Heap.isIntersectingEllipsoid, hmeet]
  -- the second does not
  have hblind : sightOf h' a' true [0] = .ok false := by
    have hmeet : env'.isIntersectingEllipsoid b' = .ok false := by
      obtain ⟨b, hb⟩ := C29_total env' b'
      cases b with
      | false => exact hb
      | true =>
        exfalso
        obtain ⟨x, y, ⟨u, v, k1, k2, k3⟩, ⟨u', v', m1, m2, m3⟩⟩ := C29_sound_partial env' b' d9.rotated (zb _ rfl)
          (by norm_num [hb', halfLengths, ball, Ellipsoid.ofBase, V3.const, V3.zero, Base.mkRef])
          (by norm_num [hb', halfLengths, ball, Ellipsoid.ofBase, V3.const, V3.zero, Base.mkRef]) hb
        have hl : halfLengths env' V3.zero = ⟨3 / 5, 1 / 10, 1 / 10⟩ := by
          simp only [halfLengths, (d9.moving n2).2, d9.margin_zero, V3.zero]
          norm_num
        have hl' : halfLengths b' V3.zero = ⟨10, 10, 10⟩ := by
          norm_num [hb', halfLengths, ball, Ellipsoid.ofBase, V3.const, V3.zero, Base.mkRef]
        have hp := (d9.moving n2).1
        rw [norm_on_axis] at hp
        have hpx : env'.base.position.x = 12 := by rw [hp]; simp only [V3.add_x, V3.smul]; norm_num
        have hpy : env'.base.position.y = 0 := by rw [hp]; simp only [V3.add_y, V3.smul]; norm_num
        have hba : ∀ w, b'.base.pose.apply w = w := ball_apply V3.zero
        rw [hba] at m2 m3
        rw [hl] at k1
        rw [hl'] at m1
        simp only at k1 m1 m2 m3
        rw [zrot_apply d9.rotated] at k2 k3
        simp only [hpx, hpy] at k2 k3
        obtain ⟨q1, q2, q3⟩ := d9.rotated
        have hq : env'.base.orientation.w ^ 2 + env'.base.orientation.z ^ 2 = 1 := by
          have : env'.base.orientation.sqNorm = 1 := (Quat.isUnit_iff_norm _).mpr q1
          simp only [Quat.sqNorm, q2, q3] at this
          linarith
        set w := env'.base.orientation.w
        set z := env'.base.orientation.z
        have hcs : (w ^ 2 - z ^ 2) ^ 2 + (2 * w * z) ^ 2 = 1 := by
          have : (w ^ 2 - z ^ 2) ^ 2 + (2 * w * z) ^ 2 = (w ^ 2 + z ^ 2) ^ 2 := by ring
          rw [this, hq]; norm_num
        have hr : (x - 12) ^ 2 + y ^ 2 = u ^ 2 + v ^ 2 := by
          rw [k2, k3]
          linear_combination (u ^ 2 + v ^ 2) * hcs
        have b1 : u ^ 2 + v ^ 2 ≤ 9 / 25 := by
          have e1 : (u / (3 / 5)) ^ 2 = 25 / 9 * u ^ 2 := by ring
          have e2 : (v / (1 / 10)) ^ 2 = 100 * v ^ 2 := by ring
          rw [e1, e2] at k1
          nlinarith [sq_nonneg v]
        have b2 : x ^ 2 + y ^ 2 ≤ 100 := by
          rw [m2, m3]
          have e1 : (u' / 10) ^ 2 = u' ^ 2 / 100 := by ring
          have e2 : (v' / 10) ^ 2 = v' ^ 2 / 100 := by ring
          rw [e1, e2] at m1
          linarith
        nlinarith [sq_nonneg y, sq_nonneg (x - 10)]
    simp [sightOf, d8, Heap.isIntersectingList, Heap.deref, d5, Heap.isIntersecting, Heap.isIntersectingAux, Heap.fuel,
      Heap.isIntersectingEllipsoid, hmeet]
  have hout' : modulateVelocity h' a' (envOf [0]) true false false 1 2 = .ok (h', ⟨-10, 0, 0⟩) := by
    rw [modulateVelocity_eq]
    show (sightOf h' a' true [0] >>= _) = _
    rw [hblind, Res.ok_bind, d3]
    rfl
  obtain ⟨M, B, hm, hM⟩ := ball_axis h a (5 / 4) c2 c4 (by norm_num)
  obtain ⟨out, o1, -, o2⟩ := C39_single h a (envOf [0]) true 1 2 0 (.ellipsoid (ball V3.zero)) M B _ rfl c5 ⟨rfl, rfl⟩
    (ball_smooth _).unit hm (by rw [c3]) hsight
  rw [c3, hM] at o2
  refine ⟨⟨10, 10⟩, (h, a), (h', a'), out, ⟨-10, 0, 0⟩, hU, rfl, rfl, c1, ?_, ?_, o1, hout', rfl, ?_⟩
  · show runCalls (Agent.mk2 [.ellipsoid b'] (State.ofPosition (V3.smul 10 ⟨5 / 4, 0, 0⟩)) 0)
      [.setLinearVelocity (V3.smul 10 ⟨-1, 0, 0⟩)] = _
    rw [ev, ex]
    exact d1
  · refine ⟨?_, ⟨?_, ?_, ?_⟩, ⟨1, env, c6, c7, by simp⟩, ⟨1, env', d6, d7, by simp⟩⟩
    · intro p hp
      rw [List.mem_singleton.mp hp]
      refine ⟨_, _, c5, d5, ?_⟩
      show ScaledEllipsoid _ a.margin _ _
      rw [c4]
      exact hsb
    · show a'.state.position = V3.smul 10 a.state.position
      rw [d2, c2, ex]
    · show a'.state.linearVelocity = V3.smul 10 a.state.linearVelocity
      rw [d3, c3, ev]
    · show a'.margin = 10 * a.margin
      rw [d4, c4, mul_zero]
  · intro hh
    have hx := congrArg V3.x hh
    simp only [V3.smul] at hx
    have hy := V3.dot_le_norm ⟨-1, 0, 0⟩ (out - ⟨(1 - 1 / (5 / 4) ^ 2) * -1, 0, 0⟩)
    rw [norm_on_axis] at hy
    rw [norm_on_axis] at o2
    simp only [V3.dot, V3.sub_x, V3.sub_y, V3.sub_z] at hy
    have ho : out.x = -1 := by linarith
    rw [ho] at hy
    norm_num at hy o2
    linarith

/-- C98 is false for very thin obstacles: a half length of 1e-4 is not divided by. -/
theorem C98_negation_thin : ∃ (k : ℝ) (e e' : Ellipsoid ℝ) (x : V3 ℝ), 0 < k ∧ HasCurv e 1 1 1 ∧
    e.base = (ball V3.zero).base ∧ e.axis = ⟨1 / 10000, 1, 1⟩ ∧ e' = { e with axis := V3.smul k e.axis } ∧
    e'.distanceToPoint (V3.smul k x) V3.zero ≠ e.distanceToPoint x V3.zero := by
  have hi : ∀ y, (ball V3.zero).base.pose.inverse.apply y = y := ball_inv _
  have hmz : (ball V3.zero).base.margin = ⟨0, 0, 0⟩ := rfl
  refine ⟨10, { ball V3.zero with axis := ⟨1 / 10000, 1, 1⟩ }, _, ⟨1, 0, 0⟩, by norm_num, (ball_smooth V3.zero).curv,
    rfl, rfl, rfl, ?_⟩
  have hc : (ball V3.zero).curv = ⟨1, 1, 1⟩ := rfl
  have p2 : ∀ t : ℝ, CMath.pow t (lit 2 1 * 1 : ℝ) = t ^ 2 := by
    intro t
    have := Ellipsoid.pow_even t 1
    rwa [Nat.cast_one] at this
  have h0 : (V3.zero : V3 ℝ).x = 0 ∧ (V3.zero : V3 ℝ).y = 0 ∧ (V3.zero : V3 ℝ).z = 0 := ⟨rfl, rfl, rfl⟩
  simp only [Ellipsoid.distanceToPoint, hi, hmz, hc, p2, scaled, epsilon_eq, V3.smul, V3.add_x, V3.add_y, V3.add_z, h0]
  norm_num

/-- C98 is false for unequal exponents: the normal is a sum of powers of different degrees of lengths. -/
theorem C98_negation_exponents : ∃ (k : ℝ) (e e' : Ellipsoid ℝ) (x : V3 ℝ), 0 < k ∧ HasCurv e 1 2 1 ∧
    e.base = (ball V3.zero).base ∧ e.axis = ⟨1, 1, 1⟩ ∧ e' = { e with axis := V3.smul k e.axis } ∧
    e'.normalToAgent (V3.smul k x) 0 ≠ e.normalToAgent x 0 := by
  have hi : ∀ y, (ball V3.zero).base.pose.inverse.apply y = y := ball_inv _
  have hmz : (ball V3.zero).base.margin = ⟨0, 0, 0⟩ := rfl
  have hc : HasCurv ({ ball V3.zero with curv := ⟨1, 2, 1⟩ } : Ellipsoid ℝ) 1 2 1 := by
    norm_num [HasCurv]
  refine ⟨2, { ball V3.zero with curv := ⟨1, 2, 1⟩ }, _, ⟨1, 1, 0⟩, by norm_num, hc, rfl, rfl, rfl, ?_⟩
  have hax : (ball V3.zero).axis = ⟨1, 1, 1⟩ := rfl
  have l1 : halfLengths ({ ball V3.zero with curv := ⟨1, 2, 1⟩ } : Ellipsoid ℝ) (V3.const 0) = ⟨1, 1, 1⟩ := by
    simp only [halfLengths, hax, hmz, V3.const]; norm_num
  have l2 : halfLengths ({ ball V3.zero with curv := ⟨1, 2, 1⟩, axis := V3.smul 2 (ball V3.zero).axis } : Ellipsoid ℝ)
      (V3.const 0) = ⟨2, 2, 2⟩ := by
    simp only [halfLengths, hax, hmz, V3.const, V3.smul]; norm_num
  rw [Ellipsoid.normal_frame _ _ 0 1 2 1 hc (by rw [l1]; norm_num [AllGt]),
    Ellipsoid.normal_frame _ _ 0 1 2 1 (by norm_num [HasCurv]) (by rw [l2]; norm_num [AllGt])]
  intro h
  rw [l1, l2] at h
  simp only [hi, V3.smul] at h
  norm_num at h
  have r1 : V3.norm (⟨2, 64, 0⟩ : V3 ℝ) ≠ 0 := fun h => by
    have := congrArg V3.x (V3.norm_eq_zero.mp h); norm_num [V3.zero] at this
  have r2 : V3.norm (⟨1, 8, 0⟩ : V3 ℝ) ≠ 0 := fun h => by
    have := congrArg V3.x (V3.norm_eq_zero.mp h); norm_num [V3.zero] at this
  rw [V3.normalized_of_ne (fun h => r1 (V3.norm_eq_zero.mpr h)), V3.normalized_of_ne (fun h => r2 (V3.norm_eq_zero.mpr h))] at h
  have hx := congrArg V3.x h
  have hy := congrArg V3.y h
  simp only [V3.smul] at hx hy
  have hp := V3.norm_nonneg (⟨2, 64, 0⟩ : V3 ℝ)
  field_simp at hx hy
  apply r1
  linarith

/-! ### Concrete cases -/

theorem agree_mono {β γ : Type} {R S : β → γ → Prop} {x : Res β} {y : Res γ} (h : Agree R x y)
    (hRS : ∀ b c, R b c → S b c) : Agree S x y := by
  cases x <;> cases y <;> first | exact hRS _ _ h | exact h

/-- C98 applies to the unit ball in all units in which it is not too small. -/
example {U : Units} (hU : U.Valid) (h : 1 / 10000 < U.k) :
    ∃ e', ScaledEllipsoid U 0 (ball V3.zero) e' ∧
      e'.distanceToPoint (V3.smul U.k ⟨2, 0, 0⟩) (V3.const (U.k * 0)) = 4 := by
  refine ⟨_, ball_scaled h, ?_⟩
  rw [(C98_measures hU (ball_scaled h) _).1]
  show gdist (ball V3.zero) 0 ⟨2, 0, 0⟩ = 4
  rw [ball_dist]; norm_num

/-- Two moving obstacles, a ball and a tilted ellipsoid, exist in all units in which they are not too thin, and the velocity
of an agent among them is the same. -/
example {U : Units} (hU : U.Valid) (h : 1 / 10000 < U.k) (q : Quat ℝ) (u v w x : V3 ℝ) :
    ∃ e1 e2 : Ellipsoid ℝ, e1.axis = ⟨1, 1, 1⟩ ∧ e2.axis = ⟨1, 2, 3⟩ ∧ e2.base.state = ⟨⟨w, q⟩, u, v⟩ ∧
      ∃ e1' e2' : Ellipsoid ℝ, e2'.axis = V3.smul U.k e2.axis ∧
      Agree (fun r r' => r'.2 = V3.smul U.m r.2)
        (modulateVelocity [.ellipsoid e1, .ellipsoid e2] (agentAt x v) (envOf [0, 1]) false false true 1 2)
        (modulateVelocity [.ellipsoid e1', .ellipsoid e2'] (agentAt (V3.smul U.k x) (V3.smul U.m v)) (envOf [0, 1])
          false false true 1 2) := by
  let e2 : Ellipsoid ℝ :=
    { base := { (ball V3.zero).base with state := ⟨⟨w, q⟩, u, v⟩ }, axis := ⟨1, 2, 3⟩, curv := ⟨3, 3, 3⟩ }
  have hm : e2.base.margin = ⟨0, 0, 0⟩ := rfl
  have hl : halfLengths e2 (V3.const 0) = ⟨1, 2, 3⟩ := by
    have ha : e2.axis = ⟨1, 2, 3⟩ := rfl
    simp only [halfLengths, ha, hm, V3.const]; norm_num
  obtain ⟨e2', h2⟩ := C98_exists (U := U) e2 (r := 0) (c := 3) (by norm_num [HasCurv, e2])
    (by rw [hl]; norm_num [AllGt]) (by rw [hl]; refine ⟨?_, ?_, ?_⟩ <;> simp only [V3.smul] <;> linarith)
  refine ⟨ball V3.zero, e2, rfl, rfl, rfl, { ball V3.zero with axis := V3.const U.k }, e2', h2.axis, ?_⟩
  have key := C98_velocity_partial hU (h := [.ellipsoid (ball V3.zero), .ellipsoid e2])
    (h' := [.ellipsoid { ball V3.zero with axis := V3.const U.k }, .ellipsoid e2']) (a := agentAt x v)
    (a' := agentAt (V3.smul U.k x) (V3.smul U.m v)) (E := envOf [0, 1]) (fun p hp => by
      have : p = 0 ∨ p = 1 := by simpa [envOf] using hp
      rcases this with rfl | rfl
      · exact ⟨_, _, rfl, rfl, ball_scaled h⟩
      · exact ⟨_, _, rfl, rfl, h2⟩) ⟨rfl, rfl, (mul_zero _).symm⟩ true 1 2
  exact agree_mono key fun _ _ h => h.1

/-- The control loop and the repulsion: the scene of `C98_negation_local`, without `is_local`. -/
example : ∃ (U : Units) (s s' : Heap ℝ × Agent ℝ), U.Valid ∧ U.m = U.k ∧ U.k = 10 ∧ ScaledScene U [0] s s' ∧
    (∀ (c : Loop ℝ) (n : ℕ), c.isLocal = false → c.addRepulsion = false →
      Agree (fun t t' => t'.2.state.position = V3.smul U.k t.2.state.position)
        (c.run (envOf [0]) n s) ((U.loop c).run (envOf [0]) n s')) ∧
    Agree (fun r r' => V3.norm (r'.2 - V3.smul U.k r.2) ≤ 1 / 1000)
      (modulateVelocity s.1 s.2 (envOf [0]) false true true 1 2)
      (modulateVelocity s'.1 s'.2 (envOf [0]) false true true 1 2) := by
  obtain ⟨U, s, s', out, out', hU, hk, hm, -, -, sc, -⟩ := C98_negation_local
  refine ⟨U, s, s', hU, by rw [hk, hm], hk, sc, fun c n hc hr => ?_, ?_⟩
  · exact agree_mono (C98_loop_partial hU c hc hr n (E := envOf [0]) sc) fun _ _ h => h.1
  · refine agree_mono (C98_repulsion_partial hU (by rw [hk, hm]) (E := envOf [0]) sc.obstacles sc.agent true 1 2) fun _ _ h => ?_
    have := h.1
    rw [hk] at this ⊢
    norm_num at this ⊢
    exact this

end DOA.Props
