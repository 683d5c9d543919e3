import Verif.Props.MovingLoop

/-!
# C76: testMovingObstacle.cpp with the missing call of `env.update()`, and with a lower limit of the speed
-/

set_option linter.unusedSectionVars false
set_option linter.unusedSimpArgs false

namespace DOA.Props
open DOA DOA.Spec DOA.Modulation DOA.Ellipsoid

/-- testMovingObstacle.cpp with `env.update()` after line 40. -/
noncomputable def repaired (c : Loop ℝ) (n : ℕ) : Res (Heap ℝ × Agent ℝ) := do
  let e ← Moving.env [.ellipsoid (Moving.obstacle : Ellipsoid ℝ)]
  let r ← e.update [.ellipsoid (Moving.obstacle : Ellipsoid ℝ)]
  c.runMoving r.2 "w1" ⟨-lit 5 1, 0, 0⟩ n (Agent.mk2 r.1 (State.ofPosition ⟨0, 0, 0⟩) (lit 1 10))

theorem repaired_env : ∃ E, E.list = [0] ∧ Env.find E.map "w1" = some 0 ∧ ∀ (c : Loop ℝ) n, repaired c n =
    c.runMoving E "w1" ⟨-lit 5 1, 0, 0⟩ n (Moving.start (α := ℝ)) :=
  ⟨⟨[("w1", 0)], true, [0]⟩, rfl, rfl, fun _ _ => rfl⟩

theorem repaired_half : halfLengths (Moving.obstacle : Ellipsoid ℝ) (V3.const (1 / 10)) = ⟨12 / 10, 16 / 10, 1 / 10⟩ := by
  ext <;> norm_num [halfLengths, Moving.obstacle, Ellipsoid.ofBase, Base.mkState, V3.const]

theorem repaired_smooth : Smooth (Moving.obstacle : Ellipsoid ℝ) (1 / 10) 1 := by
  refine ⟨by simp [HasCurv, Moving.obstacle, Ellipsoid.ofBase, V3.const], ?_, ?_, Or.inl rfl⟩
  · simp [Moving.obstacle, Ellipsoid.ofBase, Base.orientation, State.orientation, Base.mkState, State.ofPosition,
      Pose.ofPosition, Quat.norm, Quat.sqNorm, Quat.one]
  · rw [repaired_half]; norm_num [AllGt]

theorem repaired_between : Between (Moving.obstacle : Ellipsoid ℝ) (1 / 10) (12 / 10) (16 / 10) := by
  refine ⟨by norm_num, ?_, ?_, ?_, ?_⟩ <;> rw [repaired_half] <;> norm_num

theorem repaired_aspect : Aspect (12 / 10) (16 / 10) (25 / 24) 1 := ⟨by norm_num, Or.inl ⟨rfl, by norm_num⟩⟩

theorem repaired_setup {E : Env} (hl : E.list = [0]) (hf : Env.find E.map "w1" = some 0) (c : Loop ℝ)
    (h1 : c.isLocal = false) (h2 : c.planar = false) (h3 : c.addRepulsion = true) (h4 : c.target.z = 0) (h5 : 0 ≤ c.dt) :
    MovingSetup c E "w1" ⟨-lit 5 1, 0, 0⟩ (Moving.obstacle : Ellipsoid ℝ) 0 (1 / 10) (12 / 10) (16 / 10) (25 / 24) 1 :=
  ⟨hl, hf, rfl, rfl, rfl, repaired_smooth, repaired_between, repaired_aspect, rfl, h4, h1, h2, h3, h5⟩

theorem repaired_start : OnMove (Moving.obstacle : Ellipsoid ℝ) 0 (1 / 10) ⟨5, 0, 0⟩ (Moving.start (α := ℝ)) := by
  refine ⟨rfl, V3.zero, rfl, ⟨?_, ⟨1, _, by decide, rfl, rfl⟩, ?_, rfl⟩⟩
  · show some (Obj.ellipsoid (Moving.obstacle : Ellipsoid ℝ)) = _
    have e1 : (⟨5, 0, 0⟩ : V3 ℝ) = ⟨lit 5 1, 0, 0⟩ := by ext <;> simp
    rw [e1]; rfl
  · norm_num [Moving.start, Agent.mk2]

theorem repaired_apart (y x : V3 ℝ) : apart (Moving.obstacle : Ellipsoid ℝ) (1 / 10) y x =
    ((x.x - y.x) / (12 / 10)) ^ 2 + ((x.y - y.y) / (16 / 10)) ^ 2 + ((x.z - y.z) / (1 / 10)) ^ 2 := by
  have sm := placed_smooth repaired_smooth y V3.zero
  have hL : halfLengths (placed (Moving.obstacle : Ellipsoid ℝ) y V3.zero) (V3.const (1 / 10)) = ⟨12 / 10, 16 / 10, 1 / 10⟩ :=
    repaired_half
  rw [apart, gdist, distance_frame _ _ _ 1 1 1 sm.curv sm.long, hL]
  have h1 : (placed (Moving.obstacle : Ellipsoid ℝ) y V3.zero).base.pose.inverse.apply x = x - y := by
    show (Quat.one : Quat ℝ).conjugate.rotate x + (Quat.one : Quat ℝ).conjugate.rotate (-y) = x - y
    ext <;> simp [Quat.one, Quat.conjugate, Quat.rotate, Quat.vec, V3.cross, V3.smul] <;> ring
  rw [h1]
  simp [level]

theorem norm_le_of {v : V3 ℝ} {r : ℝ} (hr : 0 ≤ r) (h : V3.sqNorm v ≤ r ^ 2) : V3.norm v ≤ r := by
  rw [V3.norm, CMath.sqrt]
  exact Real.sqrt_le_iff.mpr ⟨hr, h⟩

/-- C76: with `env.update()` the program does what it is meant to do: for every number of iterations it runs normally, the
obstacle passes through the origin on its way from (5,0,0) to (-5,0,0), and the agent is never inside. -/
theorem C76_repaired (n : ℕ) : ∃ st', repaired Moving.loop n = .ok st' ∧
    OnMove (Moving.obstacle : Ellipsoid ℝ) 0 (1 / 10) ⟨-5 + 10 * (99 / 100) ^ n, 0, 0⟩ st' ∧
    1 < apart (Moving.obstacle : Ellipsoid ℝ) (1 / 10) ⟨-5 + 10 * (99 / 100) ^ n, 0, 0⟩ st'.2.state.position := by
  obtain ⟨E, hl, hf, hrep⟩ := repaired_env
  have hdt : (Moving.loop : Loop ℝ).dt = 1 / 100 := by norm_num [Moving.loop]
  have hg : (Moving.loop : Loop ℝ).gain = 1 := rfl
  have hta : (Moving.loop : Loop ℝ).target = ⟨0, 1 / 10, 0⟩ := by ext <;> norm_num [Moving.loop]
  have hgo : (⟨-lit 5 1, 0, 0⟩ : V3 ℝ) = ⟨-5, 0, 0⟩ := by ext <;> simp
  have hx0 : (Moving.start (α := ℝ)).2.state.position = ⟨0, 0, 0⟩ := rfl
  obtain ⟨st', h1, h2, h3⟩ := C76_forever_partial Moving.loop E "w1" ⟨-lit 5 1, 0, 0⟩ Moving.obstacle 0 (1 / 10) (12 / 10)
    (16 / 10) (25 / 24) 1 (repaired_setup hl hf _ rfl rfl rfl rfl (by rw [hdt]; norm_num)) (by norm_num)
    Moving.start ⟨5, 0, 0⟩ repaired_start (by rw [repaired_apart, hx0]; norm_num) (11 / 10) (51 / 10) 42
    (by
      have hY : V3.norm ((⟨5, 0, 0⟩ : V3 ℝ) - ⟨-5, 0, 0⟩) ≤ 10 := norm_le_of (by norm_num) (by norm_num [V3.sqNorm, V3.dot])
      have hX : V3.norm ((Moving.start (α := ℝ)).2.state.position - (⟨0, 1 / 10, 0⟩ : V3 ℝ)) ≤ 1 / 10 := by
        rw [hx0]; exact norm_le_of (by norm_num) (by norm_num [V3.sqNorm, V3.dot])
      constructor
      · rw [hg]; norm_num
      · norm_num
      · norm_num
      · rw [hdt, hg]; norm_num
      · rw [hta]; exact norm_le_of (by norm_num) (by norm_num [V3.sqNorm, V3.dot])
      · rw [hta, hgo]; exact norm_le_of (by norm_num) (by norm_num [V3.sqNorm, V3.dot])
      · rw [hta, hgo]; linarith
      · rw [hdt, hg, hgo]; linarith
      · rw [hdt, hg]; norm_num
      · rw [hg]; norm_num
      · intro mv hmv
        have : (100 : ℝ) = mv := by
          have h1 : (Moving.loop : Loop ℝ).maxVel = some 100 := by norm_num [Moving.loop]
          rw [h1] at hmv
          exact Option.some.inj hmv
        rw [hg, ← this]; norm_num) n
  have e1 : (⟨-lit 5 1, 0, 0⟩ : V3 ℝ) + V3.smul ((1 - (Moving.loop : Loop ℝ).dt * (Moving.loop : Loop ℝ).gain) ^ n)
      (⟨5, 0, 0⟩ - ⟨-lit 5 1, 0, 0⟩) = ⟨-5 + 10 * (99 / 100) ^ n, 0, 0⟩ := by
    rw [hgo, hdt, hg]
    ext <;> norm_num [V3.smul]
    ring
  rw [e1] at h2 h3
  exact ⟨st', by rw [hrep]; exact h1, h2, h3⟩

/-! ### The limit of the speed -/

theorem limit_norm (c : Loop ℝ) {mv : ℝ} (h0 : 0 ≤ mv) (hm : c.maxVel = some mv) (v : V3 ℝ) : V3.norm (c.limit v) ≤ mv := by
  unfold Loop.limit
  rw [hm]
  simp only []
  split
  · rename_i hlt
    have hv : v ≠ V3.zero := by
      rintro rfl
      rw [V3.norm_eq_zero.mpr rfl] at hlt
      linarith
    have hp := V3.norm_pos hv
    rw [V3.normalized_of_ne hv, V3.norm_smul, V3.norm_smul, abs_of_nonneg h0, abs_of_pos (by positivity),
      one_div_mul_cancel hp.ne', mul_one]
  · rename_i hlt
    exact not_lt.mp hlt

/-- For an ellipsoid with a reference point `modulate_velocity` always returns normally. -/
theorem modulate_any (h : Heap ℝ) (a : Agent ℝ) (E : Env) (e : Ellipsoid ℝ) (p : Ptr) (rep : Bool) (critical power : ℝ)
    (ref : V3 ℝ) (hl : E.list = [p]) (hp : h[p]? = some (.ellipsoid e)) (href : e.base.refPos = some ref) :
    ∃ out, modulateVelocity h a E false rep false critical power = .ok (h, out) := by
  have hm := matrix_ellipsoid h a e href
  have hits := (mapM_ok (itemOf h a) E.list _).mpr (by rw [hl]; exact .cons (itemOf_ok hp hm) .nil)
  have hout := modulate_plain h a E false critical power _ (by rw [hl]; simp) (by intro h; cases h) hits
  cases rep with
  | false => exact ⟨_, hout⟩
  | true =>
    have hr : ∃ r, h.generateRepulsion (.ellipsoid e) a.state.position a.margin (11 / 10) = .ok r := by
      by_cases hnear : gdist e a.margin a.state.position < 11 / 10
      · exact ⟨_, C42_near h e ref a.state.position a.margin (11 / 10) href hnear⟩
      · exact ⟨_, C42_far h (.ellipsoid e) a.state.position a.margin (11 / 10) _ rfl hnear⟩
    obtain ⟨r, h3⟩ := hr
    exact ⟨_, C42_added h h a E false false critical power _ [r] (by rw [hl]; simp) (by intro h; cases h) hout
      (by rw [hl]; exact .cons ⟨_, hp, h3⟩ .nil)⟩

/-- With a limit of the speed the agent does not get far, wherever the obstacle is. -/
theorem slow_run {c : Loop ℝ} {E : Env} {name : String} {goal : V3 ℝ} {e : Ellipsoid ℝ} {p : Ptr} {m l L κ mv : ℝ}
    {k : ℕ} (hc : MovingSetup c E name goal e p m l L κ k) (h0 : 0 ≤ mv) (hm : c.maxVel = some mv) (n : ℕ) :
    ∀ (st : Heap ℝ × Agent ℝ) (y : V3 ℝ), OnMove e p m y st →
    ∃ st', c.runMoving E name goal n st = .ok st' ∧
      OnMove e p m (goal + V3.smul ((1 - c.dt * c.gain) ^ n) (y - goal)) st' ∧
      V3.norm (st'.2.state.position - st.2.state.position) ≤ n * (c.dt * mv) := by
  induction n with
  | zero =>
    intro st y hs
    have e1 : goal + V3.smul ((1 - c.dt * c.gain) ^ 0) (y - goal) = y := by
      ext <;> simp only [V3.smul, V3.add_x, V3.add_y, V3.add_z, V3.sub_x, V3.sub_y, V3.sub_z] <;> ring
    rw [e1]
    refine ⟨st, rfl, hs, ?_⟩
    have : st.2.state.position - st.2.state.position = V3.zero := by ext <;> simp [V3.zero]
    rw [this, V3.norm_eq_zero.mpr rfl]; simp
  | succ n ih =>
    intro st y hs
    obtain ⟨h2, a1, hobj, -, -, -, -, hmech⟩ := moving_mech hc hs rfl
    obtain ⟨out, hmod⟩ := modulate_any h2 a1 E _ p c.addRepulsion c.critical c.power y hc.list hobj rfl
    obtain ⟨st1, g1, g2, g3⟩ := hmech out hmod
    obtain ⟨st', f1, f2, f3⟩ := ih st1 _ g2
    set y1 := y + V3.smul c.dt (V3.smul (-c.gain) (y - goal)) with hy1
    have e2 : V3.smul ((1 - c.dt * c.gain) ^ n) (y1 - goal) = V3.smul ((1 - c.dt * c.gain) ^ (n + 1)) (y - goal) := by
      rw [hy1]
      ext <;> simp only [V3.smul, V3.add_x, V3.add_y, V3.add_z, V3.sub_x, V3.sub_y, V3.sub_z] <;> ring
    rw [e2] at f2
    refine ⟨st', by rw [Loop.runMoving, g1]; exact f1, f2, ?_⟩
    have e3 : st'.2.state.position - st.2.state.position =
        (st'.2.state.position - st1.2.state.position) + V3.smul c.dt (c.limit out) := by
      rw [g3]; v3_ring
    rw [e3]
    refine le_trans (norm_add_le' _ _) ?_
    rw [V3.norm_smul, abs_of_nonneg hc.dt]
    have := mul_le_mul_of_nonneg_left (limit_norm c h0 hm out) hc.dt
    push_cast
    linarith

/-- C76 is false when the limit of the speed is lower than the speed of the obstacle: with `max_vel = 1/100` instead of
100 the obstacle runs over the agent, although the obstacle is in the list and everything returns normally. -/
theorem C76_negation_limit : ∃ st', repaired { (Moving.loop : Loop ℝ) with maxVel := some (1 / 100) } 69 = .ok st' ∧
    1 < apart (Moving.obstacle : Ellipsoid ℝ) (1 / 10) ⟨5, 0, 0⟩ (Moving.start (α := ℝ)).2.state.position ∧
    OnMove (Moving.obstacle : Ellipsoid ℝ) 0 (1 / 10) ⟨-5 + 10 * (99 / 100) ^ 69, 0, 0⟩ st' ∧
    apart (Moving.obstacle : Ellipsoid ℝ) (1 / 10) ⟨-5 + 10 * (99 / 100) ^ 69, 0, 0⟩ st'.2.state.position < 1 / 100 := by
  obtain ⟨E, hl, hf, hrep⟩ := repaired_env
  have hdt : (Moving.loop : Loop ℝ).dt = 1 / 100 := by norm_num [Moving.loop]
  have hg : (Moving.loop : Loop ℝ).gain = 1 := rfl
  have hgo : (⟨-lit 5 1, 0, 0⟩ : V3 ℝ) = ⟨-5, 0, 0⟩ := by ext <;> simp
  have hx0 : (Moving.start (α := ℝ)).2.state.position = ⟨0, 0, 0⟩ := rfl
  obtain ⟨st', h1, h2, h3⟩ := slow_run (mv := 1 / 100)
    (repaired_setup hl hf { (Moving.loop : Loop ℝ) with maxVel := some (1 / 100) } rfl rfl rfl rfl
      (by show (0 : ℝ) ≤ (Moving.loop : Loop ℝ).dt; rw [hdt]; norm_num)) (by norm_num) rfl 69 Moving.start ⟨5, 0, 0⟩ repaired_start
  have e1 : (⟨-lit 5 1, 0, 0⟩ : V3 ℝ) + V3.smul ((1 - (Moving.loop : Loop ℝ).dt * (Moving.loop : Loop ℝ).gain) ^ 69)
      (⟨5, 0, 0⟩ - ⟨-lit 5 1, 0, 0⟩) = ⟨-5 + 10 * (99 / 100) ^ 69, 0, 0⟩ := by
    rw [hgo, hdt, hg]
    ext <;> norm_num [V3.smul]
  have h2' : OnMove (Moving.obstacle : Ellipsoid ℝ) 0 (1 / 10) ⟨-5 + 10 * (99 / 100) ^ 69, 0, 0⟩ st' := by
    rw [← e1]; exact h2
  refine ⟨st', by rw [hrep]; exact h1, by rw [repaired_apart, hx0]; norm_num, h2', ?_⟩
  have h4 : V3.norm (st'.2.state.position - ⟨0, 0, 0⟩) ≤ 69 / 10000 := by
    rw [← hx0]
    refine le_trans h3 (le_of_eq ?_)
    show ((69 : ℕ) : ℝ) * ((Moving.loop : Loop ℝ).dt * (1 / 100)) = _
    rw [hdt]; norm_num
  have hz : st'.2.state.position.z = 0 := by
    obtain ⟨-, w, -, hon⟩ := h2'
    exact hon.flat
  have h5 : V3.sqNorm (st'.2.state.position - ⟨0, 0, 0⟩) ≤ (69 / 10000) ^ 2 := by
    rw [← V3.norm_sq]
    nlinarith [V3.norm_nonneg (st'.2.state.position - ⟨0, 0, 0⟩)]
  simp only [V3.sqNorm, V3.dot, V3.sub_x, V3.sub_y, V3.sub_z, hz, sub_zero] at h5
  rw [repaired_apart, hz]
  simp only []
  generalize st'.2.state.position.x = X at *
  generalize st'.2.state.position.y = Y at *
  have hX : |X| ≤ 1 / 100 := abs_le_of_sq_le_sq (by nlinarith [sq_nonneg Y]) (by norm_num)
  have hY : |Y| ≤ 1 / 100 := abs_le_of_sq_le_sq (by nlinarith [sq_nonneg X]) (by norm_num)
  have hp : |(-5 + 10 * (99 / 100) ^ 69 : ℝ)| ≤ 1 / 100 := by rw [abs_le]; constructor <;> norm_num
  generalize (-5 + 10 * (99 / 100) ^ 69 : ℝ) = P at *
  rw [abs_le] at hX hY hp
  have k1 : ((X - P) / (12 / 10)) ^ 2 ≤ (2 / 100) ^ 2 := by
    apply sq_le_sq'
    · linarith
    · linarith
  have k2 : ((Y - 0) / (16 / 10)) ^ 2 ≤ (2 / 100) ^ 2 := by
    apply sq_le_sq'
    · linarith
    · linarith
  norm_num at k1 k2 ⊢
  linarith

end DOA.Props
