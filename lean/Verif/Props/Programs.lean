import Verif.Model.Programs
import Verif.Props.Configuration

/-!
# C70: the programs testWall.cpp, testSingleConfiguration.cpp and test3D.cpp
-/

set_option linter.unusedSectionVars false
set_option linter.unusedSimpArgs false

namespace DOA.Props
open DOA DOA.Spec DOA.Modulation DOA.Ellipsoid

/-! ## testWall.cpp -/

/-- C70: the loop of testWall.cpp with an empty list and a limit of the speed that is never reached: the agent goes
straight to the target. -/
theorem C70_wall_straight (c : Loop ℝ) (E : Env) (hE : E.list = []) (n : ℕ) :
    ∀ (s : Heap ℝ × Agent ℝ), HasEnvelope s.1 s.2 →
    (∀ k < n, c.limit (c.desired (c.target + V3.smul ((1 - c.dt * c.gain) ^ k) (s.2.state.position - c.target))) =
      c.desired (c.target + V3.smul ((1 - c.dt * c.gain) ^ k) (s.2.state.position - c.target))) →
    ∃ s', c.runWall E n s = .ok s' ∧ s'.2.margin = s.2.margin ∧
      s'.2.state.position = c.target + V3.smul ((1 - c.dt * c.gain) ^ n) (s.2.state.position - c.target) := by
  induction n with
  | zero =>
    intro s _ _
    refine ⟨s, rfl, rfl, ?_⟩
    ext <;> simp only [V3.smul, V3.add_x, V3.add_y, V3.add_z, V3.sub_x, V3.sub_y, V3.sub_z] <;> ring
  | succ n ih =>
    intro s hs hlim
    obtain ⟨-, s1, h2, h3, h4, h1⟩ := C70_wall c E hE n s hs
    have e0 : c.target + V3.smul ((1 - c.dt * c.gain) ^ 0) (s.2.state.position - c.target) = s.2.state.position := by
      ext <;> simp only [V3.smul, V3.add_x, V3.add_y, V3.add_z, V3.sub_x, V3.sub_y, V3.sub_z] <;> ring
    have h5 : s1.2.state.position - c.target = V3.smul (1 - c.dt * c.gain) (s.2.state.position - c.target) := by
      have := hlim 0 (Nat.succ_pos n)
      rw [e0] at this
      rw [h4, this]
      simp only [Loop.desired]
      ext <;> simp only [V3.smul, V3.add_x, V3.add_y, V3.add_z, V3.sub_x, V3.sub_y, V3.sub_z] <;> ring
    have e1 : ∀ k : ℕ, V3.smul ((1 - c.dt * c.gain) ^ k) (s1.2.state.position - c.target) =
        V3.smul ((1 - c.dt * c.gain) ^ (k + 1)) (s.2.state.position - c.target) := by
      intro k
      rw [h5]
      ext <;> simp only [V3.smul] <;> ring
    obtain ⟨s', h6, h7, h8⟩ := ih s1 h2 (by
      intro k hk
      rw [e1]
      exact hlim (k + 1) (Nat.succ_lt_succ hk))
    exact ⟨s', by rw [h1]; exact h6, by rw [h7, h3], by rw [h8, e1]⟩

theorem wall_env : ∃ E, Wall.env (Wall.heap (α := ℝ)) = .ok E ∧ E.list = [] := by
  have h : ∃ E, Wall.env (Wall.heap (α := ℝ)) = .ok E := ⟨_, rfl⟩
  obtain ⟨E, hE⟩ := h
  exact ⟨E, hE, C70_list_empty _ _ _ _ hE⟩

/-- C70: what testWall.cpp does: the agent goes straight from (-5,-5) to the target (5,8), wherever the walls are. -/
theorem C70_wall_program (n : ℕ) : ∃ s, Wall.program (α := ℝ) n = .ok s ∧ s.2.margin = 1 / 10 ∧
    s.2.state.position = ⟨5 - 10 * (99 / 100) ^ n, 8 - 13 * (99 / 100) ^ n, 0⟩ := by
  obtain ⟨E, hE, hl⟩ := wall_env
  obtain ⟨s, h1, h2, h3⟩ := C70_wall_straight (Wall.loop (α := ℝ)) E hl n Wall.start
    ⟨_, _, rfl, by simp [Wall.start, Agent.mk2, Agent.newEnvelope]; rfl⟩ (by
      intro k _
      have hq : (99 / 100 : ℝ) ^ k ≤ 1 := pow_le_one₀ (by norm_num) (by norm_num)
      have hq0 : (0 : ℝ) ≤ (99 / 100 : ℝ) ^ k := by positivity
      have e1 : (Wall.loop (α := ℝ)).desired ((Wall.loop (α := ℝ)).target +
          V3.smul ((1 - (Wall.loop (α := ℝ)).dt * (Wall.loop (α := ℝ)).gain) ^ k)
            ((Wall.start (α := ℝ)).2.state.position - (Wall.loop (α := ℝ)).target)) =
          ⟨10 * (99 / 100) ^ k, 13 * (99 / 100) ^ k, 0⟩ := by
        have : (1 - (Wall.loop (α := ℝ)).dt * (Wall.loop (α := ℝ)).gain) = 99 / 100 := by norm_num [Wall.loop]
        rw [this]
        ext <;> simp [Loop.desired, Wall.loop, Wall.start, Agent.mk2, State.ofPosition, State.position, Pose.ofPosition,
          V3.smul] <;> ring
      rw [e1]
      have e2 : (Wall.loop (α := ℝ)).maxVel = some 100 := by norm_num [Wall.loop]
      unfold Loop.limit
      rw [e2]
      refine if_neg (not_lt.mpr ?_)
      rw [V3.norm, sqrt_real, Real.sqrt_le_left (by norm_num)]
      simp only [V3.sqNorm, V3.dot]
      nlinarith)
  refine ⟨s, ?_, ?_, ?_⟩
  · unfold Wall.program
    rw [hE]
    exact h1
  · rw [h2]; norm_num [Wall.start, Agent.mk2]
  · rw [h3]
    have : (1 - (Wall.loop (α := ℝ)).dt * (Wall.loop (α := ℝ)).gain) = 99 / 100 := by norm_num [Wall.loop]
    rw [this]
    ext <;> simp [Wall.loop, Wall.start, Agent.mk2, State.ofPosition, State.position, Pose.ofPosition, V3.smul] <;> ring

/-- An obstacle of testWall.cpp in its own frame. -/
theorem wall_level (name : String) (p : V3 ℝ) (q : Quat ℝ) (ax : V3 ℝ) (st : State ℝ)
    (hst : st.pose.position = p) (hq : st.pose.orientation = q) (hu : q.IsUnit) (h1 : 0 ≤ ax.x) (h2 : 0 ≤ ax.y)
    (h3 : 0 ≤ ax.z) (x : V3 ℝ) :
    gdist (Wall.obstacle name st ax) (1 / 10) x = level ⟨ax.x + 1 / 5, ax.y + 1 / 5, ax.z + 1 / 5⟩ 1 1 1
      (q.conjugate.rotate (x - p)) ∧
      V3.sqNorm (q.conjugate.rotate (x - p)) = V3.sqNorm (x - p) := by
  have hc : HasCurv (Wall.obstacle name st ax) 1 1 1 := by simp [HasCurv, Wall.obstacle, Ellipsoid.ofBase, V3.const]
  have hL : halfLengths (Wall.obstacle name st ax) (V3.const (1 / 10)) = ⟨ax.x + 1 / 5, ax.y + 1 / 5, ax.z + 1 / 5⟩ := by
    ext <;> norm_num [halfLengths, Wall.obstacle, Ellipsoid.ofBase, Base.mkState, V3.const] <;> ring
  refine ⟨?_, by rw [← V3.norm_sq, ← V3.norm_sq, Quat.norm_rotate hu.conjugate]⟩
  rw [gdist, distance_frame _ _ _ 1 1 1 hc (by rw [hL]; exact ⟨by simp only []; linarith, by simp only []; linarith, by simp only []; linarith⟩), hL]
  congr 1
  have hp : (Wall.obstacle name st ax).base.pose = st.pose := rfl
  rw [hp]
  simp only [Pose.apply, Pose.inverse]
  rw [← Quat.rotate_add, hq, hst]
  rfl

theorem wall_desk_unit : (Pose.fixOrientation (Quat.ofAngleZ (-lit 6 10)) : Quat ℝ).IsUnit := by
  have h1 := ofAngleZ_unit (-lit 6 10)
  apply Pose.fixOrientation_unit
  · intro h0
    rw [h0] at h1
    simp [Quat.IsUnit, Quat.sqNorm] at h1
  · unfold Quat.IsUnit at h1
    rw [Quat.norm, h1]
    norm_num [CMath.sqrt]

/-- The wall in whose middle the target of testWall.cpp is. -/
noncomputable def wallW1 : Ellipsoid ℝ := Wall.obstacle "w1" (State.ofPosition ⟨0, lit 8 1, 0⟩) ⟨lit 9 1, 1, 0⟩

theorem one_unit : (Quat.one : Quat ℝ).IsUnit := by simp [Quat.IsUnit, Quat.sqNorm, Quat.one]

theorem one_rotate (v : V3 ℝ) : (Quat.one : Quat ℝ).conjugate.rotate v = v := by
  ext <;> simp [Quat.one, Quat.conjugate, Quat.rotate, Quat.vec, V3.cross, V3.smul]

theorem wall_plain (name : String) (p ax : V3 ℝ) (h1 : 0 ≤ ax.x) (h2 : 0 ≤ ax.y) (h3 : 0 ≤ ax.z) (x : V3 ℝ) :
    gdist (Wall.obstacle name (State.ofPosition p) ax) (1 / 10) x =
      level ⟨ax.x + 1 / 5, ax.y + 1 / 5, ax.z + 1 / 5⟩ 1 1 1 (x - p) := by
  rw [(wall_level name p Quat.one ax (State.ofPosition p) rfl rfl one_unit h1 h2 h3 x).1, one_rotate]

/-- C70: testWall.cpp. The agent starts outside of the safety regions of all eight obstacles; its target is inside of the
wall w1, `exist_path` never objects, and from iteration 265 on (the program makes 400) the agent is inside of the wall. -/
theorem C70_negation_wall : wallW1 ∈ Wall.obstacles (α := ℝ) ∧
    (∀ e ∈ Wall.obstacles (α := ℝ), 1 < gdist e (1 / 10) (Wall.start (α := ℝ)).2.state.position) ∧
    gdist wallW1 (1 / 10) (Wall.loop (α := ℝ)).target < 1 ∧
    ∀ n ≥ 265, ∃ s, Wall.program (α := ℝ) n = .ok s ∧ s.2.margin = 1 / 10 ∧
      gdist wallW1 (1 / 10) s.2.state.position < 1 := by
  have hw := wall_plain "w1" ⟨0, lit 8 1, 0⟩ ⟨lit 9 1, 1, 0⟩ (by norm_num) (by norm_num) (by norm_num)
  have hs : (Wall.start (α := ℝ)).2.state.position = ⟨-5, -5, 0⟩ := by
    norm_num [Wall.start, Agent.mk2, State.ofPosition, State.position, Pose.ofPosition]
  refine ⟨by simp [Wall.obstacles, wallW1], ?_, ?_, ?_⟩
  · intro e he
    rw [hs]
    simp only [Wall.obstacles, List.mem_cons, List.not_mem_nil, or_false] at he
    rcases he with rfl | rfl | rfl | rfl | rfl | rfl | rfl | rfl
    all_goals first
      | (rw [wall_plain _ _ _ (by norm_num) (by norm_num) (by norm_num)]
         norm_num [level])
      | (rw [(wall_level _ _ _ _ _ rfl rfl wall_desk_unit (by norm_num) (by norm_num) (by norm_num) _).1]
         refine lt_of_lt_of_le ?_ (le_level (l := 32 / 10) (by norm_num [AllGt]) (by norm_num) (by norm_num) (by norm_num))
         rw [(wall_level "" _ _ ⟨0, 0, 0⟩ (State.mk2 ⟨-lit 35 10, lit 25 10, 0⟩ (Quat.ofAngleZ (-lit 6 10))) rfl rfl wall_desk_unit le_rfl le_rfl le_rfl _).2]
         norm_num [State.mk2, Pose.mk2, V3.sqNorm, V3.dot])
  · unfold wallW1
    rw [hw]
    norm_num [level, Wall.loop]
  · intro n hn
    obtain ⟨s, h1, h2, h3⟩ := C70_wall_program n
    refine ⟨s, h1, h2, ?_⟩
    have hq : (99 / 100 : ℝ) ^ n ≤ 7 / 100 :=
      (pow_le_pow_of_le_one (by norm_num) (by norm_num) hn).trans (by
        rw [show 265 = 53 * 5 from rfl, pow_mul]; norm_num)
    have hq0 : (0 : ℝ) ≤ (99 / 100 : ℝ) ^ n := by positivity
    unfold wallW1
    rw [hw, h3]
    generalize (99 / 100 : ℝ) ^ n = q at *
    have e1 : level ⟨lit 9 1 + 1 / 5, 1 + 1 / 5, 0 + 1 / 5⟩ 1 1 1
        ((⟨5 - 10 * q, 8 - 13 * q, 0⟩ : V3 ℝ) - ⟨0, lit 8 1, 0⟩) = (5 - 10 * q) ^ 2 * (25 / 2116) + q ^ 2 * (4225 / 36) := by
      norm_num [level]
      ring
    rw [e1]
    nlinarith

/-! ## testSingleConfiguration.cpp and test3D.cpp -/

/-- The distance to the target, as a fraction of the first one, in the loop that mixes in the previous velocity
(`previous_vel` taken as 0 at first). -/
noncomputable def mixedFraction : ℕ → ℝ
  | 0 => 1
  | 1 => 124 / 125
  | n + 2 => mixedFraction (n + 1) - 1 / 100 * (4 / 5 * mixedFraction (n + 1) + 1 / 5 * mixedFraction n)

/-- One step of the sequence. -/
theorem mixed_step (c : Loop ℝ) (hm : c.maxVel = none) (hg : c.gain = 1) (hd : c.dt = 1 / 100) (E : Env)
    (hE : E.list = []) (w : V3 ℝ) (n : ℕ) : ∀ (k : ℕ) (s : Heap ℝ × Agent ℝ), HasEnvelope s.1 s.2 →
    s.2.state.position = c.target + V3.smul (mixedFraction (k + 1)) w →
    ∃ s', c.runMixed E n (some (V3.smul (-mixedFraction k) w)) s = .ok s' ∧ s'.2.margin = s.2.margin ∧
      s'.2.state.position = c.target + V3.smul (mixedFraction (n + k + 1)) w := by
  induction n with
  | zero =>
    intro k s _ hx
    exact ⟨s, rfl, rfl, by rw [hx, Nat.zero_add]⟩
  | succ n ih =>
    intro k s hs hx
    obtain ⟨s1, h2, h3, h4, h1⟩ := C70_mixed c E hE n (V3.smul (-mixedFraction k) w) s hs
    have hdes : c.desired s.2.state.position = V3.smul (-mixedFraction (k + 1)) w := by
      rw [hx]
      simp only [Loop.desired, hg]
      ext <;> simp only [V3.smul, V3.add_x, V3.add_y, V3.add_z, V3.sub_x, V3.sub_y, V3.sub_z] <;> ring
    obtain ⟨s', h5, h6, h7⟩ := ih (k + 1) s1 h2 (by
      rw [h4, hdes, hx, hd]
      simp only [Loop.limit, hm]
      rw [mixedFraction]
      ext <;> simp [V3.smul] <;> ring)
    refine ⟨s', by rw [h1, hdes]; exact h5, by rw [h6, h3], ?_⟩
    rw [h7, show n + 1 + k + 1 = n + (k + 1) + 1 by omega]

/-- C70: the loop of testSingleConfiguration.cpp and test3D.cpp, had `previous_vel` been 0 at first: with an empty list
the agent goes straight to the target. -/
theorem C70_mixed_straight (c : Loop ℝ) (hm : c.maxVel = none) (hg : c.gain = 1) (hd : c.dt = 1 / 100) (E : Env)
    (hE : E.list = []) (n : ℕ) (s : Heap ℝ × Agent ℝ) (hs : HasEnvelope s.1 s.2) :
    ∃ s', c.runMixed E n (some V3.zero) s = .ok s' ∧ s'.2.margin = s.2.margin ∧
      s'.2.state.position = c.target + V3.smul (mixedFraction n) (s.2.state.position - c.target) := by
  cases n with
  | zero =>
    refine ⟨s, rfl, rfl, ?_⟩
    ext <;> simp [V3.smul, mixedFraction]
  | succ n =>
    obtain ⟨s1, h2, h3, h4, h1⟩ := C70_mixed c E hE n V3.zero s hs
    have hdes : c.desired s.2.state.position = V3.smul (-mixedFraction 0) (s.2.state.position - c.target) := by
      simp only [Loop.desired, hg, mixedFraction]
    obtain ⟨s', h5, h6, h7⟩ := mixed_step c hm hg hd E hE (s.2.state.position - c.target) n 0 s1 h2 (by
      rw [h4, hdes, hd]
      simp only [Loop.limit, hm, mixedFraction]
      ext <;> simp [V3.smul, V3.zero] <;> ring)
    exact ⟨s', by rw [h1, hdes]; exact h5, by rw [h6, h3], h7⟩

/-- C70: the agent does reach the target in the end: the fraction tends to 0. -/
theorem C70_mixed_fraction (n : ℕ) : |mixedFraction n| ≤ (199 / 200) ^ n * (201 / 200) := by
  have key : ∀ n, |mixedFraction (n + 1)| + 3 / 1000 * |mixedFraction n| ≤ (199 / 200) ^ (n + 1) := by
    intro n
    induction n with
    | zero =>
      norm_num [mixedFraction]
    | succ n ih =>
      have e1 : mixedFraction (n + 2) = 124 / 125 * mixedFraction (n + 1) + (-1 / 500) * mixedFraction n := by
        rw [mixedFraction]; ring
      have h1 : |mixedFraction (n + 2)| ≤ 124 / 125 * |mixedFraction (n + 1)| + 1 / 500 * |mixedFraction n| := by
        rw [e1]
        refine (abs_add_le _ _).trans ?_
        rw [abs_mul, abs_mul]
        norm_num
      have h2 : (199 / 200 : ℝ) ^ (n + 1 + 1) = 199 / 200 * (199 / 200) ^ (n + 1) := by ring
      rw [h2]
      have := abs_nonneg (mixedFraction n)
      have := abs_nonneg (mixedFraction (n + 1))
      nlinarith
  cases n with
  | zero => norm_num [mixedFraction]
  | succ n =>
    have h1 := key n
    have h2 := abs_nonneg (mixedFraction n)
    have h3 : (0 : ℝ) ≤ (199 / 200) ^ (n + 1) := by positivity
    linarith

theorem single_env (m : ℕ) (d : Configuration.Draws) :
    ∃ E, Single.env (Configuration.heap (α := ℝ) m d) = .ok E ∧ E.list = [] := by
  have h : ∃ E, Single.env (Configuration.heap (α := ℝ) m d) = .ok E := by
    simp [Single.env, Configuration.heap, Configuration.obstacles, Env.addObstacle, Heap.deref, Env.mk', Env.find,
      Obj.name, Obj.base, Configuration.obstacle, Ellipsoid.ofBase, Base.mkState, Env.insert]
  obtain ⟨E, hE⟩ := h
  exact ⟨E, hE, C70_list_empty _ _ _ _ hE⟩

theorem threeD_env (m : ℕ) (d : ThreeD.Draws) :
    ∃ E, ThreeD.env (ThreeD.heap (α := ℝ) m d) = .ok E ∧ E.list = [] := by
  have h : ∃ E, ThreeD.env (ThreeD.heap (α := ℝ) m d) = .ok E := by
    simp [ThreeD.env, ThreeD.heap, ThreeD.obstacles, Env.addObstacle, Heap.deref, Env.mk', Env.find,
      Obj.name, Obj.base, ThreeD.obstacle, Ellipsoid.ofBase, Base.mkState, Env.insert]
  obtain ⟨E, hE⟩ := h
  exact ⟨E, hE, C70_list_empty _ _ _ _ hE⟩

/-- C70: testSingleConfiguration.cpp for all random numbers: the first iteration reads a variable that has no value. If it
had been 0, the agent would go straight to the target, wherever the obstacles are. -/
theorem C70_single (m : ℕ) (d : Configuration.Draws) (n : ℕ) :
    Single.program (α := ℝ) m d none (n + 1) = .ub .uninitialised ∧
    ∃ s, Single.program (α := ℝ) m d (some V3.zero) n = .ok s ∧ s.2.margin = 1 / 10 ∧
      s.2.state.position = (Configuration.loop (α := ℝ) m d).target + V3.smul (mixedFraction n)
        ((Configuration.start (α := ℝ) m d).2.state.position - (Configuration.loop (α := ℝ) m d).target) := by
  obtain ⟨E, hE, hl⟩ := single_env m d
  obtain ⟨s, h1, h2, h3⟩ := C70_mixed_straight (Configuration.loop (α := ℝ) m d) rfl rfl (by norm_num [Configuration.loop])
    E hl n (Configuration.start m d) ⟨_, _, rfl, by simp [Configuration.start, Agent.mk2, Agent.newEnvelope]; rfl⟩
  refine ⟨?_, s, ?_, ?_, h3⟩
  · unfold Single.program; rw [hE]; rfl
  · unfold Single.program; rw [hE]; exact h1
  · rw [h2]; norm_num [Configuration.start, Agent.mk2]

/-- C70: the same for test3D.cpp. -/
theorem C70_three_d (m : ℕ) (d : ThreeD.Draws) (n : ℕ) :
    ThreeD.program (α := ℝ) m d none (n + 1) = .ub .uninitialised ∧
    ∃ s, ThreeD.program (α := ℝ) m d (some V3.zero) n = .ok s ∧ s.2.margin = 1 / 10 ∧
      s.2.state.position = (ThreeD.loop (α := ℝ) m d).target + V3.smul (mixedFraction n)
        ((ThreeD.start (α := ℝ) m d).2.state.position - (ThreeD.loop (α := ℝ) m d).target) := by
  obtain ⟨E, hE, hl⟩ := threeD_env m d
  obtain ⟨s, h1, h2, h3⟩ := C70_mixed_straight (ThreeD.loop (α := ℝ) m d) rfl rfl (by norm_num [ThreeD.loop])
    E hl n (ThreeD.start m d) ⟨_, _, rfl, by simp [ThreeD.start, Agent.mk2, Agent.newEnvelope]; rfl⟩
  refine ⟨?_, s, ?_, ?_, h3⟩
  · unfold ThreeD.program; rw [hE]; rfl
  · unfold ThreeD.program; rw [hE]; exact h1
  · rw [h2]; norm_num [ThreeD.start, Agent.mk2]

/-- Random numbers for test3D.cpp with `RAND_MAX` = 2 (everything in the middle). -/
def middle3 : ThreeD.Draws := ⟨fun _ => ⟨1, 1, 1, 0, 1, 1, 1⟩, 1, 1⟩

/-- The fraction after 69 iterations. -/
theorem mixedFraction_near : 49 / 100 ≤ mixedFraction 69 ∧ mixedFraction 69 ≤ 51 / 100 := by
  norm_num [mixedFraction]

/-- C70: even with `previous_vel` initialised, the agent of testSingleConfiguration.cpp walks into an obstacle: whatever
`RAND_MAX` is, there are random numbers with which this happens. -/
theorem C70_negation_single (m : ℕ) (hm : 0 < m) : InRange m (maximal m) ∧
    ∃ e ∈ Configuration.obstacles m (maximal m), ∃ s,
      Single.program (α := ℝ) m (maximal m) (some V3.zero) 35 = .ok s ∧ gdist e (1 / 10) s.2.state.position < 1 := by
  have hd : InRange m (maximal m) := ⟨fun _ => ⟨le_rfl, le_rfl, Nat.zero_le _, le_rfl, le_rfl⟩, le_rfl, Nat.zero_le _⟩
  refine ⟨hd, Configuration.obstacle m "e0" ⟨m, m, 0, m, m⟩, by simp [Configuration.obstacles, maximal], ?_⟩
  obtain ⟨-, s, h1, -, h3⟩ := C70_single m (maximal m) 35
  refine ⟨s, h1, ?_⟩
  obtain ⟨hl, -, -, -, -, l5, -, -⟩ := configuration_level m hm (maximal m) hd "e0" 0
  obtain ⟨h4, h5, h6⟩ := hl s.2.state.position
  have hz := h6 (by
    rw [h3]
    norm_num [Configuration.start, Configuration.loop, Agent.mk2, State.ofPosition, State.position, Pose.ofPosition, V3.smul])
  have r1 := fun a b => (C18_rand_float_ends m hm a b).1
  have r2 := fun a b => (C18_rand_float_ends m hm a b).2
  change gdist (Configuration.obstacle m "e0" ((maximal m).obstacle 0)) (1 / 10) s.2.state.position < 1
  rw [h4]
  have hL : halfLengths (Configuration.obstacle m "e0" ((maximal m).obstacle 0)) (V3.const (1 / 10)) =
      ⟨31 / 10, 31 / 10, 1 / 10⟩ := by
    ext <;> norm_num [halfLengths, Configuration.obstacle, Ellipsoid.ofBase, Base.mkState, V3.const, maximal, r2]
  have hp : (Configuration.obstacle (α := ℝ) m "e0" ((maximal m).obstacle 0)).base.position = ⟨3, 3, 0⟩ := by
    ext <;> norm_num [Configuration.obstacle, Ellipsoid.ofBase, Base.mkState, Base.position, State.position, State.mk2,
      Pose.mk2, maximal, r2]
  rw [hL]
  rw [hp] at h5
  generalize (Configuration.obstacle (α := ℝ) m "e0" ((maximal m).obstacle 0)).base.pose.inverse.apply s.2.state.position = y at *
  have e1 : level ⟨31 / 10, 31 / 10, 1 / 10⟩ 1 1 1 y = level ⟨31 / 10, 31 / 10, 31 / 10⟩ 1 1 1 y := by
    simp [level, hz]
  rw [e1]
  refine lt_of_le_of_lt (level_le (l := 31 / 10) (by norm_num) le_rfl le_rfl le_rfl) ?_
  rw [h5, h3, div_lt_one (by norm_num)]
  norm_num [Configuration.start, Configuration.loop, Agent.mk2, State.ofPosition, State.position, Pose.ofPosition,
    V3.smul, V3.sqNorm, V3.dot, maximal, r1, r2, mixedFraction]

/-- C70: the same for test3D.cpp, with `RAND_MAX` = 2. -/
theorem C70_negation_three_d : ∃ e ∈ ThreeD.obstacles 2 middle3,
    1 < gdist e (1 / 10) (ThreeD.start (α := ℝ) 2 middle3).2.state.position ∧ ∃ s,
      ThreeD.program (α := ℝ) 2 middle3 (some V3.zero) 69 = .ok s ∧ gdist e (1 / 10) s.2.state.position < 1 := by
  refine ⟨ThreeD.obstacle 2 "e0" ⟨1, 1, 1, 0, 1, 1, 1⟩, by simp [ThreeD.obstacles, middle3], ?_⟩
  have hunit : (Quat.ofAngleZ (MathTools.randFloat 0 2 (lit 2 1) 0 * CMath.pi) : Quat ℝ).IsUnit := ofAngleZ_unit _
  have hpos : (ThreeD.obstacle (α := ℝ) 2 "e0" ⟨1, 1, 1, 0, 1, 1, 1⟩).base.position = V3.zero := by
    ext <;> norm_num [ThreeD.obstacle, Ellipsoid.ofBase, Base.mkState, Base.position, State.position, State.mk2, Pose.mk2,
      MathTools.randFloat, MathTools.ofInt, V3.zero]
  have hL : halfLengths (ThreeD.obstacle (α := ℝ) 2 "e0" ⟨1, 1, 1, 0, 1, 1, 1⟩) (V3.const (1 / 10)) =
      ⟨17 / 10, 17 / 10, 17 / 10⟩ := by
    ext <;> norm_num [halfLengths, ThreeD.obstacle, Ellipsoid.ofBase, Base.mkState, V3.const, MathTools.randFloat,
      MathTools.ofInt]
  have hc : HasCurv (ThreeD.obstacle (α := ℝ) 2 "e0" ⟨1, 1, 1, 0, 1, 1, 1⟩) 1 1 1 := by
    simp [HasCurv, ThreeD.obstacle, Ellipsoid.ofBase, V3.const]
  have hu : (ThreeD.obstacle (α := ℝ) 2 "e0" ⟨1, 1, 1, 0, 1, 1, 1⟩).base.pose.orientation.IsUnit := by
    apply Pose.fixOrientation_unit
    · intro h0
      rw [h0] at hunit
      simp [Quat.IsUnit, Quat.sqNorm] at hunit
    · unfold Quat.IsUnit at hunit
      rw [Quat.norm, hunit]
      norm_num [CMath.sqrt]
  generalize ThreeD.obstacle (α := ℝ) 2 "e0" ⟨1, 1, 1, 0, 1, 1, 1⟩ = e at *
  have key : ∀ x : V3 ℝ, gdist e (1 / 10) x = V3.sqNorm x / (17 / 10) ^ 2 := by
    intro x
    have e1 : e.base.pose.inverse.apply x = e.base.pose.orientation.conjugate.rotate (x - e.base.position) := by
      simp only [Pose.apply, Pose.inverse]
      rw [← Quat.rotate_add]
      rfl
    have e2 : V3.sqNorm (e.base.pose.inverse.apply x) = V3.sqNorm x := by
      rw [e1, ← V3.norm_sq, ← V3.norm_sq, Quat.norm_rotate hu.conjugate, hpos, V3.sub_zero']
    rw [gdist, distance_frame e _ _ 1 1 1 hc (by rw [hL]; norm_num [AllGt]), hL, ← e2]
    generalize e.base.pose.inverse.apply x = y
    simp only [level, V3.sqNorm, V3.dot]
    ring
  refine ⟨?_, ?_⟩
  · rw [key]
    norm_num [ThreeD.start, Agent.mk2, State.ofPosition, State.position, Pose.ofPosition, V3.sqNorm, V3.dot, middle3,
      MathTools.randFloat, MathTools.ofInt]
  · obtain ⟨-, s, h1, -, h3⟩ := C70_three_d 2 middle3 69
    refine ⟨s, h1, ?_⟩
    obtain ⟨f1, f2⟩ := mixedFraction_near
    rw [key, h3, div_lt_one (by norm_num)]
    norm_num [ThreeD.start, ThreeD.loop, Agent.mk2, State.ofPosition, State.position, Pose.ofPosition, V3.sqNorm, V3.dot,
      middle3, MathTools.randFloat, MathTools.ofInt, V3.smul]
    nlinarith

end DOA.Props
