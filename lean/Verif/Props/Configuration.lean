import Verif.Model.Configuration
import Verif.Props.Math
import Verif.Props.Loop

/-!
# C70: the program testConfiguration.cpp
-/

set_option linter.unusedSectionVars false
set_option linter.unusedSimpArgs false

namespace DOA.Props
open DOA DOA.Spec DOA.Modulation DOA.Ellipsoid

/-- The values of `rand()` are at most `RAND_MAX`. -/
def InRange (m : ℕ) (d : Configuration.Draws) : Prop :=
  (∀ i, (d.obstacle i).x ≤ m ∧ (d.obstacle i).y ≤ m ∧ (d.obstacle i).angle ≤ m ∧ (d.obstacle i).a ≤ m ∧
    (d.obstacle i).b ≤ m) ∧ d.start ≤ m ∧ d.target ≤ m

theorem configuration_env {α : Type} [Add α] [Sub α] [Mul α] [Div α] [Neg α] [Zero α] [One α]
    [LE α] [LT α] [DecidableLE α] [DecidableLT α] [CMath α] (m : ℕ) (d : Configuration.Draws) :
    ∃ E, Configuration.env (Configuration.heap (α := α) m d) = .ok E ∧ E.list = [] := by
  have h : ∃ E, Configuration.env (Configuration.heap (α := α) m d) = .ok E := by
    simp [Configuration.env, Configuration.heap, Configuration.obstacles, Env.addObstacle, Heap.deref, Env.mk', Env.find,
      Obj.name, Obj.base, Configuration.obstacle, Ellipsoid.ofBase, Base.mkState, Env.insert]
  obtain ⟨E, hE⟩ := h
  exact ⟨E, hE, C70_list_empty _ _ _ _ hE⟩

/-- C70: what testConfiguration.cpp does, for all random numbers. The agent goes straight from its start to its target,
wherever the obstacles are, and the figure drawn at the end shows no obstacle. -/
theorem C70_configuration (m : ℕ) (d : Configuration.Draws) (file : String) (n : ℕ) :
    ∃ s, Configuration.program (α := ℝ) m d file n = .ok (s, [.figure, .xlim (-10) 10, .ylim (-10) 10] ++
        Plotting.finish file false) ∧ s.2.margin = 1 / 10 ∧
      s.2.state.position = (Configuration.loop (α := ℝ) m d).target + V3.smul ((99 / 100) ^ n)
        ((Configuration.start (α := ℝ) m d).2.state.position - (Configuration.loop (α := ℝ) m d).target) := by
  obtain ⟨E, hE, hl⟩ := configuration_env (α := ℝ) m d
  obtain ⟨s', h1, h2, h3⟩ := C70_straight (Configuration.loop (α := ℝ) m d) E hl rfl n (Configuration.start m d)
    ⟨_, _, rfl, by simp [Configuration.start, Agent.mk2, Agent.newEnvelope]; rfl⟩
  refine ⟨s', ?_, ?_, ?_⟩
  · unfold Configuration.program
    rw [hE, Res.ok_bind, h1, Res.ok_bind, hl]
    rfl
  · rw [h2]; norm_num [Configuration.start, Agent.mk2]
  · rw [h3]
    congr 3
    norm_num [Configuration.loop]

theorem configuration_level (m : ℕ) (hm : 0 < m) (d : Configuration.Draws) (hd : InRange m d) (name : String)
    (i : Fin 3) :
    let e := Configuration.obstacle (α := ℝ) m name (d.obstacle i)
    (∀ x : V3 ℝ, gdist e (1 / 10) x = level (halfLengths e (V3.const (1 / 10))) 1 1 1 (e.base.pose.inverse.apply x) ∧
      V3.sqNorm (e.base.pose.inverse.apply x) = V3.sqNorm (x - e.base.position) ∧
      (x.z = 0 → (e.base.pose.inverse.apply x).z = 0)) ∧
    3 / 10 ≤ (halfLengths e (V3.const (1 / 10))).x ∧ 3 / 10 ≤ (halfLengths e (V3.const (1 / 10))).y ∧
    (halfLengths e (V3.const (1 / 10))).x ≤ 31 / 10 ∧ (halfLengths e (V3.const (1 / 10))).y ≤ 31 / 10 ∧
    (halfLengths e (V3.const (1 / 10))).z = 1 / 10 ∧ e.base.position.y ≤ 3 ∧ e.base.position.z = 0 := by
  intro e
  obtain ⟨-, hy, -, ha, hb⟩ := hd.1 i
  have hunit : (Quat.ofAngleZ (MathTools.randFloat (d.obstacle i).angle m (lit 2 1) 0 * CMath.pi) : Quat ℝ).IsUnit :=
    ofAngleZ_unit _
  have hu : e.base.pose.orientation.IsUnit := by
    apply Pose.fixOrientation_unit
    · intro h0
      rw [h0] at hunit
      simp [Quat.IsUnit, Quat.sqNorm] at hunit
    · unfold Quat.IsUnit at hunit
      rw [Quat.norm, hunit]
      norm_num [CMath.sqrt]
  have hc : HasCurv e 1 1 1 := by simp [HasCurv, e, Configuration.obstacle, Ellipsoid.ofBase, V3.const]
  have h1 := C18_rand_float_range _ _ hm ha (3 : ℝ) (1 / 5)
  have h2 := C18_rand_float_range _ _ hm hb (3 : ℝ) (1 / 5)
  have h3 := C18_rand_float_range _ _ hm hy (3 : ℝ) (-3)
  norm_num at h1 h2 h3
  have e1 : (halfLengths e (V3.const (1 / 10))).x = MathTools.randFloat (d.obstacle i).a m (3 : ℝ) (1 / 5) + 1 / 10 := by
    norm_num [halfLengths, e, Configuration.obstacle, Ellipsoid.ofBase, Base.mkState, V3.const]
  have e2 : (halfLengths e (V3.const (1 / 10))).y = MathTools.randFloat (d.obstacle i).b m (3 : ℝ) (1 / 5) + 1 / 10 := by
    norm_num [halfLengths, e, Configuration.obstacle, Ellipsoid.ofBase, Base.mkState, V3.const]
  have e3 : (halfLengths e (V3.const (1 / 10))).z = 1 / 10 := by
    norm_num [halfLengths, e, Configuration.obstacle, Ellipsoid.ofBase, Base.mkState, V3.const]
  have e4 : e.base.position.y = MathTools.randFloat (d.obstacle i).y m (3 : ℝ) (-3) := by
    norm_num [e, Configuration.obstacle, Ellipsoid.ofBase, Base.mkState, Base.position, State.position, State.mk2, Pose.mk2]
  have e5 : e.base.position.z = 0 := by
    norm_num [e, Configuration.obstacle, Ellipsoid.ofBase, Base.mkState, Base.position, State.position, State.mk2, Pose.mk2]
  have hfl : FlatPose e.base.pose := by
    have key : ∀ q : Quat ℝ, q.x = 0 → q.y = 0 → (Pose.fixOrientation q).x = 0 ∧ (Pose.fixOrientation q).y = 0 := by
      intro q hx hy
      unfold Pose.fixOrientation
      simp only []
      split <;> split <;> simp [Quat.normalized, hx, hy]
      all_goals split <;> simp [hx, hy]
    have h := key (Quat.ofAngleZ (MathTools.randFloat (d.obstacle i).angle m (lit 2 1) 0 * CMath.pi))
      (by simp [Quat.ofAngleZ]) (by simp [Quat.ofAngleZ])
    exact ⟨h.1, h.2, e5⟩
  refine ⟨fun x => ⟨?_, ?_, fun hx => ?_⟩, ?_, ?_, ?_, ?_, e3, ?_, e5⟩
  · rw [gdist, distance_frame e _ _ 1 1 1 hc (by refine ⟨?_, ?_, ?_⟩ <;> first | (rw [e1]; norm_num; linarith) | (rw [e2]; norm_num; linarith) | (rw [e3]; norm_num))]
  · have e1 : e.base.pose.inverse.apply x = e.base.pose.orientation.conjugate.rotate (x - e.base.position) := by
      simp only [Pose.apply, Pose.inverse]
      rw [← Quat.rotate_add]
      rfl
    rw [e1, ← V3.norm_sq, ← V3.norm_sq, Quat.norm_rotate hu.conjugate]
  · exact flat_apply (flat_inversePose hfl) hx
  · rw [e1]; linarith
  · rw [e2]; linarith
  · rw [e1]; linarith
  · rw [e2]; linarith
  · rw [e4]; linarith

theorem configuration_mem {m : ℕ} {d : Configuration.Draws} {e : Ellipsoid ℝ} (he : e ∈ Configuration.obstacles m d) :
    ∃ name i, e = Configuration.obstacle m name (d.obstacle i) := by
  simp only [Configuration.obstacles, List.mem_cons, List.not_mem_nil, or_false] at he
  rcases he with rfl | rfl | rfl <;> exact ⟨_, _, rfl⟩

/-- C70: testConfiguration.cpp, for all random numbers: the agent starts outside of all obstacles, and it ends up inside
of each one whose centre is less than 0.3 away from a point that it passes. -/
theorem C70_negation_configuration (m : ℕ) (hm : 0 < m) (d : Configuration.Draws) (hd : InRange m d) (file : String)
    (e : Ellipsoid ℝ) (he : e ∈ Configuration.obstacles m d) :
    1 < gdist e (1 / 10) (Configuration.start (α := ℝ) m d).2.state.position ∧
    ∀ n, V3.norm ((Configuration.loop (α := ℝ) m d).target + V3.smul ((99 / 100) ^ n)
        ((Configuration.start (α := ℝ) m d).2.state.position - (Configuration.loop (α := ℝ) m d).target) -
          e.base.position) < 3 / 10 →
      ∃ s f, Configuration.program (α := ℝ) m d file n = .ok (s, f) ∧ gdist e (1 / 10) s.2.state.position < 1 := by
  obtain ⟨name, i, rfl⟩ := configuration_mem he
  obtain ⟨hl, l1, l2, l3, l4, l5, py, pz⟩ := configuration_level m hm d hd name i
  generalize Configuration.obstacle (α := ℝ) m name (d.obstacle i) = e at *
  constructor
  · obtain ⟨h1, h2, -⟩ := hl (Configuration.start (α := ℝ) m d).2.state.position
    rw [h1]
    refine lt_of_lt_of_le ?_ (le_level (l := 31 / 10) ⟨by linarith, by linarith, by rw [l5]; norm_num⟩ l3 l4
      (by rw [l5]; norm_num))
    rw [h2, lt_div_iff₀ (by norm_num)]
    have hy : ((Configuration.start (α := ℝ) m d).2.state.position - e.base.position).y = 8 - e.base.position.y := by
      norm_num [Configuration.start, Agent.mk2, State.ofPosition, State.position, Pose.ofPosition]
    generalize (Configuration.start (α := ℝ) m d).2.state.position - e.base.position = w at *
    simp only [V3.sqNorm, V3.dot]
    rw [hy]
    nlinarith [mul_self_nonneg w.x, mul_self_nonneg w.z]
  · intro n hn
    obtain ⟨s, h1, -, h3⟩ := C70_configuration m d file n
    rw [← h3] at hn
    refine ⟨s, _, h1, ?_⟩
    obtain ⟨h4, h5, h6⟩ := hl s.2.state.position
    have hz := h6 (by
      rw [h3]
      norm_num [Configuration.start, Configuration.loop, Agent.mk2, State.ofPosition, State.position, Pose.ofPosition, V3.smul])
    rw [h4]
    generalize e.base.pose.inverse.apply s.2.state.position = y at *
    have e1 : level (halfLengths e (V3.const (1 / 10))) 1 1 1 y =
        level ⟨(halfLengths e (V3.const (1 / 10))).x, (halfLengths e (V3.const (1 / 10))).y, 3 / 10⟩ 1 1 1 y := by
      simp [level, hz]
    rw [e1]
    refine lt_of_le_of_lt (level_le (l := 3 / 10) (by norm_num) l1 l2 le_rfl) ?_
    rw [h5, div_lt_one (by norm_num), ← V3.norm_sq]
    have := V3.norm_nonneg (s.2.state.position - e.base.position)
    nlinarith

/-- All random numbers maximal, but the target to the left. -/
def maximal (m : ℕ) : Configuration.Draws := ⟨fun _ => ⟨m, m, 0, m, m⟩, m, 0⟩

/-- C70: whatever `RAND_MAX` is, there are random numbers with which the agent of testConfiguration.cpp walks into an
obstacle. -/
theorem C70_negation_configuration_exists (m : ℕ) (hm : 0 < m) (file : String) : InRange m (maximal m) ∧
    ∃ e ∈ Configuration.obstacles m (maximal m), ∃ s f,
      Configuration.program (α := ℝ) m (maximal m) file 35 = .ok (s, f) ∧ gdist e (1 / 10) s.2.state.position < 1 := by
  have hd : InRange m (maximal m) := ⟨fun _ => ⟨le_rfl, le_rfl, Nat.zero_le _, le_rfl, le_rfl⟩, le_rfl, Nat.zero_le _⟩
  refine ⟨hd, Configuration.obstacle m "e0" ⟨m, m, 0, m, m⟩, by simp [Configuration.obstacles, maximal], ?_⟩
  obtain ⟨s, h1, -, h3⟩ := C70_configuration m (maximal m) file 35
  refine ⟨s, _, h1, ?_⟩
  obtain ⟨hl, -, -, -, -, l5, -, -⟩ := configuration_level m hm (maximal m) hd "e0" 0
  obtain ⟨h4, h5, h6⟩ := hl s.2.state.position
  have hz := h6 (by
    rw [h3]
    norm_num [Configuration.start, Configuration.loop, Agent.mk2, State.ofPosition, State.position, Pose.ofPosition, V3.smul])
  have r1 := fun a b => (C18_rand_float_ends m hm a b).1
  have r2 := fun a b => (C18_rand_float_ends m hm a b).2
  change gdist (Configuration.obstacle m "e0" ((maximal m).obstacle 0)) (1 / 10) s.2.state.position < 1
  rw [h4]
  have hL : halfLengths (Configuration.obstacle m "e0" ((maximal m).obstacle 0)) (V3.const (1 / 10)) =
      ⟨31 / 10, 31 / 10, 1 / 10⟩ := by
    ext <;> norm_num [halfLengths, Configuration.obstacle, Ellipsoid.ofBase, Base.mkState, V3.const, maximal, r2]
  have hp : (Configuration.obstacle (α := ℝ) m "e0" ((maximal m).obstacle 0)).base.position = ⟨3, 3, 0⟩ := by
    ext <;> norm_num [Configuration.obstacle, Ellipsoid.ofBase, Base.mkState, Base.position, State.position, State.mk2,
      Pose.mk2, maximal, r2]
  rw [hL]
  rw [hp] at h5
  generalize (Configuration.obstacle (α := ℝ) m "e0" ((maximal m).obstacle 0)).base.pose.inverse.apply s.2.state.position = y at *
  have e1 : level ⟨31 / 10, 31 / 10, 1 / 10⟩ 1 1 1 y = level ⟨31 / 10, 31 / 10, 31 / 10⟩ 1 1 1 y := by
    simp [level, hz]
  rw [e1]
  refine lt_of_le_of_lt (level_le (l := 31 / 10) (by norm_num) le_rfl le_rfl le_rfl) ?_
  rw [h5, h3, div_lt_one (by norm_num)]
  norm_num [Configuration.start, Configuration.loop, Agent.mk2, State.ofPosition, State.position, Pose.ofPosition,
    V3.smul, V3.sqNorm, V3.dot, maximal, r1, r2]

/-- The hypotheses of `C70_negation_configuration` can be met: everything in the middle, `RAND_MAX` = 2. -/
example : ∃ d : Configuration.Draws, InRange 2 d ∧ ∃ e ∈ Configuration.obstacles (α := ℝ) 2 d, ∃ n,
    V3.norm ((Configuration.loop (α := ℝ) 2 d).target + V3.smul ((99 / 100) ^ n)
        ((Configuration.start (α := ℝ) 2 d).2.state.position - (Configuration.loop (α := ℝ) 2 d).target) -
          e.base.position) < 3 / 10 := by
  refine ⟨⟨fun _ => ⟨1, 1, 0, 0, 0⟩, 1, 1⟩, ⟨fun _ => by norm_num, by norm_num⟩,
    _, by simp only [Configuration.obstacles]; exact List.mem_cons_self, 69, ?_⟩
  rw [V3.norm, sqrt_real, Real.sqrt_lt' (by norm_num)]
  norm_num [Configuration.start, Configuration.loop, Agent.mk2, State.ofPosition, State.position, Pose.ofPosition,
    V3.smul, V3.sqNorm, V3.dot, MathTools.randFloat, MathTools.ofInt, Configuration.obstacle, Ellipsoid.ofBase,
    Base.mkState, Base.position, State.mk2, Pose.mk2]

end DOA.Props
