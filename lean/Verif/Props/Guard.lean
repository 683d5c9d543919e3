import Verif.Model.Guard
import Verif.Props.Loop
import Verif.Props.Speed

/-!
# C80: the guard on the platform (tests/testGuardAvoidance.cpp)
-/

set_option linter.unusedSectionVars false
set_option linter.unusedSimpArgs false

namespace DOA.Props
open DOA DOA.Spec DOA.Modulation DOA.Ellipsoid

section
variable {α : Type} [Add α] [Sub α] [Mul α] [Div α] [Neg α] [Zero α] [One α]
  [LE α] [LT α] [DecidableLE α] [DecidableLT α] [CMath α]

theorem withState_state {h h' : Heap α} {a a' : Agent α} {st : State α}
    (hw : Agent.withState h a st = .ok (h', a')) : a' = { a with state := st } := by
  unfold Agent.withState at hw
  obtain ⟨h1, -, hw⟩ := Res.bind_eq_ok.mp hw
  cases hw
  rfl

/-- C80: whatever the two environments, the options and the random numbers are, after an iteration the guard is
above the point of the platform where it stands, and the platform has not turned. -/
theorem C80_stands (c : GuardLoop α) (ep eg : Env) (n : Noise α) (s s' : Duo α)
    (hs : c.iterate ep eg n s = .ok s') :
    s'.platform.state.pose.orientation = s.platform.state.pose.orientation ∧
    s'.guard.state.position.x = (s'.platform.state.pose.apply c.transform).x ∧
    s'.guard.state.position.y = (s'.platform.state.pose.apply c.transform).y := by
  unfold GuardLoop.iterate at hs
  obtain ⟨s1, h1, hs⟩ := Res.bind_eq_ok.mp hs
  obtain ⟨r1, -, hs⟩ := Res.bind_eq_ok.mp hs
  obtain ⟨s2, h2, hs⟩ := Res.bind_eq_ok.mp hs
  obtain ⟨r2, -, hs⟩ := Res.bind_eq_ok.mp hs
  obtain ⟨s3, h3, hs⟩ := Res.bind_eq_ok.mp hs
  obtain ⟨s4, h4, hs⟩ := Res.bind_eq_ok.mp hs
  have e2 := withState_state (a' := s2.2) (h' := s2.1) h2
  have e3 := withState_state (a' := s3.2) (h' := s3.1) h3
  have e4 := withState_state (a' := s4.2) (h' := s4.1) h4
  cases hs
  refine ⟨?_, ?_, ?_⟩
  · show s3.2.state.pose.orientation = _
    rw [e3, e2]; rfl
  · show s4.2.state.position.x = _
    rw [e4]; rfl
  · show s4.2.state.position.y = _
    rw [e4]; rfl

theorem withState_other (h : Heap α) (a b : Agent α) (st : State α) (ha : HasEnvelope h a) (hb : HasEnvelope h b) :
    ∃ h', Agent.withState h a st = .ok (h', { a with state := st }) ∧
      HasEnvelope h' { a with state := st } ∧ HasEnvelope h' b := by
  obtain ⟨q, env, hq, henv⟩ := ha
  obtain ⟨q', env', hq', henv'⟩ := hb
  have hlt : q < h.length := by
    by_contra hn
    rw [List.getElem?_eq_none (Nat.le_of_not_lt hn)] at henv
    cases henv
  refine ⟨_, by simp [Agent.withState, Agent.updateEnvelope, hq, Heap.deref, henv]; rfl,
    ⟨q, _, hq, by rw [List.getElem?_set_self hlt]⟩, ?_⟩
  by_cases he : q = q'
  · subst he
    exact ⟨q, _, hq', by rw [List.getElem?_set_self hlt]⟩
  · exact ⟨q', env', hq', by rw [List.getElem?_set_ne he]; exact henv'⟩

/-- C80: when `update()` is not called both lists are empty, and one iteration moves the two agents by the
desired velocity of the guard, whatever the obstacles are. -/
theorem C80_empty (c : GuardLoop α) (ep eg : Env) (hp : ep.list = []) (hg : eg.list = []) (n : Noise α) (s : Duo α)
    (h1 : HasEnvelope s.heap s.platform) (h2 : HasEnvelope s.heap s.guard) :
    ∃ s', c.iterate ep eg n s = .ok s' ∧ HasEnvelope s'.heap s'.platform ∧ HasEnvelope s'.heap s'.guard ∧
      let w := c.guard.limit (c.guard.desired s.guard.state.position)
      s'.platform.state.position = s.platform.state.position +
        V3.smul c.platform.dt (c.platform.limit ⟨w.x, w.y, 0⟩) + n.platform ∧
      s'.guard.state.position.z = s.guard.state.position.z + c.guard.dt * w.z + n.guard := by
  have hm := fun (h : Heap α) (a : Agent α) => C40_empty h a eg c.guard.isLocal c.guard.addRepulsion c.guard.planar
    c.guard.critical c.guard.power hg
  have hm' := fun (h : Heap α) (a : Agent α) => C40_empty h a ep c.platform.isLocal c.platform.addRepulsion
    c.platform.planar c.platform.critical c.platform.power hp
  obtain ⟨k1, w1, e1, f1⟩ := withState_other s.heap s.guard s.platform
    (s.guard.state.setLinearVelocity (c.guard.desired s.guard.state.position)) h2 h1
  let w := c.guard.limit (c.guard.desired s.guard.state.position)
  obtain ⟨k2, w2, e2, f2⟩ := withState_other k1 s.platform _
    (s.platform.state.setLinearVelocity ⟨w.x, w.y, 0⟩) f1 e1
  obtain ⟨k3, w3, e3, f3⟩ := withState_other k2 _ _
    ((s.platform.state.setLinearVelocity ⟨w.x, w.y, 0⟩).setPosition (s.platform.state.position +
        V3.smul c.platform.dt (c.platform.limit ⟨w.x, w.y, 0⟩) + n.platform)) e2 f2
  let z := ((s.platform.state.setLinearVelocity ⟨w.x, w.y, 0⟩).setPosition (s.platform.state.position +
        V3.smul c.platform.dt (c.platform.limit ⟨w.x, w.y, 0⟩) + n.platform)).pose.apply c.transform
  obtain ⟨k4, w4, e4, f4⟩ := withState_other k3 _ _
    ((s.guard.state.setLinearVelocity (c.guard.desired s.guard.state.position)).setPosition
      ⟨z.x, z.y, s.guard.state.position.z + c.guard.dt * w.z + n.guard⟩) f3 e3
  refine ⟨⟨k4, _, _⟩, ?_, f4, e4, rfl, rfl⟩
  unfold GuardLoop.iterate
  rw [← Agent.setLinearVelocity] at w1 w2
  rw [← Agent.setPosition] at w3 w4
  simp only [w1, Res.ok_bind, hm]
  have hv : ∀ (st : State α) (v : V3 α), (st.setLinearVelocity v).linearVelocity = v := fun _ _ => rfl
  simp only [hv]
  rw [w2]
  simp only [Res.ok_bind, hm', hv]
  rw [w3]
  simp only [Res.ok_bind]
  rw [w4]
  rfl

end

/-- C80: the guard and the platform move like one body in the plane, for every number of iterations, all
environments, options and random numbers. -/
theorem C80_rigid (c : GuardLoop ℝ) (ep eg : Env) (noise : ℕ → Noise ℝ) (n : ℕ) (s s' : Duo ℝ)
    (h0 : s.guard.state.position.x = (s.platform.state.pose.apply c.transform).x ∧
      s.guard.state.position.y = (s.platform.state.pose.apply c.transform).y)
    (hs : c.run ep eg noise n s = .ok s') :
    s'.platform.state.pose.orientation = s.platform.state.pose.orientation ∧
    s'.guard.state.position.x - s'.platform.state.position.x = s.guard.state.position.x - s.platform.state.position.x ∧
    s'.guard.state.position.y - s'.platform.state.position.y = s.guard.state.position.y - s.platform.state.position.y := by
  have key : s'.platform.state.pose.orientation = s.platform.state.pose.orientation ∧
      s'.guard.state.position.x = (s'.platform.state.pose.apply c.transform).x ∧
      s'.guard.state.position.y = (s'.platform.state.pose.apply c.transform).y := by
    induction n generalizing s' with
    | zero => cases hs; exact ⟨rfl, h0⟩
    | succ n ih =>
      obtain ⟨s1, h1, h2⟩ := Res.bind_eq_ok.mp hs
      obtain ⟨e1, e2⟩ := C80_stands c ep eg (noise n) s1 s' h2
      exact ⟨e1.trans (ih s1 h1).1, e2⟩
  obtain ⟨k1, k2, k3⟩ := key
  refine ⟨k1, ?_, ?_⟩
  · rw [k2, h0.1]
    simp only [Pose.apply, k1, V3.add_x, State.position]
    ring
  · rw [k3, h0.2]
    simp only [Pose.apply, k1, V3.add_y, State.position]
    ring

/-! ## The program itself -/

/-- What the random numbers `f` add up to in `n` iterations: older ones fade. -/
noncomputable def faded (f : ℕ → ℝ) (n : ℕ) : ℝ := ∑ i ∈ Finset.range n, (99 / 100) ^ (n - 1 - i) * f i

theorem faded_succ (f : ℕ → ℝ) (n : ℕ) : faded f (n + 1) = 99 / 100 * faded f n + f n := by
  unfold faded
  rw [Finset.sum_range_succ, Finset.mul_sum]
  congr 1
  · refine Finset.sum_congr rfl fun i hi => ?_
    have h1 : n + 1 - 1 - i = (n - 1 - i) + 1 := by have := Finset.mem_range.mp hi; omega
    rw [h1, pow_succ]
    ring
  · simp

theorem faded_le (f : ℕ → ℝ) (ε : ℝ) (hf : ∀ i, |f i| ≤ ε) (n : ℕ) : |faded f n| ≤ 100 * ε := by
  have h0 : 0 ≤ ε := le_trans (abs_nonneg _) (hf 0)
  induction n with
  | zero => simp [faded]; exact h0
  | succ n ih =>
    rw [faded_succ]
    refine le_trans (abs_add_le _ _) ?_
    rw [abs_mul, abs_of_pos (by norm_num : (0 : ℝ) < 99 / 100)]
    linarith [hf n]

/-- Every coordinate of `v` is at most `ε`. -/
def Within (ε : ℝ) (v : V3 ℝ) : Prop := |v.x| ≤ ε ∧ |v.y| ≤ ε ∧ |v.z| ≤ ε

theorem within_norm {ε : ℝ} {v : V3 ℝ} (h : Within ε v) : V3.norm v ≤ 2 * ε := by
  obtain ⟨h1, h2, h3⟩ := h
  have h0 : 0 ≤ ε := le_trans (abs_nonneg _) h1
  show Real.sqrt (v.x * v.x + v.y * v.y + v.z * v.z) ≤ _
  rw [Real.sqrt_le_left (by linarith)]
  have key : ∀ a : ℝ, |a| ≤ ε → a * a ≤ ε * ε := by
    intro a ha
    have := abs_le.mp ha
    nlinarith
  nlinarith [key _ h1, key _ h2, key _ h3]

theorem guard_envs : ∃ ep eg, Guard.platformEnv (Guard.heap (α := ℝ)) = .ok ep ∧
    Guard.guardEnv (Guard.heap (α := ℝ)) = .ok eg ∧ ep.list = [] ∧ eg.list = [] :=
  ⟨_, _, rfl, rfl, rfl, rfl⟩

/-- The target of the guard. -/
noncomputable def guardTarget (t : V3 ℝ) : V3 ℝ := ⟨5 + t.x, t.y, 4 / 10 + t.z⟩

theorem guard_start (q : V3 ℝ) : HasEnvelope (Guard.start q).heap (Guard.start q).platform ∧
    HasEnvelope (Guard.start q).heap (Guard.start q).guard ∧
    (Guard.start q).platform.state.position = ⟨-5 + q.x, -1 + q.y, 0⟩ ∧
    (Guard.start q).guard.state.position = ⟨-5 + q.x, q.y, 2 / 10⟩ := by
  refine ⟨⟨2, _, rfl, rfl⟩, ⟨3, _, rfl, rfl⟩, ?_, ?_⟩
  · ext <;> simp [Guard.start, Agent.mk2, State.ofPosition, State.position, Pose.ofPosition]
  · ext <;> simp [Guard.start, Agent.mk2, State.ofPosition, State.position, Pose.ofPosition, Pose.apply, Quat.one,
      Quat.rotate, Quat.vec, V3.cross, V3.smul]

theorem guard_limit {c : Loop ℝ} (hc : c.maxVel = some (lit 100 1)) {v : V3 ℝ} (h : V3.norm v ≤ 100) :
    c.limit v = v := by
  unfold Loop.limit
  rw [hc]
  show (if _ then _ else _) = _
  rw [if_neg]
  rw [show (lit 100 1 : ℝ) = 100 by simp]
  exact not_lt.mpr h

/-- C80: where the two agents are after `n` iterations, for all random numbers that are not absurdly large: the
guard approaches its target on a straight line, disturbed only by the random numbers; the platform carries it. -/
theorem C80_program (t q : V3 ℝ) (noise : ℕ → Noise ℝ) (ht : Within 1 t) (hq : Within 1 q)
    (hn : ∀ i, Within (1 / 10) (noise i).platform ∧ |(noise i).guard| ≤ 1 / 10) (n : ℕ) :
    ∃ s', Guard.program t q noise n = .ok s' ∧
      s'.guard.state.position = guardTarget t +
        V3.smul ((99 / 100) ^ n) ((Guard.start q).guard.state.position - guardTarget t) +
        ⟨faded (fun i => (noise i).platform.x) n, faded (fun i => (noise i).platform.y) n,
          faded (fun i => (noise i).guard) n⟩ ∧
      s'.platform.state.position.x = s'.guard.state.position.x ∧
      s'.platform.state.position.y = s'.guard.state.position.y - 1 ∧
      s'.platform.state.position.z = ∑ i ∈ Finset.range n, (noise i).platform.z := by
  obtain ⟨ep, eg, hp, hg, lp, lg⟩ := guard_envs
  obtain ⟨i1, i2, i3, i4⟩ := guard_start q
  have htr : (Guard.loop t).transform = ⟨0, 1, 2 / 10⟩ := by ext <;> simp [Guard.loop]
  have hdt : (Guard.loop t).platform.dt = 1 / 100 ∧ (Guard.loop t).guard.dt = 1 / 100 := by simp [Guard.loop]
  have hta : (Guard.loop t).guard.target = guardTarget t := by ext <;> simp [Guard.loop, guardTarget]
  have hga : (Guard.loop t).guard.gain = 1 := rfl
  have h0 : (Guard.start q).guard.state.position.x =
        ((Guard.start q).platform.state.pose.apply (Guard.loop t).transform).x ∧
      (Guard.start q).guard.state.position.y =
        ((Guard.start q).platform.state.pose.apply (Guard.loop t).transform).y := by
    constructor <;> rfl
  have hrig : ∀ m s', (Guard.loop t).run ep eg noise m (Guard.start q) = .ok s' →
      s'.platform.state.position.x = s'.guard.state.position.x ∧
      s'.platform.state.position.y = s'.guard.state.position.y - 1 := by
    intro m s' hs'
    obtain ⟨-, e1, e2⟩ := C80_rigid (Guard.loop t) ep eg noise m (Guard.start q) s' h0 hs'
    rw [i3, i4] at e1 e2
    simp only at e1 e2
    constructor <;> linarith
  have key : ∃ s', (Guard.loop t).run ep eg noise n (Guard.start q) = .ok s' ∧
      HasEnvelope s'.heap s'.platform ∧ HasEnvelope s'.heap s'.guard ∧
      s'.guard.state.position = guardTarget t +
        V3.smul ((99 / 100) ^ n) ((Guard.start q).guard.state.position - guardTarget t) +
        ⟨faded (fun i => (noise i).platform.x) n, faded (fun i => (noise i).platform.y) n,
          faded (fun i => (noise i).guard) n⟩ ∧
      s'.platform.state.position.z = ∑ i ∈ Finset.range n, (noise i).platform.z := by
    induction n with
    | zero =>
      refine ⟨Guard.start q, rfl, i1, i2, ?_, by rw [i3]; rfl⟩
      ext <;> simp [faded, V3.smul]
    | succ n ih =>
      obtain ⟨s, h1, h2, h3, h4, h5⟩ := ih
      obtain ⟨s', k1, k2, k3, k4, k5⟩ := C80_empty (Guard.loop t) ep eg lp lg (noise n) s h2 h3
      have hrun : (Guard.loop t).run ep eg noise (n + 1) (Guard.start q) = .ok s' := by
        rw [GuardLoop.run, h1]; exact k1
      have hpow0 : 0 ≤ ((99 : ℝ) / 100) ^ n := by positivity
      have hpow1 : ((99 : ℝ) / 100) ^ n ≤ 1 := pow_le_one₀ (by norm_num) (by norm_num)
      have hdes : (Guard.loop t).guard.desired s.guard.state.position =
          V3.smul (-1) (s.guard.state.position - guardTarget t) := by rw [Loop.desired, hga, hta]
      have hsmall : Within 25 (V3.smul (-1) (s.guard.state.position - guardTarget t)) := by
        have key : ∀ a b f : ℝ, |a| ≤ 15 → |f| ≤ 100 * (1 / 10) → b = (99 / 100) ^ n * a + f → |-1 * b| ≤ 25 := by
          intro a b f ha hf hb
          rw [hb, neg_one_mul, abs_neg]
          refine le_trans (abs_add_le _ _) ?_
          rw [abs_mul, abs_of_nonneg hpow0]
          nlinarith [abs_nonneg a]
        obtain ⟨t1, t2, t3⟩ := ht
        obtain ⟨q1, q2, q3⟩ := hq
        rw [abs_le] at t1 t2 t3 q1 q2 q3
        refine ⟨key ((Guard.start q).guard.state.position - guardTarget t).x _ _ ?_
            (faded_le (fun i => (noise i).platform.x) _ (fun i => (hn i).1.1) n) ?_,
          key ((Guard.start q).guard.state.position - guardTarget t).y _ _ ?_
            (faded_le (fun i => (noise i).platform.y) _ (fun i => (hn i).1.2.1) n) ?_,
          key ((Guard.start q).guard.state.position - guardTarget t).z _ _ ?_
            (faded_le (fun i => (noise i).guard) _ (fun i => (hn i).2) n) ?_⟩
        · rw [i4, abs_le]; simp only [guardTarget, V3.sub_x]; constructor <;> linarith
        · rw [h4]; simp only [V3.smul, V3.add_x, V3.sub_x]; ring
        · rw [i4, abs_le]; simp only [guardTarget, V3.sub_y]; constructor <;> linarith
        · rw [h4]; simp only [V3.smul, V3.add_y, V3.sub_y]; ring
        · rw [i4, abs_le]; simp only [guardTarget, V3.sub_z]; constructor <;> linarith
        · rw [h4]; simp only [V3.smul, V3.add_z, V3.sub_z]; ring
      set w := V3.smul (-1) (s.guard.state.position - guardTarget t) with hw
      have hl1 : (Guard.loop t).guard.limit w = w :=
        guard_limit rfl (le_trans (within_norm hsmall) (by norm_num))
      have hl2 : (Guard.loop t).platform.limit ⟨w.x, w.y, 0⟩ = ⟨w.x, w.y, 0⟩ :=
        guard_limit rfl (le_trans (within_norm (ε := 25) ⟨hsmall.1, hsmall.2.1, by norm_num⟩) (by norm_num))
      rw [hdes] at k4 k5
      simp only [hl1, hl2, hdt.1, hdt.2] at k4 k5
      obtain ⟨r1, r2⟩ := hrig n s h1
      obtain ⟨r1', r2'⟩ := hrig (n + 1) s' hrun
      refine ⟨s', hrun, k2, k3, ?_, ?_⟩
      · have x1 : s'.guard.state.position.x = 99 / 100 * s.guard.state.position.x + 1 / 100 * (guardTarget t).x +
            (noise n).platform.x := by
          rw [← r1', k4]
          simp only [V3.add_x, V3.smul, hw, V3.sub_x, r1]
          ring
        have y1 : s'.guard.state.position.y = 99 / 100 * s.guard.state.position.y + 1 / 100 * (guardTarget t).y +
            (noise n).platform.y := by
          have : s'.guard.state.position.y = s'.platform.state.position.y + 1 := by linarith
          rw [this, k4]
          simp only [V3.add_y, V3.smul, hw, V3.sub_y, r2]
          ring
        have z1 : s'.guard.state.position.z = 99 / 100 * s.guard.state.position.z + 1 / 100 * (guardTarget t).z +
            (noise n).guard := by
          rw [k5]
          simp only [V3.smul, hw, V3.sub_z]
          ring
        ext
        · rw [x1, h4]; simp only [V3.smul, V3.add_x, V3.sub_x, faded_succ, pow_succ]; ring
        · rw [y1, h4]; simp only [V3.smul, V3.add_y, V3.sub_y, faded_succ, pow_succ]; ring
        · rw [z1, h4]; simp only [V3.smul, V3.add_z, V3.sub_z, faded_succ, pow_succ]; ring
      · rw [k4, Finset.sum_range_succ, ← h5]
        simp only [V3.add_z, V3.smul]
        ring
  obtain ⟨s', h1, -, -, h4, h5⟩ := key
  refine ⟨s', ?_, h4, (hrig n s' h1).1, (hrig n s' h1).2, h5⟩
  unfold Guard.program
  rw [hp, hg]
  exact h1

/-- The obstacle of the guard without its safety margins. -/
noncomputable def bareObstacle : Ellipsoid ℝ :=
  { (Guard.guardObstacle : Ellipsoid ℝ) with
    base := { (Guard.guardObstacle : Ellipsoid ℝ).base with margin := V3.zero } }

theorem guard_pose : (Guard.guardObstacle : Ellipsoid ℝ).base.pose = ⟨V3.zero, Quat.one⟩ := by
  have h1 : (Quat.ofAngleZ (0 : ℝ)) = Quat.one := by
    simp [Quat.ofAngleZ, Quat.one, CMath.cos, CMath.sin]
  show (State.mk2 V3.zero (Quat.ofAngleZ 0)).pose = _
  rw [h1]
  simp [State.mk2, Pose.mk2, Pose.fixOrientation, Quat.one, Quat.norm, Quat.sqNorm, CMath.sqrt, Quat.normalized]

theorem guard_level (e : Ellipsoid ℝ) (L x : V3 ℝ) (h1 : e.curv = ⟨2, 2, 2⟩) (h2 : e.base.pose = ⟨V3.zero, Quat.one⟩)
    (h3 : halfLengths e (V3.const 0) = L) (h4 : AllGt L (1 / 10000)) : gdist e 0 x = level L 2 2 2 x := by
  have hc : HasCurv e 2 2 2 := by simp [HasCurv, h1]
  rw [gdist, distance_frame e _ _ 2 2 2 hc (by rw [h3]; exact h4), h3, h2]
  congr 1
  ext <;> simp [Pose.inverse, Pose.apply, Quat.one, Quat.conjugate, Quat.rotate, Quat.vec, V3.cross, V3.smul, V3.zero]

/-- C80: what the program does. The guard starts outside the safety region of its obstacle. If the faded sum of
the random numbers is moderate (standard deviation 0.07 for the noise of the program) the guard is inside the
obstacle itself after 69 iterations. -/
theorem C80_negation (t q : V3 ℝ) (noise : ℕ → Noise ℝ) (ht : Within (1 / 50) t) (hq : Within (1 / 50) q)
    (hn : ∀ i, Within (1 / 10) (noise i).platform ∧ |(noise i).guard| ≤ 1 / 10)
    (hf : Within (1 / 4) ⟨faded (fun i => (noise i).platform.x) 69, faded (fun i => (noise i).platform.y) 69,
          faded (fun i => (noise i).guard) 69⟩) :
    1 < gdist (Guard.guardObstacle : Ellipsoid ℝ) 0 (Guard.start q).guard.state.position ∧
    ∃ s', Guard.program t q noise 69 = .ok s' ∧ gdist bareObstacle 0 s'.guard.state.position < 1 := by
  have weak : ∀ v : V3 ℝ, Within (1 / 50) v → Within 1 v := fun v h =>
    ⟨le_trans h.1 (by norm_num), le_trans h.2.1 (by norm_num), le_trans h.2.2 (by norm_num)⟩
  obtain ⟨-, -, -, i4⟩ := guard_start q
  obtain ⟨s', h1, h2, -⟩ := C80_program t q noise (weak t ht) (weak q hq) hn 69
  obtain ⟨t1, t2, t3⟩ := ht
  obtain ⟨q1, q2, q3⟩ := hq
  obtain ⟨f1, f2, f3⟩ := hf
  rw [abs_le] at t1 t2 t3 q1 q2 q3 f1 f2 f3
  simp only at f1 f2 f3
  constructor
  · rw [i4, guard_level Guard.guardObstacle ⟨1, 3 / 2, 6 / 5⟩ _ (by ext <;> simp [Guard.guardObstacle]) guard_pose
      (by ext <;> norm_num [halfLengths, Guard.guardObstacle, Ellipsoid.ofBase, Base.mkState, V3.const])
      (by norm_num [AllGt])]
    have hx : 1 < ((-5 + q.x) / 1) ^ (2 * 2) := by
      rw [div_one, show 2 * 2 = 4 from rfl, show (-5 + q.x) ^ 4 = (5 - q.x) ^ 4 by ring]
      exact one_lt_pow₀ (by linarith) (by norm_num)
    simp only [level]
    have hy : 0 ≤ (q.y / (3 / 2)) ^ (2 * 2) := (show Even (2 * 2) by decide).pow_nonneg _
    have hz : 0 ≤ (((2 : ℝ) / 10) / (6 / 5)) ^ (2 * 2) := by positivity
    linarith
  · refine ⟨s', h1, ?_⟩
    rw [guard_level bareObstacle ⟨1 / 2, 1 / 2, 1⟩ _ (by ext <;> simp [bareObstacle, Guard.guardObstacle]) guard_pose
      (by ext <;> norm_num [halfLengths, bareObstacle, Guard.guardObstacle, Ellipsoid.ofBase, Base.mkState, V3.const, V3.zero])
      (by norm_num [AllGt]), h2, i4]
    have hp1 : ((99 : ℝ) / 100) ^ 69 ≤ 5 / 10 := by norm_num
    have hp0 : (49 : ℝ) / 100 ≤ (99 / 100) ^ 69 := by norm_num
    generalize ((99 : ℝ) / 100) ^ 69 = r at *
    generalize faded (fun i => (noise i).platform.x) 69 = fx at *
    generalize faded (fun i => (noise i).platform.y) 69 = fy at *
    generalize faded (fun i => (noise i).guard) 69 = fz at *
    have key : ∀ a b : ℝ, |a| ≤ b → a ^ (2 * 2) ≤ b ^ 4 := by
      intro a b h
      rw [show a ^ (2 * 2) = |a| ^ 4 by rw [show 2 * 2 = 4 from rfl, ← abs_pow, abs_of_nonneg (by positivity)]]
      exact pow_le_pow_left₀ (abs_nonneg a) h 4
    have hx : |(guardTarget t + V3.smul r (⟨-5 + q.x, q.y, 2 / 10⟩ - guardTarget t) + ⟨fx, fy, fz⟩ : V3 ℝ).x / (1 / 2)| ≤ 8 / 10 := by
      rw [abs_le]
      simp only [V3.add_x, V3.smul, V3.sub_x, guardTarget]
      constructor <;> nlinarith
    have hy : |(guardTarget t + V3.smul r (⟨-5 + q.x, q.y, 2 / 10⟩ - guardTarget t) + ⟨fx, fy, fz⟩ : V3 ℝ).y / (1 / 2)| ≤ 6 / 10 := by
      rw [abs_le]
      simp only [V3.add_y, V3.smul, V3.sub_y, guardTarget]
      constructor <;> nlinarith
    have hz : |(guardTarget t + V3.smul r (⟨-5 + q.x, q.y, 2 / 10⟩ - guardTarget t) + ⟨fx, fy, fz⟩ : V3 ℝ).z / 1| ≤ 6 / 10 := by
      rw [abs_le]
      simp only [V3.add_z, V3.smul, V3.sub_z, guardTarget]
      constructor <;> nlinarith
    simp only [level]
    have k1 := key _ _ hx
    have k2 := key _ _ hy
    have k3 := key _ _ hz
    refine lt_of_le_of_lt (add_le_add (add_le_add k1 k2) k3) (by norm_num)

/-- C80_negation applies to the program without noise and with noise of alternating sign. -/
example : ∃ s', Guard.program (V3.zero : V3 ℝ) V3.zero (fun i => ⟨⟨(-1) ^ i / 1000, 0, 0⟩, 0⟩) 69 = .ok s' ∧
    gdist bareObstacle 0 s'.guard.state.position < 1 := by
  have hz : Within (1 / 50) (V3.zero : V3 ℝ) := by simp [Within, V3.zero]
  have hs : ∀ i : ℕ, |(-1 : ℝ) ^ i / 1000| ≤ 1 / 1000 := fun i => by simp [abs_div, abs_pow]
  refine (C80_negation V3.zero V3.zero _ hz hz ?_ ?_).2
  · intro i
    refine ⟨⟨le_trans (hs i) (by norm_num), by norm_num, by norm_num⟩, by norm_num⟩
  · refine ⟨le_trans (faded_le _ _ hs 69) (by norm_num), ?_, ?_⟩ <;> simp [faded]

/-! ## Had `update()` been called -/

section
variable {α : Type} [Add α] [Sub α] [Mul α] [Div α] [Neg α] [Zero α] [One α]
  [LE α] [LT α] [DecidableLE α] [DecidableLT α] [CMath α]

theorem collect_heap (planar : Bool) (a : Agent α) (l : List Ptr) : ∀ (h : Heap α) (r : Heap α × List (Item α)),
    collect planar a h l = .ok r → ∀ q, q ∉ l → r.1[q]? = h[q]? := by
  induction l with
  | nil => intro h r hr q _; cases hr; rfl
  | cons p l ih =>
    intro h r hr q hq
    have hqp : p ≠ q := fun h => hq (by rw [h]; exact List.mem_cons_self)
    have hql : q ∉ l := fun h => hq (List.mem_cons_of_mem _ h)
    cases planar with
    | false =>
      simp only [collect, Bool.false_eq_true, if_false, Res.ok_bind] at hr
      obtain ⟨o, -, hr⟩ := Res.bind_eq_ok.mp hr
      obtain ⟨m, -, hr⟩ := Res.bind_eq_ok.mp hr
      obtain ⟨r1, e2, hr⟩ := Res.bind_eq_ok.mp hr
      cases hr
      exact ih h r1 e2 q hql
    | true =>
      simp only [collect, if_true, shiftReferencePoint_eq] at hr
      obtain ⟨h1, e1, hr⟩ := Res.bind_eq_ok.mp hr
      obtain ⟨o, -, hr⟩ := Res.bind_eq_ok.mp hr
      obtain ⟨m, -, hr⟩ := Res.bind_eq_ok.mp hr
      obtain ⟨r1, e2, hr⟩ := Res.bind_eq_ok.mp hr
      cases hr
      obtain ⟨o', -, e1⟩ := Res.bind_eq_ok.mp e1
      cases e1
      rw [ih _ r1 e2 q hql, List.getElem?_set_ne hqp]

/-- `modulate_velocity` writes only to the listed obstacles. -/
theorem modulate_heap (h : Heap α) (a : Agent α) (E : Env) (loc rep planar : Bool) (critical power : α)
    (r : Heap α × V3 α) (hr : modulateVelocity h a E loc rep planar critical power = .ok r) (q : Ptr)
    (hq : q ∉ E.list) : r.1[q]? = h[q]? := by
  rw [modulateVelocity_eq] at hr
  split at hr
  · cases hr; rfl
  · obtain ⟨b, -, hr⟩ := Res.bind_eq_ok.mp hr
    split at hr
    · obtain ⟨r1, e1, hr⟩ := Res.bind_eq_ok.mp hr
      obtain ⟨v, -, hr⟩ := Res.bind_eq_ok.mp hr
      cases hr
      exact collect_heap planar a E.list h r1 e1 q hq
    · cases hr; rfl

theorem withState_heap {h h' : Heap α} {a a' : Agent α} {st : State α} (hw : Agent.withState h a st = .ok (h', a')) :
    (∀ q, a.envelope ≠ some q → h'[q]? = h[q]?) ∧
    ∀ (q : Ptr) (env : Ellipsoid α), h[q]? = some (.ellipsoid env) → ∃ env', h'[q]? = some (.ellipsoid env') := by
  unfold Agent.withState at hw
  obtain ⟨h1, hu, hw⟩ := Res.bind_eq_ok.mp hw
  cases hw
  unfold Agent.updateEnvelope at hu
  split at hu
  · cases hu
  · rename_i q0 hq0
    obtain ⟨o, ho, hu⟩ := Res.bind_eq_ok.mp hu
    split at hu
    · cases hu
      constructor
      · intro q hq
        have : q0 ≠ q := fun he => hq (he ▸ hq0)
        rw [List.getElem?_set_ne this]
      · intro q env hq
        rw [List.getElem?_set]
        split
        · rename_i he
          subst he
          rw [if_pos (List.getElem?_eq_some_iff.mp hq).1]
          exact ⟨_, rfl⟩
        · exact ⟨env, hq⟩
    · cases hu

end

theorem limit_le (c : Loop ℝ) (V : ℝ) (hV : c.maxVel = some V) (h0 : 0 ≤ V) (v : V3 ℝ) : V3.norm (c.limit v) ≤ V := by
  unfold Loop.limit
  rw [hV]
  show V3.norm (if V < v.norm then V3.smul V v.normalized else v) ≤ V
  split
  · rename_i hlt
    have hv : v ≠ V3.zero := by
      rintro rfl
      have : V3.norm (V3.zero : V3 ℝ) = 0 := by simp [V3.norm, V3.sqNorm, V3.dot, V3.zero, CMath.sqrt]
      linarith
    have hp := V3.norm_pos hv
    rw [V3.normalized_of_ne hv, V3.norm_smul, V3.norm_smul, abs_of_nonneg h0, abs_of_pos (by positivity)]
    rw [one_div, inv_mul_cancel₀ hp.ne', mul_one]
  · rename_i hlt
    exact not_lt.mp hlt

theorem norm_flatten_le (w : V3 ℝ) : V3.norm (⟨w.x, w.y, 0⟩ : V3 ℝ) ≤ V3.norm w := by
  show Real.sqrt (w.x * w.x + w.y * w.y + 0 * 0) ≤ Real.sqrt (w.x * w.x + w.y * w.y + w.z * w.z)
  exact Real.sqrt_le_sqrt (by nlinarith [mul_self_nonneg w.z])

/-- The situation at the beginning of an iteration. Object `p` is the obstacle of the platform. The guard sees
live ellipsoids; they are neither `p` nor the envelope of an agent. -/
structure OnDuo (e : Ellipsoid ℝ) (p : Ptr) (m : ℝ) (eg : Env) (s : Duo ℝ) : Prop where
  on : OnLoop e p m (s.heap, s.platform)
  ready : Ready s.heap eg.list
  free : p ∉ eg.list
  platform : ∀ q, s.platform.envelope = some q → q ∉ eg.list
  guard : ∃ (q : Ptr) (env : Ellipsoid ℝ), q ≠ p ∧ q ∉ eg.list ∧ s.guard.envelope = some q ∧
    s.heap[q]? = some (.ellipsoid env)

theorem onDuo_guard {e : Ellipsoid ℝ} {p : Ptr} {m : ℝ} {eg : Env} {h : Heap ℝ} {a b : Agent ℝ}
    (hs : OnDuo e p m eg ⟨h, a, b⟩) (st : State ℝ) :
    ∃ h', Agent.withState h b st = .ok (h', { b with state := st }) ∧ OnDuo e p m eg ⟨h', a, { b with state := st }⟩ := by
  obtain ⟨q, env, hqp, hql, hq, henv⟩ := hs.guard
  obtain ⟨h', hw, -⟩ := withState_env (h, b) st ⟨q, env, hq, henv⟩
  obtain ⟨k1, k2⟩ := withState_heap hw
  have hne : ∀ r, r ≠ q → b.envelope ≠ some r := by
    intro r hr he
    rw [show b.envelope = some q from hq] at he
    cases he
    exact hr rfl
  refine ⟨h', hw, ⟨⟨?_, ?_, hs.on.margin, hs.on.flat⟩, ?_, hs.free, hs.platform, ?_⟩⟩
  · show h'[p]? = _
    rw [k1 p (hne p hqp.symm)]
    exact hs.on.obj
  · obtain ⟨q', env', h1, h2, h3⟩ := hs.on.envelope
    obtain ⟨env'', h4⟩ := k2 q' env' h3
    exact ⟨q', env'', h1, h2, h4⟩
  · intro r hr
    obtain ⟨el, ref, h1, h2⟩ := hs.ready r hr
    refine ⟨el, ref, ?_, h2⟩
    show h'[r]? = _
    rw [k1 r (hne r fun he => hql (he ▸ hr))]
    exact h1
  · obtain ⟨env', h4⟩ := k2 q env henv
    exact ⟨q, env', hqp, hql, hq, h4⟩

/-- C80: had `update()` been called. The platform never enters its obstacle, whatever the guard sees and wants, for every
number of iterations, if the platform has no noise and the speed of the guard is limited so that the steps are
short. -/
theorem C80_updated_partial (c : GuardLoop ℝ) (ep eg : Env) (e : Ellipsoid ℝ) (p : Ptr) (m l L κ V : ℝ) (k : ℕ)
    (hc : LoopSetup c.platform ep e p m l k e.base.position) (hrep : c.platform.addRepulsion = true)
    (hb : Between e m l L) (hκ : Aspect l L κ k) (hV : c.guard.maxVel = some V) (hV0 : 0 ≤ V)
    (hl : 121 / 10 ^ 6 * k < l) (hstep : 2 * k * (c.platform.dt * (V + 22 / 10 ^ 8 * (κ * V))) < l)
    (hsmall : 22 / 10 * (k * (1 / 10 ^ 8 * (κ * V))) ≤ l) (noise : ℕ → Noise ℝ)
    (hn : ∀ i, (noise i).platform = V3.zero) (n : ℕ) (s : Duo ℝ) (hs : OnDuo e p m eg s)
    (h0 : 1 < gdist e m s.platform.state.position) :
    ∃ s', c.run ep eg noise n s = .ok s' ∧ OnDuo e p m eg s' ∧ 1 < gdist e m s'.platform.state.position := by
  induction n with
  | zero => exact ⟨s, rfl, hs, h0⟩
  | succ n ih =>
    obtain ⟨s, hrun, hs, h0⟩ := ih
    have hcen : gdist e m e.base.position = 0 := gdist_centre hc.smooth
    obtain ⟨k1, w1, o1⟩ := onDuo_guard hs (s.guard.state.setLinearVelocity (c.guard.desired s.guard.state.position))
    obtain ⟨k2, v2, w2, ready2⟩ := C61_total k1
      { s.guard with state := s.guard.state.setLinearVelocity (c.guard.desired s.guard.state.position) } eg
      c.guard.isLocal c.guard.addRepulsion c.guard.planar c.guard.critical c.guard.power o1.ready (by
        intro _
        obtain ⟨q, env, -, -, h1, h2⟩ := o1.guard
        exact ⟨q, env, h1, h2⟩)
    have keep := modulate_heap _ _ _ _ _ _ _ _ _ w2
    simp only at keep
    set w := c.guard.limit v2 with hw
    have on2 : OnLoop e p m (k2, s.platform) := by
      obtain ⟨q, env, h1, h2, h3⟩ := o1.on.envelope
      refine ⟨by rw [show (k2, s.platform).1 = k2 from rfl, keep p hs.free]; exact o1.on.obj, ⟨q, env, h1, h2, ?_⟩,
        hs.on.margin, hs.on.flat⟩
      show k2[q]? = _
      rw [keep q (hs.platform q h2)]
      exact h3
    have hwn : V3.norm (⟨w.x, w.y, 0⟩ : V3 ℝ) ≤ V := le_trans (norm_flatten_le w) (limit_le c.guard V hV hV0 v2)
    obtain ⟨s3, w3, on3, out3⟩ := iterate_out hc hrep (by rw [hcen]; linarith) on2 h0 ⟨w.x, w.y, 0⟩ rfl (by
      intro M B d hm
      obtain ⟨M', B', hm', hM⟩ := C75_speed_partial k2 s.platform e k l L κ (by rw [on2.margin]; exact hc.smooth)
        (by rw [on2.margin]; exact hb) hκ hc.ref (hc.inPlane on2.flat) (by rw [on2.margin]; linarith)
      rw [hm] at hm'
      simp only [Res.ok.injEq, Prod.mk.injEq] at hm'
      obtain ⟨rfl, -, -⟩ := hm'
      have hMv := hM ⟨w.x, w.y, 0⟩
      have hκ0 := hκ.1
      have hMV : V3.norm (M.mulVec ⟨w.x, w.y, 0⟩) ≤ 2 * (κ * V) := by nlinarith
      have hk0 : (0 : ℝ) ≤ k := Nat.cast_nonneg k
      constructor
      · refine lt_of_le_of_lt (mul_le_mul_of_nonneg_left (mul_le_mul_of_nonneg_left ?_ hc.dt) (by positivity)) hstep
        linarith
      · rw [hcen]
        have h5 := mul_le_mul_of_nonneg_left hMV hk0
        linarith)
    unfold Loop.iterate at w3
    obtain ⟨s2', w4, w3⟩ := Res.bind_eq_ok.mp w3
    obtain ⟨r2, w5, w3⟩ := Res.bind_eq_ok.mp w3
    have e2 := withState_state (a' := s2'.2) (h' := s2'.1) w4
    have e3 := withState_state (a' := s3.2) (h' := s3.1) w3
    obtain ⟨a1, a2⟩ := withState_heap (h' := s2'.1) (a' := s2'.2) w4
    obtain ⟨b1, b2⟩ := withState_heap (h' := s3.1) (a' := s3.2) w3
    have b0 := modulate_heap _ _ _ _ _ _ _ _ _ w5
    rw [hc.list] at b0
    have henv2 : s2'.2.envelope = s.platform.envelope := by rw [e2]
    have henv3 : s3.2.envelope = s.platform.envelope := by rw [e3, e2]
    have o3 : OnDuo e p m eg ⟨s3.1, s3.2, (
        { s.guard with state := s.guard.state.setLinearVelocity (c.guard.desired s.guard.state.position) } : Agent ℝ)⟩ := by
      refine ⟨on3, ?_, hs.free, fun q hq => hs.platform q (henv3 ▸ hq), ?_⟩
      · intro r hr
        obtain ⟨el, ref, h1, h2⟩ := ready2 r hr
        refine ⟨el, ref, ?_, h2⟩
        show s3.1[r]? = _
        rw [b1 r (fun he => hs.platform r (henv2 ▸ he) hr), b0 r (by
          rw [List.mem_singleton]; rintro rfl; exact hs.free hr), a1 r (fun he => hs.platform r he hr)]
        exact h1
      · obtain ⟨q, env, hqp, hql, hq, henv⟩ := o1.guard
        obtain ⟨env1, h1⟩ := a2 q env (by rw [keep q hql]; exact henv)
        obtain ⟨env2, h2⟩ := b2 q env1 (by rw [b0 q (by rw [List.mem_singleton]; exact hqp)]; exact h1)
        exact ⟨q, env2, hqp, hql, hq, h2⟩
    obtain ⟨k4, w6, o4⟩ := onDuo_guard o3 ((s.guard.state.setLinearVelocity (c.guard.desired s.guard.state.position)).setPosition
      ⟨(s3.2.state.pose.apply c.transform).x, (s3.2.state.pose.apply c.transform).y,
        s.guard.state.position.z + c.guard.dt * w.z + (noise n).guard⟩)
    refine ⟨_, ?_, o4, out3⟩
    rw [GuardLoop.run, hrun]
    show c.iterate ep eg (noise n) s = _
    unfold GuardLoop.iterate
    rw [← Agent.setLinearVelocity] at w1
    rw [← Agent.setPosition] at w6
    have hz : ∀ v : V3 ℝ, v + V3.zero = v := by intro v; ext <;> simp [V3.zero]
    simp only [w1, Res.ok_bind, w2, ← hw]
    rw [w4]
    simp only [Res.ok_bind]
    rw [w5]
    simp only [Res.ok_bind, hn n, hz]
    rw [show Agent.setPosition r2.1 s2'.2 (s.platform.state.position + V3.smul c.platform.dt (c.platform.limit r2.2)) =
      .ok s3 from w3]
    simp only [Res.ok_bind]
    rw [w6]
    rfl

/-! ### A repaired program -/

/-- The loop of the program with another speed limit for the guard. -/
noncomputable def repairedGuardLoop (t : V3 ℝ) : GuardLoop ℝ :=
  { Guard.loop t with guard := { (Guard.loop t).guard with maxVel := some 30 } }

/-- The program with two calls of `update()` after line 53 and the other speed limit. -/
noncomputable def repairedGuard (t q : V3 ℝ) (noise : ℕ → Noise ℝ) (n : ℕ) : Res (Duo ℝ) := do
  let ep ← Guard.platformEnv (Guard.heap (α := ℝ))
  let eg ← Guard.guardEnv (Guard.heap (α := ℝ))
  let u ← ep.update (Guard.heap (α := ℝ))
  let w ← eg.update u.1
  (repairedGuardLoop t).run u.2 w.2 noise n { Guard.start q with heap := w.1 ++ (Guard.start q).heap.drop 2 }

theorem repairedGuard_envs : ∃ ep eg ep' eg', Guard.platformEnv (Guard.heap (α := ℝ)) = .ok ep ∧
    Guard.guardEnv (Guard.heap (α := ℝ)) = .ok eg ∧ ep.update (Guard.heap (α := ℝ)) = .ok (Guard.heap, ep') ∧
    eg.update (Guard.heap (α := ℝ)) = .ok (Guard.heap, eg') ∧ ep'.list = [0] ∧ eg'.list = [1] :=
  ⟨_, _, _, _, rfl, rfl, by simp [Env.update, Env.mk']; rfl, by simp [Env.update, Env.mk']; rfl, rfl, rfl⟩

theorem platform_pose : (Guard.platformObstacle : Ellipsoid ℝ).base.pose = ⟨V3.zero, Quat.one⟩ := guard_pose

theorem platform_lengths : halfLengths (Guard.platformObstacle : Ellipsoid ℝ) (V3.const 0) = ⟨3 / 2, 3 / 2, 3 / 2⟩ := by
  ext <;> norm_num [halfLengths, Guard.platformObstacle, Ellipsoid.ofBase, Base.mkState, V3.const]

theorem platform_smooth : Smooth (Guard.platformObstacle : Ellipsoid ℝ) 0 2 := by
  refine ⟨by simp [HasCurv, Guard.platformObstacle], ?_, by rw [platform_lengths]; norm_num [AllGt],
    Or.inr (by rw [platform_lengths]; exact ⟨rfl, rfl⟩)⟩
  show (Guard.platformObstacle : Ellipsoid ℝ).base.pose.orientation.norm = 1
  rw [platform_pose]
  simp [Quat.norm, Quat.sqNorm, Quat.one, CMath.sqrt]

/-- C80: with the calls of `update()`, a speed limit of 30 for the guard and no noise in the position of the platform,
the platform never enters its obstacle, for every target, every noise of the guard and every number of
iterations. -/
theorem C80_repaired (t q : V3 ℝ) (hq : Within 1 q) (noise : ℕ → Noise ℝ) (hn : ∀ i, (noise i).platform = V3.zero)
    (n : ℕ) : ∃ s', repairedGuard t q noise n = .ok s' ∧
      1 < gdist (Guard.platformObstacle : Ellipsoid ℝ) 0 s'.platform.state.position := by
  obtain ⟨ep, eg, ep', eg', h1, h2, h3, h4, lp, lg⟩ := repairedGuard_envs
  obtain ⟨-, -, i3, i4⟩ := guard_start q
  have hpose := platform_pose
  have hset : LoopSetup (repairedGuardLoop t).platform ep' Guard.platformObstacle 0 0 (3 / 2) 2
      (Guard.platformObstacle : Ellipsoid ℝ).base.position := by
    refine ⟨lp, ⟨rfl, rfl⟩, ⟨?_, ?_, ?_, ?_, rfl, rfl, rfl⟩, platform_smooth, ?_, rfl, rfl, rfl, ?_, ?_⟩
    · rw [hpose]; rfl
    · rw [hpose]; rfl
    · rw [hpose]; rfl
    · intro v hv; cases hv; rfl
    · rw [Thick, platform_lengths]; norm_num
    · norm_num [repairedGuardLoop, Guard.loop]
    · intro v hv; cases hv; norm_num
  have hstart : OnDuo Guard.platformObstacle 0 0 eg'
      { Guard.start q with heap := Guard.heap ++ (Guard.start q).heap.drop 2 } := by
    refine ⟨⟨rfl, ⟨2, _, by decide, rfl, rfl⟩, rfl, ?_⟩, ?_, ?_, ?_, ⟨3, _, by decide, ?_, rfl, rfl⟩⟩
    · show (Guard.start q).platform.state.position.z = 0
      rw [i3]
    · rw [lg]
      intro p hp
      rw [List.mem_singleton] at hp
      subst hp
      exact ⟨Guard.guardObstacle, _, rfl, rfl⟩
    · rw [lg]; decide
    · rw [lg]
      intro r hr
      have : (Guard.start q).platform.envelope = some 2 := rfl
      rw [show (Guard.start q).platform.envelope = some 2 from rfl] at hr
      cases hr
      decide
    · rw [lg]; decide
  have hs2 : Real.sqrt 2 ≤ 2 := by rw [Real.sqrt_le_left (by norm_num)]; norm_num
  have hs0 : 0 < Real.sqrt 2 := Real.sqrt_pos.mpr (by norm_num)
  have hdt : (repairedGuardLoop t).platform.dt = 1 / 100 := by norm_num [repairedGuardLoop, Guard.loop]
  obtain ⟨s', r1, -, r2⟩ := C80_updated_partial (repairedGuardLoop t) ep' eg' Guard.platformObstacle 0 0 (3 / 2) (3 / 2)
    (Real.sqrt 2) 30 2 hset rfl ⟨by norm_num, by rw [platform_lengths], by rw [platform_lengths], by rw [platform_lengths],
      by rw [platform_lengths]⟩ ⟨hs0, Or.inr ⟨by decide, by rw [Real.sq_sqrt (by norm_num)]⟩⟩ rfl (by norm_num)
    (by norm_num) (by rw [hdt]; push_cast; linarith) (by push_cast; linarith) noise hn n _ hstart (by
      show 1 < gdist _ 0 (Guard.start q).platform.state.position
      rw [i3, guard_level Guard.platformObstacle ⟨3 / 2, 3 / 2, 3 / 2⟩ _ (by ext <;> simp [Guard.platformObstacle])
        platform_pose platform_lengths (by norm_num [AllGt])]
      simp only [level]
      have hx : 1 < ((-5 + q.x) / (3 / 2)) ^ (2 * 2) := by
        rw [show 2 * 2 = 4 from rfl, show ((-5 + q.x) / (3 / 2)) ^ 4 = ((5 - q.x) / (3 / 2)) ^ 4 by ring]
        have := (abs_le.mp hq.1).2
        exact one_lt_pow₀ (by rw [lt_div_iff₀ (by norm_num)]; linarith) (by norm_num)
      have hy : 0 ≤ ((-1 + q.y) / (3 / 2)) ^ (2 * 2) := (show Even (2 * 2) by decide).pow_nonneg _
      have hz : 0 ≤ ((0 : ℝ) / (3 / 2)) ^ (2 * 2) := (show Even (2 * 2) by decide).pow_nonneg _
      linarith)
  refine ⟨s', ?_, r2⟩
  unfold repairedGuard
  rw [h1, h2]
  simp only [Res.ok_bind]
  rw [h3]
  simp only [Res.ok_bind]
  rw [h4]
  exact r1

end DOA.Props
