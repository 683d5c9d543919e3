import Verif.Lemmas.Faster
import Verif.Props.UnitsHull
import Verif.Props.Several

/-!
# C98 for the unit of time

All kinds of obstacles, also thin, with any exponents, and moving hulls; all options except `add_repulsion`.
-/

set_option linter.unusedSimpArgs false

namespace DOA.Props
open DOA DOA.Spec DOA.Modulation

/-- C98, the part that holds for the unit of time: without repulsion, but with `is_local` and planar modulation, for obstacles
of all kinds, shapes and motions. The speeds of agent and obstacles times `μ` give the velocity times `μ`. The outcome is the
same also if it is an exception or undefined behaviour.
Full statement (false, see `C98_negation`): also with the repulsion. -/
theorem C98_time_partial {μ : ℝ} (hμ : 0 < μ) (h : Heap ℝ) (a : Agent ℝ) (E : Env) (loc planar : Bool) (critical power : ℝ) :
    modulateVelocity (fasterHeap μ h) (fasterAgent μ a) E loc false planar critical power =
      modulateVelocity h a E loc false planar critical power >>= fun r => .ok (fasterHeap μ r.1, V3.smul μ r.2) := by
  have e1 : (fasterAgent μ a).state.position = a.state.position := rfl
  have e2 : (fasterAgent μ a).state.linearVelocity = V3.smul μ a.state.linearVelocity := rfl
  have e3 : (fasterAgent μ a).envelope = a.envelope := rfl
  simp only [modulateVelocity, e1, e2, finish, Bool.false_eq_true, if_false, Res.ok_bind]
  cases hl : E.list.isEmpty with
  | true => rfl
  | false =>
    simp only [if_false, Bool.false_eq_true]
    have rest : ∀ s : Bool, (if (!s) = true then Res.ok (fasterHeap μ h, V3.smul μ a.state.linearVelocity) else do
          let r ← collect planar (fasterAgent μ a) (fasterHeap μ h) E.list
          Res.ok (r.1, combine a.state.position (V3.smul μ a.state.linearVelocity) r.2 critical power)) =
        (if (!s) = true then Res.ok (h, a.state.linearVelocity) else do
          let r ← collect planar a h E.list
          Res.ok (r.1, combine a.state.position a.state.linearVelocity r.2 critical power)) >>=
          fun r => .ok (fasterHeap μ r.1, V3.smul μ r.2) := by
      intro s
      cases s with
      | false => rfl
      | true =>
        simp only [Bool.not_true, if_false, Bool.false_eq_true, collect_faster hμ, bind_ok, combine_faster hμ]
    cases loc with
    | false =>
      simp only [if_false, Bool.false_eq_true, Res.ok_bind]
      exact rest true
    | true =>
      simp only [if_true, Agent.getEnvelope, e3]
      cases a.envelope with
      | none => rfl
      | some q =>
        simp only [deref_faster, bind_ok, isIntersectingList_faster]
        cases h.deref q with
        | throw e => rfl
        | ub u => rfl
        | ok o =>
          simp only [Res.ok_bind]
          cases h.isIntersectingList o E.list with
          | throw e => rfl
          | ub u => rfl
          | ok s => exact rest s

/-- C98, the unit of time with the repulsion: the modulated velocity is converted, the repulsion `out - mv` is not, for
obstacles of all kinds and motions. So the repulsion is all that depends on the unit of time. -/
theorem C98_time_repulsion_partial {h h' : Heap ℝ} {a : Agent ℝ} {E : Env} {loc planar : Bool} {critical power : ℝ} {out : V3 ℝ}
    (ho : modulateVelocity h a E loc true planar critical power = .ok (h', out)) :
    ∃ mv, modulateVelocity h a E loc false planar critical power = .ok (h', mv) ∧
      ∀ μ : ℝ, 0 < μ → modulateVelocity (fasterHeap μ h) (fasterAgent μ a) E loc true planar critical power =
        .ok (fasterHeap μ h', V3.smul μ mv + (out - mv)) := by
  have hself : ∀ u v : V3 ℝ, u = u + (v - v) := fun u v => by v3_ring
  have hadd : ∀ u v r : V3 ℝ, u + r = u + (v + r - v) := fun u v r => by v3_ring
  have hnan : ∀ v : V3 ℝ, v.hasNaN = false := fun v => by simp [V3.hasNaN]
  have e1 : ∀ μ, (fasterAgent μ a).state.position = a.state.position := fun _ => rfl
  have e2 : ∀ μ, (fasterAgent μ a).state.linearVelocity = V3.smul μ a.state.linearVelocity := fun _ => rfl
  have e3 : ∀ μ, sightOf (fasterHeap μ h) (fasterAgent μ a) loc E.list = sightOf h a loc E.list := by
    intro μ
    cases loc with
    | false => rfl
    | true =>
      have e0 : (fasterAgent μ a).envelope = a.envelope := rfl
      simp only [sightOf, Agent.getEnvelope, e0]
      cases a.envelope with
      | none => rfl
      | some q => simp only [deref_faster, bind_ok, isIntersectingList_faster]
  have hf := modulateVelocity_eq h a E loc false planar critical power
  rw [modulateVelocity_eq] at ho
  simp only [modulateVelocity_eq (fasterHeap _ h), e1, e2, e3]
  by_cases hl : E.list.isEmpty = true
  · rw [if_pos hl] at ho hf
    cases ho
    refine ⟨_, hf, fun μ _ => ?_⟩
    rw [if_pos hl, ← hself]
  rw [if_neg hl] at ho hf
  simp only [if_neg hl]
  obtain ⟨b, hb, ho⟩ := Res.bind_eq_ok.mp ho
  rw [hb, Res.ok_bind] at hf
  simp only [hb, Res.ok_bind]
  cases b with
  | false =>
    simp only [Bool.false_eq_true, if_false] at ho hf ⊢
    cases ho
    refine ⟨_, hf, fun μ _ => ?_⟩
    rw [← hself]
  | true =>
    simp only [if_true] at ho hf ⊢
    obtain ⟨r, hr, ho⟩ := Res.bind_eq_ok.mp ho
    rw [hr, Res.ok_bind] at hf
    simp only [repOf, Res.ok_bind] at ho hf ⊢
    obtain ⟨rp, hrp, ho⟩ := Res.bind_eq_ok.mp ho
    obtain ⟨R, hR, hrp⟩ := Res.bind_eq_ok.mp hrp
    cases hrp
    cases ho
    refine ⟨_, hf, fun μ hμ => ?_⟩
    have hc := collect_faster hμ planar a E.list h
    rw [hr, Res.ok_bind] at hc
    rw [hc, Res.ok_bind]
    simp only [repulsionSum_faster, hR, Res.ok_bind, combine_faster hμ, finish, hnan, Bool.false_eq_true, if_false]
    split
    · rw [← hadd]
    · rw [← hself]

theorem desired_faster (μ : ℝ) (c : Loop ℝ) (x : V3 ℝ) : (fasterLoop μ c).desired x = V3.smul μ (c.desired x) := by
  show V3.smul (-(c.gain * μ)) (x - c.target) = V3.smul μ (V3.smul (-c.gain) (x - c.target))
  rw [V3.smul_smul']
  congr 1
  ring

theorem limit_faster {μ : ℝ} (hμ : 0 < μ) (c : Loop ℝ) (v : V3 ℝ) :
    (fasterLoop μ c).limit (V3.smul μ v) = V3.smul μ (c.limit v) := by
  unfold Loop.limit fasterLoop
  cases c.maxVel with
  | none => rfl
  | some M =>
    simp only [Option.map_some, V3.norm_smul_pos hμ, V3.normalized_smul_pos hμ, mul_lt_mul_iff_right₀ hμ]
    split
    · rw [V3.smul_smul']
    · rfl

theorem step_faster {μ : ℝ} (hμ : 0 < μ) (c : Loop ℝ) (v : V3 ℝ) :
    V3.smul (fasterLoop μ c).dt (V3.smul μ v) = V3.smul c.dt v := by
  rw [V3.smul_smul']
  congr 1
  simp only [fasterLoop]
  field_simp

theorem iterate_faster {μ : ℝ} (hμ : 0 < μ) (c : Loop ℝ) (hr : c.addRepulsion = false) (E : Env) (v : V3 ℝ) (h : Heap ℝ)
    (a : Agent ℝ) : (fasterLoop μ c).iterate E (V3.smul μ v) (fasterHeap μ h, fasterAgent μ a) =
      c.iterate E v (h, a) >>= fun r => .ok (fasterHeap μ r.1, fasterAgent μ r.2) := by
  have hr' : (fasterLoop μ c).addRepulsion = false := hr
  have f1 : (fasterAgent μ a).state.setLinearVelocity (V3.smul μ v) = fasterState μ (a.state.setLinearVelocity v) := rfl
  have f2 : (fasterLoop μ c).isLocal = c.isLocal ∧ (fasterLoop μ c).planar = c.planar ∧
    (fasterLoop μ c).critical = c.critical ∧ (fasterLoop μ c).power = c.power := ⟨rfl, rfl, rfl, rfl⟩
  simp only [Loop.iterate, Agent.setLinearVelocity, f1, withState_faster hμ, bind_ok, hr, hr', f2.1, f2.2.1, f2.2.2.1, f2.2.2.2]
  cases a.withState h (a.state.setLinearVelocity v) with
  | throw e => rfl
  | ub u => rfl
  | ok s =>
    simp only [Res.ok_bind, C98_time_partial hμ, bind_ok]
    cases modulateVelocity s.1 s.2 E c.isLocal false c.planar c.critical c.power with
    | throw e => rfl
    | ub u => rfl
    | ok r =>
      simp only [Res.ok_bind]
      rw [limit_faster hμ, step_faster hμ]
      exact withState_faster hμ r.1 s.2 (s.2.state.setPosition (a.state.position + V3.smul c.dt (c.limit r.2)))

/-- C98, the control loop with another unit of time: after any number of iterations the agent is at the same place, among
obstacles of all kinds, with `is_local` and planar modulation as one likes, without repulsion. -/
theorem C98_time_loop_partial {μ : ℝ} (hμ : 0 < μ) (c : Loop ℝ) (hr : c.addRepulsion = false) (E : Env) :
    ∀ (n : ℕ) (h : Heap ℝ) (a : Agent ℝ), (fasterLoop μ c).run E n (fasterHeap μ h, fasterAgent μ a) =
      c.run E n (h, a) >>= fun r => .ok (fasterHeap μ r.1, fasterAgent μ r.2)
  | 0, _, _ => rfl
  | n + 1, h, a => by
    have e1 : (fasterAgent μ a).state.position = a.state.position := rfl
    simp only [Loop.run, e1, desired_faster, iterate_faster hμ c hr, bind_ok]
    cases c.iterate E (c.desired a.state.position) (h, a) with
    | throw e => rfl
    | ub u => rfl
    | ok s => exact C98_time_loop_partial hμ c hr E n s.1 s.2

/-- The path itself: two runs that both end have their agents at the same place. -/
theorem C98_time_path_partial {μ : ℝ} (hμ : 0 < μ) (c : Loop ℝ) (hr : c.addRepulsion = false) (E : Env) (n : ℕ) (h : Heap ℝ)
    (a : Agent ℝ) {s : Heap ℝ × Agent ℝ} (hs : c.run E n (h, a) = .ok s) :
    ∃ s', (fasterLoop μ c).run E n (fasterHeap μ h, fasterAgent μ a) = .ok s' ∧
      s'.2.state.position = s.2.state.position ∧ s'.2.state.linearVelocity = V3.smul μ s.2.state.linearVelocity := by
  rw [C98_time_loop_partial hμ c hr, hs]
  exact ⟨_, rfl, rfl, rfl⟩

/-! ### The other loops -/

/-- C98, the loop that mixes in the previous velocity (testSingleConfiguration.cpp, test3D.cpp). -/
theorem C98_time_mixed_partial {μ : ℝ} (hμ : 0 < μ) (c : Loop ℝ) (hr : c.addRepulsion = false) (E : Env) :
    ∀ (n : ℕ) (prev : Option (V3 ℝ)) (h : Heap ℝ) (a : Agent ℝ),
    (fasterLoop μ c).runMixed E n (prev.map (V3.smul μ)) (fasterHeap μ h, fasterAgent μ a) =
      c.runMixed E n prev (h, a) >>= fun r => .ok (fasterHeap μ r.1, fasterAgent μ r.2)
  | 0, _, _, _ => rfl
  | n + 1, none, h, a => rfl
  | n + 1, some p, h, a => by
    have e1 : (fasterAgent μ a).state.position = a.state.position := rfl
    have e2 : V3.smul (lit 8 10) (V3.smul μ (c.desired a.state.position)) + V3.smul (lit 2 10) (V3.smul μ p) =
        V3.smul μ (V3.smul (lit 8 10) (c.desired a.state.position) + V3.smul (lit 2 10) p) := by
      ext <;> simp only [V3.smul, V3.add_x, V3.add_y, V3.add_z] <;> ring
    simp only [Loop.runMixed, Option.map_some, e1, desired_faster, e2, iterate_faster hμ c hr, bind_ok]
    cases c.iterate E (V3.smul (lit 8 10) (c.desired a.state.position) + V3.smul (lit 2 10) p) (h, a) with
    | throw e => rfl
    | ub u => rfl
    | ok s => exact C98_time_mixed_partial hμ c hr E n (some (c.desired a.state.position)) s.1 s.2

theorem iterateWall_faster {μ : ℝ} (hμ : 0 < μ) (c : Loop ℝ) (hr : c.addRepulsion = false) (E : Env) (h : Heap ℝ)
    (a : Agent ℝ) : (fasterLoop μ c).iterateWall E (fasterHeap μ h, fasterAgent μ a) =
      c.iterateWall E (h, a) >>= fun r => .ok (fasterHeap μ r.1, fasterAgent μ r.2) := by
  have e1 : (fasterAgent μ a).state.position = a.state.position := rfl
  have e3 : (fasterLoop μ c).target = c.target := rfl
  simp only [Loop.iterateWall, existPath_faster, e1, e3, desired_faster]
  cases a.existPath h c.target E.list with
  | throw e => rfl
  | ub u => rfl
  | ok b =>
    cases b with
    | false =>
      have := withState_faster hμ h a (a.state.setLinearVelocity V3.zero)
      have e4 : fasterState μ (a.state.setLinearVelocity V3.zero) = (fasterAgent μ a).state.setLinearVelocity V3.zero := by
        show ({ fasterState μ a.state with linearVelocity := V3.smul μ V3.zero } : State ℝ) = _
        rw [V3.smul_zero']; rfl
      rw [e4] at this
      exact this
    | true =>
      have e2 : V3.smul (lit 9 10) (V3.smul μ (c.desired a.state.position)) + V3.smul (lit 1 10) V3.zero =
          V3.smul μ (V3.smul (lit 9 10) (c.desired a.state.position) + V3.smul (lit 1 10) V3.zero) := by
        ext <;> simp only [V3.smul, V3.add_x, V3.add_y, V3.add_z, V3.zero] <;> ring
      have f1 : ∀ v, (fasterAgent μ a).state.setLinearVelocity (V3.smul μ v) =
        fasterState μ (a.state.setLinearVelocity v) := fun _ => rfl
      simp only [Res.ok_bind, if_true, Agent.setLinearVelocity, e2, f1, withState_faster hμ, bind_ok, iterate_faster hμ c hr]
      cases a.withState h (a.state.setLinearVelocity
          (V3.smul (lit 9 10) (c.desired a.state.position) + V3.smul (lit 1 10) V3.zero)) with
      | throw e => rfl
      | ub u => rfl
      | ok s => rfl

/-- C98, the loop that moves only where `exist_path` finds a path (testWall.cpp). -/
theorem C98_time_wall_partial {μ : ℝ} (hμ : 0 < μ) (c : Loop ℝ) (hr : c.addRepulsion = false) (E : Env) :
    ∀ (n : ℕ) (h : Heap ℝ) (a : Agent ℝ), (fasterLoop μ c).runWall E n (fasterHeap μ h, fasterAgent μ a) =
      c.runWall E n (h, a) >>= fun r => .ok (fasterHeap μ r.1, fasterAgent μ r.2)
  | 0, _, _ => rfl
  | n + 1, h, a => by
    simp only [Loop.runWall, iterateWall_faster hμ c hr, bind_ok]
    cases c.iterateWall E (h, a) with
    | throw e => rfl
    | ub u => rfl
    | ok s => exact C98_time_wall_partial hμ c hr E n s.1 s.2

theorem iterateMoving_faster {μ : ℝ} (hμ : 0 < μ) (c : Loop ℝ) (hr : c.addRepulsion = false) (E : Env) (k : String)
    (goal : V3 ℝ) (h : Heap ℝ) (a : Agent ℝ) :
    (fasterLoop μ c).iterateMoving E k goal (fasterHeap μ h, fasterAgent μ a) =
      c.iterateMoving E k goal (h, a) >>= fun r => .ok (fasterHeap μ r.1, fasterAgent μ r.2) := by
  have hr' : (fasterLoop μ c).addRepulsion = false := hr
  have f2 : (fasterLoop μ c).isLocal = c.isLocal ∧ (fasterLoop μ c).planar = c.planar ∧
    (fasterLoop μ c).critical = c.critical ∧ (fasterLoop μ c).power = c.power := ⟨rfl, rfl, rfl, rfl⟩
  have e1 : (fasterAgent μ a).state.position = a.state.position := rfl
  have f1 : ∀ v, (fasterAgent μ a).state.setLinearVelocity (V3.smul μ v) =
    fasterState μ (a.state.setLinearVelocity v) := fun _ => rfl
  have f3 : ∀ (a : Agent ℝ) (x : V3 ℝ), (fasterAgent μ a).state.setPosition x = fasterState μ (a.state.setPosition x) :=
    fun _ _ => rfl
  have hw : ∀ d : V3 ℝ, V3.smul (-(fasterLoop μ c).gain) d = V3.smul μ (V3.smul (-c.gain) d) := by
    intro d
    rw [V3.smul_smul']
    congr 1
    show -(c.gain * μ) = _
    ring
  have hpos : ∀ o : Obj ℝ, (faster μ o).position = o.position := fun o => by cases o <;> rfl
  have hm1 : ∀ (o : Obj ℝ) (w : V3 ℝ), (faster μ o).mapBase (·.setLinearVelocity (V3.smul μ w)) =
      faster μ (o.mapBase (·.setLinearVelocity w)) := fun o w => by cases o <;> rfl
  have hm2 : ∀ (o : Obj ℝ) (x : V3 ℝ), (faster μ o).mapBase (·.setPosition x) = faster μ (o.mapBase (·.setPosition x)) :=
    fun o x => by cases o <;> rfl
  simp only [Loop.iterateMoving, lookup_faster, hr, hr', f2.1, f2.2.1, f2.2.2.1, f2.2.2.2, e1, desired_faster]
  cases E.lookup h k with
  | throw e => rfl
  | ub u => rfl
  | ok p =>
    simp only [Res.ok_bind, deref_faster, bind_ok]
    cases h.deref p with
    | throw e => rfl
    | ub u => rfl
    | ok o =>
      simp only [Res.ok_bind, Agent.setLinearVelocity, f1, withState_faster hμ, bind_ok, hpos, hw, step_faster hμ]
      cases a.withState h (a.state.setLinearVelocity (c.desired a.state.position)) with
      | throw e => rfl
      | ub u => rfl
      | ok s1 =>
        simp only [Res.ok_bind, deref_faster, bind_ok]
        cases s1.1.deref p with
        | throw e => rfl
        | ub u => rfl
        | ok o1 =>
          simp only [Res.ok_bind, hm1, set_faster, C98_time_partial hμ, bind_ok]
          cases modulateVelocity (s1.1.set p (o1.mapBase (·.setLinearVelocity (V3.smul (-c.gain) (o.position - goal))))) s1.2 E
              c.isLocal false c.planar c.critical c.power with
          | throw e => rfl
          | ub u => rfl
          | ok r =>
            simp only [Res.ok_bind, Agent.setPosition, limit_faster hμ, step_faster hμ, f3, withState_faster hμ, bind_ok]
            cases s1.2.withState r.1 (s1.2.state.setPosition (a.state.position + V3.smul c.dt (c.limit r.2))) with
            | throw e => rfl
            | ub u => rfl
            | ok s2 =>
              simp only [Res.ok_bind, deref_faster, bind_ok]
              cases s2.1.deref p with
              | throw e => rfl
              | ub u => rfl
              | ok o2 =>
                simp only [Res.ok_bind, hm2, set_faster, Heap.setRef, fuel_faster, setRefAux_faster, bind_ok]

/-- C98, the loop with a moving obstacle (testMovingObstacle.cpp): agent and obstacle keep their paths. -/
theorem C98_time_moving_partial {μ : ℝ} (hμ : 0 < μ) (c : Loop ℝ) (hr : c.addRepulsion = false) (E : Env) (k : String)
    (goal : V3 ℝ) : ∀ (n : ℕ) (h : Heap ℝ) (a : Agent ℝ),
    (fasterLoop μ c).runMoving E k goal n (fasterHeap μ h, fasterAgent μ a) =
      c.runMoving E k goal n (h, a) >>= fun r => .ok (fasterHeap μ r.1, fasterAgent μ r.2)
  | 0, _, _ => rfl
  | n + 1, h, a => by
    simp only [Loop.runMoving, iterateMoving_faster hμ c hr, bind_ok]
    cases c.iterateMoving E k goal (h, a) with
    | throw e => rfl
    | ub u => rfl
    | ok s => exact C98_time_moving_partial hμ c hr E k goal n s.1 s.2

/-! ### Examples -/

/-- A hull that moves, at twice the speed: the agent is commanded twice the velocity (see `C98_negation_moving_hull`). -/
example (critical power : ℝ) : ∃ (h : Heap ℝ) (a : Agent ℝ) (out : V3 ℝ), out ≠ V3.zero ∧
    modulateVelocity h a (envOf [0]) false false false critical power = .ok (h, out) ∧
    modulateVelocity (fasterHeap 2 h) (fasterAgent 2 a) (envOf [0]) false false false critical power =
      .ok (fasterHeap 2 h, V3.smul 2 out) := by
  obtain ⟨U, h, a, a', out, -, -, h1, h2⟩ := C98_negation_moving_hull
  refine ⟨h, a, out, h1, (h2 critical power).1, ?_⟩
  rw [C98_time_partial two_pos, (h2 critical power).1]
  rfl

/-- The scene of `C98_negation`: the push is (2,0,0) in all units of time. -/
example : ∃ (h : Heap ℝ) (a : Agent ℝ) (out mv : V3 ℝ), out = ⟨2, 0, 0⟩ ∧
    modulateVelocity h a (envOf [0]) false true false 1 2 = .ok (h, out) ∧
    ∀ μ : ℝ, 0 < μ → modulateVelocity (fasterHeap μ h) (fasterAgent μ a) (envOf [0]) false true false 1 2 =
      .ok (fasterHeap μ h, V3.smul μ mv + (out - mv)) := by
  obtain ⟨U, h, a, out, -, -, -, -, h1, h2, -⟩ := C98_negation
  obtain ⟨mv, -, h3⟩ := C98_time_repulsion_partial h1
  exact ⟨h, a, out, mv, h2, h1, h3⟩

/-- A step of a loop, counted in minutes. -/
example : ∃ s s', passer.run (envOf [0]) 1 (discWithTwo, agentOf ⟨-2, 3 / 5, 0⟩ 2) = .ok s ∧
    (fasterLoop 60 passer).run (envOf [0]) 1 (fasterHeap 60 discWithTwo, fasterAgent 60 (agentOf ⟨-2, 3 / 5, 0⟩ 2)) = .ok s' ∧
    s'.2.state.position = s.2.state.position := by
  obtain ⟨h1, a1, e, -⟩ := passer_step
  obtain ⟨s', e', hp, -⟩ := C98_time_path_partial (μ := 60) (by norm_num) passer rfl (envOf [0]) 1 _ _ e
  exact ⟨_, s', e, e', hp⟩

end DOA.Props
