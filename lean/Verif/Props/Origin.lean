import Verif.Lemmas.OriginLoop
import Verif.Props.Aggregation

/-!
# C99 the origin of the coordinates
-/

namespace DOA.Props
open DOA DOA.Spec DOA.Modulation DOA.Ellipsoid DOA.Aggregation DOA.Origin
set_option linter.unusedSectionVars false
set_option linter.unusedSimpArgs false
set_option linter.unnecessarySeqFocus false

/-- C99, the queries: for obstacles of all kinds, aggregates and nestings of them included, distances, tests for inside,
normals, repulsions and modulation matrices are the same from every origin, or fail in the same way. -/
theorem C99_queries (t : V3 ℝ) (h : Heap ℝ) (o : Obj ℝ) (x m : V3 ℝ) (r s : ℝ) (a : Agent ℝ) :
    (movedHeap t h).distanceToPoint (movedObj t o) (x + t) m = h.distanceToPoint o x m ∧
    (movedHeap t h).pointIsInside (movedObj t o) (x + t) = h.pointIsInside o x ∧
    (movedHeap t h).normalToAgent (movedObj t o) (x + t) r = h.normalToAgent o x r ∧
    (movedHeap t h).generateRepulsion (movedObj t o) (x + t) r s = h.generateRepulsion o x r s ∧
    modulationMatrix (movedHeap t h) (movedAgent t a) (movedObj t o) = modulationMatrix h a o :=
  ⟨distance_moved t h o x m, inside_moved t h o x, normal_moved t h o x r, generate_moved t h o x r s, matrix_moved t h a o⟩

/-- C99, the tests of the agent: `in_obstacle` and `exist_path` do not depend on the origin. -/
theorem C99_tests (t : V3 ℝ) (h : Heap ℝ) (a : Agent ℝ) (o : Obj ℝ) (target : V3 ℝ) (l : List Ptr) :
    (movedAgent t a).inObstacle (movedHeap t h) (movedObj t o) = a.inObstacle h o ∧
    (movedAgent t a).existPath (movedHeap t h) (target + t) l = a.existPath h target l := by
  refine ⟨inObstacle_moved t h a o, ?_⟩
  have key : ∀ acc : Bool, l.foldlM (fun acc q => do
      let o ← (movedHeap t h).deref q
      let b ← Agent.pathTest (movedHeap t h) (movedAgent t a).state.position (target + t) o
      Res.ok (acc && b)) acc = l.foldlM (fun acc q => do
      let o ← h.deref q
      let b ← Agent.pathTest h a.state.position target o
      Res.ok (acc && b)) acc := by
    induction l with
    | nil => intro acc; rfl
    | cons p l ih =>
      intro acc
      simp only [List.foldlM_cons]
      rw [deref_moved]
      cases h.deref p with
      | throw x => rfl
      | ub u => rfl
      | ok o =>
        simp only [Res.map_ok, Res.ok_bind]
        have : Agent.pathTest (movedHeap t h) (movedAgent t a).state.position (target + t) (movedObj t o) =
            Agent.pathTest h a.state.position target o := by
          simp only [Agent.pathTest, agentPosition_moved, inside_moved, closed_moved]
        rw [this]
        cases Agent.pathTest h a.state.position target o with
        | throw x => rfl
        | ub u => rfl
        | ok b => exact ih _
  exact key true

/-- C99, the part that holds for `update`: if the origin moves in the x-y plane, or all ellipsoids are rotated about the z
axis only, then the same obstacles are aggregated, and the aggregates and their hulls are the same, seen from the other origin.
Full statement (false, see `C99_negation`): for all displacements and all poses. -/
theorem C99_update_partial {t : V3 ℝ} {h : Heap ℝ} (l : Level t h) (e : Env) :
    Agree (fun r r' => r'.1 = movedHeap t r.1 ∧ r'.2 = r.2 ∧ Level t r.1) (e.update h) (e.update (movedHeap t h)) :=
  Agree.imp (update_moved (Z := t.z = 0) id ⟨rfl, l⟩ e) fun _ _ h => ⟨h.1.1, h.2, h.1.2⟩

/-- C99, the part that holds for the velocity: with all options and obstacles of all kinds, `modulate_velocity` gives the same
velocity and leaves the same scene. Full statement (false, see `C99_negation`): for all displacements and all poses. -/
theorem C99_velocity_partial {t : V3 ℝ} {h : Heap ℝ} (l : Level t h) (a : Agent ℝ) (e : Env) (loc rep planar : Bool)
    (critical power : ℝ) :
    Agree (fun r r' => r'.1 = movedHeap t r.1 ∧ r'.2 = r.2 ∧ Level t r.1)
      (modulateVelocity h a e loc rep planar critical power)
      (modulateVelocity (movedHeap t h) (movedAgent t a) e loc rep planar critical power) :=
  Agree.imp (modulate_moved (Z := t.z = 0) (fun _ => id) ⟨rfl, l⟩ a e rep planar critical power)
    fun _ _ h => ⟨h.1.1, h.2, h.1.2⟩

/-- C99 without the local sight: for all displacements and all poses of all obstacles, `modulate_velocity` gives the same
velocity. -/
theorem C99_velocity (t : V3 ℝ) (h : Heap ℝ) (a : Agent ℝ) (e : Env) (rep planar : Bool) (critical power : ℝ) :
    Agree (fun r r' => r'.1 = movedHeap t r.1 ∧ r'.2 = r.2) (modulateVelocity h a e false rep planar critical power)
      (modulateVelocity (movedHeap t h) (movedAgent t a) e false rep planar critical power) :=
  Agree.imp (modulate_moved (Z := True) (fun h => by cases h) ⟨rfl, .inl trivial⟩ a e rep planar critical power)
    fun _ _ h => ⟨h.1.1, h.2⟩

/-- C99 for the control loops without the local sight: for all displacements and all poses of all obstacles. -/
theorem C99_loops (t : V3 ℝ) (h : Heap ℝ) (a : Agent ℝ) (c : Loop ℝ) (hc : c.isLocal = false) (e : Env) (n : Nat) :
    Agree (fun r r' => r' = (movedHeap t r.1, movedAgent t r.2)) (c.run e n (h, a))
      ((movedLoop t c).run e n (movedHeap t h, movedAgent t a)) ∧
    (∀ prev, Agree (fun r r' => r' = (movedHeap t r.1, movedAgent t r.2)) (c.runMixed e n prev (h, a))
      ((movedLoop t c).runMixed e n prev (movedHeap t h, movedAgent t a))) ∧
    Agree (fun r r' => r' = (movedHeap t r.1, movedAgent t r.2)) (c.runWall e n (h, a))
      ((movedLoop t c).runWall e n (movedHeap t h, movedAgent t a)) ∧
    (∀ name goal, Agree (fun r r' => r' = (movedHeap t r.1, movedAgent t r.2)) (c.runMoving e name goal n (h, a))
      ((movedLoop t c).runMoving e name (goal + t) n (movedHeap t h, movedAgent t a))) := by
  have hZ : c.isLocal = true → True → t.z = 0 := by rw [hc]; intro h; cases h
  have h0 : SeenState True t (h, a) (movedHeap t h, movedAgent t a) := ⟨⟨rfl, .inl trivial⟩, rfl⟩
  have k : ∀ r r' : Heap ℝ × Agent ℝ, SeenState True t r r' → r' = (movedHeap t r.1, movedAgent t r.2) :=
    fun r r' h => Prod.ext h.1.1 h.2
  exact ⟨Agree.imp (run_moved c hZ e n h0) k, fun prev => Agree.imp (runMixed_moved c hZ e n prev h0) k,
    Agree.imp (runWall_moved c hZ e n h0) k, fun name goal => Agree.imp (runMoving_moved c hZ e name goal n h0) k⟩

/-- C99, the part that holds for the control loops: started in the same scene with the same target, seen from another origin,
the loops of the demonstration programs are in the same scene after every number of iterations, with the agent at the same
place, or fail in the same way; also the loop that calls `update` in every iteration.
Full statement (false, see `C99_negation`): for all displacements and all poses. -/
theorem C99_loops_partial {t : V3 ℝ} {h : Heap ℝ} (l : Level t h) (a : Agent ℝ) (c : Loop ℝ) (e : Env) (n : Nat) :
    Agree (fun r r' => r' = (movedHeap t r.1, movedAgent t r.2)) (c.run e n (h, a))
      ((movedLoop t c).run e n (movedHeap t h, movedAgent t a)) ∧
    (∀ prev, Agree (fun r r' => r' = (movedHeap t r.1, movedAgent t r.2)) (c.runMixed e n prev (h, a))
      ((movedLoop t c).runMixed e n prev (movedHeap t h, movedAgent t a))) ∧
    Agree (fun r r' => r' = (movedHeap t r.1, movedAgent t r.2)) (c.runWall e n (h, a))
      ((movedLoop t c).runWall e n (movedHeap t h, movedAgent t a)) ∧
    (∀ name goal, Agree (fun r r' => r' = (movedHeap t r.1, movedAgent t r.2)) (c.runMoving e name goal n (h, a))
      ((movedLoop t c).runMoving e name (goal + t) n (movedHeap t h, movedAgent t a))) ∧
    Agree (fun r r' => r' = (⟨movedHeap t r.1.heap, r.1.env⟩, movedAgent t r.2)) (runUpdating c n (⟨h, e⟩, a))
      (runUpdating (movedLoop t c) n (⟨movedHeap t h, e⟩, movedAgent t a)) := by
  have hZ : c.isLocal = true → t.z = 0 → t.z = 0 := fun _ => id
  have h0 : SeenState (t.z = 0) t (h, a) (movedHeap t h, movedAgent t a) := ⟨⟨rfl, l⟩, rfl⟩
  have k : ∀ r r' : Heap ℝ × Agent ℝ, SeenState (t.z = 0) t r r' → r' = (movedHeap t r.1, movedAgent t r.2) :=
    fun r r' h => Prod.ext h.1.1 h.2
  refine ⟨Agree.imp (run_moved c hZ e n h0) k, fun prev => Agree.imp (runMixed_moved c hZ e n prev h0) k,
    Agree.imp (runWall_moved c hZ e n h0) k, fun name goal => Agree.imp (runMoving_moved c hZ e name goal n h0) k, ?_⟩
  refine Agree.imp (runUpdating_moved (Z := t.z = 0) c id n (s := (⟨h, e⟩, a))
    (s' := (⟨movedHeap t h, e⟩, movedAgent t a)) ⟨⟨rfl, l⟩, rfl, rfl⟩) ?_
  rintro ⟨⟨rh, re⟩, ra⟩ ⟨⟨rh', re'⟩, ra'⟩ ⟨h1, h2, h3⟩
  simp only at h1 h2 h3 ⊢
  rw [h1.1, h2, h3]

/-! ## a vertical displacement -/

/-- A cylinder along the y axis: a ball on its side, far away. -/
noncomputable def lying : Ellipsoid ℝ :=
  Ellipsoid.ofBase (Base.mkState "a" ⟨⟨⟨0, 10, 0⟩, ⟨1 / 2, -1 / 2, -1 / 2, -1 / 2⟩⟩, V3.zero, V3.zero⟩ (V3.const 0))

/-- An upright ellipsoid beside the origin. -/
noncomputable def standing : Ellipsoid ℝ :=
  { Ellipsoid.ofBase (Base.mkState "b" (State.ofPosition ⟨-3, 0, 0⟩) (V3.const 0)) with axis := ⟨5 / 2, 1, 1⟩ }

theorem lying_inside (x : V3 ℝ) : lying.pointIsInside x = decide (x.z * x.z + x.x * x.x ≤ 1) := by
  have h : lying.base.pose.inverse.apply x = ⟨x.z, x.x, x.y - 10⟩ := by
    ext <;> simp [lying, Ellipsoid.ofBase, Base.mkState, Base.pose, Pose.inverse, Pose.apply, Quat.conjugate, Quat.rotate,
      Quat.vec, V3.cross, V3.smul] <;> ring
  simp only [Ellipsoid.pointIsInside, h]
  simp [lying, Ellipsoid.ofBase, Base.mkState, V3.const]

theorem standing_inside : standing.pointIsInside ⟨0, 10, 0⟩ = false := by
  have h : standing.base.pose.inverse.apply ⟨0, 10, 0⟩ = ⟨3, 10, 0⟩ := by
    ext <;> simp [standing, Ellipsoid.ofBase, Base.mkState, State.ofPosition, Pose.ofPosition, Base.pose, Pose.inverse,
      Pose.apply, Quat.conjugate, Quat.rotate, Quat.vec, V3.cross, V3.smul, Quat.one]
  simp only [Ellipsoid.pointIsInside, h]
  norm_num [standing, Ellipsoid.ofBase, Base.mkState, V3.const]

theorem standing_position : standing.base.position = ⟨-3, 0, 0⟩ := rfl

theorem lying_position : lying.base.position = ⟨0, 10, 0⟩ := rfl

theorem standing_z : ZRotated standing := by
  refine ⟨?_, rfl, rfl⟩
  change (Quat.one : Quat ℝ).norm = 1
  rw [← Quat.isUnit_iff_norm]
  simp [Quat.IsUnit, Quat.one, Quat.sqNorm]

theorem meet_here : lying.isIntersectingEllipsoid standing = .ok true := by
  obtain ⟨hc, hs⟩ := sampleTheta_spec standing_z
  have hq : standing.base.orientation = ⟨1, 0, 0, 0⟩ := rfl
  rw [hq] at hc hs
  norm_num at hc hs
  have h1 : lying.pointIsInside standing.base.position = false := by
    rw [lying_inside, standing_position]; norm_num
  have h2 : standing.pointIsInside lying.base.position = false := by
    rw [lying_position]; exact standing_inside
  obtain ⟨l, hl, -, h0, -⟩ := MathTools.linspace_ok (0 : ℝ) (lit 2 1 * CMath.pi) 100 (by norm_num)
  have hl' : MathTools.linspace (0 : ℝ) (lit 2 1 * CMath.pi) ((100 : Nat) : Int) = .ok l := hl
  unfold Ellipsoid.isIntersectingEllipsoid Ellipsoid.samples
  rw [h1, h2]
  simp only [hl', Res.ok_bind, Bool.false_eq_true, if_false, if_true]
  congr 1
  rw [List.any_eq_true]
  refine ⟨_, List.mem_map.mpr ⟨0, List.mem_of_getElem? h0, rfl⟩, ?_⟩
  have hax : standing.axis + standing.base.margin = ⟨5 / 2, 1, 1⟩ := by
    ext <;> simp [standing, Ellipsoid.ofBase, Base.mkState, V3.const]
  rw [lying_inside, hax]
  simp only [Ellipsoid.sampleAt, cos_real, sin_real, hc, hs, Real.cos_zero, Real.sin_zero, standing_position]
  norm_num

theorem apart_there : (movedE ⟨0, 0, 2⟩ lying).isIntersectingEllipsoid (movedE ⟨0, 0, 2⟩ standing) = .ok false := by
  have key : ∀ x : V3 ℝ, x.z = 0 → (movedE ⟨0, 0, 2⟩ lying).pointIsInside x = false := by
    intro x hx
    have h := insideE ⟨0, 0, 2⟩ lying (x - ⟨0, 0, 2⟩)
    have hx' : x - ⟨0, 0, 2⟩ + (⟨0, 0, 2⟩ : V3 ℝ) = x := by ext <;> simp
    rw [hx'] at h
    rw [h, lying_inside, decide_eq_false_iff_not]
    simp only [V3.sub_z, V3.sub_x, hx]
    nlinarith [mul_self_nonneg (x.x - 0)]
  have h1 : (movedE ⟨0, 0, 2⟩ lying).pointIsInside (movedE ⟨0, 0, 2⟩ standing).base.position = false := by
    have h := insideE ⟨0, 0, 2⟩ lying standing.base.position
    refine Eq.trans h ?_
    rw [lying_inside, standing_position]; norm_num
  have h2 : (movedE ⟨0, 0, 2⟩ standing).pointIsInside (movedE ⟨0, 0, 2⟩ lying).base.position = false := by
    refine Eq.trans (insideE ⟨0, 0, 2⟩ standing lying.base.position) ?_
    rw [lying_position]; exact standing_inside
  obtain ⟨l, hl, -⟩ := MathTools.linspace_ok (0 : ℝ) (lit 2 1 * CMath.pi) 100 (by norm_num)
  have hl' : MathTools.linspace (0 : ℝ) (lit 2 1 * CMath.pi) ((100 : Nat) : Int) = .ok l := hl
  unfold Ellipsoid.isIntersectingEllipsoid Ellipsoid.samples
  rw [h1, h2]
  simp only [hl', Res.ok_bind, Bool.false_eq_true, if_false, if_true]
  congr 1
  rw [List.any_eq_false]
  intro x hx
  obtain ⟨a, -, rfl⟩ := List.mem_map.mp hx
  rw [key _ rfl]
  simp

/-- The two obstacles as objects. -/
noncomputable def crossingPair : Heap ℝ := [.ellipsoid lying, .ellipsoid standing]

theorem crossing_acyclic (t : V3 ℝ) : Acyclic (movedHeap t crossingPair) := by
  refine ⟨fun _ => 0, ?_⟩
  intro p q hc
  obtain ⟨a, ha, -⟩ := hc
  rcases p with _ | _ | p <;> simp [crossingPair, movedHeap, movedObj] at ha

theorem crossing_meets : Meets crossingPair [0, 1] 0 1 :=
  ⟨by decide, 0, 1, .ellipsoid lying, .ellipsoid standing, rfl, rfl, rfl, rfl, meet_here⟩

theorem crossing_apart (i j : Nat) : ¬ Meets (movedHeap ⟨0, 0, 2⟩ crossingPair) [0, 1] i j := by
  rintro ⟨hij, p, q, op, oq, h1, h2, h3, h4, h5⟩
  have hj : j < 2 := by simpa using (List.getElem?_eq_some_iff.mp h2).1
  obtain ⟨rfl, rfl⟩ : i = 0 ∧ j = 1 := by omega
  cases h1
  cases h2
  cases h3
  cases h4
  have h6 : (movedE ⟨0, 0, 2⟩ lying).isIntersectingEllipsoid (movedE ⟨0, 0, 2⟩ standing) = .ok true := h5
  rw [apart_there] at h6
  cases h6

theorem crossing_isolated {i j : Nat} (hij : i ≠ j) : ¬ Linked (movedHeap ⟨0, 0, 2⟩ crossingPair) [0, 1] i j := by
  intro h
  have : ∀ i j, Linked (movedHeap ⟨0, 0, 2⟩ crossingPair) [0, 1] i j → i = j := by
    intro i j h
    induction h with
    | rel i j h => exact absurd h (crossing_apart i j)
    | refl i => rfl
    | symm i j _ ih => exact ih.symm
    | trans i j k _ _ ih1 ih2 => exact ih1.trans ih2
  exact hij (this i j h)

/-- C99 is false for the code: a cylinder and an ellipsoid that meet are one obstacle for `update()` when the x-y plane goes
through their axes, and two when the origin is 2 lower, since the points at which the test looks lie in the plane z = 0
whatever the heights of the obstacles are (src/Obstacle/Ellipsoid.cpp:240-242). -/
theorem C99_negation : ∃ (t : V3 ℝ) (h : Heap ℝ) (e : Env) (r r' : Heap ℝ × Env), e.update h = .ok r ∧
    e.update (movedHeap t h) = .ok r' ∧ (∀ p ∈ e.map.map (·.2), p ∉ r.2.list) ∧ (∀ p ∈ e.map.map (·.2), p ∈ r'.2.list) := by
  let e : Env := ⟨[("a", 0), ("b", 1)], true, []⟩
  have hl : e.map.map (·.2) = [0, 1] := rfl
  have ha : Acyclic crossingPair := by
    refine ⟨fun _ => 0, ?_⟩
    intro p q hc
    obtain ⟨a, ha, -⟩ := hc
    rcases p with _ | _ | p <;> simp [crossingPair] at ha
  have ha' := crossing_acyclic ⟨0, 0, 2⟩
  have ho : ∀ p ∈ ([0, 1] : List Ptr), p < crossingPair.length := by simp [crossingPair]
  have ho' : ∀ p ∈ ([0, 1] : List Ptr), p < (movedHeap ⟨0, 0, 2⟩ crossingPair).length := by simp [crossingPair, movedHeap]
  obtain ⟨h1, l1, r1⟩ := C07_defined ha ho
  obtain ⟨h2, l2, r2⟩ := C07_defined ha' ho'
  have c1 := @C06_components _ _ _ _ _ _ _ _ _ _ _ _ _ _ _ ha _ _ ho (by decide) r1
  have c2 := @C06_components _ _ _ _ _ _ _ _ _ _ _ _ _ _ _ ha' _ _ ho' (by decide) r2
  have hlink : Linked crossingPair [0, 1] 0 1 := .rel _ _ crossing_meets
  refine ⟨⟨0, 0, 2⟩, crossingPair, e, (h1, { e with list := l1 }), (h2, { e with list := l2 }), ?_, ?_, ?_, ?_⟩
  · simp only [Env.update, hl, r1, Res.ok_bind, e, if_true]
  · simp only [Env.update, hl, r2, Res.ok_bind, e, if_true]
  · rw [hl]
    intro p hp hm
    simp only [List.mem_cons, List.not_mem_nil, or_false] at hp
    rcases hp with rfl | rfl
    · exact ((c1 (i := 0) (j := 1) rfl rfl (by decide)).2.mp hm) 1 (by decide) hlink
    · exact ((c1 (i := 1) (j := 0) rfl rfl (by decide)).2.mp hm) 0 (by decide) (.symm _ _ hlink)
  · rw [hl]
    intro p hp
    simp only [List.mem_cons, List.not_mem_nil, or_false] at hp
    rcases hp with rfl | rfl
    · exact (c2 (i := 0) (j := 1) rfl rfl (by decide)).2.mpr fun k hk => crossing_isolated (Ne.symm hk)
    · exact (c2 (i := 1) (j := 0) rfl rfl (by decide)).2.mpr fun k hk => crossing_isolated (Ne.symm hk)

/-! ## applications -/

/-- The same two obstacles from an origin that is displaced in the x-y plane: they are one obstacle again. -/
example : ∃ (e : Env) (r' : Heap ℝ × Env), e.update (movedHeap ⟨3, 4, 0⟩ crossingPair) = .ok r' ∧
    e.map.map (·.2) = [0, 1] ∧ ∀ p ∈ ([0, 1] : List Ptr), p ∉ r'.2.list := by
  have hlink : Linked crossingPair [0, 1] 0 1 := .rel _ _ crossing_meets
  have ho : ∀ p ∈ ([0, 1] : List Ptr), p < crossingPair.length := by simp [crossingPair]
  have ha : Acyclic crossingPair := by
    refine ⟨fun _ => 0, ?_⟩
    intro p q hc
    obtain ⟨a, ha, -⟩ := hc
    rcases p with _ | _ | p <;> simp [crossingPair] at ha
  obtain ⟨h1, l1, r1⟩ := C07_defined ha ho
  have c1 := @C06_components _ _ _ _ _ _ _ _ _ _ _ _ _ _ _ ha _ _ ho (by decide) r1
  have hu : Env.update crossingPair ⟨[("a", 0), ("b", 1)], true, []⟩ = .ok (h1, ⟨[("a", 0), ("b", 1)], true, l1⟩) := by
    have : ([("a", 0), ("b", 1)] : List (String × Ptr)).map (·.2) = [0, 1] := rfl
    simp only [Env.update, this, r1, Res.ok_bind, if_true]
  have key := C99_update_partial (t := ⟨3, 4, 0⟩) (h := crossingPair) (.inl rfl) ⟨[("a", 0), ("b", 1)], true, []⟩
  rw [hu] at key
  revert key
  cases hr : Env.update (movedHeap ⟨3, 4, 0⟩ crossingPair) ⟨[("a", 0), ("b", 1)], true, []⟩ with
  | throw x => intro key; cases key
  | ub u => intro key; cases key
  | ok r' =>
    intro key
    refine ⟨⟨[("a", 0), ("b", 1)], true, []⟩, r', hr, rfl, ?_⟩
    have : r'.2.list = l1 := by rw [key.2.1]
    rw [this]
    intro p hp hm
    simp only [List.mem_cons, List.not_mem_nil, or_false] at hp
    rcases hp with rfl | rfl
    · exact ((c1 (i := 0) (j := 1) rfl rfl (by decide)).2.mp hm) 1 (by decide) hlink
    · exact ((c1 (i := 1) (j := 0) rfl rfl (by decide)).2.mp hm) 0 (by decide) (.symm _ _ hlink)

/-- A vertical displacement of a scene of upright ellipsoids, with the local sight and the repulsion. -/
example (a : Agent ℝ) (c : Loop ℝ) (n : ℕ) :
    Agree (fun r r' => r'.2.state.position = r.2.state.position + ⟨0, 0, 2⟩)
      (c.run (envOf [0]) n ([.ellipsoid standing], a))
      ((movedLoop ⟨0, 0, 2⟩ c).run (envOf [0]) n ([.ellipsoid (movedE ⟨0, 0, 2⟩ standing)], movedAgent ⟨0, 0, 2⟩ a)) :=
  Agree.imp (C99_loops_partial (h := [.ellipsoid standing]) (.inr fun p e he => by
    rcases p with _ | p
    · have : standing = e := by simpa using he
      exact this ▸ standing_z
    · simp at he) a c (envOf [0]) n).1 fun r r' h => by rw [h]; rfl

/-- A ball and an agent beside it, seen from another height: the velocity is the same, and it is defined. -/
example : ∃ out, modulateVelocity [.ellipsoid (ball V3.zero)] (agentAt ⟨2, 0, 0⟩ ⟨-1, 1, 0⟩) (envOf [0]) false false false 1 1 =
      .ok ([.ellipsoid (ball V3.zero)], out) ∧
    modulateVelocity [.ellipsoid (movedE ⟨1, 2, 3⟩ (ball V3.zero))] (agentAt (⟨2, 0, 0⟩ + ⟨1, 2, 3⟩) ⟨-1, 1, 0⟩) (envOf [0]) false
      false false 1 1 = .ok ([.ellipsoid (movedE ⟨1, 2, 3⟩ (ball V3.zero))], out) := by
  have hm := matrix_ellipsoid [.ellipsoid (ball V3.zero)] (agentAt ⟨2, 0, 0⟩ ⟨-1, 1, 0⟩) (ball V3.zero) rfl
  obtain ⟨out, h1, -, -⟩ := C39_single [.ellipsoid (ball V3.zero)] (agentAt ⟨2, 0, 0⟩ ⟨-1, 1, 0⟩) (envOf [0])
    false 1 1 0 (.ellipsoid (ball V3.zero)) _ _ _ rfl rfl ⟨rfl, rfl⟩ (ball_smooth _).unit hm rfl
    (by intro h; cases h)
  refine ⟨out, h1, ?_⟩
  have key := C99_velocity ⟨1, 2, 3⟩ [.ellipsoid (ball V3.zero)] (agentAt ⟨2, 0, 0⟩ ⟨-1, 1, 0⟩) (envOf [0]) false false 1 1
  rw [h1] at key
  change Agree _ _ (modulateVelocity [.ellipsoid (movedE ⟨1, 2, 3⟩ (ball V3.zero))] (agentAt (⟨2, 0, 0⟩ + ⟨1, 2, 3⟩) ⟨-1, 1, 0⟩)
    (envOf [0]) false false false 1 1) at key
  revert key
  cases modulateVelocity [.ellipsoid (movedE ⟨1, 2, 3⟩ (ball V3.zero))] (agentAt (⟨2, 0, 0⟩ + ⟨1, 2, 3⟩) ⟨-1, 1, 0⟩)
    (envOf [0]) false false false 1 1 with
  | throw x => intro key; cases key
  | ub u => intro key; cases key
  | ok r => rintro ⟨k1, k2⟩; exact congrArg Res.ok (Prod.ext k1 k2)

end DOA.Props
