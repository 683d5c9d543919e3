import Verif.Lemmas.UnitTestsEnv

/-!
# C95: the unit tests of the project

All assertions of the unit tests hold in exact arithmetic, except those of the test `ModulateVelocity`.
-/

namespace DOA.Props

open DOA DOA.Spec DOA.Ellipsoid DOA.UnitTests

set_option linter.unusedSimpArgs false

/-- What an assertion claims. -/
def Holds : Check ℝ → Prop
  | .near v t tol => |v - t| ≤ tol
  | .below v b => |v| < b
  | .same v t => v = t
  | .answer b t => b = t
  | .size n m => n = m

/-- A test passes: it ends without an exception or undefined behaviour, and every assertion holds. -/
def Passes (r : Res (List (Check ℝ))) : Prop := ∃ l, r = .ok l ∧ ∀ c ∈ l, Holds c

/-- A test fails: it ends, and some assertion does not hold. -/
def Fails (r : Res (List (Check ℝ))) : Prop := ∃ l, r = .ok l ∧ ∃ c ∈ l, ¬ Holds c

/-- C95: the tests of Pose. -/
theorem C95_state_partial : ∀ t ∈ (stateTests : List (Res (List (Check ℝ)))), Passes t := by
  have hr := root
  obtain ⟨hr1, hr2⟩ := root_bounds
  intro t ht
  simp only [stateTests, List.mem_cons, List.not_mem_nil, or_false] at ht
  rcases ht with rfl | rfl | rfl | rfl | rfl
  · refine ⟨_, rfl, ?_⟩
    simp [near3, Holds, Pose.mul]
  · refine ⟨_, rfl, ?_⟩
    simp [near3, Holds, Pose.mk2, fix_one, Pose.mulAssign, Quat.rotate, Quat.vec, V3.cross, V3.smul]
    norm_num
  · refine ⟨_, rfl, ?_⟩
    simp [near3, nearQ, Holds, Pose.mk2, fix_half1, fix_half2, Pose.mulAssign, Quat.rotate, Quat.vec, V3.cross, V3.smul,
      Quat.mul]
    refine ⟨?_, ?_, ?_, ?_⟩ <;> rw [abs_le] <;> constructor <;> nlinarith
  · refine ⟨_, rfl, ?_⟩
    simp [near3, nearQ, Holds, Pose.mk2, fix_one, Pose.inverse, Quat.conjugate, Quat.rotate, Quat.vec, V3.cross, V3.smul]
  · refine ⟨_, rfl, ?_⟩
    simp [near3, nearQ, Holds, Pose.mk2, fix_half1, Pose.inverse, Quat.conjugate, Quat.rotate, Quat.vec, V3.cross, V3.smul]
    have hh : (half : ℝ) = 0.70710678 := by norm_num [half]
    rw [hh]
    refine ⟨?_, ?_, ?_, ?_⟩ <;> rw [abs_le] <;> constructor <;> nlinarith

theorem C95_ellipsoid_partial : ∀ t ∈ (ellipsoidTests : List (Res (List (Check ℝ)))), Passes t := by
  obtain ⟨hr1, hr2⟩ := root_bounds
  have dist : ∀ (p : V3 ℝ) (d : ℝ), |(1 - p.x) ^ 2 + (0 - p.y) ^ 2 + (0 - p.z) ^ 2 - d| ≤ 1 / 100 →
      Passes (UnitTests.distance p d) := by
    intro p d h
    refine ⟨_, rfl, ?_⟩
    rintro c hc
    rw [List.mem_singleton] at hc
    subst hc
    show |Ellipsoid.distanceToPoint _ (⟨1, 0, 0⟩ : V3 ℝ) (V3.const 0) - d| ≤ _
    rw [(ball_position "e1" p).distance]
    simpa using h
  have norm : ∀ (p d n : V3 ℝ), (ellipsoid "e1" (State.ofPosition p)).normalToAgent ⟨1, 0, 0⟩ 0 = n →
      |n.x - d.x| ≤ 1 / 100 → |n.y - d.y| ≤ 1 / 100 → |n.z - d.z| ≤ 1 / 100 → Passes (UnitTests.normal p d) := by
    intro p d n h h1 h2 h3
    refine ⟨_, rfl, ?_⟩
    show ∀ c ∈ near3 ((ellipsoid "e1" (State.ofPosition p)).normalToAgent ⟨1, 0, 0⟩ 0) d (lit 1 100), Holds c
    rw [h]
    have e : (1 : ℝ) / 100 = lit 1 100 := by simp
    rw [e] at h1 h2 h3
    simp only [near3, List.mem_cons, List.not_mem_nil, or_false]
    rintro c (rfl | rfl | rfl)
    · exact h1
    · exact h2
    · exact h3
  have ans : ∀ {e o : Ellipsoid ℝ} {b : Bool}, e.isIntersectingEllipsoid o = .ok b → o.isIntersectingEllipsoid e = .ok b →
      Passes (both e o b) := by
    intro e o b h1 h2
    refine ⟨[.answer b b, .answer b b], ?_, by simp [Holds]⟩
    show (do
      let b1 ← e.isIntersectingEllipsoid o
      let b2 ← o.isIntersectingEllipsoid e
      Res.ok [Check.answer b1 b, Check.answer b2 b]) = _
    rw [h1, h2]
    rfl
  intro t ht
  simp only [ellipsoidTests, List.mem_cons, List.not_mem_nil, or_false] at ht
  rcases ht with rfl | rfl | rfl | rfl | rfl | rfl | rfl | rfl | rfl | rfl | rfl
  · exact dist _ _ (by norm_num)
  · exact dist _ _ (by norm_num)
  · exact dist _ _ (by norm_num)
  · have h : (⟨lit 2 1, 1, 0⟩ : V3 ℝ) = ⟨2, 1, 0⟩ := by simp
    have hh : (half : ℝ) = 0.70710678 := by norm_num [half]
    rw [h]
    refine norm _ _ ⟨-(√2 / 2), -(√2 / 2), 0⟩ (normal_diagonal (ball_position ..)) ?_ ?_ (by norm_num) <;>
    · simp only [hh]
      rw [abs_le]
      constructor <;> linarith
  · exact norm _ _ ⟨1, 0, 0⟩ (normal_axis (by norm_num) (ball_position ..)) (by norm_num) (by norm_num) (by norm_num)
  · exact norm _ _ ⟨1, 0, 0⟩ (normal_axis (by norm_num) (ball_position ..)) (by norm_num) (by norm_num) (by norm_num)
  -- the intersections
  · refine ans (C29_detects_centres _ _ (named_disc _).rot (circ_rot "e2" V3.zero 1) (Or.inl ?_))
      (C29_detects_centres _ _ (circ_rot "e2" V3.zero 1) (named_disc _).rot (Or.inr ?_)) <;>
    · rw [(named_disc _).in_iff]
      simp [named, Ellipsoid.ofBase, Base.mkName, Base.position, State.position, State.ofPosition, Pose.ofPosition, V3.zero]
  · refine ans (unit_meet (named_disc _) (turned_unit ..) ?_) (unit_meet (turned_unit ..) (named_disc _) ?_) <;>
    · simp [named, turned, ellipsoid, Ellipsoid.ofBase, Base.mkName, Base.mkState, Base.position, State.position,
        State.ofPosition, State.mk2, Pose.mk2, Pose.ofPosition, V3.zero]
      norm_num
  · refine ans (unit_apart (named_disc _) (turned_unit ..) ?_) (unit_apart (turned_unit ..) (named_disc _) ?_) <;>
    · simp [named, turned, ellipsoid, Ellipsoid.ofBase, Base.mkName, Base.mkState, Base.position, State.position,
        State.ofPosition, State.mk2, Pose.mk2, Pose.ofPosition, V3.zero]
      norm_num
  · have ha : (⟨lit 75 100, lit 2 10, 0⟩ : V3 ℝ) = ⟨0.75, 0.2, 0⟩ := by ext <;> norm_num
    have ht : (lit 75 100 : ℝ) = 0.75 := by norm_num
    have hc : (0.71 : ℝ) ≤ Real.cos 0.75 := by
      have := Real.one_sub_sq_div_two_le_cos (x := 0.75)
      norm_num at this ⊢
      linarith
    unfold isIntersectingRotated
    rw [ha, ht]
    refine ans (cross_meet rfl hc ?_) ?_
    · norm_num
    · have := cross_meet (n := "e2") (m := "e1") (p := ⟨lit 46 10, lit 47 10, 0⟩) (q := ⟨lit 37 10, lit 47 10, 0⟩)
        (t := -0.75) (z := 0) rfl (by rwa [Real.cos_neg]) (by norm_num)
      rwa [neg_neg] at this
  · refine ans (turned_apart (r1 := 0.75) (r2 := 0.75) ?_ ?_ ?_ ?_ ?_ ?_ ?_ ?_ ?_)
      (turned_apart (r1 := 0.75) (r2 := 0.75) ?_ ?_ ?_ ?_ ?_ ?_ ?_ ?_ ?_) <;> norm_num

/-- C95: the tests of the weights. -/
theorem C95_weights_partial :
    Passes (weights [0, 1, lit 2 1, lit 3 1, lit 4 1] [lit 5 10, lit 5 10, 0, 0, 0]) ∧
    Passes (weights [1, lit 2 1, lit 3 1, lit 4 1, lit 5 1] [1, 0, 0, 0, 0]) ∧
    Passes (weights [lit 2 1, lit 3 1, lit 4 1, lit 5 1, lit 6 1] [lit 6832416 10000000, lit 1708104 10000000,
     lit 7591573 100000000, lit 427026 10000000, lit 2732966 100000000]) := by
  refine ⟨⟨_, rfl, ?_⟩, ⟨_, rfl, ?_⟩, ⟨_, rfl, ?_⟩⟩
  · norm_num [Modulation.weightObstacles, MathTools.ofInt, Holds]
  · norm_num [Modulation.weightObstacles, MathTools.ofInt, Holds]
  · norm_num [Modulation.weightObstacles, MathTools.ofInt, Holds, Modulation.sum, Real.rpow_neg, abs_le]

/-- C95: the tests of the basis, of the eigenvalues and of the modulation matrix. -/
theorem C95_matrices_partial : Passes UnitTests.basis ∧ Passes basisRotated ∧ Passes eigenvalues ∧ Passes UnitTests.matrix := by
  obtain ⟨hr1, hr2⟩ := root_bounds
  have h21 : (⟨lit 2 1, 1, 0⟩ : V3 ℝ) = ⟨2, 1, 0⟩ := by simp
  have hh : (half : ℝ) = 0.70710678 := by norm_num [half]
  have hb : ∀ c ∈ nearM diagonalBasis basisTruth (lit 1 10000), Holds c := by
    simp only [nearM, near3, diagonalBasis, basisTruth, hh, List.mem_append, List.mem_cons, List.not_mem_nil, or_false]
    rintro c (((rfl | rfl | rfl) | (rfl | rfl | rfl)) | (rfl | rfl | rfl)) <;> simp only [Holds] <;> rw [abs_le] <;>
      norm_num <;> (try constructor) <;> linarith
  refine ⟨?_, ?_, ?_, ?_⟩
  · refine ⟨nearM diagonalBasis basisTruth (lit 1 10000), ?_, hb⟩
    show (do
      let b ← Modulation.basisMatrices ((ellipsoid "e1" (State.mk2 (⟨lit 2 1, 1, 0⟩ : V3 ℝ) ⟨1, 0, 0, 0⟩)).normalToAgent ⟨1, 0, 0⟩ 0)
        ⟨1, 0, 0⟩ (ellipsoid "e1" (State.mk2 ⟨lit 2 1, 1, 0⟩ ⟨1, 0, 0, 0⟩)).base
      Res.ok (nearM b.1 basisTruth (lit 1 10000))) = _
    rw [h21, normal_diagonal (ball_pose ..), basis_diagonal (ball_pose ..).pose rfl]
    rfl
  · obtain ⟨s1, s2, c1, c2⟩ := angle_bounds
    have h3 : (lit 3 10 * CMath.pi : ℝ) = 3 / 10 * Real.pi := by simp
    have hsc := Real.sin_sq_add_cos_sq (3 / 10 * Real.pi)
    have h2 := root
    have hrun : basisRotated = .ok (nearM (Modulation.orthogonalBasis
        ((turned "e1" (⟨2, 1, 0⟩ : V3 ℝ) (3 / 10 * Real.pi)).normalToAgent ⟨1, 0, 0⟩ 0))
        ⟨⟨-lit 98768834 100000000, lit 15643447 100000000, 0⟩, ⟨lit 15643447 100000000, lit 98768834 100000000, 0⟩,
        ⟨0, 0, 1⟩⟩ (lit 1 10000)) := by
      rw [← h3, ← h21]
      rfl
    refine ⟨_, hrun, ?_⟩
    rw [turned_normal]
    set s := Real.sin (3 / 10 * Real.pi)
    set c := Real.cos (3 / 10 * Real.pi)
    have ht := tangent_flat (n := ⟨-((c + s) * (√2 / 2)), (s - c) * (√2 / 2), 0⟩) (by
      simp only
      nlinarith)
    simp only [Modulation.orthogonalBasis, ht, nearM, near3, V3.cross, List.mem_append, List.mem_cons, List.not_mem_nil,
      or_false]
    rintro c (((rfl | rfl | rfl) | (rfl | rfl | rfl)) | (rfl | rfl | rfl)) <;> simp only [Holds] <;> rw [abs_le] <;>
      norm_num <;> (try constructor) <;> nlinarith
  · have hrun : eigenvalues = .ok (near3 (Modulation.diagonalEigenvalues
        ((ellipsoid "e1" (State.ofPosition (⟨2, 1, 0⟩ : V3 ℝ))).distanceToPoint ⟨1, 0, 0⟩ (V3.const 0)) 1)
        ⟨lit 5 10, lit 15 10, lit 15 10⟩ (lit 1 10000)) := by
      rw [← h21]
      rfl
    refine ⟨_, hrun, ?_⟩
    rw [(ball_position ..).distance]
    norm_num [Modulation.diagonalEigenvalues, near3, Holds]
  · refine ⟨nearM ⟨⟨1, -(1 / 2), 0⟩, ⟨-(1 / 2), 1, 0⟩, ⟨0, 0, 3 / 2⟩⟩
      ⟨⟨1, -lit 5 10, 0⟩, ⟨-lit 5 10, 1, 0⟩, ⟨0, 0, lit 15 10⟩⟩ (lit 1 10000) ++
      nearM diagonalBasis basisTruth (lit 1 10000) ++ [.near 2 (lit 2 1) (lit 1 10000)], ?_, ?_⟩
    · unfold UnitTests.matrix
      rw [h21]
      have hm := matrix_diagonal (h := []) (ag := (agent ([] : Heap ℝ) ⟨1, 0, 0⟩).2) (ball_position "e1" ⟨2, 1, 0⟩)
        rfl rfl rfl
      dsimp only
      rw [hm]
      rfl
    · intro c hc
      simp only [List.mem_append, List.mem_singleton] at hc
      rcases hc with (hc | hc) | rfl
      · revert hc c
        norm_num [nearM, near3, Holds]
      · exact hb c hc
      · norm_num [Holds]

/-- What is stored for the three obstacles of `three`. -/
noncomputable def threeItems : List (Modulation.Item ℝ) :=
  [{ base := (ellipsoid "e1" (State.mk2 ⟨2, 1, 0⟩ ⟨1, 0, 0, 0⟩)).base,
     matrix := ⟨⟨1, -(1 / 2), 0⟩, ⟨-(1 / 2), 1, 0⟩, ⟨0, 0, 3 / 2⟩⟩, basis := diagonalBasis, dist := 2 },
   { base := (ellipsoid "e2" ((State.mk2 ⟨0, 0, 0⟩ ⟨1, 0, 0, 0⟩).setLinearVelocity ⟨-(1 / 2), -(1 / 2), 0⟩)).base,
     matrix := ⟨⟨0, 0, 0⟩, ⟨0, 2, 0⟩, ⟨0, 0, 2⟩⟩, basis := axisBasis, dist := 1 },
   { base := (ellipsoid "e3" (State.mk2 ⟨9 / 10, 0, 0⟩ ⟨1, 0, 0, 0⟩)).base,
     matrix := ⟨⟨0, 0, 0⟩, ⟨0, 2, 0⟩, ⟨0, 0, 2⟩⟩, basis := axisBasis, dist := 1 / 100 }]

theorem three_eq : (three : Heap ℝ) =
    [.ellipsoid (ellipsoid "e1" (State.mk2 ⟨2, 1, 0⟩ ⟨1, 0, 0, 0⟩)),
     .ellipsoid (ellipsoid "e2" ((State.mk2 ⟨0, 0, 0⟩ ⟨1, 0, 0, 0⟩).setLinearVelocity ⟨-(1 / 2), -(1 / 2), 0⟩)),
     .ellipsoid (ellipsoid "e3" (State.mk2 ⟨9 / 10, 0, 0⟩ ⟨1, 0, 0, 0⟩))] := by
  have h1 : (lit 5 10 : ℝ) = 1 / 2 := by norm_num
  have h2 : (lit 9 10 : ℝ) = 9 / 10 := by norm_num
  have h3 : (lit 2 1 : ℝ) = 2 := by norm_num
  unfold three
  rw [h1, h2, h3]

/-- The modulation matrices of the three obstacles. -/
theorem three_matrices {h : Heap ℝ} {a : Agent ℝ} (hp : a.state.position = ⟨1, 0, 0⟩) (hm : a.margin = 0) :
    ∀ x ∈ [0, 1, 2].zip threeItems, ∃ o, (three ++ h).deref x.1 = .ok o ∧ o.base = x.2.base ∧
      Modulation.modulationMatrix (three ++ h) a o = .ok (x.2.matrix, x.2.basis, x.2.dist) := by
  have e1 := matrix_diagonal (h := three ++ h) (ag := a) (ball_pose "e1" ⟨2, 1, 0⟩) rfl hp hm
  have e2 := matrix_axis (h := three ++ h) (ag := a) (a := 0) le_rfl one_pos
    (ball_moving "e2" ⟨0, 0, 0⟩ ⟨-(1 / 2), -(1 / 2), 0⟩) rfl hp hm
  have e3 := matrix_axis (h := three ++ h) (ag := a) (a := 9 / 10) (by norm_num) (by norm_num)
    (ball_pose "e3" ⟨9 / 10, 0, 0⟩) rfl hp hm
  have n1 : ((1 : ℝ) - 0) ^ 2 = 1 := by norm_num
  have n2 : ((1 : ℝ) - 9 / 10) ^ 2 = 1 / 100 := by norm_num
  rw [n1] at e2
  rw [n2] at e3
  simp only [threeItems, List.zip_cons_cons, List.zip_nil_left, List.mem_cons, List.not_mem_nil, or_false]
  rintro x (rfl | rfl | rfl)
  · exact ⟨_, by rw [three_eq]; rfl, rfl, e1⟩
  · exact ⟨_, by rw [three_eq]; rfl, rfl, e2⟩
  · exact ⟨_, by rw [three_eq]; rfl, rfl, e3⟩

theorem three_collect {h : Heap ℝ} {a : Agent ℝ} (hp : a.state.position = ⟨1, 0, 0⟩) (hm : a.margin = 0) :
    Modulation.collect false a (three ++ h) [0, 1, 2] = .ok (three ++ h, threeItems) := by
  have hall := three_matrices (h := h) hp hm
  obtain ⟨o1, a1, b1, c1⟩ := hall (0, _) (List.mem_cons_self ..)
  obtain ⟨o2, a2, b2, c2⟩ := hall (1, _) (List.mem_cons_of_mem _ (List.mem_cons_self ..))
  obtain ⟨o3, a3, b3, c3⟩ := hall (2, _) (List.mem_cons_of_mem _ (List.mem_cons_of_mem _ (List.mem_cons_self ..)))
  simp only [Modulation.collect, a1, a2, a3, c1, c2, c3, b1, b2, b3, Res.ok_bind, Bool.false_eq_true, if_false]
  rfl

theorem three_weights : Modulation.weightObstacles (threeItems.map (·.dist)) 1 2 = [0, 1 / 2, 1 / 2] := by
  norm_num [threeItems, Modulation.weightObstacles, MathTools.ofInt]

theorem three_relative : Modulation.relativeVelocities ⟨1, 0, 0⟩ ⟨1 / 2, 1 / 2, 0⟩ threeItems [0, 1 / 2, 1 / 2] =
    (⟨3 / 4, 3 / 4, 0⟩, ⟨-(1 / 4), -(1 / 4), 0⟩) := by
  have h1 : Modulation.obstacleVelocity ⟨1, 0, 0⟩ (ellipsoid "e1" (State.mk2 ⟨2, 1, 0⟩ ⟨1, 0, 0, 0⟩)).base 2 0
      diagonalBasis = (⟨0, 0, 0⟩ : V3 ℝ) := by
    simp [Modulation.obstacleVelocity]
  have h2 : Modulation.obstacleVelocity ⟨1, 0, 0⟩ (ellipsoid "e2" ((State.mk2 ⟨0, 0, 0⟩ ⟨1, 0, 0, 0⟩).setLinearVelocity
      ⟨-(1 / 2), -(1 / 2), 0⟩)).base 1 (1 / 2) axisBasis = (⟨-(1 / 4), -(1 / 4), 0⟩ : V3 ℝ) := by
    ext <;> simp [Modulation.obstacleVelocity, axisBasis, M3.mulVec, M3.transpose, V3.smul, V3.cross, ellipsoid,
      Ellipsoid.ofBase, Base.mkState, State.mk2, State.setLinearVelocity, V3.zero] <;> norm_num
  have h3 : Modulation.obstacleVelocity ⟨1, 0, 0⟩ (ellipsoid "e3" (State.mk2 ⟨9 / 10, 0, 0⟩ ⟨1, 0, 0, 0⟩)).base (1 / 100)
      (1 / 2) axisBasis = (⟨0, 0, 0⟩ : V3 ℝ) := by
    ext <;> simp [Modulation.obstacleVelocity, axisBasis, M3.mulVec, M3.transpose, V3.smul, V3.cross, ellipsoid,
      Ellipsoid.ofBase, Base.mkState, State.mk2, State.setLinearVelocity, V3.zero]
  simp only [Modulation.relativeVelocities, threeItems, List.zip_cons_cons, List.zip_nil_left, List.foldl_cons,
    List.foldl_nil, h1, h2, h3]
  refine Prod.ext ?_ ?_ <;> ext <;> simp [V3.zero] <;> norm_num

/-- C95: the test of the relative velocities. -/
theorem C95_relative_partial : Passes relative := by
  have h5 : (lit 5 10 : ℝ) = 1 / 2 := by norm_num
  have h2 : (lit 2 1 : ℝ) = 2 := by norm_num
  obtain ⟨env, a, hset, hst, hm⟩ : ∃ (env : Obj ℝ) (a : Agent ℝ),
      (agent (three : Heap ℝ) ⟨1, 0, 0⟩).2.setLinearVelocity (agent three ⟨1, 0, 0⟩).1 ⟨lit 5 10, lit 5 10, 0⟩ =
        .ok (three ++ [env], a) ∧
      a.state = (State.ofPosition ⟨1, 0, 0⟩).setLinearVelocity ⟨lit 5 10, lit 5 10, 0⟩ ∧ a.margin = 0 :=
    ⟨_, _, rfl, rfl, rfl⟩
  have hp : a.state.position = ⟨1, 0, 0⟩ := by rw [hst]; rfl
  have hv : a.state.linearVelocity = ⟨1 / 2, 1 / 2, 0⟩ := by rw [hst, h5]; rfl
  have hitems : ([0, 1, 2] : List Ptr).mapM (fun p => do
      let o ← (three ++ [env]).deref p
      let m ← Modulation.modulationMatrix (three ++ [env]) a o
      Res.ok { base := o.base, matrix := m.1, basis := m.2.1, dist := m.2.2 : Modulation.Item ℝ }) = .ok threeItems := by
    have hall := three_matrices (h := [env]) hp hm
    obtain ⟨o1, a1, b1, c1⟩ := hall (0, _) (List.mem_cons_self ..)
    obtain ⟨o2, a2, b2, c2⟩ := hall (1, _) (List.mem_cons_of_mem _ (List.mem_cons_self ..))
    obtain ⟨o3, a3, b3, c3⟩ := hall (2, _) (List.mem_cons_of_mem _ (List.mem_cons_of_mem _ (List.mem_cons_self ..)))
    simp only [List.mapM_cons, List.mapM_nil, a1, a2, a3, c1, c2, c3, b1, b2, b3, Res.ok_bind]
    rfl
  refine ⟨near3 (⟨3 / 4, 3 / 4, 0⟩ : V3 ℝ) ⟨lit 75 100, lit 75 100, 0⟩ (lit 1 10000) ++
    near3 ⟨-(1 / 4), -(1 / 4), 0⟩ ⟨-lit 25 100, -lit 25 100, 0⟩ (lit 1 10000), ?_, ?_⟩
  · unfold relative
    simp only [hset, Res.ok_bind, hitems]
    rw [h2, three_weights, hp, hv, three_relative]
  · norm_num [near3, Holds]

/-- With the three obstacles in the list, the arithmetic of `modulate_velocity` gives the expected velocity. -/
theorem three_combine : Modulation.combine ⟨1, 0, 0⟩ ⟨1 / 2, 1 / 2, 0⟩ threeItems 1 2 = (⟨-(1 / 4), 5 / 4, 0⟩ : V3 ℝ) := by
  have hr := root
  have h0 : 0 < √2 := by positivity
  have hn : (⟨3 / 4, 3 / 4, 0⟩ : V3 ℝ).normalized = ⟨√2 / 2, √2 / 2, 0⟩ := by
    rw [normalized_of (r := 3 / 4 * √2) (by positivity) (by simp only; linarith)]
    ext
    · simp only; field_simp; linarith
    · simp only; field_simp; linarith
    · simp
  have hf : Modulation.dsFrame (⟨√2 / 2, √2 / 2, 0⟩ : V3 ℝ) = ⟨⟨√2 / 2, √2 / 2, 0⟩, ⟨√2 / 2, -(√2 / 2), 0⟩, ⟨0, 0, 1⟩⟩ := by
    ext <;> simp [Modulation.dsFrame, V3.cross, V3.unitZ]
    linarith
  have ha : Modulation.safeAcos (√2 / 2) = Real.pi / 4 := by
    obtain ⟨h1, h2⟩ := root_bounds
    unfold Modulation.safeAcos
    rw [if_neg (by linarith), if_neg (by linarith), acos_real, ← Real.cos_pi_div_four,
      Real.arccos_cos (by positivity) (by linarith [Real.pi_pos])]
  -- the first obstacle has weight zero
  have t1 : Modulation.angleTerm (⟨⟨√2 / 2, √2 / 2, 0⟩, ⟨√2 / 2, -(√2 / 2), 0⟩, ⟨0, 0, 1⟩⟩ : M3 ℝ).transpose
      ⟨√2 / 2, √2 / 2, 0⟩ ⟨3 / 4, 3 / 4, 0⟩ ⟨⟨1, -(1 / 2), 0⟩, ⟨-(1 / 2), 1, 0⟩, ⟨0, 0, 3 / 2⟩⟩ 0 = (0, ⟨0, 0⟩) := by
    simp [Modulation.angleTerm, V2.scale]
  have t2 : Modulation.angleTerm (⟨⟨√2 / 2, √2 / 2, 0⟩, ⟨√2 / 2, -(√2 / 2), 0⟩, ⟨0, 0, 1⟩⟩ : M3 ℝ).transpose
      ⟨√2 / 2, √2 / 2, 0⟩ ⟨3 / 4, 3 / 4, 0⟩ ⟨⟨0, 0, 0⟩, ⟨0, 2, 0⟩, ⟨0, 0, 2⟩⟩ (1 / 2) = (3 / 4, ⟨-(Real.pi / 8), 0⟩) := by
    have e1 : (⟨⟨0, 0, 0⟩, ⟨0, 2, 0⟩, ⟨0, 0, 2⟩⟩ : M3 ℝ).mulVec ⟨3 / 4, 3 / 4, 0⟩ = ⟨0, 3 / 2, 0⟩ := by
      ext <;> norm_num [M3.mulVec]
    have e2 : (⟨0, 3 / 2, 0⟩ : V3 ℝ).norm = 3 / 2 := by
      rw [V3.norm, sqrt_real, show (⟨0, 3 / 2, 0⟩ : V3 ℝ).sqNorm = 3 / 2 * (3 / 2) by norm_num [V3.sqNorm, V3.dot],
        Real.sqrt_mul_self (by norm_num)]
    have e3 : (⟨0, 3 / 2, 0⟩ : V3 ℝ).normalized = ⟨0, 1, 0⟩ := by
      rw [normalized_of (r := 3 / 2) (by norm_num) (by norm_num)]
      norm_num
    have e4 : (⟨⟨√2 / 2, √2 / 2, 0⟩, ⟨√2 / 2, -(√2 / 2), 0⟩, ⟨0, 0, 1⟩⟩ : M3 ℝ).transpose.mulVec ⟨0, 1, 0⟩ =
        ⟨√2 / 2, -(√2 / 2), 0⟩ := by
      ext <;> simp [M3.transpose, M3.mulVec]
    have e5 : (⟨-(√2 / 2), 0⟩ : V2 ℝ).normalized = ⟨-1, 0⟩ := by
      have hq : (⟨-(√2 / 2), 0⟩ : V2 ℝ).sqNorm = √2 / 2 * (√2 / 2) := by simp [V2.sqNorm]
      rw [V2.normalized, hq, if_pos (by positivity), sqrt_real, Real.sqrt_mul_self (by positivity)]
      simp [neg_div]
    have e6 : V3.dot (⟨0, 1, 0⟩ : V3 ℝ) ⟨√2 / 2, √2 / 2, 0⟩ = √2 / 2 := by simp [V3.dot]
    simp only [Modulation.angleTerm, e1, e2, e3, e4, e5, e6, ha, V2.scale]
    norm_num
    ring
  have hrec : Modulation.reconstruct (⟨-(Real.pi / 4), 0⟩ : V2 ℝ) = ⟨√2 / 2, -(√2 / 2), 0⟩ := by
    have hpi := Real.pi_pos
    have e1 : (⟨-(Real.pi / 4), 0⟩ : V2 ℝ).norm = Real.pi / 4 := by
      rw [V2.norm, sqrt_real, show (⟨-(Real.pi / 4), 0⟩ : V2 ℝ).sqNorm = Real.pi / 4 * (Real.pi / 4) by simp [V2.sqNorm],
        Real.sqrt_mul_self (by positivity)]
    simp only [Modulation.reconstruct, e1]
    rw [if_neg (by norm_num; linarith [Real.pi_gt_three])]
    simp only [cos_real, sin_real, Real.cos_pi_div_four, Real.sin_pi_div_four]
    ext
    · simp
    · simp only; field_simp
    · simp
  simp only [Modulation.combine, three_weights, three_relative, hn, hf]
  simp only [threeItems, List.zip_cons_cons, List.zip_nil_left, List.foldl_cons, List.foldl_nil, t1, t2, V2.add, V2.zero]
  have hs : (⟨0 + 0 + -(Real.pi / 8) + -(Real.pi / 8), 0 + 0 + 0 + 0⟩ : V2 ℝ) = ⟨-(Real.pi / 4), 0⟩ := by
    ext
    · simp only; ring
    · simp
  rw [hs, hrec]
  ext
  · simp [M3.mulVec]
  · simp [M3.mulVec]; linarith
  · simp [M3.mulVec]

theorem three_env : (Env.mk' false).addObstacle (three : Heap ℝ) 0 = .ok ⟨[("e1", 0)], false, []⟩ ∧
    Env.addObstacle (three : Heap ℝ) ⟨[("e1", 0)], false, []⟩ 1 = .ok ⟨[("e1", 0), ("e2", 1)], false, []⟩ ∧
    Env.addObstacle (three : Heap ℝ) ⟨[("e1", 0), ("e2", 1)], false, []⟩ 2 =
      .ok ⟨[("e1", 0), ("e2", 1), ("e3", 2)], false, []⟩ := by
  have h1 : (Env.mk' false).addObstacle (three : Heap ℝ) 0 = .ok ⟨[("e1", 0)], false, []⟩ := rfl
  have h2 : Env.addObstacle (three : Heap ℝ) ⟨[("e1", 0)], false, []⟩ 1 = .ok ⟨[("e1", 0), ("e2", 1)], false, []⟩ := by
    show (match Env.find [("e1", 0)] "e2" with
      | some _ => Res.throw (.alreadyExists "e2")
      | none => Res.ok ({ map := Env.insert [("e1", 0)] "e2" 1, aggregated := false, list := [] } : Env)) = _
    rw [show Env.find [("e1", 0)] "e2" = none by decide,
      show Env.insert [("e1", 0)] "e2" 1 = [("e1", 0), ("e2", 1)] by decide]
  have h3 : Env.addObstacle (three : Heap ℝ) ⟨[("e1", 0), ("e2", 1)], false, []⟩ 2 =
      .ok ⟨[("e1", 0), ("e2", 1), ("e3", 2)], false, []⟩ := by
    show (match Env.find [("e1", 0), ("e2", 1)] "e3" with
      | some _ => Res.throw (.alreadyExists "e3")
      | none => Res.ok ({ map := Env.insert [("e1", 0), ("e2", 1)] "e3" 2, aggregated := false, list := [] } : Env)) = _
    rw [show Env.find [("e1", 0), ("e2", 1)] "e3" = none by decide,
      show Env.insert [("e1", 0), ("e2", 1)] "e3" 2 = [("e1", 0), ("e2", 1), ("e3", 2)] by decide]
  exact ⟨h1, h2, h3⟩

/-- C95 is false: the test `ModulateVelocity` fails. The environment has not been updated, so its list of obstacles is
empty, and the agent keeps its velocity (0.5, 0.5, 0) instead of the (-0.25, 1.25, 0) that the test expects. -/
theorem C95_negation : Fails (modulate false) := by
  refine ⟨near3 (⟨lit 5 10, lit 5 10, 0⟩ : V3 ℝ) ⟨-lit 25 100, lit 125 100, 0⟩ (lit 1 10000), ?_, ?_⟩
  · obtain ⟨h1, h2, h3⟩ := three_env
    unfold modulate
    simp only [h1, h2, h3, Res.ok_bind]
    rfl
  · exact ⟨_, List.mem_cons_self .., by norm_num [Holds]⟩

/-- C95: with a call of `update` the test passes. -/
theorem C95_repaired_partial : Passes (modulate true) := by
  have h5 : (lit 5 10 : ℝ) = 1 / 2 := by norm_num
  have h2 : (lit 2 1 : ℝ) = 2 := by norm_num
  obtain ⟨env, a, hset, hst, hm⟩ : ∃ (env : Obj ℝ) (a : Agent ℝ),
      (agent (three : Heap ℝ) ⟨1, 0, 0⟩).2.setLinearVelocity (agent three ⟨1, 0, 0⟩).1 ⟨lit 5 10, lit 5 10, 0⟩ =
        .ok (three ++ [env], a) ∧
      a.state = (State.ofPosition ⟨1, 0, 0⟩).setLinearVelocity ⟨lit 5 10, lit 5 10, 0⟩ ∧ a.margin = 0 :=
    ⟨_, _, rfl, rfl, rfl⟩
  have hp : a.state.position = ⟨1, 0, 0⟩ := by rw [hst]; rfl
  have hv : a.state.linearVelocity = ⟨1 / 2, 1 / 2, 0⟩ := by rw [hst, h5]; rfl
  refine ⟨near3 (⟨-(1 / 4), 5 / 4, 0⟩ : V3 ℝ) ⟨-lit 25 100, lit 125 100, 0⟩ (lit 1 10000), ?_, ?_⟩
  · obtain ⟨k1, k2, k3⟩ := three_env
    unfold modulate
    simp only [k1, k2, k3, Res.ok_bind, if_true]
    have hu : Env.update (three : Heap ℝ) ⟨[("e1", 0), ("e2", 1), ("e3", 2)], false, []⟩ =
        .ok (three, ⟨[("e1", 0), ("e2", 1), ("e3", 2)], false, [0, 1, 2]⟩) := rfl
    rw [hu, Res.ok_bind]
    dsimp only
    rw [hset, Res.ok_bind]
    have hc := three_collect (h := [env]) hp hm
    simp only [Modulation.modulateVelocity, List.isEmpty_cons, Bool.false_eq_true, if_false, Res.ok_bind, Bool.not_true, hc,
      hp, hv, h2, three_combine, Modulation.finish]
    simp [V3.hasNaN]
  · norm_num [near3, Holds]

/-- C95: an obstacle added to the environment is found there, whatever the random numbers are. -/
theorem C95_add_partial (randMax r1 r2 r3 r4 r5 : Nat) :
    Passes (UnitTests.addObstacle (α := ℝ) randMax r1 r2 r3 r4 r5) := by
  refine ⟨_, rfl, ?_⟩
  intro c hc
  simp only [List.mem_singleton] at hc
  subst hc
  rfl

/-- C95: three obstacles in the environment, three in the list. -/
theorem C95_list_partial : Passes (getList (α := ℝ)) := by
  refine ⟨[.size 3 3], ?_, ?_⟩
  · unfold getList
    simp only [List.foldlM_cons, List.foldlM_nil, bind_assoc]
    rw [show (Env.mk' false).addObstacle ([.ellipsoid (named "e0"), .ellipsoid (named "e1"), .ellipsoid (named "e2")] : Heap ℝ) 0 =
      .ok ⟨[("e0", 0)], false, []⟩ from rfl, Res.ok_bind]
    rw [add_ok (k := "e1") (by decide) rfl (by decide), Res.ok_bind]
    rw [add_ok (k := "e2") (by decide) rfl (by decide), Res.ok_bind]
    rw [show Env.insert (Env.insert [("e0", 0)] "e1" 1) "e2" 2 = [("e0", 0), ("e1", 1), ("e2", 2)] by decide]
    rfl
  · intro c hc
    simp only [List.mem_singleton] at hc
    subst hc
    rfl

/-- C95: spheres that meet are aggregated, the reference position is the mean, and it can be moved; after the obstacles have
changed or moved the aggregates are made anew. -/
theorem C95_aggregation_partial : Passes (aggregation (α := ℝ)) := by
  have h5 : (lit 5 10 : ℝ) = 1 / 2 := by norm_num
  have h2 : (lit 2 1 : ℝ) = 2 := by norm_num
  have s0 := stage_start
  obtain ⟨h0, hh0⟩ : ∃ h : Heap ℝ, h = [.ellipsoid (circ "e1" ⟨1 / 2, 0, 0⟩ 1),
    .ellipsoid (circ "e2" ⟨-(1 / 2), 0, 0⟩ 1), .ellipsoid (circ "e0" ⟨0, 0, 0⟩ 1)] := ⟨_, rfl⟩
  have l0 : h0.length = 3 := by rw [hh0]; rfl
  rw [← hh0] at s0
  -- the first update
  obtain ⟨h1, a1, u1, s1, la1, w1, r1, n1⟩ := s0.update (obs := [0, 1]) (by decide) (by decide) (by decide)
    (ns := ["e1", "e2"]) (by decide) (by decide)
  -- the reference position is moved
  obtain ⟨h1', v1, s1', w1'⟩ := s1.setRef la1 ⟨1, 0, 0⟩
  -- the second update
  obtain ⟨h2', a2, u2, s2, la2, w2, r2, n2⟩ := s1'.update (obs := [2, 0, 1]) (by decide) (by decide) (by decide)
    (ns := ["e0", "e1", "e2"]) (by decide) (by decide)
  -- the third
  obtain ⟨h3, a3, u3, s3, la3, w3, r3, n3⟩ := s2.update (obs := [0, 1]) (by decide) (by decide) (by decide)
    (ns := ["e1", "e2"]) (by decide) (by decide)
  obtain ⟨o, ho, s4⟩ := s3.move ⟨2, 0, 0⟩
  obtain ⟨h4, u4⟩ := s4.update_alone
  have up : ∀ {h h' : Heap ℝ} {m : List (String × Ptr)} {l l' : List Ptr},
      Aggregation.aggregateObstacles h (m.map (·.2)) = .ok (h', l') → Env.update h ⟨m, true, l⟩ = .ok (h', ⟨m, true, l'⟩) := by
    intro h h' m l l' e
    simp only [Env.update, e, if_true, Res.ok_bind]
  have c1 : canonicalName ["e1", "e2"] = "aggregate_e1_e2" := by decide
  have c2 : canonicalName ["e0", "e1", "e2"] = "aggregate_e0_e1_e2" := by decide
  rw [c1] at n1 n3
  rw [c2] at n2
  have l1 : 2 < h1'.length := by
    obtain ⟨r, hr⟩ := s1'.obj (p := 2) (by decide)
    exact (List.getElem?_eq_some_iff.mp hr).1
  refine ⟨[.size 1 1, .below (mean (List.map (wher ⟨1 / 2, 0, 0⟩) [0, 1])).x (lit 1 10000), .below (1 - 1) (lit 1 10000),
    .below (1 - 1) (lit 1 10000), .below (mean (List.map (wher ⟨1 / 2, 0, 0⟩) [2, 0, 1])).x (lit 1 10000),
    .below (mean (List.map (wher ⟨1 / 2, 0, 0⟩) [0, 1])).x (lit 1 10000), .size 2 2], ?_, ?_⟩
  · unfold aggregation
    rw [h5]
    show aggregationOf [.ellipsoid (circ "e1" ⟨1 / 2, 0, 0⟩ 1), .ellipsoid (circ "e2" ⟨-(1 / 2), 0, 0⟩ 1),
      .ellipsoid (circ "e0" ⟨0, 0, 0⟩ 1)] = _
    rw [← hh0]
    unfold aggregationOf
    rw [h2, show Env.mk' true = ⟨[], true, []⟩ from rfl,
      add_ok (k := "e1") (by rw [l0]; decide) (s0.name (by decide)) (by decide), Res.ok_bind,
      add_ok (k := "e2") (by rw [l0]; decide) (s0.name (by decide)) (by decide), Res.ok_bind,
      show Env.insert (Env.insert [] "e1" 0) "e2" 1 = [("e1", 0), ("e2", 1)] by decide, up u1, Res.ok_bind]
    dsimp only
    have k1 := lookup_list (m := [("e1", 0), ("e2", 1)]) la1 (by decide) n1
    rw [refX_ok k1 r1, Res.ok_bind, k1, Res.ok_bind, v1, Res.ok_bind,
      refX_ok (lookup_map (p := 0) (by decide)) (w1' 0 (w1 0 (by decide))), Res.ok_bind,
      refX_ok (lookup_map (p := 1) (by decide)) (w1' 1 (w1 1 (by decide))), Res.ok_bind,
      add_ok (k := "e0") l1 (s1'.name (by decide)) (by decide), Res.ok_bind,
      show Env.insert [("e1", 0), ("e2", 1)] "e0" 2 = [("e0", 2), ("e1", 0), ("e2", 1)] by decide, up u2, Res.ok_bind]
    dsimp only
    rw [refX_ok (lookup_list (m := [("e0", 2), ("e1", 0), ("e2", 1)]) la2 (by decide) n2) r2, Res.ok_bind,
      show Env.removeObstacle ⟨[("e0", 2), ("e1", 0), ("e2", 1)], true, [a2]⟩ "e0" = .ok ⟨[("e1", 0), ("e2", 1)], true, [a2]⟩
        by rfl, Res.ok_bind, up u3, Res.ok_bind]
    dsimp only
    rw [refX_ok (lookup_list (m := [("e1", 0), ("e2", 1)]) la3 (by decide) n3) r3, Res.ok_bind,
      lookup_map (p := 0) (by decide), Res.ok_bind, ho, Res.ok_bind, up u4, Res.ok_bind]
    rfl
  · intro c hc
    simp only [List.mem_cons, List.not_mem_nil, or_false] at hc
    rcases hc with rfl | rfl | rfl | rfl | rfl | rfl | rfl
    · rfl
    · norm_num [Holds, mean, wher]
    · norm_num [Holds]
    · norm_num [Holds]
    · norm_num [Holds, mean, wher]
    · norm_num [Holds, mean, wher]
    · rfl

/-- C95: all tests of testModulation.cpp but the last. -/
theorem C95_modulation_partial : ∀ t ∈ (modulationTests : List (Res (List (Check ℝ)))), Passes t := by
  obtain ⟨w1, w2, w3⟩ := C95_weights_partial
  obtain ⟨m1, m2, m3, m4⟩ := C95_matrices_partial
  have r := C95_relative_partial
  intro t ht
  simp only [modulationTests, List.mem_cons, List.not_mem_nil, or_false] at ht
  rcases ht with rfl | rfl | rfl | rfl | rfl | rfl | rfl | rfl <;> assumption

end DOA.Props
