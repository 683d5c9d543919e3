import Verif.Props.Math
import Verif.Props.Pose
import Verif.Props.Kinds
import Verif.Props.AgentQueries
import Verif.Props.Agent
import Verif.Props.Order
import Verif.Props.Speed
import Verif.Props.Exceptional

/-!
# Concrete cases: mathematics, poses, queries, modulation

The theorems of these files that are not applied to concrete data there.
-/

namespace DOA.Props

open DOA DOA.Spec DOA.Modulation DOA.Ellipsoid DOA.MathTools

set_option linter.unusedSimpArgs false

/-! ### Mathematics (C13, C14, C18) -/

example : ∃ l, linspace (0 : ℝ) 1 5 = .ok l ∧ l.length = 5 ∧ l.head? = some 0 ∧ l.getLast? = some 1 ∧ l.Pairwise (· < ·) := by
  obtain ⟨l, h1, h2, h3, h4⟩ := C13_linspace_endpoints (0 : ℝ) 1 5 (by norm_num)
  exact ⟨l, h1, h2, h3, h4, C13_linspace_increasing 0 1 5 (by norm_num) (by norm_num) l h1⟩

example : linspace (0 : ℝ) 1 1 = .throw .linspacePtr := C13_linspace_throws 0 1 1 (by norm_num)

example : gridspace (⟨0, 0⟩ : V2 ℝ) (0, 0) (1, 1) (5, -3) = .throw .linspacePtr :=
  C14_gridspace_throws _ _ _ 5 (-3) (Or.inr (by norm_num))

example : randFloat 0 2147483647 (-10) (10 : ℝ) = 10 ∧ randFloat 2147483647 2147483647 (-10) (10 : ℝ) = -10 :=
  C18_rand_float_ends 2147483647 (by norm_num) (-10) 10

/-! ### Poses (C19–C21) -/

example : (halfTurn.mul halfTurn).mul (Pose.ofPosition ⟨1, 0, 0⟩) = halfTurn.mul (halfTurn.mul (Pose.ofPosition ⟨1, 0, 0⟩)) :=
  C19_assoc _ _ _ halfTurn_unit halfTurn_unit

example : halfTurn.inverse.mul halfTurn = Pose.default ∧ halfTurn.inverse.inverse = halfTurn ∧
    (halfTurn.mul halfTurn).inverse = halfTurn.inverse.mul halfTurn.inverse :=
  ⟨(C21_inverse_mul _ halfTurn_unit).1, C21_inverse_inverse _ halfTurn_unit,
    C21_inverse_of_product _ _ halfTurn_unit halfTurn_unit⟩

example : (halfTurn.apply ⟨5, 6, 7⟩ - halfTurn.apply ⟨1, 2, 3⟩).norm = ((⟨5, 6, 7⟩ : V3 ℝ) - ⟨1, 2, 3⟩).norm :=
  (C21_isometry halfTurn halfTurn_unit ⟨5, 6, 7⟩ ⟨1, 2, 3⟩ V3.zero).1

theorem halfQuat : (⟨0, 1 / 2, 0, 0⟩ : Quat ℝ) ≠ ⟨0, 0, 0, 0⟩ ∧ (⟨0, 1 / 2, 0, 0⟩ : Quat ℝ).norm < 1 + 1 / 10000 := by
  refine ⟨by simp, ?_⟩
  have : Real.sqrt (1 / 2 * (1 / 2)) = 1 / 2 := Real.sqrt_mul_self (by norm_num)
  simp only [Quat.norm, Quat.sqNorm, sqrt_real]
  norm_num at this ⊢
  rw [this]; norm_num

example : ((Pose.mk7 1 2 3 0 (1 / 2) 0 0).mul (Pose.ofPosition ⟨1, 1, 1⟩)).inverse.orientation.norm = (1 : ℝ) :=
  C20_unit_partial _ (.inverse _ (.mul _ _ (.mk7 _ _ _ _ _ _ _ halfQuat) (.ofPosition _)))

example (v : V3 ℝ) : (Pose.mk2 ⟨1, 2, 3⟩ ⟨0, 1 / 2, 0, 0⟩).apply v = ⟨v.x + 1, -v.y + 2, -v.z + 3⟩ := by
  rw [(C20_constructor_rotation ⟨1, 2, 3⟩ _ halfQuat.1 halfQuat.2 v).1]
  ext <;> simp [Quat.mul, Quat.conjugate, Quat.vec, Quat.sqNorm, V3.smul] <;> ring

/-! ### Ellipsoids and kinds (C24, C30, C47) -/

theorem ballAt_rotated (c : V3 ℝ) : ZRotated (ballAt c) := ⟨(ballAt_smooth c).unit, rfl, rfl⟩

theorem ballAt_half (c : V3 ℝ) : halfLengths (ballAt c) V3.zero = ⟨1, 1, 1⟩ := by
  ext <;> simp [halfLengths, ballAt, Ellipsoid.ofBase, Base.mkRef, V3.zero, V3.const]

theorem ballAt_in (c : V3 ℝ) : InEllipse (ballAt c) (halfLengths (ballAt c) V3.zero) c.x c.y :=
  ⟨0, 0, by simp, by simp [zrot_apply (ballAt_rotated c)]; rfl, by simp [zrot_apply (ballAt_rotated c)]; rfl⟩

/-- The larger of two concentric ellipses contains what the smaller one contains. -/
example (p : V3 ℝ) (h : (ballAt V3.zero).pointIsInside p = true) :
    ({ ballAt V3.zero with axis := ⟨2, 3, 1⟩ } : Ellipsoid ℝ).pointIsInside p = true := by
  refine C24_inside_monotone (ballAt V3.zero) _ p rfl (by rw [ballAt_half]; norm_num) (by rw [ballAt_half]; norm_num) ?_ ?_ h
  · refine ⟨?_, ?_, ?_⟩ <;> norm_num [ballAt, Ellipsoid.ofBase, V3.const]
  · exact ⟨le_refl _, le_refl _, le_refl _⟩

/-- Two circles, one with its centre in the other. -/
example : Heap.isIntersecting ([] : Heap ℝ) (.ellipsoid (ballAt V3.zero)) (.ellipsoid (ballAt V3.zero)) = .ok true :=
  (C30_centres_partial [] _ _ (ballAt_rotated _) (ballAt_rotated _) (Or.inl (ballAt_in _))).1

example : ∃ (h : Heap ℝ) (a : Aggregate ℝ), a.prims = [0] ∧ h[0]? = some (.ellipsoid (ballAt V3.zero)) ∧
    h[1]? = some (.ellipsoid (ballAt V3.zero)) ∧ h.isIntersecting (.ellipsoid (ballAt V3.zero)) (.aggregate a) = .ok true ∧
    h.isIntersecting (.aggregate a) (.ellipsoid (ballAt V3.zero)) = .ok false :=
  C30_negation _ _ (ballAt_rotated _) (ballAt_rotated _) (ballAt_in _)

example : ∃ e r e', Obj.ellipsoid (ballAt V3.zero) = .ellipsoid e ∧ Within [.ellipsoid (ballAt V3.zero)] 0 r ∧
    ([.ellipsoid (ballAt V3.zero)] : Heap ℝ)[r]? = some (.ellipsoid e') ∧ e.isIntersectingEllipsoid e' = .ok true :=
  (C30_exact [.ellipsoid (ballAt V3.zero)] (.ellipsoid (ballAt V3.zero)) 0 _ rfl true
    (C30_centres_partial _ _ _ (ballAt_rotated _) (ballAt_rotated _) (Or.inl (ballAt_in _))).1).mp rfl

/-- A hull and a plain obstacle. -/
example (b b' : Bool) (k : Hull ℝ) (o : Base ℝ) (hb : Heap.isIntersecting [.hull k, .plain o] (.hull k) (.plain o) = .ok b)
    (hb' : Heap.isIntersecting [.hull k, .plain o] (.plain o) (.hull k) = .ok b') : b = b' :=
  C30_symmetric_partial [.hull k, .plain o] (.hull k) (.plain o) 0 1 rfl rfl (fun _ h => by cases h) (fun _ h => by cases h)
    b b' hb hb'

example : Heap.isIntersecting ([.hull (Hull.mk' false 3 1), .plain (Base.mkName "" V3.zero)] : Heap ℝ)
    (.hull (Hull.mk' false 3 1)) (.plain (Base.mkName "" V3.zero)) = .ok false ∧
    Heap.isIntersecting ([.hull (Hull.mk' false 3 1), .plain (Base.mkName "" V3.zero)] : Heap ℝ)
    (.plain (Base.mkName "" V3.zero)) (.hull (Hull.mk' false 3 1)) = .ok false := ⟨rfl, rfl⟩

/-- The agent at the centre of the circle heading along the axis `y`. -/
example : Heap.shiftReferencePoint (Heap.toD [.ellipsoid (ballAt V3.zero)]) 0 (V3.toD ⟨0, -2, 0⟩) (V3.toD ⟨0, 4, 0⟩) =
    .ok (Heap.toD [.ellipsoid (ballAt V3.zero)]) := by
  refine C47_negation_vertical _ 0 (ballAt V3.zero) rfl (by rw [ballAt_half]; norm_num) (by rw [ballAt_half]; norm_num) _ _ ?_
  rw [inverse_apply_one rfl, inverse_apply_one rfl]
  simp

/-! ### Queries of the agent (C50, C52, C53) -/

example : (agentAt V3.zero V3.zero).inObstacle [] (.ellipsoid (ballAt V3.zero)) = .ok true :=
  C52_deep [] (agentAt V3.zero V3.zero) (ballAt V3.zero) (ballAt_rotated _) (ballAt_in _)

example : (agentAt V3.zero V3.zero).inObstacle [] (.ellipsoid (ballAt V3.zero)) = .ok true := by
  refine C52_inside [] (agentAt V3.zero V3.zero) (ballAt V3.zero) ?_
  have hin := circle_inside (ballAt_rotated V3.zero) 1 one_pos (by rw [ballAt_half]) (by rw [ballAt_half])
  rw [hin]
  norm_num [agentAt, State.position, Pose.ofPosition, ballAt, Ellipsoid.ofBase, Base.mkRef, State.ofPosition, Base.position, V3.zero]

example : ∃ x y, InEllipse (ballAt V3.zero) (halfLengths (ballAt V3.zero) V3.zero) x y ∧
    (x - (agentAt V3.zero V3.zero).state.position.x) ^ 2 + (y - (agentAt V3.zero V3.zero).state.position.y) ^ 2 ≤
      (max (1 / 10) (agentAt V3.zero V3.zero).margin) ^ 2 :=
  C52_touches_partial [] (agentAt V3.zero V3.zero) (ballAt V3.zero) (ballAt_rotated _) (by rw [ballAt_half]; norm_num)
    (by rw [ballAt_half]; norm_num) (C52_deep [] _ _ (ballAt_rotated _) (ballAt_in _))

example (h : Heap ℝ) (a : Agent ℝ) (t : V3 ℝ) (r : Bool) : a.existPath h t [0, 1, 2] = .ok r ↔ a.existPath h t [2, 0, 1] = .ok r :=
  C53_order (by decide)

example : ∃ h' a' env, runCalls (Agent.mk2 ([] : Heap ℝ) (State.ofPosition V3.zero) 0)
      ([.setPosition ⟨1, 1, 0⟩] ++ [.setSafetyMargin (1 / 5), .setLinearVelocity ⟨3, 4, 0⟩]) = .ok (h', a') ∧
    a'.margin = 1 / 5 ∧ a'.getEnvelope h' = .ok (.ellipsoid env) := by
  obtain ⟨h', a', env, h1, h2, h3, -⟩ := C50_next_setter_partial [] (State.ofPosition V3.zero) 0 (1 / 5)
    [.setPosition ⟨1, 1, 0⟩] (.setLinearVelocity ⟨3, 4, 0⟩) rfl
  exact ⟨h', a', env, h1, h2, h3⟩

/-! ### Modulation (C33, C34, C36) -/

example : (weightObstacles [1 / 2, 3, 1, (2 : ℝ)] 1 2)[2]? = some (1 / 2) := by
  rw [C33_critical [1 / 2, 3, 1, 2] 1 2 ⟨1, by simp, le_refl 1⟩ 2 1 rfl]
  norm_num

example : ∃ wi wj, (weightObstacles [2, (3 : ℝ)] 1 2)[0]? = some wi ∧ (weightObstacles [2, (3 : ℝ)] 1 2)[1]? = some wj ∧
    0 < wj ∧ wj < wi := by
  obtain ⟨wi, wj, h1, h2, -, h3, -, h4⟩ := C33_free [2, 3] 1 2 (by norm_num) (by simp) 0 1 2 3 rfl rfl
  exact ⟨wi, wj, h1, h2, h3, h4 (by norm_num)⟩

example : (diagonalEigenvalues 2 (1 : ℝ)).x < (diagonalEigenvalues 3 (1 : ℝ)).x :=
  (C34_monotone 2 3 1 one_pos (by norm_num) (by norm_num)).1

example : Filter.Tendsto (fun d => (diagonalEigenvalues d (1 : ℝ)).x) Filter.atTop (nhds 1) := (C34_limit 1 one_pos).1

example : ∃ M : ℝ → M3 ℝ, (∀ t, 0 < t → ∃ B d, modulationMatrix [] (agentAt (⟨t, t, 0⟩) ⟨1, 0, 0⟩) (.ellipsoid (ball V3.zero)) =
      .ok (M t, B, d)) ∧ ∀ v, Filter.Tendsto (fun t => ((M t).mulVec v).x) Filter.atTop (nhds v.x) := by
  obtain ⟨M, h1, h2⟩ := C36_far [] (ball V3.zero) 0 1 (ball_smooth _) rfl ⟨1, 1, 0⟩ (by simp)
    (fun t => agentAt ⟨t, t, 0⟩ ⟨1, 0, 0⟩) (fun t => ⟨by
      rw [ball_apply]; simp [agentAt, State.position, Pose.ofPosition, V3.smul], rfl⟩)
  exact ⟨M, h1, fun v => (h2 v).1⟩

theorem ball_plane (x y : ℝ) : InPlane (ball V3.zero) ⟨x, y, 0⟩ V3.zero :=
  ⟨⟨x, y, (ball_apply _ _).symm⟩, ⟨0, 0, (ball_apply _ _).symm⟩⟩

example : ∃ (M B N : M3 ℝ), modulationMatrix [] (agentAt ⟨2, 1, 0⟩ ⟨-1, 0, 0⟩) (.ellipsoid (ball V3.zero)) = .ok (M, B, 5) ∧
    ∀ v, M.mulVec (N.mulVec v) = v := by
  have hd : gdist (ball V3.zero) (agentAt ⟨2, 1, 0⟩ ⟨-1, 0, 0⟩).margin (agentAt ⟨2, 1, 0⟩ ⟨-1, 0, 0⟩).state.position = 5 := by
    show gdist (ball V3.zero) 0 ⟨2, 1, 0⟩ = 5
    rw [ball_dist]; norm_num
  obtain ⟨M, B, K, N, h1, -, -, h4⟩ := C36_regular [] (agentAt ⟨2, 1, 0⟩ ⟨-1, 0, 0⟩) (ball V3.zero) 1 (ball_smooth _) V3.zero rfl
    (by rw [hd]; show gdist (ball V3.zero) 0 V3.zero < 5; rw [ball_dist]; norm_num [V3.zero])
    (by rw [hd]; norm_num)
  rw [hd] at h1
  exact ⟨M, B, N, h1, fun v => (h4 v).1⟩

example : ∃ out, modulateVelocity [.ellipsoid (ball V3.zero)] (agentAt ⟨2, 1, 0⟩ ⟨-3, 4, 0⟩) (envOf [0]) false false false 1 2 =
      .ok ([.ellipsoid (ball V3.zero)], out) ∧ V3.norm out ≤ 2 * 1 * (1 + 1 / 10 ^ 8) * V3.norm (⟨-3, 4, 0⟩ : V3 ℝ) :=
  C75_output_partial [.ellipsoid (ball V3.zero)] (agentAt ⟨2, 1, 0⟩ ⟨-3, 4, 0⟩) (envOf [0]) 0 (ball V3.zero) 1 1 1 1 1 2 rfl rfl
    ⟨rfl, rfl⟩ (ball_smooth _) ball_between ball_aspect rfl (ball_plane 2 1)
    (by show 0 < gdist (ball V3.zero) 0 ⟨2, 1, 0⟩; rw [ball_dist]; norm_num) rfl

/-! ### The combination (C40, C41, C42, C45, C46, C47) -/

/-- The repulsion of the unit circle is weaker at 1.03 than at 1.02. -/
example : ∃ r1 r2, Heap.generateRepulsion ([] : Heap ℝ) (.ellipsoid (ball V3.zero)) (V3.zero + V3.smul (102 / 100) ⟨1, 0, 0⟩) 0 (11 / 10) = .ok r1 ∧
    Heap.generateRepulsion [] (.ellipsoid (ball V3.zero)) (V3.zero + V3.smul (103 / 100) ⟨1, 0, 0⟩) 0 (11 / 10) = .ok r2 ∧
    V3.norm r2 < V3.norm r1 :=
  C42_stronger [] (ball V3.zero) ⟨1, 0, 0⟩ 0 (11 / 10) (102 / 100) (103 / 100) 1 (ball_smooth _) rfl
    (by intro h; exact one_ne_zero (congrArg V3.x h)) (by norm_num) (by norm_num) (by
      show gdist (ball V3.zero) 0 (V3.zero + V3.smul (103 / 100) ⟨1, 0, 0⟩) < 11 / 10
      rw [ball_dist]; norm_num [V3.zero, V3.smul])

example : ∃ (h : Heap ℝ) (a : Agent ℝ) (e : Env) (el : Ellipsoid ℝ) (out : V3 ℝ) (s : ℝ),
    e.list = [0] ∧ h[0]? = some (.ellipsoid el) ∧ gdist el a.margin a.state.position = 1 ∧
    modulateVelocity h a e false false false 1 2 = .ok (h, out) ∧ Slope el a.margin a.state.position out s ∧ s < 0 := by
  obtain ⟨h, a, e, el, out, s, h1, h2, -, -, -, h3, -, h4, h5, h6⟩ :=
    C45_negation_small_angle (1 / 20000) (by norm_num) (by norm_num)
  exact ⟨h, a, e, el, out, s, h1, h2, h3, h4, h5, h6⟩

/-- The agent of the examples has an envelope: a circle with radius one around it. -/
noncomputable def seer (x v : V3 ℝ) : Agent ℝ := { agentAt x v with envelope := some 2 }

noncomputable def seen (x : V3 ℝ) : Heap ℝ := [.ellipsoid (ballAt V3.zero), .ellipsoid (ballAt ⟨9, 0, 0⟩), .ellipsoid (ballAt x)]

example (rep planar : Bool) (critical power : ℝ) :
    modulateVelocity (seen V3.zero) (seer V3.zero ⟨1, 0, 0⟩) (envOf [0]) true rep planar critical power =
      modulateVelocity (seen V3.zero) (seer V3.zero ⟨1, 0, 0⟩) (envOf [0]) false rep planar critical power := by
  have hy : Heap.isIntersecting (seen V3.zero) (.ellipsoid (ballAt V3.zero)) (.ellipsoid (ballAt V3.zero)) = .ok true :=
    (C30_centres_partial _ _ _ (ballAt_rotated _) (ballAt_rotated _) (Or.inl (ballAt_in _))).1
  refine C40_seen (seen V3.zero) (seer V3.zero ⟨1, 0, 0⟩) (envOf [0]) rep planar critical power (.ellipsoid (ballAt V3.zero)) rfl ?_
    ⟨0, by simp [envOf], _, rfl, hy⟩
  intro p hp
  simp only [envOf, List.mem_singleton] at hp
  subst hp
  exact ⟨_, true, rfl, hy⟩

/-- The order of two obstacles, and of their names, does not matter. -/
example (a : Agent ℝ) (loc rep planar : Bool) (critical power : ℝ) (r : Heap ℝ × V3 ℝ) :
    modulateVelocity (seen V3.zero) a (envOf [0, 1]) loc rep planar critical power = .ok r ↔
      modulateVelocity (seen V3.zero) a (envOf [1, 0]) loc rep planar critical power = .ok r :=
  C46_order (seen V3.zero) (acyclic_flat (by
    intro p g hg
    have := List.mem_of_getElem? hg
    simp [seen] at this)) a _ _ (by decide) loc rep planar critical power r

example (a : Agent ℝ) (loc rep planar : Bool) (critical power : ℝ) (r : Heap ℝ × V3 ℝ) :
    (∃ h0 e0, Env.update (seen V3.zero) ⟨[("a", 0), ("b", 1)], false, []⟩ = .ok (h0, e0) ∧
      modulateVelocity h0 a e0 loc rep planar critical power = .ok r) ↔
    (∃ h0 e0, Env.update (seen V3.zero) ⟨[("x", 1), ("y", 0)], false, []⟩ = .ok (h0, e0) ∧
      modulateVelocity h0 a e0 loc rep planar critical power = .ok r) :=
  C46_names (seen V3.zero) (acyclic_flat (by
    intro p g hg
    have := List.mem_of_getElem? hg
    simp [seen] at this)) a _ _ rfl rfl (by decide) loc rep planar critical power r

/-- The call of the example of C75: nothing is shifted. -/
example : ∃ out, modulateVelocity [.ellipsoid (ball V3.zero)] (agentAt ⟨2, 1, 0⟩ ⟨-3, 4, 0⟩) (envOf [0]) false false false 1 2 =
      .ok ([.ellipsoid (ball V3.zero)], out) ∧
    SameShape [.ellipsoid (ball V3.zero)] [.ellipsoid (ball V3.zero)] ∧
    ((CMath.isNaN out.x = false ∧ CMath.isNaN out.y = false ∧ CMath.isNaN out.z = false) ∨ out = ⟨-3, 4, 0⟩) := by
  obtain ⟨out, h, -⟩ := C75_output_partial [.ellipsoid (ball V3.zero)] (agentAt ⟨2, 1, 0⟩ ⟨-3, 4, 0⟩) (envOf [0]) 0
    (ball V3.zero) 1 1 1 1 1 2 rfl rfl ⟨rfl, rfl⟩ (ball_smooth _) ball_between ball_aspect rfl (ball_plane 2 1)
    (by show 0 < gdist (ball V3.zero) 0 ⟨2, 1, 0⟩; rw [ball_dist]; norm_num) rfl
  have h0 := C47_not_planar h
  refine ⟨out, h, (C47_frame h).1, ?_⟩
  rcases C41_no_nan rfl _ _ _ _ _ _ _ _ _ _ h with h1 | h1
  · exact Or.inl h1
  · exact Or.inr h1.1

end DOA.Props
