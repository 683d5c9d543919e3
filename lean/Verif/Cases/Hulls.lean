import Verif.Props.HullWall
import Verif.Props.HullSurface
import Verif.Props.HullNeedle
import Verif.Props.AggregateTotal
import Verif.Props.AggregationHistory
import Verif.Props.Exceptional

/-!
# Concrete cases: hulls

The theorems of `Props/Hull*.lean` and `Props/AggregateQueries.lean` that are not applied there.
-/

namespace DOA.Props

open DOA DOA.Spec DOA.Modulation DOA.Ellipsoid DOA.Hull

set_option linter.unusedSimpArgs false

/-! ### The surface (C82) -/

/-- The wheel as the outside hull of an aggregate. -/
noncomputable def rim : Aggregate ℝ :=
  { (Aggregate.default : Aggregate ℝ) with
    base := Base.mkRef "rim" (State.ofPosition V3.zero) V3.zero V3.zero
    inside := disc true (1 / 2)
    outside := wheel }

theorem rim_hulls : Hulls rim :=
  ⟨⟨⟨by norm_num [rim, disc], rfl, rfl⟩, wheel_flat.ok⟩, rfl, rfl, wheel_flat.pos⟩

theorem wheel_pos : wheel.base.position = V3.zero := rfl

theorem ray_norm (f : ℝ) : (ray f).norm = 1 := by
  rw [V3.norm_eq_one_iff]; simp only [ray, V3.sqNorm, V3.dot]; nlinarith [Real.sin_sq_add_cos_sq f]

theorem sub_zero3 (x : V3 ℝ) : x - V3.zero = x := by ext <;> simp [V3.zero]

theorem wheel_polar : wheel.polar[wheel.column (ray (-1 / 4))]? = some ⟨1, Real.pi / 2, 0⟩ := by
  rw [wheel_column]; rfl

theorem wheel_chord : IsChord wheel (ray (-1 / 4)) (ray 1 - ray 0) := by
  refine ⟨ray 0, ray 1, ?_, ?_, rfl⟩ <;> rw [wheel_column] <;> simp [wheel, disc, ray]

theorem wheel_between : BetweenColumns wheel (ray (-1 / 4)) := by
  have hpi := Real.pi_gt_three
  have hcos : 0 < Real.cos (-1 / 4) := Real.cos_pos_of_mem_Ioo ⟨by linarith, by linarith⟩
  refine ⟨Or.inr (by rw [wheel_pos, sub_zero3]; exact hcos), ?_⟩
  intro q hq
  rw [wheel_arg]
  simp only [wheel, disc, List.mem_cons, List.not_mem_nil, or_false] at hq
  rcases hq with rfl | rfl <;> norm_num

theorem half_le_sin {x : ℝ} (h0 : 0 ≤ x) (h1 : x ≤ 1) : x / 2 ≤ Real.sin x := by
  have h3 := Real.pi_gt_three
  have h := Real.mul_le_sin (x := x) h0 (by linarith)
  have h4 : 1 / 2 ≤ 2 / Real.pi := by
    rw [div_le_div_iff₀ two_pos Real.pi_pos]; linarith [Real.pi_le_four]
  have := mul_le_mul_of_nonneg_right h4 h0
  linarith

theorem chord_turn : turn (ray (-1 / 4)) (ray 1 - ray 0) = 2 * Real.cos (3 / 4) * Real.sin (1 / 2) := by
  have : turn (ray (-1 / 4)) (ray 1 - ray 0) = Real.sin (1 - -1 / 4) - Real.sin (0 - -1 / 4) := by
    simp only [turn, ray, V3.sub_x, V3.sub_y, Real.sin_sub]; ring
  rw [this, show (1 : ℝ) - -1 / 4 = 3 / 4 + 1 / 2 by norm_num, show (0 : ℝ) - -1 / 4 = 3 / 4 - 1 / 2 by norm_num,
    Real.sin_add, Real.sin_sub]; ring

theorem chord_dot : V3.dot (ray (-1 / 4)) (ray 1 - ray 0) = -(2 * Real.sin (3 / 4) * Real.sin (1 / 2)) := by
  have : V3.dot (ray (-1 / 4)) (ray 1 - ray 0) = Real.cos (1 - -1 / 4) - Real.cos (0 - -1 / 4) := by
    simp only [V3.dot, ray, V3.sub_x, V3.sub_y, V3.sub_z, Real.cos_sub]; ring
  rw [this, show (1 : ℝ) - -1 / 4 = 3 / 4 + 1 / 2 by norm_num, show (0 : ℝ) - -1 / 4 = 3 / 4 - 1 / 2 by norm_num,
    Real.cos_add, Real.cos_sub]; ring

theorem chord_norm : (ray 1 - ray 0).norm = 2 * Real.sin (1 / 2) := by
  have hs := half_le_sin (x := 1 / 2) (by norm_num) (by norm_num)
  have : (ray 1 - ray 0).sqNorm = (2 * Real.sin (1 / 2)) ^ 2 := by
    have h1 : (ray 1 - ray 0).sqNorm = 2 - 2 * Real.cos (2 * (1 / 2)) := by
      simp only [V3.sqNorm, V3.dot, ray, V3.sub_x, V3.sub_y, V3.sub_z, Real.cos_zero, Real.sin_zero]
      norm_num
      nlinarith [Real.sin_sq_add_cos_sq 1]
    rw [h1, Real.cos_two_mul]
    nlinarith [Real.sin_sq_add_cos_sq (1 / 2)]
  simp only [V3.norm, sqrt_real, this]
  exact Real.sqrt_sq (by linarith)

theorem chord_signs : 0 < Real.cos (3 / 4) ∧ 1 / 4 ≤ Real.sin (1 / 2) ∧ 3 / 8 ≤ Real.sin (3 / 4) := by
  have hpi := Real.pi_gt_three
  refine ⟨Real.cos_pos_of_mem_Ioo ⟨by linarith, by linarith⟩, ?_, ?_⟩
  · have := half_le_sin (x := 1 / 2) (by norm_num) (by norm_num); linarith
  · have := half_le_sin (x := 3 / 4) (by norm_num) (by norm_num); linarith

theorem wheel_outside : wheel.pointIsInside (ray (-1 / 4)) = .ok false := by
  unfold Hull.pointIsInside
  rw [closest_eq (by simp [wheel, disc]), wheel_column, Res.ok_bind, inverse_apply_one rfl,
    show wheel.base.pose.position = V3.zero from rfl, sub_zero3]
  simp only [polar_radius, ray_norm]
  norm_num [wheel, disc, Res.index]

theorem rim_outside : Heap.pointIsInside [.aggregate rim] (.aggregate rim) (ray (-1 / 4)) = .ok false := by
  have h1 : rim.outside.pointIsInside (ray (-1 / 4)) = .ok false := wheel_outside
  rw [Heap.pointIsInside, show Heap.fuel ([.aggregate rim] : Heap ℝ) = 1 + 1 from rfl, Heap.pointIsInsideAux, h1, Res.ok_bind]
  rfl

/-- `C82_negation_aggregate`: an agent on the outer surface, moving upwards to the right of it, is led into the wall. -/
example : ∃ out, modulateVelocity [.aggregate rim] (agentAt (ray (-1 / 4)) ⟨0, 1, 0⟩) (envOf [0]) false false false 1 2 =
      .ok ([.aggregate rim], out) ∧
    ∀ᶠ s in nhdsWithin (0 : ℝ) (Set.Ioi 0),
      Heap.pointIsInside [.aggregate rim] (.aggregate rim) (ray (-1 / 4) + V3.smul s out) = .ok true := by
  obtain ⟨c1, c2, c3⟩ := chord_signs
  have hpi := Real.pi_gt_three
  have hcos : 0 < Real.cos (-1 / 4) := Real.cos_pos_of_mem_Ioo ⟨by linarith, by linarith⟩
  have hpos : (agentAt (ray (-1 / 4)) ⟨0, 1, 0⟩).state.position - rim.outside.base.position = ray (-1 / 4) := sub_zero3 _
  refine C82_negation_aggregate [.aggregate rim] (agentAt (ray (-1 / 4)) ⟨0, 1, 0⟩) (envOf [0]) false 1 2 0 rim rim_hulls
    wheel_flat (ray 1 - ray 0) ⟨1, Real.pi / 2, 0⟩ rfl rfl ⟨rfl, rfl⟩ (by intro h; cases h) rfl rfl rim_outside
    wheel_between wheel_polar ?_ wheel_chord rfl ?_ rfl ?_ ?_ ?_
  · rw [hpos, ray_norm]
  · rw [chord_norm]; linarith
  · rw [hpos, chord_turn]; positivity
  · rw [hpos, ray_norm, chord_norm, chord_dot, abs_neg, abs_of_pos (by positivity)]
    nlinarith
  · rw [hpos, chord_turn, chord_dot]
    have : turn (ray (-1 / 4)) (agentAt (ray (-1 / 4)) ⟨0, 1, 0⟩).state.linearVelocity = Real.cos (-1 / 4) := by
      show turn (ray (-1 / 4)) ⟨0, 1, 0⟩ = _
      simp [turn, ray]
    rw [this]
    have h3 : 0 < Real.cos (-1 / 4) * (2 * Real.cos (3 / 4) * Real.sin (1 / 2)) * (2 * Real.sin (3 / 4) * Real.sin (1 / 2)) := by
      positivity
    linarith

/-- `C82_chord_partial` and `C82_negation`: the same point, either direction. -/
example : ∃ M B, modulationMatrix [.hull wheel] (agentAt (ray (-1 / 4)) ⟨0, 1, 0⟩) (.hull wheel) = .ok (M, B, 1) ∧
    ∀ v : V3 ℝ, v.z = 0 → turn (M.mulVec v) (ray 1 - ray 0) = 0 := by
  obtain ⟨c1, c2, c3⟩ := chord_signs
  have hpos : (agentAt (ray (-1 / 4)) ⟨0, 1, 0⟩).state.position - wheel.base.position = ray (-1 / 4) := sub_zero3 _
  have hlong : 1 / 10000 ≤ (ray 1 - ray 0).norm := by rw [chord_norm]; linarith
  have hs : turn ((agentAt (ray (-1 / 4)) ⟨0, 1, 0⟩).state.position - wheel.base.position) (ray 1 - ray 0) ≠ 0 := by
    rw [hpos, chord_turn]; positivity
  obtain ⟨M, B, d, h1, h2, -, h3⟩ := C82_chord_partial [.hull wheel] (agentAt (ray (-1 / 4)) ⟨0, 1, 0⟩) wheel wheel_flat
    (ray 1 - ray 0) false wheel_outside wheel_chord rfl hlong hs
  obtain ⟨h4, -⟩ := C82_negation [.hull wheel] (agentAt (ray (-1 / 4)) ⟨0, -1, 0⟩) (envOf [0]) false 1 2 0 wheel wheel_flat
    (ray 1 - ray 0) ⟨1, Real.pi / 2, 0⟩ rfl rfl ⟨rfl, rfl⟩ (by intro h; cases h) wheel_between wheel_polar
    (by rw [show (agentAt (ray (-1 / 4)) ⟨0, -1, 0⟩).state.position - wheel.base.position = ray (-1 / 4) from sub_zero3 _,
      ray_norm]) wheel_chord rfl hlong rfl
    (by rw [show (agentAt (ray (-1 / 4)) ⟨0, -1, 0⟩).state.position - wheel.base.position = ray (-1 / 4) from sub_zero3 _,
      chord_turn]; positivity)
    (by
      rw [show (agentAt (ray (-1 / 4)) ⟨0, -1, 0⟩).state.position - wheel.base.position = ray (-1 / 4) from sub_zero3 _,
        ray_norm, chord_norm, chord_dot, abs_neg, abs_of_pos (by positivity)]
      nlinarith)
    (by
      rw [show (agentAt (ray (-1 / 4)) ⟨0, -1, 0⟩).state.position - wheel.base.position = ray (-1 / 4) from sub_zero3 _]
      have hpi := Real.pi_gt_three
      have hcos : 0 < Real.cos (-1 / 4) := Real.cos_pos_of_mem_Ioo ⟨by linarith, by linarith⟩
      have : turn (ray (-1 / 4)) (agentAt (ray (-1 / 4)) ⟨0, -1, 0⟩).state.linearVelocity = -Real.cos (-1 / 4) := by
        show turn (ray (-1 / 4)) ⟨0, -1, 0⟩ = _
        simp [turn, ray]
      rw [this]
      exact neg_ne_zero.mpr hcos.ne')
  have hd : d = 1 := by
    have h5 : (Res.ok d : Res ℝ) = .ok 1 := h2.symm.trans h4
    cases h5; rfl
  subst hd
  refine ⟨M, B, h1, fun v hv => ?_⟩
  rw [h3 v hv]; norm_num

/-! ### Histories of a hull (C54, C55) -/

/-- The constructors of `Aggregate` (50 columns, radius 1/2), then two circles. -/
example : ∃ k1 k2, (Hull.mk' false 50 (1 / 2 : ℝ)).compute ([ballAt ⟨3, 1, 0⟩].map (·.intersectionPoints)) ⟨3, 1, 0⟩ = .ok k1 ∧
    k1.compute ([ballAt ⟨2, 1, 0⟩].map (·.intersectionPoints)) ⟨3, 1, 0⟩ = .ok k2 ∧
    (∀ q ∈ k1.polar, (1 - 1 / 19) * (1 / 2) ≤ q.x) ∧ ∀ q ∈ k2.polar, (1 - 1 / 19 / 19) * (1 / 2) ≤ q.x := by
  have hk : HullOK (Hull.mk' false 50 (1 / 2 : ℝ)) := hullOK_mk' _ (by norm_num) _
  obtain ⟨k1, h1, ok1, -, -, m1, -⟩ := compute_ok hk ([ballAt ⟨3, 1, 0⟩].map (·.intersectionPoints)) ⟨3, 1, 0⟩
  obtain ⟨k2, h2, -⟩ := compute_ok ok1 ([ballAt ⟨2, 1, 0⟩].map (·.intersectionPoints)) ⟨3, 1, 0⟩
  have s1 := C54_step_partial hk h1 (by norm_num [Hull.mk']) (e := 1) (by norm_num) (by
    intro q hq
    have : q = V3.zero := List.eq_of_mem_replicate hq
    rw [this]; simp [V3.zero])
  have s1' : ∀ q ∈ k1.polar, (1 - 1 / 19) * (1 / 2) ≤ q.x := s1
  have m1' : k1.minRadius = 1 / 2 := m1
  have s2 := C54_step_partial ok1 h2 (by rw [m1']; norm_num) (e := 1 / 19) (by norm_num) (by rw [m1']; exact s1')
  rw [m1'] at s2
  exact ⟨k1, k2, h1, h2, s1', s2⟩

example : ∃ k', computes (Hull.mk' true 500 (1 / 2 : ℝ)) [([], V3.zero), ([], ⟨1, 0, 0⟩)] = .ok k' ∧
    ∀ q ∈ k'.polar, 180 / 361 ≤ q.x := by
  obtain ⟨k', h, -, hq⟩ := C54_history_partial true 500 (by norm_num) (1 / 2) (by norm_num) [([], V3.zero), ([], ⟨1, 0, 0⟩)]
  refine ⟨k', h, fun q h => ?_⟩
  have := hq q h
  norm_num at this
  linarith

example : ∃ k' q, (Hull.mk' true 500 (1 / 2 : ℝ)).compute [] V3.zero = .ok k' ∧ q ∈ k'.polar ∧ q.x = 19 / 40 := by
  obtain ⟨k', q, h1, h2, h3, -⟩ := C54_negation true 500 (by norm_num) (1 / 2) (by norm_num) V3.zero
  exact ⟨k', q, h1, h2, by rw [h3]; norm_num⟩

example : ∃ k1 k2, (Hull.mk' true 500 (1 / 2 : ℝ)).compute [] V3.zero = .ok k1 ∧ k1.compute [] V3.zero = .ok k2 ∧
    k1.polar ≠ k2.polar := C55_negation true 500 (by norm_num) (1 / 2) (by norm_num) V3.zero

/-- A fresh hull and one with radii 1 everywhere, both then computed from the same circle. -/
example : ∃ k1' k2', (Hull.mk' false 3 (1 / 2 : ℝ)).compute ([ballAt ⟨3, 1, 0⟩].map (·.intersectionPoints)) ⟨3, 1, 0⟩ = .ok k1' ∧
    ({ Hull.mk' false 3 (1 / 2 : ℝ) with polar := List.replicate 3 ⟨1, 0, 0⟩ } : Hull ℝ).compute
      ([ballAt ⟨3, 1, 0⟩].map (·.intersectionPoints)) ⟨3, 1, 0⟩ = .ok k2' ∧ Near (1 / 19) k1'.polar k2'.polar := by
  have hk : HullOK (Hull.mk' false 3 (1 / 2 : ℝ)) := hullOK_mk' _ (by norm_num) _
  have hk2 : HullOK ({ Hull.mk' false 3 (1 / 2 : ℝ) with polar := List.replicate 3 ⟨1, 0, 0⟩ } : Hull ℝ) :=
    ⟨by norm_num [Hull.mk'], rfl, rfl⟩
  obtain ⟨k1, h1, -⟩ := compute_ok hk ([ballAt ⟨3, 1, 0⟩].map (·.intersectionPoints)) ⟨3, 1, 0⟩
  obtain ⟨k2, h2, -⟩ := compute_ok hk2 ([ballAt ⟨3, 1, 0⟩].map (·.intersectionPoints)) ⟨3, 1, 0⟩
  refine ⟨k1, k2, h1, h2, (C55_contraction_partial hk hk2 rfl rfl rfl rfl rfl h1 h2 (D := 1) ?_).1⟩
  intro j a b ha hb
  have ha' : a = V3.zero := List.eq_of_mem_replicate (List.mem_of_getElem? ha)
  have hb' : b = ⟨1, 0, 0⟩ := List.eq_of_mem_replicate (List.mem_of_getElem? hb)
  rw [ha', hb']; simp [V3.zero]

/-! ### Queries (C56, C57, C58, C78) -/

example : ∃ d b N, wheel.distanceToPoint (ray (-1 / 4)) V3.zero = .ok d ∧ wheel.pointIsInside (ray (-1 / 4)) = .ok b ∧
    wheel.normalToAgent (ray (-1 / 4)) = .ok N := by
  obtain ⟨⟨d, hd⟩, ⟨b, hb⟩, c1, c2, -, -, hn⟩ := (C56_exact wheel wheel_flat.ok (ray (-1 / 4)) V3.zero).1
    (by rw [wheel_column]; norm_num [wheel, disc])
  exact ⟨d, b, _, hd, hb, hn⟩

/-- The wheel has columns at the angles 0 and 1; the point at angle `π` has no column. -/
example : wheel.pointIsInside ⟨-1, 0, 0⟩ = .ub .indexOOB := by
  refine (C56_negation_general wheel wheel_flat.ok ⟨-1, 0, 0⟩ V3.zero ?_).2.1
  have hpi := Real.pi_gt_three
  intro i q hi hq
  have h2 : Props.angleOf wheel ⟨-1, 0, 0⟩ = Real.pi := by
    unfold Props.angleOf
    rw [inverse_apply_one rfl, show wheel.base.pose.position = V3.zero from rfl, sub_zero3]
    simp only [MathTools.cartesianToPolar, atan2_real]
    rw [show (⟨-1, 0⟩ : ℂ) = -1 from by apply Complex.ext <;> simp, Complex.arg_neg_one]
  rw [h2]
  match i, hi, hq with
  | 1, _, hq => simp [wheel, disc] at hq; rw [← hq]; show (1 : ℝ) < Real.pi; linarith
  | (n + 2), _, hq => simp [wheel, disc] at hq

example : ∃ d, wheel.distanceToPoint (ray (-1 / 4)) V3.zero = .ok d ∧ d = 1 := by
  obtain ⟨d, s, h1, h2, -, h4⟩ := C57_outside wheel wheel_flat.ok rfl wheel_flat.pos (ray (-1 / 4)) V3.zero wheel_outside
  rw [wheel_polar] at h2; cases h2
  exact ⟨d, h1, h4.mpr (by
    rw [inverse_apply_one rfl, show wheel.base.pose.position = V3.zero from rfl, sub_zero3, ray_norm])⟩

example (m : V3 ℝ) : ∃ d, (disc true 2).distanceToPoint ⟨1, 0, 0⟩ m = .ok d ∧ 1 < d := by
  obtain ⟨d, s, h1, -, h3, -⟩ := C57_inside (disc true 2) ⟨by norm_num [disc], rfl, rfl⟩ rfl ⟨1, 0, 0⟩ m (by
    rw [inverse_apply_one rfl, show (disc true 2).base.pose.position = V3.zero from rfl, sub_zero3]
    intro h; exact one_ne_zero (congrArg V3.x h)) (disc_inside true 2 1 (by norm_num))
  exact ⟨d, h1, h3.mpr (by norm_num)⟩

example : (disc true 2).isClosed = .ok true := by
  obtain ⟨b, h1, h2⟩ := C58_hull (disc true 2) (by simp [disc])
  rw [h1, h2.mpr]
  intro q hq
  simp only [disc, List.mem_cons, List.not_mem_nil, or_false] at hq ⊢
  rcases hq with rfl | rfl <;> norm_num

/-- The normal of the ring outside of it. -/
example (m : ℝ) : ∃ N s1 s2, Heap.normalToAgent [] (.aggregate ring) ⟨3, 0, 0⟩ m = .ok N ∧ s1 ∈ ring.outside.cart ∧
    s2 ∈ ring.outside.cart ∧ V3.dot N (s1 - s2) = 0 := by
  have hb : Heap.pointIsInside [] (.aggregate ring) ⟨3, 0, 0⟩ = .ok false := by
    rw [ring_inside 3 (by norm_num)]; norm_num
  obtain ⟨N, s1, s2, h1, h2, h3, h4, -⟩ := C78_normal [] ring ring_hulls ⟨3, 0, 0⟩ m false hb (by intro h; cases h)
  exact ⟨N, s1, s2, h1, by simpa using h2, by simpa using h3, h4⟩

/-- `update_hull` on a new aggregate with one circle. -/
example : ∃ a', Heap.updateHull [.ellipsoid (ballAt V3.zero), .aggregate { (Aggregate.default : Aggregate ℝ) with
      base := Base.mkRef "g" (State.ofPosition V3.zero) V3.zero V3.zero, prims := [0] }] 1 =
    .ok [.ellipsoid (ballAt V3.zero), .aggregate a'] ∧ Hulls a' := by
  obtain ⟨a', h1, h2, -⟩ := C78_update [.ellipsoid (ballAt V3.zero), .aggregate { (Aggregate.default : Aggregate ℝ) with
      base := Base.mkRef "g" (State.ofPosition V3.zero) V3.zero V3.zero, prims := [0] }] 1 _ V3.zero rfl
    (by intro q hq; simp at hq; subst hq; norm_num) rfl
    ⟨hullOK_mk' _ (by norm_num) _, hullOK_mk' _ (by norm_num) _⟩ rfl rfl (by norm_num [Aggregate.default, Hull.mk'])
    (by
      intro q hq
      have : q = V3.zero := List.eq_of_mem_replicate hq
      rw [this]; simp [V3.zero])
  exact ⟨a', h1, h2⟩

/-- After four computations from a disc the hull with 500 columns and least radius 1/2 is a disc up to 1/130321. -/
example : ∃ k', computes (Hull.mk' true 500 (1 / 2 : ℝ)) (List.replicate 4 ([(ballAt V3.zero).intersectionPoints], V3.zero)) = .ok k' ∧
    ∀ q ∈ k'.polar, |q.x - 1| ≤ 1 / 130321 := by
  obtain ⟨k', h1, h2⟩ := C65_hull_of_disc true 500 (by norm_num) (1 / 2) (by norm_num) V3.zero 4
  refine ⟨k', h1, fun q hq => ?_⟩
  have := h2 q hq
  rw [max_eq_right (by norm_num)] at this
  norm_num at this ⊢
  exact this

/-! ### Aggregates in the modulation (C11, C87) -/

theorem needleScene_acyclic : Acyclic needleScene := acyclic_flat (by
  intro p a hp
  have := List.mem_of_getElem? hp
  simp [needleScene] at this)

/-- The agent right of the needle, whatever the options. -/
example : ∃ (h' : Heap ℝ) (e' : Env), Env.update needleScene ⟨[("a", 0), ("b", 1)], true, []⟩ = .ok (h', e') ∧
    ∀ rep planar critical power, ∃ h'' v,
      modulateVelocity h' (agentAt ⟨1, 0, 0⟩ ⟨-1, 0, 0⟩) e' false rep planar critical power = .ok (h'', v) := by
  obtain ⟨h', e, g, hup, hl, -, -, hg, -, hr, -⟩ := C86_negation
  refine ⟨h', e, hup, fun rep planar critical power => ?_⟩
  refine C87_defined_partial needleScene_acyclic ?_ ?_ rfl hup _ false rep planar critical power (by intro h; cases h) ?_
  · intro p o ho
    have := List.mem_of_getElem? ho
    simp only [needleScene, List.mem_cons, List.not_mem_nil, or_false] at this
    rcases this with rfl | rfl <;> exact ⟨_, rfl⟩
  · intro x hx
    simp only [List.mem_cons, List.not_mem_nil, or_false] at hx
    rcases hx with rfl | rfl
    · exact ⟨needle, rfl⟩
    · exact ⟨coin, rfl⟩
  · intro p hp g' r hg' hr'
    rw [hl] at hp
    simp only [List.mem_singleton] at hp
    subst hp
    rw [hg] at hg'; cases hg'
    rw [hr] at hr'; cases hr'
    have : (⟨((⟨1, 0, 0⟩ : V3 ℝ) - V3.zero).x, ((⟨1, 0, 0⟩ : V3 ℝ) - V3.zero).y⟩ : ℂ) = 1 := by
      apply Complex.ext <;> simp [V3.zero]
    have h2 : (agentAt ⟨1, 0, 0⟩ ⟨-1, 0, 0⟩).state.position = ⟨1, 0, 0⟩ := rfl
    rw [h2, this, Complex.arg_one]
    linarith [Real.pi_gt_three]

/-- The velocity of the members of an aggregate does not count. -/
example : ∃ (h' : Heap ℝ) (e' : Env) (r : Heap ℝ × List (Modulation.Item ℝ)),
    Env.update needleScene ⟨[("a", 0), ("b", 1)], true, []⟩ = .ok (h', e') ∧
    Modulation.collect false (agentAt ⟨20, 0, 0⟩ ⟨-1, 0, 0⟩) h' e'.list = .ok r ∧
    ∀ weights, Modulation.relativeVelocities (⟨20, 0, 0⟩ : V3 ℝ) ⟨-1, 0, 0⟩ r.2 weights = (⟨-1, 0, 0⟩, V3.zero) := by
  obtain ⟨h', e, g, hup, hl, -, -, hg, -, hr, -, hrest⟩ := C86_negation
  obtain ⟨s, -, -, hm, -⟩ := (hrest (agentAt ⟨20, 0, 0⟩ ⟨-1, 0, 0⟩) 20 (by norm_num) rfl rfl).2 false 1 2
  unfold modulateVelocity at hm
  simp only [hl, List.isEmpty_cons, Bool.false_eq_true, if_false, Res.ok_bind, Bool.not_true] at hm
  obtain ⟨r, hr, -⟩ := Res.bind_eq_ok.mp hm
  refine ⟨h', e, r, hup, by rw [hl]; exact hr, fun weights => ?_⟩
  refine C11_negation_modulation (w := ⟨needleScene, ⟨[("a", 0), ("b", 1)], true, []⟩⟩) (w' := ⟨h', e⟩) needleScene_acyclic
    (by simp [needleScene]) rfl (by simp only [World.exec, hup, Res.ok_bind]) (by rw [hl]; simp [needleScene])
    (agentAt ⟨20, 0, 0⟩ ⟨-1, 0, 0⟩) false (by rw [hl]; exact hr) weights

end DOA.Props
