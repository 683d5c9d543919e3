import Verif.Lemmas.Ellipsoid

/-!
# Properties C22-C28, C31, C32: ellipsoids
-/

namespace DOA.Props
open DOA DOA.Spec DOA.Ellipsoid

/-- An ellipsoid at (1,2,3), half turned about x, with axes 1,2,3 and margin 1/2: used in the
examples. -/
noncomputable def exE : Ellipsoid ℝ :=
  ⟨⟨"e", State.ofPose ⟨⟨1, 2, 3⟩, ⟨0, 1, 0, 0⟩⟩, some ⟨1, 2, 3⟩, ⟨1/2, 1/2, 1/2⟩⟩, ⟨1, 2, 3⟩,
    ⟨1, 1, 1⟩⟩

theorem exE_unit : exE.base.orientation.norm = 1 := by
  simp [exE, Quat.norm, Quat.sqNorm, Base.orientation, State.orientation, State.ofPose]

theorem exE_curv : HasCurv exE 1 1 1 := by simp [HasCurv, exE]

theorem exE_lengths : AllGt (halfLengths exE V3.zero) (1 / 10000) := by
  norm_num [AllGt, halfLengths, exE, V3.zero]

/-! ## C22 distance is the level function -/

/-- The open solid of the inflated obstacle: images of `l∘u` with `Σ uᵢ^(2kᵢ) < 1`. -/
def InteriorPt (e : Ellipsoid ℝ) (m : V3 ℝ) (k1 k2 k3 : ℕ) (p : V3 ℝ) : Prop :=
  ∃ u : V3 ℝ, u.x ^ (2 * k1) + u.y ^ (2 * k2) + u.z ^ (2 * k3) < 1 ∧
    p = e.base.pose.apply ⟨(halfLengths e m).x * u.x, (halfLengths e m).y * u.y,
      (halfLengths e m).z * u.z⟩

/-- The surface of the inflated obstacle. -/
def SurfacePt (e : Ellipsoid ℝ) (m : V3 ℝ) (k1 k2 k3 : ℕ) (p : V3 ℝ) : Prop :=
  ∃ u : V3 ℝ, u.x ^ (2 * k1) + u.y ^ (2 * k2) + u.z ^ (2 * k3) = 1 ∧
    p = e.base.pose.apply ⟨(halfLengths e m).x * u.x, (halfLengths e m).y * u.y,
      (halfLengths e m).z * u.z⟩

/-- C22: the distance of the point with frame coordinates `y` is the level function at `y`. -/
theorem C22_distance_is_level (e : Ellipsoid ℝ) (m y : V3 ℝ) (k1 k2 k3 : ℕ)
    (hk : HasCurv e k1 k2 k3) (hq : e.base.orientation.norm = 1)
    (hl : AllGt (halfLengths e m) (1 / 10000)) :
    e.distanceToPoint (e.base.pose.apply y) m = level (halfLengths e m) k1 k2 k3 y :=
  distance_eq e m y k1 k2 k3 hk ((Quat.isUnit_iff_norm _).mpr hq) hl

/-- C22: never negative; zero exactly at the centre; below 1 exactly in the open solid; 1 exactly on
its surface (hence above 1 exactly outside). -/
theorem C22_distance_classifies (e : Ellipsoid ℝ) (m p : V3 ℝ) (k1 k2 k3 : ℕ)
    (hk : HasCurv e k1 k2 k3) (hq : e.base.orientation.norm = 1)
    (hl : AllGt (halfLengths e m) (1 / 10000)) :
    0 ≤ e.distanceToPoint p m ∧
    (e.distanceToPoint p m = 0 ↔ p = e.base.position) ∧
    (e.distanceToPoint p m < 1 ↔ InteriorPt e m k1 k2 k3 p) ∧
    (e.distanceToPoint p m = 1 ↔ SurfacePt e m k1 k2 k3 p) := by
  have hq' : e.base.pose.orientation.IsUnit := (Quat.isUnit_iff_norm _).mpr hq
  have hl0 : AllGt (halfLengths e m) 0 := by
    obtain ⟨h1, h2, h3⟩ := hl
    refine ⟨?_, ?_, ?_⟩ <;> linarith
  obtain ⟨y, rfl⟩ : ∃ y, e.base.pose.apply y = p := ⟨_, Pose.apply_apply_inverse hq' p⟩
  have hd := distance_eq e m y k1 k2 k3 hk hq' hl
  have hx := hl0.1.ne'
  have hy := hl0.2.1.ne'
  have hz := hl0.2.2.ne'
  have inj : ∀ u : V3 ℝ, e.base.pose.apply y = e.base.pose.apply ⟨(halfLengths e m).x * u.x,
      (halfLengths e m).y * u.y, (halfLengths e m).z * u.z⟩ →
      level (halfLengths e m) k1 k2 k3 y =
        u.x ^ (2 * k1) + u.y ^ (2 * k2) + u.z ^ (2 * k3) := by
    intro u hu
    have h := congrArg e.base.pose.inverse.apply hu
    rw [Pose.apply_inverse_apply hq', Pose.apply_inverse_apply hq'] at h
    rw [h, level]
    simp only [mul_div_cancel_left₀ _ hx, mul_div_cancel_left₀ _ hy, mul_div_cancel_left₀ _ hz]
  have sur : ∃ u : V3 ℝ, e.base.pose.apply y = e.base.pose.apply ⟨(halfLengths e m).x * u.x,
      (halfLengths e m).y * u.y, (halfLengths e m).z * u.z⟩ := by
    refine ⟨⟨y.x / (halfLengths e m).x, y.y / (halfLengths e m).y, y.z / (halfLengths e m).z⟩, ?_⟩
    simp only [mul_div_cancel₀ _ hx, mul_div_cancel₀ _ hy, mul_div_cancel₀ _ hz]
  rw [hd]
  refine ⟨level_nonneg _ _ _ _ _, ?_, ?_, ?_⟩
  · rw [level_eq_zero _ _ _ _ _ hl0 hk.2.1 hk.2.2.1 hk.2.2.2, ← frame_zero_iff e hq',
      Pose.apply_inverse_apply hq']
  · constructor
    · intro h
      obtain ⟨u, hu⟩ := sur
      exact ⟨u, by rw [← inj u hu]; exact h, hu⟩
    · rintro ⟨u, h, hu⟩
      rw [inj u hu]; exact h
  · constructor
    · intro h
      obtain ⟨u, hu⟩ := sur
      exact ⟨u, by rw [← inj u hu]; exact h, hu⟩
    · rintro ⟨u, h, hu⟩
      rw [inj u hu]; exact h

example : exE.distanceToPoint exE.base.position V3.zero = 0 :=
  (C22_distance_classifies exE V3.zero _ 1 1 1 exE_curv exE_unit exE_lengths).2.1.mpr rfl

/-- the point at frame coordinates (1.5,0,0), i.e. (2.5,2,3), is on the surface -/
example : exE.distanceToPoint (exE.base.pose.apply ⟨3/2, 0, 0⟩) V3.zero = 1 := by
  rw [C22_distance_is_level exE V3.zero _ 1 1 1 exE_curv exE_unit exE_lengths]
  norm_num [level, halfLengths, exE, V3.zero]

/-! ## C23 frame invariance -/

/-- The obstacle moved by the rigid motion `T`. -/
def moved (T : Pose ℝ) (e : Ellipsoid ℝ) : Ellipsoid ℝ :=
  { e with base := e.base.setPose (T.mul e.base.pose) }

/-- C23: distance, normal (obstacle frame) and inside test are unchanged if obstacle and point are
moved by the same rigid motion. No condition on lengths or curvature. -/
theorem C23_frame_invariance (T : Pose ℝ) (hT : T.orientation.norm = 1) (e : Ellipsoid ℝ)
    (hq : e.base.orientation.norm = 1) (p m : V3 ℝ) (r : ℝ) :
    (moved T e).distanceToPoint (T.apply p) m = e.distanceToPoint p m ∧
    (moved T e).normalToAgent (T.apply p) r = e.normalToAgent p r ∧
    (moved T e).pointIsInside (T.apply p) = e.pointIsInside p := by
  rw [← Quat.isUnit_iff_norm] at hT hq
  have hq' : e.base.pose.orientation.IsUnit := hq
  have hpose : (moved T e).base.pose = T.mul e.base.pose := rfl
  have key : (moved T e).base.pose.inverse.apply (T.apply p) = e.base.pose.inverse.apply p := by
    rw [hpose]
    have hu : (T.mul e.base.pose).orientation.IsUnit := hT.mul hq'
    have h1 : T.apply p = (T.mul e.base.pose).apply (e.base.pose.inverse.apply p) := by
      simp only [Pose.mul, Pose.mulAssign, Pose.apply]
      rw [Quat.rotate_mul hT hq']
      have h2 := Pose.apply_apply_inverse hq' p
      simp only [Pose.apply] at h2
      conv_lhs => rw [← h2, Quat.rotate_add]
      ext <;> simp <;> ring
    rw [h1, Pose.apply_inverse_apply hu]
  refine ⟨?_, ?_, ?_⟩
  · simp only [distanceToPoint, key]; rfl
  · simp only [normalToAgent, key]; rfl
  · simp only [pointIsInside, key]; rfl

example : (moved ⟨⟨4, 5, 6⟩, ⟨0, 0, 0, 1⟩⟩ exE).distanceToPoint
    (Pose.apply ⟨⟨4, 5, 6⟩, ⟨0, 0, 0, 1⟩⟩ ⟨7, 8, 9⟩) V3.zero =
    exE.distanceToPoint ⟨7, 8, 9⟩ V3.zero :=
  (C23_frame_invariance _ (by simp [Quat.norm, Quat.sqNorm]) exE exE_unit _ _ 0).1

/-! ## C24 margins only enlarge -/

/-- Componentwise order. -/
def LeV (a b : V3 ℝ) : Prop := a.x ≤ b.x ∧ a.y ≤ b.y ∧ a.z ≤ b.z

/-- C24, the part that holds: if all three half lengths were above 1e-4, enlarging axes, obstacle
margin or agent margin does not increase the distance.
Full statement (false, see `C24_negation`): the same without the lower bound. -/
theorem C24_margin_monotone_partial (e e' : Ellipsoid ℝ) (m m' p : V3 ℝ) (k1 k2 k3 : ℕ)
    (hk : HasCurv e k1 k2 k3) (hcurv : e'.curv = e.curv) (hpose : e'.base.pose = e.base.pose)
    (hl : AllGt (halfLengths e m) (1 / 10000)) (haxis : LeV e.axis e'.axis)
    (hmargin : LeV e.base.margin e'.base.margin) (hm : LeV m m') :
    e'.distanceToPoint p m' ≤ e.distanceToPoint p m := by
  obtain ⟨l1, l2, l3⟩ := hl
  obtain ⟨a1, a2, a3⟩ := haxis
  obtain ⟨b1, b2, b3⟩ := hmargin
  obtain ⟨c1, c2, c3⟩ := hm
  have d1 : (halfLengths e m).x ≤ (halfLengths e' m').x := by simp only [halfLengths]; linarith
  have d2 : (halfLengths e m).y ≤ (halfLengths e' m').y := by simp only [halfLengths]; linarith
  have d3 : (halfLengths e m).z ≤ (halfLengths e' m').z := by simp only [halfLengths]; linarith
  rw [distance_frame e m p k1 k2 k3 hk ⟨l1, l2, l3⟩,
    distance_frame e' m' p k1 k2 k3 (by unfold HasCurv; rw [hcurv]; exact hk)
      ⟨by linarith, by linarith, by linarith⟩, hpose]
  exact level_anti k1 k2 k3 _ ⟨by linarith, by linarith, by linarith⟩ d1 d2 d3

/-- C24: with positive lengths, an inside point stays inside when the obstacle is enlarged. -/
theorem C24_inside_monotone (e e' : Ellipsoid ℝ) (p : V3 ℝ)
    (hpose : e'.base.pose = e.base.pose) (hx : 0 < (halfLengths e V3.zero).x)
    (hy : 0 < (halfLengths e V3.zero).y) (haxis : LeV e.axis e'.axis)
    (hmargin : LeV e.base.margin e'.base.margin) (h : e.pointIsInside p = true) :
    e'.pointIsInside p = true := by
  obtain ⟨a1, a2, a3⟩ := haxis
  obtain ⟨b1, b2, b3⟩ := hmargin
  have d1 : (halfLengths e V3.zero).x ≤ (halfLengths e' V3.zero).x := by
    simp only [halfLengths]; linarith
  have d2 : (halfLengths e V3.zero).y ≤ (halfLengths e' V3.zero).y := by
    simp only [halfLengths]; linarith
  rw [inside_frame] at h ⊢
  rw [hpose]
  have e1 := even_pow_le_even_pow 1 (abs_div_le (v := (e.base.pose.inverse.apply p).x) hx d1)
  have e2 := even_pow_le_even_pow 1 (abs_div_le (v := (e.base.pose.inverse.apply p).y) hy d2)
  simp only [mul_one] at e1 e2
  linarith

/-- C24 is false around the threshold 1e-4: at or below it a coordinate is not divided by the length,
so enlarging an axis from 0 to 1/2 doubles the scaled coordinate. -/
theorem C24_negation : ∃ (e e' : Ellipsoid ℝ) (m p : V3 ℝ),
    HasCurv e 1 1 1 ∧ e'.curv = e.curv ∧ e'.base = e.base ∧ LeV e.axis e'.axis ∧
    LeV ⟨0, 0, 0⟩ (halfLengths e m) ∧
    e.distanceToPoint p m < e'.distanceToPoint p m := by
  refine ⟨⟨Base.mkPos "e" V3.zero V3.zero, ⟨1, 1, 0⟩, ⟨1, 1, 1⟩⟩,
    ⟨Base.mkPos "e" V3.zero V3.zero, ⟨1, 1, 1/2⟩, ⟨1, 1, 1⟩⟩, V3.zero, ⟨0, 0, 1⟩, ?_, rfl, rfl, ?_,
    ?_, ?_⟩
  · simp [HasCurv]
  · norm_num [LeV]
  · norm_num [LeV, halfLengths, Base.mkPos, V3.zero]
  · have hp : (2 : ℝ) ^ (2 : ℝ) = 4 := by norm_num
    norm_num [distanceToPoint, scaled, epsilon, Base.mkPos, V3.zero, Base.pose, State.ofPosition,
      Pose.ofPosition, Pose.inverse, Pose.apply, Quat.one, Quat.conjugate, Quat.rotate, Quat.vec,
      V3.cross, V3.smul]

example : { exE with axis := ⟨2, 2, 3⟩ }.distanceToPoint ⟨7, 8, 9⟩ ⟨1, 1, 1⟩ ≤
    exE.distanceToPoint ⟨7, 8, 9⟩ V3.zero :=
  C24_margin_monotone_partial exE _ _ _ _ 1 1 1 exE_curv rfl rfl exE_lengths
    (by norm_num [LeV, exE]) (by norm_num [LeV]) (by norm_num [LeV, V3.zero])

/-! ## C25 the normal -/

/-- C25: away from the centre the normal is a unit vector that points away from the centre, for every
positive integer curvature. -/
theorem C25_normal_unit_outward (e : Ellipsoid ℝ) (y : V3 ℝ) (r : ℝ) (k1 k2 k3 : ℕ)
    (hk : HasCurv e k1 k2 k3) (hq : e.base.orientation.norm = 1)
    (hl : AllGt (halfLengths e (V3.const r)) (1 / 10000)) (hy : y ≠ ⟨0, 0, 0⟩) :
    (e.normalToAgent (e.base.pose.apply y) r).norm = 1 ∧
    0 < V3.dot (e.normalToAgent (e.base.pose.apply y) r) y := by
  have hq' : e.base.pose.orientation.IsUnit := (Quat.isUnit_iff_norm _).mpr hq
  rw [normal_frame e _ r k1 k2 k3 hk hl, Pose.apply_inverse_apply hq']
  obtain ⟨l1, l2, l3⟩ := hl
  obtain ⟨-, hk1, hk2, hk3⟩ := hk
  generalize halfLengths e (V3.const r) = l at *
  have c1 : 0 < l.x * l.x := by nlinarith
  have c2 : 0 < l.y * l.y := by nlinarith
  have c3 : 0 < l.z * l.z := by nlinarith
  set n : V3 ℝ := ⟨(2 * k1 * y.x / (l.x * l.x)) ^ (2 * k1 - 1),
    (2 * k2 * y.y / (l.y * l.y)) ^ (2 * k2 - 1), (2 * k3 * y.z / (l.z * l.z)) ^ (2 * k3 - 1)⟩ with hn
  have p1 := mul_odd_pow_nonneg (y := y.x) hk1 c1
  have p2 := mul_odd_pow_nonneg (y := y.y) hk2 c2
  have p3 := mul_odd_pow_nonneg (y := y.z) hk3 c3
  have hpos : 0 < V3.dot n y := by
    simp only [V3.dot, hn]
    by_cases hx : y.x = 0
    · by_cases hyy : y.y = 0
      · have hz : y.z ≠ 0 := by
          intro hz; exact hy (by ext <;> assumption)
        have := p3.2 hz; linarith [p1.1, p2.1]
      · have := p2.2 hyy; linarith [p1.1, p3.1]
    · have := p1.2 hx; linarith [p2.1, p3.1]
  have hne : n ≠ V3.zero := by
    intro h0; rw [h0] at hpos; simp [V3.dot, V3.zero] at hpos
  refine ⟨V3.norm_normalized hne, ?_⟩
  rw [V3.normalized_of_ne hne, V3.smul_dot]
  have := V3.norm_pos hne
  positivity

/-- `n` is a positive multiple of the gradient of `f` at `y`: the derivative of `f` in every direction
`u` is `c * n·u` with one `c > 0`. -/
def ParallelToGradient (n : V3 ℝ) (f : V3 ℝ → ℝ) (y : V3 ℝ) : Prop :=
  ∃ c : ℝ, 0 < c ∧ ∀ u : V3 ℝ, HasDerivAt (fun s : ℝ => f (y + V3.smul s u)) (c * V3.dot n u) 0

/-- C25, the part that holds: the normal is parallel to the gradient of the distance (taken in the
obstacle frame) if the curvature is 1, or if it is the same on all axes and all lengths are equal.
Full statement (false, see `C25_negation`): for all positive integer curvatures. -/
theorem C25_normal_gradient_partial (e : Ellipsoid ℝ) (y : V3 ℝ) (r : ℝ) (k : ℕ)
    (hk : HasCurv e k k k) (hq : e.base.orientation.norm = 1)
    (hl : AllGt (halfLengths e (V3.const r)) (1 / 10000)) (hy : y ≠ ⟨0, 0, 0⟩)
    (hcase : k = 1 ∨ ((halfLengths e (V3.const r)).x = (halfLengths e (V3.const r)).y ∧
      (halfLengths e (V3.const r)).y = (halfLengths e (V3.const r)).z)) :
    ParallelToGradient (e.normalToAgent (e.base.pose.apply y) r)
      (fun y => e.distanceToPoint (e.base.pose.apply y) (V3.const r)) y := by
  have hq' : e.base.pose.orientation.IsUnit := (Quat.isUnit_iff_norm _).mpr hq
  have hn1 := (C25_normal_unit_outward e y r k k k hk hq hl hy).1
  have hd : (fun y => e.distanceToPoint (e.base.pose.apply y) (V3.const r)) =
      level (halfLengths e (V3.const r)) k k k := by
    funext y; exact distance_eq e _ y k k k hk hq' hl
  rw [hd]
  rw [normal_frame e _ r k k k hk hl, Pose.apply_inverse_apply hq'] at hn1 ⊢
  obtain ⟨l1, l2, l3⟩ := hl
  have hk1 := hk.2.1
  generalize halfLengths e (V3.const r) = l at *
  have c1 : 0 < l.x := by linarith
  have c2 : 0 < l.y := by linarith
  have c3 : 0 < l.z := by linarith
  set n : V3 ℝ := ⟨(2 * k * y.x / (l.x * l.x)) ^ (2 * k - 1),
    (2 * k * y.y / (l.y * l.y)) ^ (2 * k - 1), (2 * k * y.z / (l.z * l.z)) ^ (2 * k - 1)⟩ with hn
  have hne : n ≠ V3.zero := by
    intro h0; rw [h0, V3.normalized_zero] at hn1
    simp [V3.norm, V3.sqNorm, V3.dot, V3.zero] at hn1
  have hnpos := V3.norm_pos hne
  -- gradient = c0 * n
  obtain ⟨c0, hc0, hg⟩ : ∃ c0 : ℝ, 0 < c0 ∧ ∀ u : V3 ℝ,
      (((2 * k : ℕ) * (y.x / l.x) ^ (2 * k - 1) * (u.x / l.x)) +
       ((2 * k : ℕ) * (y.y / l.y) ^ (2 * k - 1) * (u.y / l.y)) +
       ((2 * k : ℕ) * (y.z / l.z) ^ (2 * k - 1) * (u.z / l.z))) = c0 * V3.dot n u := by
    rcases hcase with h1 | ⟨h1, h2⟩
    · subst h1
      refine ⟨1, one_pos, fun u => ?_⟩
      simp only [hn, V3.dot]
      norm_num
      field_simp
    · have hk' : (0 : ℝ) < k := by exact_mod_cast hk1
      have hlz : l.z = l.x := by rw [← h2, ← h1]
      have hly : l.y = l.x := h1.symm
      refine ⟨(2 * k : ℕ) / l.x * ((2 * k / l.x) ^ (2 * k - 1))⁻¹, by positivity, fun u => ?_⟩
      have hpow : ∀ t : ℝ, (2 * k * t / (l.x * l.x)) ^ (2 * k - 1) =
          (2 * k / l.x) ^ (2 * k - 1) * (t / l.x) ^ (2 * k - 1) := by
        intro t; rw [← mul_pow]; congr 1; field_simp
      simp only [hn, V3.dot, hly, hlz, hpow]
      have hne' : (2 * (k : ℝ) / l.x) ^ (2 * k - 1) ≠ 0 := by positivity
      generalize (2 * (k : ℝ) / l.x) ^ (2 * k - 1) = D at hne'
      field_simp
  refine ⟨c0 * n.norm, by positivity, fun u => ?_⟩
  have := hasDerivAt_level l k k k y u
  rw [hg u] at this
  convert this using 1
  rw [V3.normalized_of_ne hne, V3.smul_dot]
  field_simp

/-- C25 is false for curvature 2 with unequal lengths: with lengths 1, 2, 1 and the agent at (1,1,0)
the normal is along (64,1,0) but the gradient is along (16,1,0). -/
theorem C25_negation : ∃ (e : Ellipsoid ℝ) (y : V3 ℝ), HasCurv e 2 2 2 ∧
    e.base.orientation.norm = 1 ∧ AllGt (halfLengths e (V3.const 0)) (1 / 10000) ∧
    y ≠ ⟨0, 0, 0⟩ ∧
    ¬ ParallelToGradient (e.normalToAgent (e.base.pose.apply y) 0)
      (fun y => e.distanceToPoint (e.base.pose.apply y) (V3.const 0)) y := by
  set e : Ellipsoid ℝ := ⟨Base.mkPos "e" V3.zero V3.zero, ⟨1, 2, 1⟩, ⟨2, 2, 2⟩⟩ with he
  have hk : HasCurv e 2 2 2 := by simp [HasCurv, he]
  have hq : e.base.orientation.norm = 1 := by
    simp [he, Base.orientation, State.orientation, Base.mkPos, State.ofPosition, Pose.ofPosition,
      Quat.norm, Quat.sqNorm, Quat.one]
  have hq' : e.base.pose.orientation.IsUnit := (Quat.isUnit_iff_norm _).mpr hq
  have hlen : halfLengths e (V3.const 0) = ⟨1, 2, 1⟩ := by
    ext <;> simp [halfLengths, he, Base.mkPos, V3.zero, V3.const]
  have hl : AllGt (halfLengths e (V3.const 0)) (1 / 10000) := by
    rw [hlen]; norm_num [AllGt]
  refine ⟨e, ⟨1, 1, 0⟩, hk, hq, hl, ?_, ?_⟩
  · intro h; have := congrArg V3.x h; norm_num at this
  · rintro ⟨c, hc, h⟩
    have hd : (fun y => e.distanceToPoint (e.base.pose.apply y) (V3.const 0)) =
        level ⟨1, 2, 1⟩ 2 2 2 := by
      funext y; rw [← hlen]; exact distance_eq e _ y 2 2 2 hk hq' hl
    rw [hd] at h
    have hn := normal_frame e (e.base.pose.apply ⟨1, 1, 0⟩) 0 2 2 2 hk hl
    rw [Pose.apply_inverse_apply hq', hlen] at hn
    have hx := (h ⟨1, 0, 0⟩).unique (hasDerivAt_level ⟨1, 2, 1⟩ 2 2 2 ⟨1, 1, 0⟩ ⟨1, 0, 0⟩)
    have hy := (h ⟨0, 1, 0⟩).unique (hasDerivAt_level ⟨1, 2, 1⟩ 2 2 2 ⟨1, 1, 0⟩ ⟨0, 1, 0⟩)
    rw [hn] at hx hy
    have hne : (⟨(2 * (2 : ℕ) * 1 / (1 * 1)) ^ (2 * 2 - 1), (2 * (2 : ℕ) * 1 / (2 * 2)) ^ (2 * 2 - 1),
        (2 * (2 : ℕ) * 0 / (1 * 1)) ^ (2 * 2 - 1)⟩ : V3 ℝ) ≠ V3.zero := by
      intro h0; have := congrArg V3.y h0; norm_num [V3.zero] at this
    simp only at hx hy
    rw [V3.normalized_of_ne hne, V3.smul_dot] at hx hy
    norm_num [V3.dot] at hx hy
    linarith

example : (exE.normalToAgent (exE.base.pose.apply ⟨3/2, 1, 0⟩) 0).norm = 1 :=
  (C25_normal_unit_outward exE _ 0 1 1 1 exE_curv exE_unit
    (by norm_num [AllGt, halfLengths, exE, V3.const])
    (by intro h; have := congrArg V3.x h; norm_num at this)).1

example : ParallelToGradient (exE.normalToAgent (exE.base.pose.apply ⟨3/2, 1, 0⟩) 0)
    (fun y => exE.distanceToPoint (exE.base.pose.apply y) (V3.const 0)) ⟨3/2, 1, 0⟩ :=
  C25_normal_gradient_partial exE _ 0 1 exE_curv exE_unit
    (by norm_num [AllGt, halfLengths, exE, V3.const])
    (by intro h; have := congrArg V3.x h; norm_num at this) (Or.inl rfl)

/-! ## C26 inside test -/

/-- C26, the part that holds: for curvature 1 the inside test says exactly that the projection of the
point to the obstacle's x-y plane has distance `≤ 1`; so it agrees with the distance for points of
that plane, and distance `≤ 1` implies inside for all points.
Full statement (false, see `C26_negation_z` and `C26_negation_curvature`): inside iff distance `≤ 1`. -/
theorem C26_inside_partial (e : Ellipsoid ℝ) (hk : HasCurv e 1 1 1)
    (hq : e.base.orientation.norm = 1) (hl : AllGt (halfLengths e V3.zero) (1 / 10000)) (y : V3 ℝ) :
    (e.pointIsInside (e.base.pose.apply y) = true ↔
      e.distanceToPoint (e.base.pose.apply ⟨y.x, y.y, 0⟩) V3.zero ≤ 1) ∧
    (e.distanceToPoint (e.base.pose.apply y) V3.zero ≤ 1 →
      e.pointIsInside (e.base.pose.apply y) = true) := by
  have hq' : e.base.pose.orientation.IsUnit := (Quat.isUnit_iff_norm _).mpr hq
  rw [inside_eq e hq', distance_eq e _ _ 1 1 1 hk hq' hl, distance_eq e _ _ 1 1 1 hk hq' hl]
  constructor
  · simp [level]
  · intro h
    simp only [level, mul_one] at h
    have := sq_nonneg (y.z / (halfLengths e V3.zero).z)
    linarith

/-- C26 is false in the third dimension: a point one kilometre above a unit sphere is "inside". -/
theorem C26_negation_z : ∃ (e : Ellipsoid ℝ) (p : V3 ℝ), HasCurv e 1 1 1 ∧
    e.base.orientation.norm = 1 ∧ AllGt (halfLengths e V3.zero) (1 / 10000) ∧
    e.pointIsInside p = true ∧ 1 < e.distanceToPoint p V3.zero := by
  set e : Ellipsoid ℝ := Ellipsoid.ofBase (Base.mkPos "e" V3.zero V3.zero) with he
  have hk : HasCurv e 1 1 1 := by simp [HasCurv, he, Ellipsoid.ofBase, V3.const]
  have hq : e.base.orientation.norm = 1 := by
    simp [he, Ellipsoid.ofBase, Base.orientation, State.orientation, Base.mkPos, State.ofPosition,
      Pose.ofPosition, Quat.norm, Quat.sqNorm, Quat.one]
  have hq' : e.base.pose.orientation.IsUnit := (Quat.isUnit_iff_norm _).mpr hq
  have hlen : halfLengths e V3.zero = ⟨1, 1, 1⟩ := by
    ext <;> simp [halfLengths, he, Ellipsoid.ofBase, Base.mkPos, V3.zero, V3.const]
  have hl : AllGt (halfLengths e V3.zero) (1 / 10000) := by rw [hlen]; norm_num [AllGt]
  refine ⟨e, e.base.pose.apply ⟨0, 0, 1000⟩, hk, hq, hl, ?_, ?_⟩
  · rw [inside_eq e hq']; norm_num
  · rw [distance_eq e _ _ 1 1 1 hk hq' hl, hlen]; norm_num [level]

/-- C26 is false for other curvatures: with curvature 2 the corner point (0.8, 0.8) has distance
below 1 but is not "inside". -/
theorem C26_negation_curvature : ∃ (e : Ellipsoid ℝ) (p : V3 ℝ), HasCurv e 2 2 2 ∧
    e.base.orientation.norm = 1 ∧ AllGt (halfLengths e V3.zero) (1 / 10000) ∧
    e.distanceToPoint p V3.zero < 1 ∧ e.pointIsInside p = false := by
  set e : Ellipsoid ℝ := ⟨Base.mkPos "e" V3.zero V3.zero, ⟨1, 1, 1⟩, ⟨2, 2, 2⟩⟩ with he
  have hk : HasCurv e 2 2 2 := by simp [HasCurv, he]
  have hq : e.base.orientation.norm = 1 := by
    simp [he, Base.orientation, State.orientation, Base.mkPos, State.ofPosition,
      Pose.ofPosition, Quat.norm, Quat.sqNorm, Quat.one]
  have hq' : e.base.pose.orientation.IsUnit := (Quat.isUnit_iff_norm _).mpr hq
  have hlen : halfLengths e V3.zero = ⟨1, 1, 1⟩ := by
    ext <;> simp [halfLengths, he, Base.mkPos, V3.zero]
  have hl : AllGt (halfLengths e V3.zero) (1 / 10000) := by rw [hlen]; norm_num [AllGt]
  refine ⟨e, e.base.pose.apply ⟨8/10, 8/10, 0⟩, hk, hq, hl, ?_, ?_⟩
  · rw [distance_eq e _ _ 2 2 2 hk hq' hl, hlen]; norm_num [level]
  · rw [← Bool.not_eq_true, inside_eq e hq', hlen]; norm_num

example : exE.pointIsInside (exE.base.pose.apply ⟨1, 1, 1⟩) = true := by
  refine (C26_inside_partial exE exE_curv exE_unit exE_lengths _).2 ?_
  rw [C22_distance_is_level exE V3.zero _ 1 1 1 exE_curv exE_unit exE_lengths]
  norm_num [level, halfLengths, exE, V3.zero]

/-! ## C27 line intersection -/

/-- `(u,v)` is on the line through `(a₁,b₁)` and `(a₂,b₂)`. -/
def OnLine (a1 b1 a2 b2 u v : ℝ) : Prop := ∃ t : ℝ, u = a1 + t * (a2 - a1) ∧ v = b1 + t * (b2 - b1)

theorem onLine_iff {a1 b1 a2 b2 u v : ℝ} (h : a1 ≠ a2) :
    OnLine a1 b1 a2 b2 u v ↔
      v = (b2 - b1) / (a2 - a1) * u + (b1 - (b2 - b1) / (a2 - a1) * a1) := by
  have h' : a2 - a1 ≠ 0 := sub_ne_zero.mpr (Ne.symm h)
  constructor
  · rintro ⟨t, rfl, rfl⟩
    field_simp
    ring
  · intro hv
    refine ⟨(u - a1) / (a2 - a1), ?_, ?_⟩
    · field_simp; ring
    · rw [hv]; field_simp; ring

/-- C27, the part that holds: if the two points differ in the obstacle's x coordinate, the flag says
exactly whether the line (projected to the obstacle's x-y plane) meets the solid ellipse; in that case
the two points are, in frame coordinates `(u,v,0)`, exactly the points of the line on the boundary, the
one with smaller `u` first.
Full statement (false at the level of doubles, see `C27_negation` in Props/Exceptional): the same for
all pairs of different points. -/
theorem C27_line_intersection_partial (e : Ellipsoid ℝ) (hq : e.base.orientation.norm = 1)
    (hlx : (halfLengths e V3.zero).x ≠ 0) (hly : (halfLengths e V3.zero).y ≠ 0) (y1 y2 : V3 ℝ)
    (hne : y1.x ≠ y2.x) :
    let l := halfLengths e V3.zero
    let res := e.intersectionPoints (e.base.pose.apply y1) (e.base.pose.apply y2)
    (res.1 = true ↔ ∃ u v, OnLine y1.x y1.y y2.x y2.y u v ∧ (u / l.x) ^ 2 + (v / l.y) ^ 2 ≤ 1) ∧
    (res.1 = true → ∃ u1 v1 u2 v2, u1 ≤ u2 ∧
      res.2.1 = e.base.pose.apply ⟨u1, v1, 0⟩ ∧ res.2.2 = e.base.pose.apply ⟨u2, v2, 0⟩ ∧
      (OnLine y1.x y1.y y2.x y2.y u1 v1 ∧ (u1 / l.x) ^ 2 + (v1 / l.y) ^ 2 = 1) ∧
      (OnLine y1.x y1.y y2.x y2.y u2 v2 ∧ (u2 / l.x) ^ 2 + (v2 / l.y) ^ 2 = 1) ∧
      ∀ u v, OnLine y1.x y1.y y2.x y2.y u v → (u / l.x) ^ 2 + (v / l.y) ^ 2 = 1 →
        (u = u1 ∧ v = v1) ∨ (u = u2 ∧ v = v2)) ∧
    (res.1 = false → res.2 = (V3.zero, V3.zero)) := by
  intro l res
  have hq' : e.base.pose.orientation.IsUnit := (Quat.isUnit_iff_norm _).mpr hq
  set a := (y2.y - y1.y) / (y2.x - y1.x) with ha
  set b := y1.y - a * y1.x with hb
  have hline : ∀ u v, OnLine y1.x y1.y y2.x y2.y u v ↔ v = a * u + b := fun u v => onLine_iff hne
  set A := 1 / (l.x * l.x) + (a * a) / (l.y * l.y) with hA
  set B := (2 * a * b) / (l.y * l.y) with hB
  set C := (b * b) / (l.y * l.y) - 1 with hC
  set delta := B * B - 4 * A * C with hdelta
  have hApos : 0 < A := by
    have h1 : 0 < l.x * l.x := mul_self_pos.mpr hlx
    have h2 : 0 < l.y * l.y := mul_self_pos.mpr hly
    have : 0 ≤ (a * a) / (l.y * l.y) := div_nonneg (mul_self_nonneg a) h2.le
    have : 0 < 1 / (l.x * l.x) := by positivity
    linarith
  have hquad : ∀ u, (u / l.x) ^ 2 + ((a * u + b) / l.y) ^ 2 - 1 = A * u ^ 2 + B * u + C := by
    intro u
    have hx : l.x ≠ 0 := hlx
    have hy : l.y ≠ 0 := hly
    rw [hA, hB, hC]
    field_simp
    ring
  have hres : res = if 0 ≤ delta then
      (true, e.base.pose.apply ⟨(-B - Real.sqrt delta) / (2 * A),
          a * ((-B - Real.sqrt delta) / (2 * A)) + b, 0⟩,
        e.base.pose.apply ⟨(-B + Real.sqrt delta) / (2 * A),
          a * ((-B + Real.sqrt delta) / (2 * A)) + b, 0⟩)
      else (false, V3.zero, V3.zero) := by
    simp only [res, intersectionPoints, Pose.apply_inverse_apply hq', lengths_eq0, lit_two, lit_four,
      sqrt_real]
    rfl
  have hsq : ∀ u, 4 * A * (A * u ^ 2 + B * u + C) = (2 * A * u + B) ^ 2 - delta := by
    intro u; rw [hdelta]; ring
  have hroot : 0 ≤ delta → ∀ s, s ^ 2 = delta → ∀ u, u = (-B + s) / (2 * A) →
      A * u ^ 2 + B * u + C = 0 := by
    intro h0 s hs u hu
    have h1 : 2 * A * u + B = s := by rw [hu]; field_simp; ring
    have h2 := hsq u
    rw [h1, hs, sub_self] at h2
    have h4 : (4 * A) ≠ 0 := by positivity
    exact (mul_eq_zero.mp h2).resolve_left h4
  by_cases h0 : 0 ≤ delta
  · have hs : Real.sqrt delta ^ 2 = delta := Real.sq_sqrt h0
    have hs0 := Real.sqrt_nonneg delta
    rw [hres, if_pos h0]
    have r1 := hroot h0 (-Real.sqrt delta) (by rw [neg_sq, hs]) ((-B - Real.sqrt delta) / (2 * A))
      (by rw [sub_eq_add_neg])
    have r2 := hroot h0 (Real.sqrt delta) hs ((-B + Real.sqrt delta) / (2 * A)) rfl
    refine ⟨⟨fun _ => ?_, fun _ => rfl⟩, fun _ => ?_, fun h => by simp at h⟩
    · refine ⟨(-B - Real.sqrt delta) / (2 * A), a * ((-B - Real.sqrt delta) / (2 * A)) + b,
        (hline _ _).mpr rfl, ?_⟩
      have := hquad ((-B - Real.sqrt delta) / (2 * A))
      linarith
    · refine ⟨(-B - Real.sqrt delta) / (2 * A), a * ((-B - Real.sqrt delta) / (2 * A)) + b,
        (-B + Real.sqrt delta) / (2 * A), a * ((-B + Real.sqrt delta) / (2 * A)) + b, ?_, rfl, rfl,
        ⟨(hline _ _).mpr rfl, ?_⟩, ⟨(hline _ _).mpr rfl, ?_⟩, ?_⟩
      · apply div_le_div_of_nonneg_right _ (by positivity); linarith
      · have := hquad ((-B - Real.sqrt delta) / (2 * A)); linarith
      · have := hquad ((-B + Real.sqrt delta) / (2 * A)); linarith
      · intro u v huv hell
        rw [hline] at huv
        rw [huv] at hell ⊢
        have h1 := hquad u
        have h2 := hsq u
        have h3 : A * u ^ 2 + B * u + C = 0 := by linarith
        rw [h3, mul_zero] at h2
        have h4 : (2 * A * u + B) ^ 2 = Real.sqrt delta ^ 2 := by rw [hs]; linarith
        rcases sq_eq_sq_iff_eq_or_eq_neg.mp h4 with h5 | h5
        · right
          have : u = (-B + Real.sqrt delta) / (2 * A) := by
            rw [eq_div_iff (by positivity)]; linarith
          exact ⟨this, by rw [← this]⟩
        · left
          have : u = (-B - Real.sqrt delta) / (2 * A) := by
            rw [eq_div_iff (by positivity)]; linarith
          exact ⟨this, by rw [← this]⟩
  · rw [hres, if_neg h0]
    refine ⟨⟨fun h => by simp at h, ?_⟩, fun h => by simp at h, fun _ => rfl⟩
    rintro ⟨u, v, huv, hle⟩
    rw [hline] at huv
    rw [huv] at hle
    exfalso
    have h1 := hquad u
    have h2 := hsq u
    have h3 : A * u ^ 2 + B * u + C ≤ 0 := by linarith
    have h4 : 4 * A * (A * u ^ 2 + B * u + C) ≤ 0 :=
      mul_nonpos_of_nonneg_of_nonpos (by positivity) h3
    have := sq_nonneg (2 * A * u + B)
    apply h0; linarith

example : (exE.intersectionPoints (exE.base.pose.apply ⟨-5, 0, 0⟩)
    (exE.base.pose.apply ⟨5, 1, 0⟩)).1 = true := by
  refine (C27_line_intersection_partial exE exE_unit (by norm_num [halfLengths, exE, V3.zero])
    (by norm_num [halfLengths, exE, V3.zero]) _ _ (by norm_num)).1.mpr ⟨0, 1/2, ⟨1/2, ?_, ?_⟩, ?_⟩ <;>
  norm_num [halfLengths, exE, V3.zero]

/-! ## C28 sampling -/

/-- C28: for an obstacle rotated about z (in any position) the `i`-th of the `n` samples is the point
of the ellipse at parameter `2πi/(n-1)` in frame coordinates, with z replaced by 0. -/
theorem C28_samples (e : Ellipsoid ℝ) (h : ZRotated e) (n : ℕ) (hn : 2 ≤ n) (withMargin : Bool) :
    ∃ s, e.samples n withMargin = .ok s ∧ s.length = n ∧
      ∀ i < n, ∃ p, s[i]? = some p ∧ p.z = 0 ∧
        let l := if withMargin then halfLengths e V3.zero else e.axis
        let w := e.base.pose.apply ⟨l.x * Real.cos (2 * Real.pi * i / (n - 1)),
          l.y * Real.sin (2 * Real.pi * i / (n - 1)), 0⟩
        p.x = w.x ∧ p.y = w.y := by
  obtain ⟨al, h1, h2, h3⟩ : ∃ l, MathTools.linspace (0 : ℝ) (2 * Real.pi) n = .ok l ∧
      l.length = n ∧ ∀ i < n, l[i]? = some (2 * Real.pi * i / (n - 1)) := by
    obtain ⟨l, h1, h2, h3, h4, h5⟩ := MathTools.linspace_ok (0 : ℝ) (2 * Real.pi) (n : Int) (by omega)
    simp only [Int.toNat_natCast] at h2 h4 h5
    refine ⟨l, h1, h2, fun i hi => ?_⟩
    have hn' : (n : ℝ) - 1 ≠ 0 := by
      have : (2 : ℝ) ≤ n := by exact_mod_cast hn
      linarith
    rcases Nat.eq_zero_or_pos i with rfl | hpos
    · simp [h3]
    · rcases Nat.lt_or_ge (i + 1) n with hlt | hge
      · rw [h5 i hpos hlt]
        simp only [MathTools.ofInt, lit_real]
        congr 1
        push_cast
        field_simp
        ring
      · have hi' : i = n - 1 := by omega
        subst hi'
        rw [h4]
        have : ((n - 1 : ℕ) : ℝ) = (n : ℝ) - 1 := by
          rw [Nat.cast_sub (by omega)]; simp
        rw [this, mul_div_assoc, div_self hn', mul_one]
  refine ⟨al.map (e.sampleAt (if withMargin then halfLengths e V3.zero else e.axis) e.sampleTheta),
    ?_, ?_, ?_⟩
  · simp only [samples, lit_two, pi_real, h1, Res.ok_bind, lengths_eq0]
  · rw [List.length_map, h2]
  · intro i hi
    refine ⟨_, by rw [List.getElem?_map, h3 i hi]; rfl, ?_⟩
    rw [sampleAt_eq h]
    exact ⟨rfl, rfl, rfl⟩

/-- C28: all samples are on the boundary of the ellipse, and the first equals the last. -/
theorem C28_samples_on_boundary (e : Ellipsoid ℝ) (h : ZRotated e) (n : ℕ) (hn : 2 ≤ n)
    (withMargin : Bool)
    (hlx : (if withMargin then halfLengths e V3.zero else e.axis).x ≠ 0)
    (hly : (if withMargin then halfLengths e V3.zero else e.axis).y ≠ 0) :
    ∃ s, e.samples n withMargin = .ok s ∧ s.length = n ∧ s.head? = s.getLast? ∧
      ∀ p ∈ s, p.z = 0 ∧ OnEllipse e (if withMargin then halfLengths e V3.zero else e.axis) p.x p.y := by
  obtain ⟨s, h1, h2, h3⟩ := C28_samples e h n hn withMargin
  refine ⟨s, h1, h2, ?_, ?_⟩
  · obtain ⟨p0, e0, z0, x0, y0⟩ := h3 0 (by omega)
    obtain ⟨p1, e1, z1, x1, y1⟩ := h3 (n - 1) (by omega)
    rw [List.head?_eq_getElem?, List.getLast?_eq_getElem?, h2, e0, e1]
    have hn' : (n : ℝ) - 1 ≠ 0 := by
      have : (2 : ℝ) ≤ n := by exact_mod_cast hn
      linarith
    have hc : ((n - 1 : ℕ) : ℝ) = (n : ℝ) - 1 := by
      rw [Nat.cast_sub (by omega)]; simp
    rw [hc, mul_div_assoc, div_self hn', mul_one, Real.cos_two_pi, Real.sin_two_pi] at x1 y1
    simp only [Nat.cast_zero, mul_zero, zero_div, Real.cos_zero, Real.sin_zero] at x0 y0
    congr 1
    ext
    · rw [x0, x1]; simp
    · rw [y0, y1]; simp
    · rw [z0, z1]
  · intro p hp
    obtain ⟨i, hi, rfl⟩ := List.getElem_of_mem hp
    obtain ⟨p, ep, zp, xp, yp⟩ := h3 i (by omega)
    rw [List.getElem?_eq_getElem hi] at ep
    injection ep with ep
    rw [ep]
    refine ⟨zp, _, _, ?_, xp, yp⟩
    rw [mul_div_cancel_left₀ _ hlx, mul_div_cancel_left₀ _ hly]
    exact Real.cos_sq_add_sin_sq _

/-- An ellipsoid turned by 90° about z, used in the examples. -/
noncomputable def exZ : Ellipsoid ℝ :=
  ⟨⟨"z", State.ofPose ⟨⟨1, 2, 0⟩, ⟨Real.sqrt (1/2), 0, 0, Real.sqrt (1/2)⟩⟩, some ⟨1, 2, 0⟩,
    ⟨1/2, 1/2, 1/2⟩⟩, ⟨1, 2, 3⟩, ⟨1, 1, 1⟩⟩

theorem exZ_rotated : ZRotated exZ := by
  refine ⟨?_, rfl, rfl⟩
  rw [← Quat.isUnit_iff_norm]
  have h : Real.sqrt (1/2) * Real.sqrt (1/2) = 1/2 := Real.mul_self_sqrt (by norm_num)
  simp only [Quat.IsUnit, Quat.sqNorm, exZ, Base.orientation, State.orientation, State.ofPose]
  linarith

example : ∃ s, exZ.samples 100 true = .ok s ∧ s.length = 100 ∧ s.head? = s.getLast? :=
  let ⟨s, h1, h2, h3, _⟩ := C28_samples_on_boundary exZ exZ_rotated 100 (by norm_num) true
    (by norm_num [halfLengths, exZ, V3.zero]) (by norm_num [halfLengths, exZ, V3.zero])
  ⟨s, h1, h2, h3⟩

/-! ## C31 area -/

/-- C31, the part that holds: the area is positive for positive lengths, strictly increasing in each
length, and for a sphere of radius `r` it equals `4πr`.
Full statement (false, see `C31_negation`): for a sphere it is `4πr²`. -/
theorem C31_area_partial (e e' : Ellipsoid ℝ) (b : Bool)
    (l l' : V3 ℝ) (hl : l = if b then halfLengths e V3.zero else e.axis)
    (hl' : l' = if b then halfLengths e' V3.zero else e'.axis) (hpos : AllGt l 0) :
    0 < e.area b ∧ (∀ r, l = V3.const r → e.area b = 4 * Real.pi * r) ∧
    (l.x ≤ l'.x → l.y ≤ l'.y → l.z ≤ l'.z → (l.x < l'.x ∨ l.y < l'.y ∨ l.z < l'.z) →
      e.area b < e'.area b) := by
  have harea : ∀ (e : Ellipsoid ℝ) (l : V3 ℝ), (l = if b then halfLengths e V3.zero else e.axis) →
      e.area b = 4 * Real.pi * ((l.x ^ (16/10 : ℝ) + l.y ^ (16/10 : ℝ) + l.z ^ (16/10 : ℝ)) / 3)
        ^ (1 / (16/10) : ℝ) := by
    intro e l hl
    simp only [area, lengths_eq0, ← hl]
    norm_num
  obtain ⟨h1, h2, h3⟩ := hpos
  have q1 := Real.rpow_pos_of_pos h1 (16/10)
  have q2 := Real.rpow_pos_of_pos h2 (16/10)
  have q3 := Real.rpow_pos_of_pos h3 (16/10)
  have hpi := Real.pi_pos
  refine ⟨?_, ?_, ?_⟩
  · rw [harea e l hl]
    have : 0 < ((l.x ^ (16/10 : ℝ) + l.y ^ (16/10 : ℝ) + l.z ^ (16/10 : ℝ)) / 3)
        ^ (1 / (16/10) : ℝ) := Real.rpow_pos_of_pos (by positivity) _
    positivity
  · intro r hr
    rw [harea e l hl, hr]
    simp only [V3.const]
    have hr0 : 0 < r := by rw [hr] at h1; exact h1
    have : (r ^ (16/10 : ℝ) + r ^ (16/10 : ℝ) + r ^ (16/10 : ℝ)) / 3 = r ^ (16/10 : ℝ) := by ring
    rw [this, ← Real.rpow_mul hr0.le]
    norm_num
  · intro a1 a2 a3 hlt
    rw [harea e l hl, harea e' l' hl']
    have b1 := Real.rpow_le_rpow h1.le a1 (by norm_num : (0 : ℝ) ≤ 16/10)
    have b2 := Real.rpow_le_rpow h2.le a2 (by norm_num : (0 : ℝ) ≤ 16/10)
    have b3 := Real.rpow_le_rpow h3.le a3 (by norm_num : (0 : ℝ) ≤ 16/10)
    have hsum : (l.x ^ (16/10 : ℝ) + l.y ^ (16/10 : ℝ) + l.z ^ (16/10 : ℝ)) / 3 <
        (l'.x ^ (16/10 : ℝ) + l'.y ^ (16/10 : ℝ) + l'.z ^ (16/10 : ℝ)) / 3 := by
      rcases hlt with h | h | h
      · have := Real.rpow_lt_rpow h1.le h (by norm_num : (0 : ℝ) < 16/10); linarith
      · have := Real.rpow_lt_rpow h2.le h (by norm_num : (0 : ℝ) < 16/10); linarith
      · have := Real.rpow_lt_rpow h3.le h (by norm_num : (0 : ℝ) < 16/10); linarith
    have := Real.rpow_lt_rpow (by positivity) hsum (by norm_num : (0 : ℝ) < 1 / (16/10))
    exact mul_lt_mul_of_pos_left this (by positivity)

/-- C31 is false: a sphere of radius 2 has area 8π instead of 16π. -/
theorem C31_negation : ∃ (e : Ellipsoid ℝ), e.axis = ⟨2, 2, 2⟩ ∧ e.base.margin = ⟨0, 0, 0⟩ ∧
    e.area false = 8 * Real.pi ∧ e.area false ≠ 4 * Real.pi * 2 ^ 2 := by
  refine ⟨⟨Base.mkPos "e" V3.zero V3.zero, ⟨2, 2, 2⟩, ⟨1, 1, 1⟩⟩, rfl, rfl, ?_⟩
  have h := (C31_area_partial ⟨Base.mkPos "e" V3.zero V3.zero, ⟨2, 2, 2⟩, ⟨1, 1, 1⟩⟩
    ⟨Base.mkPos "e" V3.zero V3.zero, ⟨2, 2, 2⟩, ⟨1, 1, 1⟩⟩ false ⟨2, 2, 2⟩ ⟨2, 2, 2⟩ rfl rfl
    (by norm_num [AllGt])).2.1 2 rfl
  have hpi := Real.pi_pos
  refine ⟨by rw [h]; ring, ?_⟩
  rw [h]
  intro h2
  nlinarith

example : 0 < exE.area true :=
  (C31_area_partial exE exE true _ _ rfl rfl (by norm_num [AllGt, halfLengths, exE, V3.zero])).1

/-! ## C32 growth along rays -/

/-- C32: with uniform curvature `k`, scaling the offset from the centre by `s ≥ 0` scales the distance
by `s^(2k)`. -/
theorem C32_homogeneous (e : Ellipsoid ℝ) (m y : V3 ℝ) (k : ℕ) (hk : HasCurv e k k k)
    (hq : e.base.orientation.norm = 1) (hl : AllGt (halfLengths e m) (1 / 10000)) (s : ℝ) :
    e.distanceToPoint (e.base.pose.apply (V3.smul s y)) m =
      s ^ (2 * k) * e.distanceToPoint (e.base.pose.apply y) m := by
  have hq' : e.base.pose.orientation.IsUnit := (Quat.isUnit_iff_norm _).mpr hq
  rw [distance_eq e m _ k k k hk hq' hl, distance_eq e m _ k k k hk hq' hl]
  simp only [level, V3.smul, mul_div_assoc, mul_pow]
  ring

/-- C32: the same in world coordinates: the offset `p - centre` is scaled. -/
theorem C32_homogeneous_world (e : Ellipsoid ℝ) (m p : V3 ℝ) (k : ℕ) (hk : HasCurv e k k k)
    (hq : e.base.orientation.norm = 1) (hl : AllGt (halfLengths e m) (1 / 10000)) (s : ℝ) :
    e.distanceToPoint (e.base.position + V3.smul s (p - e.base.position)) m =
      s ^ (2 * k) * e.distanceToPoint p m := by
  have hq' : e.base.pose.orientation.IsUnit := (Quat.isUnit_iff_norm _).mpr hq
  obtain ⟨y, rfl⟩ : ∃ y, e.base.pose.apply y = p := ⟨_, Pose.apply_apply_inverse hq' p⟩
  rw [← C32_homogeneous e m y k hk hq hl s]
  congr 1
  have hp : e.base.pose.position = e.base.position := rfl
  simp only [Pose.apply, Quat.rotate_smul, hp]
  ext <;> simp [V3.smul] <;> ring

/-- C32: strictly increasing along rays, and unbounded. -/
theorem C32_ray_growth (e : Ellipsoid ℝ) (m y : V3 ℝ) (k : ℕ) (hk : HasCurv e k k k)
    (hq : e.base.orientation.norm = 1) (hl : AllGt (halfLengths e m) (1 / 10000))
    (hy : y ≠ ⟨0, 0, 0⟩) :
    (∀ s t : ℝ, 0 ≤ s → s < t → e.distanceToPoint (e.base.pose.apply (V3.smul s y)) m <
      e.distanceToPoint (e.base.pose.apply (V3.smul t y)) m) ∧
    (∀ K : ℝ, ∃ s : ℝ, 0 ≤ s ∧ K < e.distanceToPoint (e.base.pose.apply (V3.smul s y)) m) := by
  have hq' : e.base.pose.orientation.IsUnit := (Quat.isUnit_iff_norm _).mpr hq
  have hl0 : AllGt (halfLengths e m) 0 := by
    obtain ⟨h1, h2, h3⟩ := hl
    refine ⟨?_, ?_, ?_⟩ <;> linarith
  have hD : 0 < e.distanceToPoint (e.base.pose.apply y) m := by
    rw [distance_eq e m _ k k k hk hq' hl]
    refine lt_of_le_of_ne (level_nonneg _ _ _ _ _) (fun h0 => hy ?_)
    have := (level_eq_zero _ k k k y hl0 hk.2.1 hk.2.1 hk.2.1).mp h0.symm
    rw [this]; rfl
  have hk0 : 2 * k ≠ 0 := by have := hk.2.1; omega
  constructor
  · intro s t hs hst
    rw [C32_homogeneous e m y k hk hq hl, C32_homogeneous e m y k hk hq hl]
    exact mul_lt_mul_of_pos_right (pow_lt_pow_left₀ hst hs hk0) hD
  · intro K
    set D := e.distanceToPoint (e.base.pose.apply y) m
    refine ⟨max 1 (K / D + 1), by positivity, ?_⟩
    rw [C32_homogeneous e m y k hk hq hl]
    have h1 : (1 : ℝ) ≤ max 1 (K / D + 1) := le_max_left _ _
    have h2 : K / D + 1 ≤ max 1 (K / D + 1) := le_max_right _ _
    have h3 : max 1 (K / D + 1) ≤ max 1 (K / D + 1) ^ (2 * k) := le_self_pow₀ h1 hk0
    have h4 : K / D < max 1 (K / D + 1) ^ (2 * k) := by linarith
    rwa [div_lt_iff₀ hD] at h4

example : exE.distanceToPoint (exE.base.pose.apply (V3.smul 1 ⟨1, 1, 1⟩)) V3.zero <
    exE.distanceToPoint (exE.base.pose.apply (V3.smul 2 ⟨1, 1, 1⟩)) V3.zero :=
  (C32_ray_growth exE V3.zero ⟨1, 1, 1⟩ 1 exE_curv exE_unit exE_lengths
    (by intro h; have := congrArg V3.x h; norm_num at this)).1 1 2 (by norm_num) (by norm_num)

end DOA.Props
