import Verif.Spec.Ellipsoid
import Verif.Model.Ellipsoid
import Verif.Lemmas.Geom
import Verif.Lemmas.MathTools
import Mathlib.Analysis.Calculus.Deriv.Pow
import Mathlib.Analysis.Calculus.Deriv.Mul
import Mathlib.Analysis.Calculus.Deriv.Add

/-! Helper lemmas about ellipsoids. -/

namespace DOA.Ellipsoid
open DOA.Spec

theorem lit_two : (lit 2 1 : ℝ) = 2 := by simp
theorem lit_four : (lit 4 1 : ℝ) = 4 := by simp
theorem epsilon_eq : (epsilon : ℝ) = 1 / 10000 := by simp [epsilon]

theorem pow_even (t : ℝ) (k : ℕ) : CMath.pow t (lit 2 1 * (k : ℝ)) = t ^ (2 * k) := by
  rw [lit_two, pow_real]
  have : (2 : ℝ) * (k : ℝ) = ((2 * k : ℕ) : ℝ) := by push_cast; ring
  rw [this, Real.rpow_natCast]

theorem pow_odd (t : ℝ) (k : ℕ) (hk : 1 ≤ k) :
    CMath.pow t (lit 2 1 * (k : ℝ) - 1) = t ^ (2 * k - 1) := by
  rw [lit_two, pow_real]
  have : (2 : ℝ) * (k : ℝ) - 1 = ((2 * k - 1 : ℕ) : ℝ) := by
    rw [Nat.cast_sub (by omega)]; push_cast; ring
  rw [this, Real.rpow_natCast]

theorem lengths_eq (e : Ellipsoid ℝ) (m : V3 ℝ) : e.axis + e.base.margin + m = halfLengths e m := by
  ext <;> simp [halfLengths]

theorem lengths_eq0 (e : Ellipsoid ℝ) : e.axis + e.base.margin = halfLengths e V3.zero := by
  ext <;> simp [halfLengths, V3.zero]

/-- distance in terms of the frame coordinates, for any point -/
theorem distance_frame (e : Ellipsoid ℝ) (m p : V3 ℝ) (k1 k2 k3 : ℕ) (hk : HasCurv e k1 k2 k3)
    (hl : AllGt (halfLengths e m) (1 / 10000)) :
    e.distanceToPoint p m = level (halfLengths e m) k1 k2 k3 (e.base.pose.inverse.apply p) := by
  obtain ⟨hk, -⟩ := hk
  obtain ⟨h1, h2, h3⟩ := hl
  simp only [distanceToPoint, lengths_eq, hk, scaled, epsilon_eq, if_pos h1, if_pos h2, if_pos h3,
    pow_even, level]

theorem distance_eq (e : Ellipsoid ℝ) (m y : V3 ℝ) (k1 k2 k3 : ℕ) (hk : HasCurv e k1 k2 k3)
    (hq : e.base.pose.orientation.IsUnit) (hl : AllGt (halfLengths e m) (1 / 10000)) :
    e.distanceToPoint (e.base.pose.apply y) m = level (halfLengths e m) k1 k2 k3 y := by
  rw [distance_frame e m _ k1 k2 k3 hk hl, Pose.apply_inverse_apply hq]

theorem level_nonneg (l : V3 ℝ) (k1 k2 k3 : ℕ) (y : V3 ℝ) : 0 ≤ level l k1 k2 k3 y := by
  unfold level
  have := (even_two_mul k1).pow_nonneg (y.x / l.x)
  have := (even_two_mul k2).pow_nonneg (y.y / l.y)
  have := (even_two_mul k3).pow_nonneg (y.z / l.z)
  linarith

theorem level_eq_zero (l : V3 ℝ) (k1 k2 k3 : ℕ) (y : V3 ℝ) (hl : AllGt l 0) (h1 : 1 ≤ k1)
    (h2 : 1 ≤ k2) (h3 : 1 ≤ k3) : level l k1 k2 k3 y = 0 ↔ y = V3.zero := by
  unfold level
  have p1 := (even_two_mul k1).pow_nonneg (y.x / l.x)
  have p2 := (even_two_mul k2).pow_nonneg (y.y / l.y)
  have p3 := (even_two_mul k3).pow_nonneg (y.z / l.z)
  constructor
  · intro h
    have e1 : (y.x / l.x) ^ (2 * k1) = 0 := by linarith
    have e2 : (y.y / l.y) ^ (2 * k2) = 0 := by linarith
    have e3 : (y.z / l.z) ^ (2 * k3) = 0 := by linarith
    have q1 := pow_eq_zero_iff (by omega) |>.mp e1
    have q2 := pow_eq_zero_iff (by omega) |>.mp e2
    have q3 := pow_eq_zero_iff (by omega) |>.mp e3
    rw [div_eq_zero_iff] at q1 q2 q3
    ext
    · exact q1.resolve_right hl.1.ne'
    · exact q2.resolve_right hl.2.1.ne'
    · exact q3.resolve_right hl.2.2.ne'
  · rintro rfl
    have : ∀ k : ℕ, 1 ≤ k → (0 : ℝ) ^ (2 * k) = 0 := fun k hk => zero_pow (by omega)
    simp [V3.zero, this k1 h1, this k2 h2, this k3 h3]

theorem frame_zero_iff (e : Ellipsoid ℝ) (hq : e.base.pose.orientation.IsUnit) (p : V3 ℝ) :
    e.base.pose.inverse.apply p = V3.zero ↔ p = e.base.position := by
  constructor
  · intro h
    have := Pose.apply_apply_inverse hq p
    rw [h] at this
    rw [← this]
    simp only [Pose.apply, Quat.rotate_zero]
    ext <;> simp [V3.zero, Base.position, State.position, Base.pose]
  · rintro rfl
    simp only [Pose.apply, Pose.inverse, Quat.rotate_neg]
    ext <;> simp [V3.zero, Base.position, State.position, Base.pose]

theorem even_pow_le_even_pow {a b : ℝ} (k : ℕ) (h : |a| ≤ |b|) : a ^ (2 * k) ≤ b ^ (2 * k) := by
  rw [← Even.pow_abs (even_two_mul k) a, ← Even.pow_abs (even_two_mul k) b]
  exact pow_le_pow_left₀ (abs_nonneg a) h _

theorem abs_div_le {v a b : ℝ} (ha : 0 < a) (hab : a ≤ b) : |v / b| ≤ |v / a| := by
  rw [abs_div, abs_div, abs_of_pos ha, abs_of_pos (lt_of_lt_of_le ha hab)]
  exact div_le_div_of_nonneg_left (abs_nonneg v) ha hab

theorem level_anti {l l' : V3 ℝ} (k1 k2 k3 : ℕ) (y : V3 ℝ) (hl : AllGt l 0)
    (h1 : l.x ≤ l'.x) (h2 : l.y ≤ l'.y) (h3 : l.z ≤ l'.z) :
    level l' k1 k2 k3 y ≤ level l k1 k2 k3 y := by
  unfold level
  have a1 := even_pow_le_even_pow k1 (abs_div_le (v := y.x) hl.1 h1)
  have a2 := even_pow_le_even_pow k2 (abs_div_le (v := y.y) hl.2.1 h2)
  have a3 := even_pow_le_even_pow k3 (abs_div_le (v := y.z) hl.2.2 h3)
  linarith

/-- inside test in frame coordinates -/
theorem inside_frame (e : Ellipsoid ℝ) (p : V3 ℝ) :
    e.pointIsInside p = true ↔
      ((e.base.pose.inverse.apply p).x / (halfLengths e V3.zero).x) ^ 2 +
        ((e.base.pose.inverse.apply p).y / (halfLengths e V3.zero).y) ^ 2 ≤ 1 := by
  simp only [pointIsInside, lengths_eq0, decide_eq_true_eq, sq, div_mul_div_comm]

theorem inside_eq (e : Ellipsoid ℝ) (hq : e.base.pose.orientation.IsUnit) (y : V3 ℝ) :
    e.pointIsInside (e.base.pose.apply y) = true ↔
      (y.x / (halfLengths e V3.zero).x) ^ 2 + (y.y / (halfLengths e V3.zero).y) ^ 2 ≤ 1 := by
  rw [inside_frame, Pose.apply_inverse_apply hq]

/-- a z-rotation acts on x and y only -/
theorem zrot_apply {e : Ellipsoid ℝ} (h : ZRotated e) (y : V3 ℝ) :
    e.base.pose.apply y =
      ⟨(e.base.orientation.w ^ 2 - e.base.orientation.z ^ 2) * y.x
          - 2 * e.base.orientation.w * e.base.orientation.z * y.y + e.base.position.x,
        2 * e.base.orientation.w * e.base.orientation.z * y.x
          + (e.base.orientation.w ^ 2 - e.base.orientation.z ^ 2) * y.y + e.base.position.y,
        y.z + e.base.position.z⟩ := by
  obtain ⟨h1, h2, h3⟩ := h
  rw [← Quat.isUnit_iff_norm] at h1
  have h1' : e.base.orientation.z * e.base.orientation.z
      + e.base.orientation.w * e.base.orientation.w = 1 := by
    have : e.base.orientation.sqNorm = 1 := h1
    simp only [Quat.sqNorm, h2, h3] at this
    linarith
  have ho : e.base.pose.orientation = e.base.orientation := rfl
  have hp : e.base.pose.position = e.base.position := rfl
  ext
  · simp only [Pose.apply, ho, hp, Quat.rotate, Quat.vec, V3.cross, V3.smul, V3.add_x, V3.add_y,
      V3.add_z, h2, h3]
    linear_combination -y.x * h1'
  · simp only [Pose.apply, ho, hp, Quat.rotate, Quat.vec, V3.cross, V3.smul, V3.add_x, V3.add_y,
      V3.add_z, h2, h3]
    linear_combination -y.y * h1'
  · simp only [Pose.apply, ho, hp, Quat.rotate, Quat.vec, V3.cross, V3.smul, V3.add_x, V3.add_y,
      V3.add_z, h2, h3]
    ring

theorem zrot_isUnit {e : Ellipsoid ℝ} (h : ZRotated e) : e.base.pose.orientation.IsUnit :=
  (Quat.isUnit_iff_norm _).mpr h.1

/-- For a z-rotated obstacle the inside test is membership of the x-y projection in the ellipse. -/
theorem inside_iff_inEllipse {e : Ellipsoid ℝ} (h : ZRotated e) (p : V3 ℝ) :
    e.pointIsInside p = true ↔ InEllipse e (halfLengths e V3.zero) p.x p.y := by
  have hq := zrot_isUnit h
  obtain ⟨y, rfl⟩ : ∃ y, e.base.pose.apply y = p := ⟨_, Pose.apply_apply_inverse hq p⟩
  rw [inside_eq e hq]
  constructor
  · intro hi
    refine ⟨y.x, y.y, hi, ?_, ?_⟩ <;> simp [zrot_apply h]
  · rintro ⟨u, v, hi, hx, hy⟩
    -- the planar part of the pose is injective
    have key : e.base.pose.apply ⟨u, v, y.z⟩ = e.base.pose.apply y := by
      ext
      · rw [hx]; simp [zrot_apply h]
      · rw [hy]; simp [zrot_apply h]
      · simp [zrot_apply h]
    have := congrArg e.base.pose.inverse.apply key
    rw [Pose.apply_inverse_apply hq, Pose.apply_inverse_apply hq] at this
    rw [← this]
    exact hi

theorem zrot_sq {e : Ellipsoid ℝ} (h : ZRotated e) :
    e.base.orientation.z ^ 2 + e.base.orientation.w ^ 2 = 1 := by
  have : e.base.orientation.sqNorm = 1 := (Quat.isUnit_iff_norm _).mpr h.1
  simp only [Quat.sqNorm, h.2.1, h.2.2] at this
  linarith

/-- the angle used for sampling is the rotation angle -/
theorem sampleTheta_spec {e : Ellipsoid ℝ} (h : ZRotated e) :
    Real.cos e.sampleTheta = e.base.orientation.w ^ 2 - e.base.orientation.z ^ 2 ∧
    Real.sin e.sampleTheta = 2 * e.base.orientation.w * e.base.orientation.z := by
  have hsq := zrot_sq h
  obtain ⟨-, hx, hy⟩ := h
  unfold sampleTheta
  generalize e.base.orientation = q at *
  have hn : V3.norm q.vec = |q.z| := by
    simp only [V3.norm, V3.sqNorm, V3.dot, Quat.vec, hx, hy, sqrt_real]
    rw [← Real.sqrt_sq_eq_abs]; congr 1; ring
  by_cases hz : q.z = 0
  · have h0 : V3.norm q.vec = 0 := by rw [hn, hz, abs_zero]
    have haa : q.toAngleAxis = (0, V3.unitX) := by
      unfold Quat.toAngleAxis; simp [h0]
    simp only [haa, V3.unitX, lt_irrefl, if_false, pi_real, lit_two, sub_zero, Real.cos_two_pi,
      Real.sin_two_pi]
    rw [hz] at hsq ⊢
    constructor
    · linarith
    · ring
  · have hpos : 0 < |q.z| := abs_pos.mpr hz
    set t := Complex.arg ⟨|q.w|, |q.z|⟩ with ht
    have haa : q.toAngleAxis = (2 * t, V3.sdiv q.vec (if q.w < 0 then -|q.z| else |q.z|)) := by
      unfold Quat.toAngleAxis
      rw [hn, if_pos (Or.inr hpos)]
      simp only [lit_two, atan2_real, absS_real, ht]
    have hnorm : ‖(⟨|q.w|, |q.z|⟩ : ℂ)‖ = 1 := by
      rw [Complex.norm_def, Complex.normSq_mk, abs_mul_abs_self, abs_mul_abs_self]
      have : q.w * q.w + q.z * q.z = 1 := by linarith
      rw [this, Real.sqrt_one]
    have hne : (⟨|q.w|, |q.z|⟩ : ℂ) ≠ 0 := by
      intro h0; rw [h0] at hnorm; simp at hnorm
    have hs : Real.sin t = |q.z| := by rw [ht, Complex.sin_arg, hnorm, div_one]
    have hc : Real.cos t = |q.w| := by rw [ht, Complex.cos_arg hne, hnorm, div_one]
    have hc2 : Real.cos (2 * t) = q.w ^ 2 - q.z ^ 2 := by
      rw [Real.cos_two_mul, hc, sq_abs]; linarith
    have hs2 : Real.sin (2 * t) = 2 * |q.w| * |q.z| := by
      rw [Real.sin_two_mul, hs, hc]; ring
    simp only [haa, V3.sdiv, Quat.vec, pi_real, lit_two]
    have hcases : (0 < q.z / (if q.w < 0 then -|q.z| else |q.z|) → |q.w| * |q.z| = q.w * q.z) ∧
        (¬ 0 < q.z / (if q.w < 0 then -|q.z| else |q.z|) → |q.w| * |q.z| = -(q.w * q.z)) := by
      rcases lt_or_ge q.w 0 with hw | hw
      · rw [if_pos hw, abs_of_neg hw]
        rcases lt_or_ge q.z 0 with hz' | hz'
        · rw [abs_of_neg hz', neg_neg, div_self hz]
          exact ⟨fun _ => by ring, fun h => absurd one_pos h⟩
        · rw [abs_of_nonneg hz', div_neg, div_self hz]
          exact ⟨fun h => by linarith, fun _ => by ring⟩
      · rw [if_neg (not_lt.mpr hw), abs_of_nonneg hw]
        rcases lt_or_ge q.z 0 with hz' | hz'
        · rw [abs_of_neg hz', div_neg, div_self hz]
          exact ⟨fun h => by linarith, fun _ => by ring⟩
        · rw [abs_of_nonneg hz', div_self hz]
          exact ⟨fun _ => by ring, fun h => absurd one_pos h⟩
    by_cases hax : 0 < q.z / (if q.w < 0 then -|q.z| else |q.z|)
    · rw [if_pos hax, hc2, hs2]
      exact ⟨rfl, by linarith [hcases.1 hax]⟩
    · rw [if_neg hax, Real.cos_two_pi_sub, Real.sin_two_pi_sub, hc2, hs2]
      exact ⟨rfl, by linarith [hcases.2 hax]⟩

/-- one sample is the image of the corresponding point of the axis-aligned ellipse, with z set to 0 -/
theorem sampleAt_eq {e : Ellipsoid ℝ} (h : ZRotated e) (l : V3 ℝ) (a : ℝ) :
    e.sampleAt l e.sampleTheta a =
      ⟨(e.base.pose.apply ⟨l.x * Real.cos a, l.y * Real.sin a, 0⟩).x,
       (e.base.pose.apply ⟨l.x * Real.cos a, l.y * Real.sin a, 0⟩).y, 0⟩ := by
  obtain ⟨hc, hs⟩ := sampleTheta_spec h
  rw [zrot_apply h]
  simp only [sampleAt, cos_real, sin_real, hc, hs]
  ext
  · simp only; ring
  · simp only; ring
  · rfl

/-- The unnormalised normal in frame coordinates. -/
theorem normal_frame (e : Ellipsoid ℝ) (p : V3 ℝ) (r : ℝ) (k1 k2 k3 : ℕ) (hk : HasCurv e k1 k2 k3)
    (hl : AllGt (halfLengths e (V3.const r)) (1 / 10000)) :
    e.normalToAgent p r =
      V3.normalized ⟨(2 * k1 * (e.base.pose.inverse.apply p).x
          / ((halfLengths e (V3.const r)).x * (halfLengths e (V3.const r)).x)) ^ (2 * k1 - 1),
        (2 * k2 * (e.base.pose.inverse.apply p).y
          / ((halfLengths e (V3.const r)).y * (halfLengths e (V3.const r)).y)) ^ (2 * k2 - 1),
        (2 * k3 * (e.base.pose.inverse.apply p).z
          / ((halfLengths e (V3.const r)).z * (halfLengths e (V3.const r)).z)) ^ (2 * k3 - 1)⟩ := by
  obtain ⟨hc, hk1, hk2, hk3⟩ := hk
  obtain ⟨h1, h2, h3⟩ := hl
  simp only [normalToAgent, lengths_eq, hc, scaledSq, epsilon_eq, if_pos h1, if_pos h2, if_pos h3,
    pow_odd _ _ hk1, pow_odd _ _ hk2, pow_odd _ _ hk3]
  simp only [lit_two]

theorem odd_two_mul_sub_one {k : ℕ} (hk : 1 ≤ k) : Odd (2 * k - 1) := ⟨k - 1, by omega⟩

theorem mul_odd_pow_nonneg {y c : ℝ} {k : ℕ} (hk : 1 ≤ k) (hc : 0 < c) :
    0 ≤ (2 * k * y / c) ^ (2 * k - 1) * y ∧ (y ≠ 0 → 0 < (2 * k * y / c) ^ (2 * k - 1) * y) := by
  have hk' : (0 : ℝ) < k := by exact_mod_cast hk
  have hodd := odd_two_mul_sub_one hk
  rcases lt_trichotomy y 0 with h | h | h
  · have h1 : 2 * k * y / c < 0 := by
      apply div_neg_of_neg_of_pos _ hc; nlinarith
    have := hodd.pow_neg h1
    have := mul_pos_of_neg_of_neg this h
    exact ⟨this.le, fun _ => this⟩
  · subst h; simp
  · have h1 : 0 < 2 * k * y / c := by positivity
    have := mul_pos (pow_pos h1 (2 * k - 1)) h
    exact ⟨this.le, fun _ => this⟩

theorem hasDerivAt_term (a u l : ℝ) (k : ℕ) :
    HasDerivAt (fun s : ℝ => ((a + s * u) / l) ^ (2 * k))
      ((2 * k : ℕ) * (a / l) ^ (2 * k - 1) * (u / l)) 0 := by
  have h1 : HasDerivAt (fun s : ℝ => (a + s * u) / l) (u / l) 0 := by
    have := ((hasDerivAt_id (0 : ℝ)).mul_const u).const_add a
    simpa using this.div_const l
  have := h1.fun_pow (2 * k)
  simpa using this

/-- The derivative of the level function in direction `u`. -/
theorem hasDerivAt_level (l : V3 ℝ) (k1 k2 k3 : ℕ) (y u : V3 ℝ) :
    HasDerivAt (fun s : ℝ => level l k1 k2 k3 (y + V3.smul s u))
      (((2 * k1 : ℕ) * (y.x / l.x) ^ (2 * k1 - 1) * (u.x / l.x)) +
       ((2 * k2 : ℕ) * (y.y / l.y) ^ (2 * k2 - 1) * (u.y / l.y)) +
       ((2 * k3 : ℕ) * (y.z / l.z) ^ (2 * k3 - 1) * (u.z / l.z))) 0 := by
  have := ((hasDerivAt_term y.x u.x l.x k1).fun_add (hasDerivAt_term y.y u.y l.y k2)).fun_add
    (hasDerivAt_term y.z u.z l.z k3)
  simpa [level, V3.smul] using this

end DOA.Ellipsoid
