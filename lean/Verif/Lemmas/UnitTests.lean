import Verif.Model.UnitTests
import Verif.Props.IntersectionDepth
import Verif.Props.AggregationHistory
import Mathlib.Analysis.SpecialFunctions.Trigonometric.Bounds
import Mathlib.Analysis.Real.Pi.Bounds

/-!
# Helpers for the unit tests
-/

namespace DOA.UnitTests

open DOA DOA.Spec DOA.Ellipsoid DOA.Props

set_option linter.unusedSimpArgs false

/-! ### quaternions -/

theorem fix_one : Pose.fixOrientation (⟨1, 0, 0, 0⟩ : Quat ℝ) = ⟨1, 0, 0, 0⟩ := by
  have : (⟨1, 0, 0, 0⟩ : Quat ℝ).norm = 1 := by norm_num [Quat.norm, Quat.sqNorm]
  rw [Pose.fixOrientation_eq _ (by rw [this]; norm_num)]
  norm_num [Quat.normalized, Quat.sqNorm]

theorem root : √2 * √2 = 2 := Real.mul_self_sqrt (by norm_num)

theorem root_bounds : 1.41421356 < √2 ∧ √2 < 1.41421357 := by
  constructor
  · rw [Real.lt_sqrt (by norm_num)]; norm_num
  · rw [Real.sqrt_lt' (by norm_num)]; norm_num

theorem half_pair : √((half : ℝ) * half + half * half) = half * √2 := by
  have : (half : ℝ) * half + half * half = (half * √2) * (half * √2) := by linear_combination (-(half : ℝ) * half) * root
  rw [this, Real.sqrt_mul_self]
  have : (0 : ℝ) ≤ half := by norm_num [half]
  positivity

theorem fix_half1 : Pose.fixOrientation (⟨half, half, 0, 0⟩ : Quat ℝ) = ⟨√2 / 2, √2 / 2, 0, 0⟩ := by
  have h0 : (0 : ℝ) < half := by norm_num [half]
  have hs : (⟨half, half, 0, 0⟩ : Quat ℝ).sqNorm = half * half + half * half := by simp [Quat.sqNorm]
  have hn : √((⟨half, half, 0, 0⟩ : Quat ℝ).sqNorm) = half * √2 := by rw [hs, half_pair]
  rw [Pose.fixOrientation_eq _ (by rw [Quat.norm, sqrt_real, hn]; norm_num [half]; linarith [root_bounds.2])]
  have hq : (⟨half, half, 0, 0⟩ : Quat ℝ).normalized = ⟨√2 / 2, √2 / 2, 0, 0⟩ := by
    rw [Quat.normalized, if_pos (by rw [hs]; positivity), sqrt_real, hn]
    have : (half : ℝ) / (half * √2) = √2 / 2 := by
      have := root
      field_simp
      linarith
    simp [this]
  rw [hq, if_neg (by simp; positivity)]

theorem fix_half2 : Pose.fixOrientation (⟨0, 0, half, half⟩ : Quat ℝ) = ⟨0, 0, √2 / 2, √2 / 2⟩ := by
  have h0 : (0 : ℝ) < half := by norm_num [half]
  have hs : (⟨0, 0, half, half⟩ : Quat ℝ).sqNorm = half * half + half * half := by simp [Quat.sqNorm]
  have hn : √((⟨0, 0, half, half⟩ : Quat ℝ).sqNorm) = half * √2 := by rw [hs, half_pair]
  rw [Pose.fixOrientation_eq _ (by rw [Quat.norm, sqrt_real, hn]; norm_num [half]; linarith [root_bounds.2])]
  have hq : (⟨0, 0, half, half⟩ : Quat ℝ).normalized = ⟨0, 0, √2 / 2, √2 / 2⟩ := by
    rw [Quat.normalized, if_pos (by rw [hs]; positivity), sqrt_real, hn]
    have : (half : ℝ) / (half * √2) = √2 / 2 := by
      have := root
      field_simp
      linarith
    simp [this]
  rw [hq, if_neg (by simp)]

/-! ### turned ellipses -/

theorem fix_angle (t : ℝ) : ∃ a b : ℝ, Pose.fixOrientation (Quat.ofAngleZ t) = ⟨a, 0, 0, b⟩ ∧
    a ^ 2 - b ^ 2 = Real.cos t ∧ 2 * a * b = Real.sin t ∧ a ^ 2 + b ^ 2 = 1 := by
  have hu := ofAngleZ_unit t
  have hno : (Quat.ofAngleZ t).norm = 1 := (Quat.isUnit_iff_norm _).mp hu
  have hn : (Quat.ofAngleZ t).normalized = ⟨Real.cos (t / 2), 0, 0, Real.sin (t / 2)⟩ := by
    have hu' : (Quat.ofAngleZ t).sqNorm = 1 := hu
    unfold Quat.normalized
    rw [hu', if_pos one_pos]
    have e : (1 : ℝ) / 2 * t = t / 2 := by ring
    simp [Quat.ofAngleZ]
    constructor <;> congr 1 <;> ring
  obtain ⟨h1, h2⟩ := double_angle t
  have h3 := Real.sin_sq_add_cos_sq (t / 2)
  rw [Pose.fixOrientation_eq _ (by rw [hno]; norm_num), hn]
  dsimp only
  split
  · exact ⟨-Real.cos (t / 2), -Real.sin (t / 2), by simp, by rw [h1]; ring, by rw [h2]; ring, by linarith⟩
  · exact ⟨Real.cos (t / 2), Real.sin (t / 2), by simp, by rw [h1], by rw [h2]; ring, by linarith⟩

theorem turned_rot (n : String) (p : V3 ℝ) (t : ℝ) (ax : V3 ℝ) : ZRotated { turned n p t with axis := ax } := by
  obtain ⟨a, b, h, -, -, h1⟩ := fix_angle t
  have e : ({ turned n p t with axis := ax } : Ellipsoid ℝ).base.orientation = ⟨a, 0, 0, b⟩ := h
  refine ⟨?_, by rw [e], by rw [e]⟩
  rw [e, ← Quat.isUnit_iff_norm]
  simp only [Quat.IsUnit, Quat.sqNorm]
  linarith

/-- The points covered by a turned ellipse. -/
theorem turned_in (n : String) (p : V3 ℝ) (t : ℝ) (ax l : V3 ℝ) (x y : ℝ) :
    InEllipse { turned n p t with axis := ax } l x y ↔ ∃ u v : ℝ, (u / l.x) ^ 2 + (v / l.y) ^ 2 ≤ 1 ∧
      x = Real.cos t * u - Real.sin t * v + p.x ∧ y = Real.sin t * u + Real.cos t * v + p.y := by
  obtain ⟨a, b, h, h1, h2, -⟩ := fix_angle t
  have e : ({ turned n p t with axis := ax } : Ellipsoid ℝ).base.orientation = ⟨a, 0, 0, b⟩ := h
  have e2 : ({ turned n p t with axis := ax } : Ellipsoid ℝ).base.position = p := rfl
  unfold InEllipse
  simp only [zrot_apply (turned_rot n p t ax), e, e2]
  simp only [h1, h2]

theorem turned_len (n : String) (p : V3 ℝ) (t : ℝ) (ax : V3 ℝ) :
    halfLengths { turned n p t with axis := ax } V3.zero = ax := by
  ext <;> simp [halfLengths, turned, ellipsoid, Ellipsoid.ofBase, Base.mkState, V3.zero, V3.const]

/-- A turned ellipse lies in the disc around its centre. -/
theorem turned_disc {n : String} {p : V3 ℝ} {t : ℝ} {ax l : V3 ℝ} {x y r : ℝ} (hx : 0 < l.x) (hy : 0 < l.y)
    (hxr : l.x ≤ r) (hyr : l.y ≤ r) (h : InEllipse { turned n p t with axis := ax } l x y) :
    (x - p.x) ^ 2 + (y - p.y) ^ 2 ≤ r ^ 2 := by
  obtain ⟨u, v, h1, rfl, rfl⟩ := (turned_in ..).mp h
  have e : (Real.cos t * u - Real.sin t * v + p.x - p.x) ^ 2 + (Real.sin t * u + Real.cos t * v + p.y - p.y) ^ 2 =
      u ^ 2 + v ^ 2 := by
    linear_combination (u ^ 2 + v ^ 2) * Real.sin_sq_add_cos_sq t
  rw [e]
  have hr : 0 < r := by linarith
  have a1 : (u / r) ^ 2 ≤ (u / l.x) ^ 2 := by
    rw [div_pow, div_pow]; gcongr
  have a2 : (v / r) ^ 2 ≤ (v / l.y) ^ 2 := by
    rw [div_pow, div_pow]; gcongr
  have : (u / r) ^ 2 + (v / r) ^ 2 ≤ 1 := by linarith
  rw [div_pow, div_pow, ← add_div, div_le_one (by positivity)] at this
  exact this

/-- Ellipses far apart are not reported. -/
theorem turned_apart {n m : String} {p q : V3 ℝ} {t s : ℝ} {ax bx : V3 ℝ} {r1 r2 : ℝ} (h1 : 0 < ax.x) (h2 : 0 < ax.y)
    (h3 : 0 < bx.x) (h4 : 0 < bx.y) (a1 : ax.x ≤ r1) (a2 : ax.y ≤ r1) (b1 : bx.x ≤ r2) (b2 : bx.y ≤ r2)
    (hd : r1 + r2 < |p.y - q.y|) :
    Ellipsoid.isIntersectingEllipsoid { turned n p t with axis := ax } { turned m q s with axis := bx } = .ok false := by
  obtain ⟨b, hb⟩ := C29_total { turned n p t with axis := ax } { turned m q s with axis := bx }
  cases b with
  | false => exact hb
  | true =>
    exfalso
    obtain ⟨x, y, i1, i2⟩ := C29_sound_partial _ _ (turned_rot n p t ax) (turned_rot m q s bx)
      (by rw [turned_len]; exact h3.ne') (by rw [turned_len]; exact h4.ne') hb
    rw [turned_len] at i1 i2
    have d1 := turned_disc h1 h2 a1 a2 i1
    have d2 := turned_disc h3 h4 b1 b2 i2
    have y1 : |y - p.y| ≤ r1 := abs_le_of_sq_le_sq (by nlinarith [sq_nonneg (x - p.x)]) (by linarith)
    have y2 : |y - q.y| ≤ r2 := abs_le_of_sq_le_sq (by nlinarith [sq_nonneg (x - q.x)]) (by linarith)
    have := abs_sub_le p.y y q.y
    rw [abs_sub_comm p.y y] at this
    linarith

/-! ### discs -/

/-- An ellipse with two equal half lengths is a disc. -/
structure IsDisc (e : Ellipsoid ℝ) (r : ℝ) : Prop where
  rot : ZRotated e
  pos : 0 < r
  lx : (halfLengths e V3.zero).x = r
  ly : (halfLengths e V3.zero).y = r

theorem IsDisc.in_iff {e : Ellipsoid ℝ} {r : ℝ} (h : IsDisc e r) (x y : ℝ) :
    InEllipse e (halfLengths e V3.zero) x y ↔ (x - e.base.position.x) ^ 2 + (y - e.base.position.y) ^ 2 ≤ r ^ 2 := by
  rw [← circle_inside h.rot r h.pos h.lx h.ly ⟨x, y, 0⟩, inside_iff_inEllipse h.rot]

theorem named_disc (n : String) : IsDisc (named n) 1 := by
  refine ⟨circ_rot n V3.zero 1, one_pos, ?_, ?_⟩ <;>
    simp [halfLengths, named, Ellipsoid.ofBase, Base.mkName, V3.zero, V3.const]

theorem turned_unit (n : String) (p : V3 ℝ) (t : ℝ) : IsDisc (turned n p t) 1 := by
  refine ⟨turned_rot n p t (V3.const 1), one_pos, ?_, ?_⟩ <;>
    simp [halfLengths, turned, ellipsoid, Ellipsoid.ofBase, Base.mkState, V3.zero, V3.const]

/-- Unit discs whose centres are at most 1.9 apart are reported. -/
theorem unit_meet {e o : Ellipsoid ℝ} (he : IsDisc e 1) (ho : IsDisc o 1)
    (h : (e.base.position.x - o.base.position.x) ^ 2 + (e.base.position.y - o.base.position.y) ^ 2 ≤ 1.9 ^ 2) :
    e.isIntersectingEllipsoid o = .ok true := by
  have hpi : Real.pi / 99 < 0.05 := by linarith [Real.pi_lt_d2]
  apply C29_deep_partial e o he.rot ho.rot (by rw [ho.lx]; norm_num) (by rw [ho.ly]; norm_num)
    ((e.base.position.x + o.base.position.x) / 2) ((e.base.position.y + o.base.position.y) / 2)
  · rw [ho.in_iff]; nlinarith
  · intro a b hab
    rw [he.in_iff]
    rw [ho.lx, ho.ly, abs_one, max_self, one_mul] at hab
    have hab : a ^ 2 + b ^ 2 ≤ 0.05 ^ 2 := hab.trans (by
      have := Real.pi_pos
      gcongr)
    set p := (o.base.position.x - e.base.position.x) / 2 with hp
    set q := (o.base.position.y - e.base.position.y) / 2 with hq
    have e1 : (e.base.position.x + o.base.position.x) / 2 + a - e.base.position.x = p + a := by rw [hp]; ring
    have e2 : (e.base.position.y + o.base.position.y) / 2 + b - e.base.position.y = q + b := by rw [hq]; ring
    have hpq : p ^ 2 + q ^ 2 ≤ 0.95 ^ 2 := by rw [hp, hq]; nlinarith
    rw [e1, e2]
    -- the triangle inequality
    have : p * a + q * b ≤ 0.95 * 0.05 := by
      nlinarith [sq_nonneg (p - 19 * a), sq_nonneg (q - 19 * b)]
    nlinarith

/-- Unit discs whose centres are more than 2 apart are not reported. -/
theorem unit_apart {e o : Ellipsoid ℝ} (he : IsDisc e 1) (ho : IsDisc o 1)
    (h : 2 < |e.base.position.y - o.base.position.y|) : e.isIntersectingEllipsoid o = .ok false := by
  obtain ⟨b, hb⟩ := C29_total e o
  cases b with
  | false => exact hb
  | true =>
    exfalso
    obtain ⟨x, y, i1, i2⟩ := C29_sound_partial _ _ he.rot ho.rot (by rw [ho.lx]; norm_num) (by rw [ho.ly]; norm_num) hb
    rw [he.in_iff] at i1
    rw [ho.in_iff] at i2
    have y1 : |y - e.base.position.y| ≤ 1 :=
      abs_le_of_sq_le_sq (by nlinarith [sq_nonneg (x - e.base.position.x)]) (by norm_num)
    have y2 : |y - o.base.position.y| ≤ 1 :=
      abs_le_of_sq_le_sq (by nlinarith [sq_nonneg (x - o.base.position.x)]) (by norm_num)
    have := abs_sub_le e.base.position.y y o.base.position.y
    rw [abs_sub_comm e.base.position.y y] at this
    linarith

/-! ### the two crossing ellipses of `IsInteresectingBothRotations` -/

/-- Two ellipses with half lengths 0.75 and 0.2 turned by `t` and `-t`, 0.9 apart along the x axis. -/
theorem cross_meet {n m : String} {p q : V3 ℝ} {t : ℝ} {z : ℝ} (hy : p.y = q.y)
    (hc : 0.71 ≤ Real.cos t) (hd : |q.x - p.x| = 0.9) :
    Ellipsoid.isIntersectingEllipsoid { turned n p t with axis := ⟨0.75, 0.2, z⟩ }
      { turned m q (-t) with axis := ⟨0.75, 0.2, z⟩ } = .ok true := by
  have hpi : Real.pi / 99 < 0.032 := by linarith [Real.pi_lt_d2]
  have hsc := Real.sin_sq_add_cos_sq t
  set c := Real.cos t with hcd
  set s := Real.sin t with hsd
  have hc0 : 0 < c := by linarith
  have hdd : (q.x - p.x) ^ 2 = 0.81 := by rw [← sq_abs, hd]; norm_num
  -- the point of the first axis in the middle between the centres
  set u := (q.x - p.x) / (2 * c) with hu
  have huc : c * u = (q.x - p.x) / 2 := by rw [hu]; field_simp
  have hub : u ^ 2 ≤ 0.64 ^ 2 := by
    rw [hu, div_pow, hdd, div_le_iff₀ (by positivity)]
    nlinarith
  apply C29_deep_partial _ _ (turned_rot ..) (turned_rot ..) (by rw [turned_len]; norm_num) (by rw [turned_len]; norm_num)
    (c * u + p.x) (s * u + p.y)
  · rw [turned_len, turned_in]
    refine ⟨-u, 0, ?_, ?_, ?_⟩
    · simp only; rw [div_pow]; norm_num; rw [div_le_one (by norm_num)]; nlinarith
    · rw [Real.cos_neg, ← hcd]; linarith
    · rw [Real.sin_neg, ← hsd, hy]; ring
  · intro a b hab
    rw [turned_len] at hab
    rw [turned_len, turned_in]
    refine ⟨u + (c * a + s * b), -s * a + c * b, ?_, ?_, ?_⟩
    · have hm : max |(0.75 : ℝ)| |0.2| = 0.75 := by norm_num
      simp only [hm] at hab
      have hab : a ^ 2 + b ^ 2 ≤ (0.75 * 0.032) ^ 2 := hab.trans (by
        have := Real.pi_pos
        gcongr)
      set a' := c * a + s * b with ha'
      set b' := -s * a + c * b with hb'
      have hn : a' ^ 2 + b' ^ 2 = a ^ 2 + b ^ 2 := by
        rw [ha', hb']; linear_combination (a ^ 2 + b ^ 2) * hsc
      have h1 : |a'| ≤ 0.024 := abs_le_of_sq_le_sq (by nlinarith [sq_nonneg b']) (by norm_num)
      have h2 : b' ^ 2 ≤ 0.024 ^ 2 := by nlinarith [sq_nonneg a']
      have h3 : |u| ≤ 0.64 := abs_le_of_sq_le_sq hub (by norm_num)
      have h4 : |u + a'| ≤ 0.664 := (abs_add_le _ _).trans (by linarith)
      have h5 : (u + a') ^ 2 ≤ 0.664 ^ 2 := by
        rw [← sq_abs]; gcongr
      simp only
      rw [div_pow, div_pow]
      norm_num
      linarith
    · linear_combination (-a) * hsc
    · linear_combination (-b) * hsc

/-! ### unit spheres that are not turned -/

/-- A unit sphere without rotation and margin. -/
structure IsBall (e : Ellipsoid ℝ) (p : V3 ℝ) : Prop where
  axis : e.axis = ⟨1, 1, 1⟩
  curv : e.curv = ⟨1, 1, 1⟩
  margin : e.base.margin = ⟨0, 0, 0⟩
  pose : e.base.state.pose = ⟨p, ⟨1, 0, 0, 0⟩⟩

theorem ball_position (n : String) (p : V3 ℝ) : IsBall (ellipsoid n (State.ofPosition p)) p := ⟨rfl, rfl, rfl, rfl⟩

theorem ball_pose (n : String) (p : V3 ℝ) : IsBall (ellipsoid n (State.mk2 p ⟨1, 0, 0, 0⟩)) p := by
  refine ⟨rfl, rfl, rfl, ?_⟩
  show Pose.mk2 p ⟨1, 0, 0, 0⟩ = _
  rw [Pose.mk2, fix_one]

theorem ball_moving (n : String) (p v : V3 ℝ) :
    IsBall (ellipsoid n ((State.mk2 p ⟨1, 0, 0, 0⟩).setLinearVelocity v)) p := by
  refine ⟨rfl, rfl, rfl, ?_⟩
  show Pose.mk2 p ⟨1, 0, 0, 0⟩ = _
  rw [Pose.mk2, fix_one]

theorem still_apply (p x : V3 ℝ) : (⟨p, ⟨1, 0, 0, 0⟩⟩ : Pose ℝ).inverse.apply x = x - p := by
  ext <;> simp [Pose.inverse, Pose.apply, Quat.conjugate, Quat.rotate, Quat.vec, V3.cross, V3.smul] <;> ring

theorem IsBall.distance {e : Ellipsoid ℝ} {p : V3 ℝ} (h : IsBall e p) (x : V3 ℝ) :
    e.distanceToPoint x (V3.const 0) = (x.x - p.x) ^ 2 + (x.y - p.y) ^ 2 + (x.z - p.z) ^ 2 := by
  have hp : e.base.pose = ⟨p, ⟨1, 0, 0, 0⟩⟩ := h.pose
  simp only [Ellipsoid.distanceToPoint, hp, still_apply, h.axis, h.curv, h.margin, scaled, epsilon, V3.const]
  norm_num

theorem IsBall.normal {e : Ellipsoid ℝ} {p : V3 ℝ} (h : IsBall e p) (x : V3 ℝ) :
    e.normalToAgent x 0 = (V3.smul 2 (x - p)).normalized := by
  have hp : e.base.pose = ⟨p, ⟨1, 0, 0, 0⟩⟩ := h.pose
  simp only [Ellipsoid.normalToAgent, hp, still_apply, h.axis, h.curv, h.margin, scaledSq, epsilon, V3.const, V3.smul]
  norm_num

theorem normalized_of {v : V3 ℝ} {r : ℝ} (hr : 0 < r) (h : v.x * v.x + v.y * v.y + v.z * v.z = r * r) :
    v.normalized = ⟨v.x / r, v.y / r, v.z / r⟩ := by
  have hq : v.sqNorm = r * r := h
  rw [V3.normalized, hq, if_pos (by positivity), sqrt_real, Real.sqrt_mul_self hr.le]
  rfl

/-- The normal towards (1, 0, 0) at the sphere around (2, 1, 0). -/
theorem normal_diagonal {e : Ellipsoid ℝ} (h : IsBall e ⟨2, 1, 0⟩) :
    e.normalToAgent ⟨1, 0, 0⟩ 0 = ⟨-(√2 / 2), -(√2 / 2), 0⟩ := by
  have hr := root
  have h0 : 0 < √2 := by positivity
  rw [h.normal, normalized_of (r := 2 * √2) (by positivity) (by simp [V3.smul]; linarith)]
  have : (1 : ℝ) / √2 = √2 / 2 := by field_simp; linarith
  ext
  · simp [V3.smul]; field_simp; linarith
  · simp [V3.smul]; field_simp; linarith
  · simp [V3.smul]

/-- The normal towards (1, 0, 0) at a sphere around a point of the x axis on the left. -/
theorem normal_axis {e : Ellipsoid ℝ} {a : ℝ} (ha : a < 1) (h : IsBall e ⟨a, 0, 0⟩) :
    e.normalToAgent ⟨1, 0, 0⟩ 0 = ⟨1, 0, 0⟩ := by
  have h0 : 0 < 1 - a := by linarith
  rw [h.normal, normalized_of (r := 2 * (1 - a)) (by positivity) (by simp [V3.smul])]
  ext
  · simp [V3.smul]; exact h0.ne'
  · simp [V3.smul]
  · simp [V3.smul]

/-! ### basis and modulation matrices -/

/-- The basis at the sphere around (2, 1, 0). -/
noncomputable def diagonalBasis : M3 ℝ := ⟨⟨-(√2 / 2), -(√2 / 2), 0⟩, ⟨-(√2 / 2), √2 / 2, 0⟩, ⟨0, 0, 1⟩⟩

/-- The basis at a sphere on the x axis. -/
def axisBasis : M3 ℝ := ⟨⟨1, 0, 0⟩, ⟨0, -1, 0⟩, ⟨0, 0, 1⟩⟩

theorem tangent_flat {n : V3 ℝ} (h : n.x * n.x + n.y * n.y = 1) :
    Modulation.tangentVector n = ⟨n.y, -n.x, 0⟩ := by
  have hc : V3.cross n V3.unitZ = ⟨n.y, -n.x, 0⟩ := by ext <;> simp [V3.cross, V3.unitZ]
  have hn : (⟨n.y, -n.x, 0⟩ : V3 ℝ).norm = 1 := by
    simp [V3.norm, V3.sqNorm, V3.dot]
    linarith
  unfold Modulation.tangentVector
  rw [hc]
  dsimp only
  rw [hn, if_neg (by norm_num)]

theorem basis_diagonal {b : Base ℝ} (hp : b.state.pose = ⟨⟨2, 1, 0⟩, ⟨1, 0, 0, 0⟩⟩) (hr : b.refPos = some ⟨2, 1, 0⟩) :
    Modulation.basisMatrices ⟨-(√2 / 2), -(√2 / 2), 0⟩ ⟨1, 0, 0⟩ b = .ok (diagonalBasis, diagonalBasis) := by
  have h2 := root
  have h0 : 0 < √2 := by positivity
  have hpp : b.pose = ⟨⟨2, 1, 0⟩, ⟨1, 0, 0, 0⟩⟩ := hp
  have hdir : Modulation.referenceDirection b.pose ⟨1, 0, 0⟩ ⟨2, 1, 0⟩ = ⟨-(√2 / 2), -(√2 / 2), 0⟩ := by
    rw [Modulation.referenceDirection, hpp, still_apply, still_apply,
      normalized_of (r := √2) h0 (by simp; linarith)]
    ext
    · simp; field_simp; linarith
    · simp; field_simp; linarith
    · simp
  have ht : Modulation.tangentVector (⟨-(√2 / 2), -(√2 / 2), 0⟩ : V3 ℝ) = ⟨-(√2 / 2), √2 / 2, 0⟩ := by
    rw [tangent_flat (by simp only; linarith)]
    simp
  have hx : V3.cross (⟨-(√2 / 2), √2 / 2, 0⟩ : V3 ℝ) ⟨-(√2 / 2), -(√2 / 2), 0⟩ = ⟨0, 0, 1⟩ := by
    ext
    · simp [V3.cross]
    · simp [V3.cross]
    · simp [V3.cross]; linarith
  simp only [Modulation.basisMatrices, Base.ref, hr, Res.ok_bind, hdir, Modulation.referenceBasis,
    Modulation.orthogonalBasis, ht, hx, diagonalBasis]

theorem basis_axis {b : Base ℝ} {a : ℝ} (ha : a < 1) (hp : b.state.pose = ⟨⟨a, 0, 0⟩, ⟨1, 0, 0, 0⟩⟩)
    (hr : b.refPos = some ⟨a, 0, 0⟩) :
    Modulation.basisMatrices ⟨1, 0, 0⟩ ⟨1, 0, 0⟩ b = .ok (axisBasis, axisBasis) := by
  have h0 : 0 < 1 - a := by linarith
  have hpp : b.pose = ⟨⟨a, 0, 0⟩, ⟨1, 0, 0, 0⟩⟩ := hp
  have hdir : Modulation.referenceDirection b.pose ⟨1, 0, 0⟩ ⟨a, 0, 0⟩ = ⟨1, 0, 0⟩ := by
    rw [Modulation.referenceDirection, hpp, still_apply, still_apply, normalized_of (r := 1 - a) h0 (by simp)]
    ext
    · simp; exact h0.ne'
    · simp
    · simp
  have ht : Modulation.tangentVector (⟨1, 0, 0⟩ : V3 ℝ) = ⟨0, -1, 0⟩ := by
    rw [tangent_flat (by norm_num)]
  have hx : V3.cross (⟨0, -1, 0⟩ : V3 ℝ) ⟨1, 0, 0⟩ = ⟨0, 0, 1⟩ := by ext <;> simp [V3.cross]
  simp only [Modulation.basisMatrices, Base.ref, hr, Res.ok_bind, hdir, Modulation.referenceBasis,
    Modulation.orthogonalBasis, ht, hx, axisBasis]

theorem matrix_diagonal {h : Heap ℝ} {ag : Agent ℝ} {e : Ellipsoid ℝ} (he : IsBall e ⟨2, 1, 0⟩)
    (hr : e.base.refPos = some ⟨2, 1, 0⟩) (hp : ag.state.position = ⟨1, 0, 0⟩) (hm : ag.margin = 0) :
    Modulation.modulationMatrix h ag (.ellipsoid e) =
      .ok (⟨⟨1, -(1 / 2), 0⟩, ⟨-(1 / 2), 1, 0⟩, ⟨0, 0, 3 / 2⟩⟩, diagonalBasis, 2) := by
  have h2 := root
  have hd : e.distanceToPoint ⟨1, 0, 0⟩ (V3.const 0) = 2 := by rw [he.distance]; norm_num
  have ho : e.base.orientation = ⟨1, 0, 0, 0⟩ := by
    show e.base.state.pose.orientation = _
    rw [he.pose]
  have hev : Modulation.diagonalEigenvalues (2 : ℝ) 1 = ⟨1 / 2, 3 / 2, 3 / 2⟩ := by
    norm_num [Modulation.diagonalEigenvalues]
  have hdet : diagonalBasis.det = -1 := by simp [M3.det, diagonalBasis]; linarith
  have hinv : diagonalBasis.inverse = diagonalBasis := by
    unfold M3.inverse
    rw [hdet]
    ext <;> simp [diagonalBasis]
    linarith
  have hq : (⟨1, 0, 0, 0⟩ : Quat ℝ).inverse = ⟨1, 0, 0, 0⟩ := by norm_num [Quat.inverse, Quat.sqNorm]
  have hprod : Modulation.modulationProduct ⟨1, 0, 0, 0⟩ diagonalBasis ⟨1 / 2, 3 / 2, 3 / 2⟩ =
      ⟨⟨1, -(1 / 2), 0⟩, ⟨-(1 / 2), 1, 0⟩, ⟨0, 0, 3 / 2⟩⟩ := by
    unfold Modulation.modulationProduct
    rw [hinv, hq]
    ext <;> simp [M3.mul, M3.mulVec, M3.mulDiag, Quat.toM3, diagonalBasis] <;> nlinarith
  simp only [Modulation.modulationMatrix, Heap.normalToAgent, Heap.distanceToAgent, Heap.distanceToPoint, hp, hm,
    normal_diagonal he, hd, Res.ok_bind, Obj.base, basis_diagonal he.pose hr, ho, hev, hprod]

theorem matrix_axis {h : Heap ℝ} {ag : Agent ℝ} {e : Ellipsoid ℝ} {a : ℝ} (ha0 : 0 ≤ a) (ha : a < 1)
    (he : IsBall e ⟨a, 0, 0⟩) (hr : e.base.refPos = some ⟨a, 0, 0⟩) (hp : ag.state.position = ⟨1, 0, 0⟩)
    (hm : ag.margin = 0) :
    Modulation.modulationMatrix h ag (.ellipsoid e) =
      .ok (⟨⟨0, 0, 0⟩, ⟨0, 2, 0⟩, ⟨0, 0, 2⟩⟩, axisBasis, (1 - a) ^ 2) := by
  have hd : e.distanceToPoint ⟨1, 0, 0⟩ (V3.const 0) = (1 - a) ^ 2 := by rw [he.distance]; norm_num
  have hd1 : (1 - a) ^ 2 ≤ 1 := by nlinarith
  have ho : e.base.orientation = ⟨1, 0, 0, 0⟩ := by
    show e.base.state.pose.orientation = _
    rw [he.pose]
  have hev : Modulation.diagonalEigenvalues ((1 - a) ^ 2) 1 = ⟨0, 2, 2⟩ := by
    unfold Modulation.diagonalEigenvalues
    rw [if_pos hd1]
    norm_num
  have hinv : axisBasis.inverse = axisBasis := by
    ext <;> norm_num [M3.inverse, M3.det, axisBasis]
  have hq : (⟨1, 0, 0, 0⟩ : Quat ℝ).inverse = ⟨1, 0, 0, 0⟩ := by norm_num [Quat.inverse, Quat.sqNorm]
  have hprod : Modulation.modulationProduct ⟨1, 0, 0, 0⟩ axisBasis ⟨0, 2, 2⟩ =
      ⟨⟨0, 0, 0⟩, ⟨0, 2, 0⟩, ⟨0, 0, 2⟩⟩ := by
    unfold Modulation.modulationProduct
    rw [hinv, hq]
    ext <;> simp [M3.mul, M3.mulVec, M3.mulDiag, Quat.toM3, axisBasis]
  simp only [Modulation.modulationMatrix, Heap.normalToAgent, Heap.distanceToAgent, Heap.distanceToPoint, hp, hm,
    normal_axis ha he, hd, Res.ok_bind, Obj.base, basis_axis ha he.pose hr, ho, hev, hprod]

/-! ### the turned sphere -/

theorem turned_apply (n : String) (p : V3 ℝ) (t : ℝ) (x : V3 ℝ) :
    (turned n p t).base.pose.inverse.apply x = ⟨Real.cos t * (x.x - p.x) + Real.sin t * (x.y - p.y),
      -Real.sin t * (x.x - p.x) + Real.cos t * (x.y - p.y), x.z - p.z⟩ := by
  obtain ⟨a, b, h, h1, h2, h3⟩ := fix_angle t
  have e : (turned n p t).base.pose = ⟨p, ⟨a, 0, 0, b⟩⟩ := by
    show Pose.mk2 p _ = _
    rw [Pose.mk2, h]
  rw [e, ← h1, ← h2]
  ext
  · simp [Pose.inverse, Pose.apply, Quat.conjugate, Quat.rotate, Quat.vec, V3.cross, V3.smul]
    linear_combination (-(x.x - p.x)) * h3
  · simp [Pose.inverse, Pose.apply, Quat.conjugate, Quat.rotate, Quat.vec, V3.cross, V3.smul]
    linear_combination (-(x.y - p.y)) * h3
  · simp [Pose.inverse, Pose.apply, Quat.conjugate, Quat.rotate, Quat.vec, V3.cross, V3.smul]
    ring

theorem turned_normal (n : String) (t : ℝ) :
    (turned n ⟨2, 1, 0⟩ t).normalToAgent ⟨1, 0, 0⟩ 0 =
      ⟨-((Real.cos t + Real.sin t) * (√2 / 2)), (Real.sin t - Real.cos t) * (√2 / 2), 0⟩ := by
  have h2 := root
  have h0 : 0 < √2 := by positivity
  have hsc := Real.sin_sq_add_cos_sq t
  have hn : (turned n ⟨2, 1, 0⟩ t).normalToAgent ⟨1, 0, 0⟩ 0 =
      (⟨-2 * (Real.cos t + Real.sin t), 2 * (Real.sin t - Real.cos t), 0⟩ : V3 ℝ).normalized := by
    have e1 : (turned n (⟨2, 1, 0⟩ : V3 ℝ) t).axis = ⟨1, 1, 1⟩ := rfl
    have e2 : (turned n (⟨2, 1, 0⟩ : V3 ℝ) t).curv = ⟨1, 1, 1⟩ := rfl
    have e3 : (turned n (⟨2, 1, 0⟩ : V3 ℝ) t).base.margin = ⟨0, 0, 0⟩ := rfl
    simp only [Ellipsoid.normalToAgent, turned_apply, e1, e2, e3, scaledSq, epsilon, V3.const]
    norm_num
    congr 1
    ext <;> simp <;> ring
  rw [hn, normalized_of (r := 2 * √2) (by positivity) (by
    simp only
    nlinarith)]
  have : (1 : ℝ) / √2 = √2 / 2 := by field_simp; linarith
  ext
  · simp only; field_simp; linear_combination (Real.cos t + Real.sin t) * h2
  · simp only; field_simp; linear_combination (Real.cos t - Real.sin t) * h2
  · simp

/-- Sine and cosine of 0.3 π. -/
theorem angle_bounds : 0.80901 < Real.sin (3 / 10 * Real.pi) ∧ Real.sin (3 / 10 * Real.pi) < 0.80902 ∧
    0.58777 < Real.cos (3 / 10 * Real.pi) ∧ Real.cos (3 / 10 * Real.pi) < 0.5878 := by
  have hs : Real.sin (3 / 10 * Real.pi) = (1 + √5) / 4 := by
    rw [← Real.cos_pi_div_five, ← Real.cos_pi_div_two_sub]
    congr 1; ring
  have h1 : 2.23606 < √5 := by rw [Real.lt_sqrt (by norm_num)]; norm_num
  have h2 : √5 < 2.23607 := by rw [Real.sqrt_lt' (by norm_num)]; norm_num
  have hc : 0 < Real.cos (3 / 10 * Real.pi) :=
    Real.cos_pos_of_mem_Ioo ⟨by linarith [Real.pi_pos], by linarith [Real.pi_pos]⟩
  have hsc := Real.sin_sq_add_cos_sq (3 / 10 * Real.pi)
  have b1 : 0.80901 < Real.sin (3 / 10 * Real.pi) := by rw [hs]; linarith
  have b2 : Real.sin (3 / 10 * Real.pi) < 0.80902 := by rw [hs]; linarith
  exact ⟨b1, b2, by nlinarith, by nlinarith⟩

end DOA.UnitTests
