import Verif.Props.Ellipsoid
import Mathlib.Analysis.SpecialFunctions.Trigonometric.Bounds

/-!
# Property C29: intersection of ellipsoids
-/

namespace DOA.Props
open DOA DOA.Spec DOA.Ellipsoid

/-- The two inflated ellipses have a common point (x-y plane). -/
def EllipsesMeet (e o : Ellipsoid ℝ) : Prop :=
  ∃ x y, InEllipse e (halfLengths e V3.zero) x y ∧ InEllipse o (halfLengths o V3.zero) x y

/-- C29: the test always returns (never throws, no undefined behaviour). -/
theorem C29_total {α : Type} [Add α] [Sub α] [Mul α] [Div α] [Neg α] [Zero α] [One α]
    [LE α] [LT α] [DecidableLE α] [DecidableLT α] [CMath α] (e o : Ellipsoid α) :
    ∃ b, e.isIntersectingEllipsoid o = .ok b := by
  unfold isIntersectingEllipsoid
  split
  · exact ⟨_, rfl⟩
  · split
    · exact ⟨_, rfl⟩
    · obtain ⟨l, hl, -⟩ := MathTools.linspace_ok (0 : α) (lit 2 1 * CMath.pi) 100 (by omega)
      simp only [samples]
      have : ((100 : Nat) : Int) = 100 := rfl
      rw [this, hl]
      exact ⟨_, rfl⟩

/-- C29, the part that holds: a positive answer is always right (for obstacles rotated about z, with
non-zero lengths).
Full statement (false, see `C29_negation`): positive exactly when the ellipses meet, hence symmetric. -/
theorem C29_sound_partial (e o : Ellipsoid ℝ) (he : ZRotated e) (ho : ZRotated o)
    (hox : (halfLengths o V3.zero).x ≠ 0) (hoy : (halfLengths o V3.zero).y ≠ 0)
    (h : e.isIntersectingEllipsoid o = .ok true) : EllipsesMeet e o := by
  have centre : ∀ a : Ellipsoid ℝ, ZRotated a →
      InEllipse a (halfLengths a V3.zero) a.base.position.x a.base.position.y := by
    intro a ha
    refine ⟨0, 0, by simp, ?_, ?_⟩ <;> simp [zrot_apply ha]
  unfold isIntersectingEllipsoid at h
  split at h
  · rename_i h1
    exact ⟨_, _, (inside_iff_inEllipse he _).mp h1, centre o ho⟩
  · split at h
    · rename_i h2
      exact ⟨_, _, centre e he, (inside_iff_inEllipse ho _).mp h2⟩
    · obtain ⟨s, hs, -, -, hb⟩ := C28_samples_on_boundary o ho 100 (by norm_num) true
        (by simpa using hox) (by simpa using hoy)
      rw [hs] at h
      simp only [Res.ok_bind, Res.ok.injEq, List.any_eq_true] at h
      obtain ⟨p, hp, hin⟩ := h
      obtain ⟨-, u, v, huv, hx, hy⟩ := hb p hp
      refine ⟨p.x, p.y, (inside_iff_inEllipse he _).mp hin, u, v, ?_, hx, hy⟩
      simp only [if_true] at huv
      exact huv.le

/-- C29: a positive answer is given whenever a centre lies in the other ellipse. -/
theorem C29_detects_centres (e o : Ellipsoid ℝ) (he : ZRotated e) (ho : ZRotated o)
    (h : InEllipse e (halfLengths e V3.zero) o.base.position.x o.base.position.y ∨
      InEllipse o (halfLengths o V3.zero) e.base.position.x e.base.position.y) :
    e.isIntersectingEllipsoid o = .ok true := by
  unfold isIntersectingEllipsoid
  rcases h with h | h
  · rw [if_pos ((inside_iff_inEllipse he _).mpr h)]
  · rw [if_pos ((inside_iff_inEllipse ho _).mpr h)]
    split <;> rfl

/-! ### the counterexample -/

/-- In a circular obstacle the inside test is the circle test. -/
theorem circle_inside {e : Ellipsoid ℝ} (h : ZRotated e) (rho : ℝ) (hrho : 0 < rho)
    (hx : (halfLengths e V3.zero).x = rho) (hy : (halfLengths e V3.zero).y = rho) (p : V3 ℝ) :
    e.pointIsInside p = true ↔
      (p.x - e.base.position.x) ^ 2 + (p.y - e.base.position.y) ^ 2 ≤ rho ^ 2 := by
  have hq := zrot_isUnit h
  have hsq := zrot_sq h
  obtain ⟨y, rfl⟩ : ∃ y, e.base.pose.apply y = p := ⟨_, Pose.apply_apply_inverse hq p⟩
  rw [inside_eq e hq, hx, hy, zrot_apply h]
  simp only [add_sub_cancel_right]
  have hA : (e.base.orientation.w ^ 2 - e.base.orientation.z ^ 2) ^ 2
      + (2 * e.base.orientation.w * e.base.orientation.z) ^ 2 = 1 := by
    have : (e.base.orientation.w ^ 2 - e.base.orientation.z ^ 2) ^ 2
      + (2 * e.base.orientation.w * e.base.orientation.z) ^ 2
      = (e.base.orientation.z ^ 2 + e.base.orientation.w ^ 2) ^ 2 := by ring
    rw [this, hsq]; norm_num
  generalize e.base.orientation.w ^ 2 - e.base.orientation.z ^ 2 = A at *
  generalize 2 * e.base.orientation.w * e.base.orientation.z = B at *
  have e1 : (A * y.x - B * y.y) ^ 2 + (B * y.x + A * y.y) ^ 2 = y.x ^ 2 + y.y ^ 2 := by
    have : (A * y.x - B * y.y) ^ 2 + (B * y.x + A * y.y) ^ 2
      = (A ^ 2 + B ^ 2) * (y.x ^ 2 + y.y ^ 2) := by ring
    rw [this, hA, one_mul]
  rw [e1, div_pow, div_pow, ← add_div, div_le_one (by positivity)]

/-- The angle half way between two samples. -/
noncomputable def phi : ℝ := Real.pi / 99

theorem phi_pos : 0 < phi := by unfold phi; have := Real.pi_pos; positivity
theorem phi_lt : phi < Real.pi / 2 := by
  unfold phi; have := Real.pi_pos
  apply div_lt_div_of_pos_left this (by norm_num) (by norm_num)

theorem cos_phi_pos : 0 < Real.cos phi :=
  Real.cos_pos_of_mem_Ioo ⟨by have := phi_pos; have := Real.pi_pos; linarith, phi_lt⟩

theorem cos_phi_lt_one : Real.cos phi < 1 := by
  have h : Real.cos phi < Real.cos 0 :=
    Real.cos_lt_cos_of_nonneg_of_le_pi_div_two (le_refl 0) phi_lt.le phi_pos
  rwa [Real.cos_zero] at h

/-- radius of the second circle: slightly more than 1 -/
noncomputable def rho : ℝ := Real.sqrt (3 - 2 * Real.cos phi)

theorem rho_sq : rho ^ 2 = 3 - 2 * Real.cos phi :=
  Real.sq_sqrt (by have := cos_phi_lt_one; linarith)

theorem rho_gt : 1 < rho := by
  have h1 := rho_sq
  have h2 := cos_phi_lt_one
  have h3 : 0 ≤ rho := Real.sqrt_nonneg _
  nlinarith

theorem rho_lt : rho < 2 := by
  have h1 := rho_sq
  have h2 := cos_phi_pos
  have h3 : 0 ≤ rho := Real.sqrt_nonneg _
  nlinarith

/-- unit circle at the origin -/
noncomputable def wO : Ellipsoid ℝ := Ellipsoid.ofBase (Base.mkPos "o" V3.zero V3.zero)

/-- circle of radius `rho` at distance 2, in direction `phi`, turned so that its own first sample
points towards the origin -/
noncomputable def wE : Ellipsoid ℝ :=
  ⟨Base.mkState "e" (State.ofPose ⟨⟨2 * Real.cos phi, 2 * Real.sin phi, 0⟩,
    ⟨Real.cos ((phi + Real.pi) / 2), 0, 0, Real.sin ((phi + Real.pi) / 2)⟩⟩) V3.zero,
    ⟨rho, rho, 1⟩, V3.const 1⟩

theorem wO_rot : ZRotated wO := by
  refine ⟨?_, rfl, rfl⟩
  rw [← Quat.isUnit_iff_norm]
  simp [Quat.IsUnit, Quat.sqNorm, wO, Ellipsoid.ofBase, Base.mkPos, Base.orientation,
    State.orientation, State.ofPosition, Pose.ofPosition, Quat.one]

theorem wE_rot : ZRotated wE := by
  refine ⟨?_, rfl, rfl⟩
  rw [← Quat.isUnit_iff_norm]
  simp only [Quat.IsUnit, Quat.sqNorm, wE, Base.mkState, Base.orientation,
    State.orientation, State.ofPose]
  have := Real.sin_sq_add_cos_sq ((phi + Real.pi) / 2)
  linarith

theorem wO_len : halfLengths wO V3.zero = ⟨1, 1, 1⟩ := by
  ext <;> simp [halfLengths, wO, Ellipsoid.ofBase, Base.mkPos, V3.zero, V3.const]

theorem wE_len : halfLengths wE V3.zero = ⟨rho, rho, 1⟩ := by
  ext <;> simp [halfLengths, wE, Base.mkState, V3.zero]

theorem wO_pos : wO.base.position = ⟨0, 0, 0⟩ := rfl
theorem wE_pos : wE.base.position = ⟨2 * Real.cos phi, 2 * Real.sin phi, 0⟩ := rfl

theorem wO_inside (p : V3 ℝ) : wO.pointIsInside p = true ↔ p.x ^ 2 + p.y ^ 2 ≤ 1 := by
  rw [circle_inside wO_rot 1 one_pos (by rw [wO_len]) (by rw [wO_len]), wO_pos]
  simp

theorem wE_inside (p : V3 ℝ) : wE.pointIsInside p = true ↔
    (p.x - 2 * Real.cos phi) ^ 2 + (p.y - 2 * Real.sin phi) ^ 2 ≤ rho ^ 2 := by
  rw [circle_inside wE_rot rho (by have := rho_gt; linarith) (by rw [wE_len]) (by rw [wE_len]), wE_pos]

theorem cos_odd_le (i : ℕ) (hi : i < 100) :
    Real.cos (2 * Real.pi * i / 99 - phi) ≤ Real.cos phi := by
  have hp := Real.pi_pos
  have e : 2 * Real.pi * i / 99 - phi = (2 * i - 1) * phi := by unfold phi; ring
  have h99 : 99 * phi = Real.pi := by unfold phi; ring
  have hphi := phi_pos
  rw [e]
  rcases Nat.eq_zero_or_pos i with rfl | h0
  · have : (2 * ((0 : ℕ) : ℝ) - 1) * phi = -phi := by push_cast; ring
    rw [this, Real.cos_neg]
  · have hi1 : (1 : ℝ) ≤ i := by exact_mod_cast h0
    rcases Nat.lt_or_ge i 51 with h | h
    · have hi2 : (i : ℝ) ≤ 50 := by exact_mod_cast (by omega : i ≤ 50)
      apply Real.cos_le_cos_of_nonneg_of_le_pi hphi.le
      · rw [← h99]; nlinarith
      · nlinarith
    · have hi3 : (51 : ℝ) ≤ i := by exact_mod_cast h
      have hi2 : (i : ℝ) ≤ 99 := by exact_mod_cast (by omega : i ≤ 99)
      have : Real.cos ((2 * (i : ℝ) - 1) * phi) = Real.cos ((199 - 2 * i) * phi) := by
        rw [← Real.cos_two_pi_sub, ← h99]; congr 1; ring
      rw [this]
      apply Real.cos_le_cos_of_nonneg_of_le_pi hphi.le
      · rw [← h99]; nlinarith
      · nlinarith

/-- C29 is false: two overlapping circles of radius 1 and slightly more than 1 where
`e.is_intersecting(o)` is false (no sample of `o` falls into the overlap) and `o.is_intersecting(e)` is
true. The overlap has interior points: `(2-rho)(cos phi, sin phi)` is strictly inside `o`. -/
theorem C29_negation : ∃ e o : Ellipsoid ℝ, ZRotated e ∧ ZRotated o ∧ EllipsesMeet e o ∧
    e.isIntersectingEllipsoid o = .ok false ∧ o.isIntersectingEllipsoid e = .ok true := by
  have hr1 := rho_gt
  have hr2 := rho_lt
  have hrs := rho_sq
  have hc := cos_phi_pos
  have hsc := Real.sin_sq_add_cos_sq phi
  have c1 : wE.pointIsInside wO.base.position = false := by
    rw [← Bool.not_eq_true, wE_inside, wO_pos]
    simp only; nlinarith
  have c2 : wO.pointIsInside wE.base.position = false := by
    rw [← Bool.not_eq_true, wO_inside, wE_pos]
    simp only; nlinarith
  have second : wO.isIntersectingEllipsoid wE = .ok true := by
    unfold isIntersectingEllipsoid
    simp only [c1, c2, Bool.false_eq_true, if_false]
    obtain ⟨s, hs, hl, hi⟩ := C28_samples wE wE_rot 100 (by norm_num) true
    obtain ⟨p, hp, -, hx, hy⟩ := hi 0 (by norm_num)
    rw [hs]
    simp only [Res.ok_bind, Res.ok.injEq, List.any_eq_true]
    refine ⟨p, List.mem_of_getElem? hp, ?_⟩
    rw [wO_inside]
    simp only [if_true, wE_len, Nat.cast_zero, mul_zero, zero_div, Real.cos_zero, Real.sin_zero,
      mul_one, zrot_apply wE_rot, add_zero, sub_zero, wE_pos] at hx hy
    have hw : wE.base.orientation.w = Real.cos ((phi + Real.pi) / 2) := rfl
    have hz : wE.base.orientation.z = Real.sin ((phi + Real.pi) / 2) := rfl
    have hA : wE.base.orientation.w ^ 2 - wE.base.orientation.z ^ 2 = -Real.cos phi := by
      rw [hw, hz, ← Real.cos_add_pi]
      have : phi + Real.pi = 2 * ((phi + Real.pi) / 2) := by ring
      conv_rhs => rw [this, Real.cos_two_mul]
      have := Real.sin_sq_add_cos_sq ((phi + Real.pi) / 2)
      linarith
    have hB : 2 * wE.base.orientation.w * wE.base.orientation.z = -Real.sin phi := by
      rw [hw, hz, ← Real.sin_add_pi]
      have : phi + Real.pi = 2 * ((phi + Real.pi) / 2) := by ring
      conv_rhs => rw [this, Real.sin_two_mul]
      ring
    rw [hA] at hx
    rw [hB] at hy
    have : p.x ^ 2 + p.y ^ 2 = (2 - rho) ^ 2 * (Real.sin phi ^ 2 + Real.cos phi ^ 2) := by
      rw [hx, hy]; ring
    rw [this, hsc]; nlinarith
  refine ⟨wE, wO, wE_rot, wO_rot, ?_, ?_, second⟩
  · obtain ⟨x, y, h1, h2⟩ := C29_sound_partial wO wE wO_rot wE_rot
      (by rw [wE_len]; simp only; linarith) (by rw [wE_len]; simp only; linarith) second
    exact ⟨x, y, h2, h1⟩
  · unfold isIntersectingEllipsoid
    simp only [c1, c2, Bool.false_eq_true, if_false]
    obtain ⟨s, hs, hl, hi⟩ := C28_samples wO wO_rot 100 (by norm_num) true
    rw [hs]
    simp only [Res.ok_bind, Res.ok.injEq]
    rw [← Bool.not_eq_true, List.any_eq_true]
    rintro ⟨q, hq, hin⟩
    obtain ⟨i, hlt, rfl⟩ := List.getElem_of_mem hq
    obtain ⟨p, hp, -, hx, hy⟩ := hi i (by omega)
    rw [List.getElem?_eq_getElem hlt] at hp
    injection hp with hp
    rw [hp, wE_inside] at hin
    have hw : wO.base.orientation.w = 1 := rfl
    have hz : wO.base.orientation.z = 0 := rfl
    simp only [if_true, wO_len, zrot_apply wO_rot, wO_pos, hw, hz] at hx hy
    have hi100 := cos_odd_le i (by omega)
    rw [Real.cos_sub] at hi100
    have e99 : 2 * Real.pi * (i : ℝ) / (((100 : ℕ) : ℝ) - 1) = 2 * Real.pi * i / 99 := by norm_num
    rw [e99] at hx hy
    have hsa := Real.sin_sq_add_cos_sq (2 * Real.pi * i / 99)
    generalize Real.cos (2 * Real.pi * i / 99) = a at *
    generalize Real.sin (2 * Real.pi * i / 99) = b at *
    have hxx : p.x = a := by rw [hx]; ring
    have hyy : p.y = b := by rw [hy]; ring
    rw [hxx, hyy] at hin
    have hlt1 := cos_phi_lt_one
    nlinarith

example : exZ.isIntersectingEllipsoid exZ = .ok true :=
  C29_detects_centres exZ exZ exZ_rotated exZ_rotated
    (Or.inl ⟨0, 0, by simp, by simp [zrot_apply exZ_rotated], by simp [zrot_apply exZ_rotated]⟩)

example : EllipsesMeet exZ exZ :=
  C29_sound_partial exZ exZ exZ_rotated exZ_rotated (by norm_num [halfLengths, exZ, V3.zero])
    (by norm_num [halfLengths, exZ, V3.zero])
    (C29_detects_centres exZ exZ exZ_rotated exZ_rotated
      (Or.inl ⟨0, 0, by simp, by simp [zrot_apply exZ_rotated], by simp [zrot_apply exZ_rotated]⟩))

end DOA.Props
