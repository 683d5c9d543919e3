import Verif.Lemmas.Oblique
import Verif.Props.Combine

/-!
# C75: the modulation neither accelerates nor turns the agent back without bound
-/

set_option linter.unusedSectionVars false
set_option linter.unusedSimpArgs false

namespace DOA.Props
open DOA DOA.Spec DOA.Modulation DOA.Ellipsoid

theorem gdist_centre {e : Ellipsoid ℝ} {m : ℝ} {k : ℕ} (sm : Smooth e m k) : gdist e m e.base.position = 0 := by
  have h := dist_apply sm V3.zero
  have h1 : e.base.pose.apply V3.zero = e.base.position := by
    show e.base.pose.orientation.rotate V3.zero + e.base.pose.position = e.base.pose.position
    ext <;> simp [Quat.rotate, V3.zero, V3.cross, V3.smul, Quat.vec]
  rw [h1] at h
  have hk := sm.curv.2.1
  rw [h]
  simp [level, V3.zero, zero_pow (show 2 * k ≠ 0 by omega)]

/-- The matrix of an ellipsoid whose reference point is its centre, in its plane. -/
theorem planar_form (h : Heap ℝ) (a : Agent ℝ) (e : Ellipsoid ℝ) (k : ℕ) (l L κ : ℝ) (sm : Smooth e a.margin k)
    (hb : Between e a.margin l L) (hκ : Aspect l L κ k) (href : e.base.refPos = some e.base.position)
    (hpl : InPlane e a.state.position e.base.position) (hd : 0 < gdist e a.margin a.state.position) :
    ∃ M B n c, modulationMatrix h a (.ellipsoid e) = .ok (M, B, gdist e a.margin a.state.position) ∧
      V3.norm n = 1 ∧ 0 < c ∧ (∀ u, Slope e a.margin a.state.position u (c * V3.dot n u)) ∧
      Slanted n (a.state.position - e.base.position) κ ∧
      ∀ v, M.mulVec v = V3.smul (1 + min 1 (1 / gdist e a.margin a.state.position)) v -
        V3.smul ((1 + min 1 (1 / gdist e a.margin a.state.position) -
          max 0 (1 - 1 / gdist e a.margin a.state.position)) *
            (V3.dot n v / V3.dot n (a.state.position - e.base.position))) (a.state.position - e.base.position) := by
  obtain ⟨M, B, n, c, h1, h2, h3, h4, -, h6⟩ := matrix_form h a e k sm e.base.position href
    (by rw [gdist_centre sm]; exact hd) (Or.inl hpl)
  refine ⟨M, B, n, c, h1, h2, h3, h4, ?_, h6⟩
  refine slanted sm hb hκ ?_ h2 h3 h4 hd
  obtain ⟨p, q, hpq⟩ := hpl.1
  rw [hpq, Pose.apply_inverse_apply (unit' sm)]

/-- C75: the modulated velocity is at most `2κ` times as long as the desired one, where `κ` depends on the shape of the
obstacle only (`κ = (l² + L²)/(2lL)` for an ellipse with half lengths `l`, `L`; 1 for a circle). -/
theorem C75_speed_partial (h : Heap ℝ) (a : Agent ℝ) (e : Ellipsoid ℝ) (k : ℕ) (l L κ : ℝ) (sm : Smooth e a.margin k)
    (hb : Between e a.margin l L) (hκ : Aspect l L κ k) (href : e.base.refPos = some e.base.position)
    (hpl : InPlane e a.state.position e.base.position) (hd : 0 < gdist e a.margin a.state.position) :
    ∃ M B, modulationMatrix h a (.ellipsoid e) = .ok (M, B, gdist e a.margin a.state.position) ∧
      ∀ v, V3.norm (M.mulVec v) ≤ 2 * κ * V3.norm v := by
  obtain ⟨M, B, n, c, h1, h2, h3, h4, h5, h6⟩ := planar_form h a e k l L κ sm hb hκ href hpl hd
  refine ⟨M, B, h1, fun v => ?_⟩
  rw [h6 v]
  have h7 := form_norm (v := v) h2 h5 (p := 1 + min 1 (1 / gdist e a.margin a.state.position))
    (q := max 0 (1 - 1 / gdist e a.margin a.state.position))
    (by have : 0 ≤ min 1 (1 / gdist e a.margin a.state.position) := le_min zero_le_one (by positivity)
        linarith) (le_max_left _ _)
  refine le_trans h7 (le_of_eq ?_)
  have : 1 + min 1 (1 / gdist e a.margin a.state.position) + max 0 (1 - 1 / gdist e a.margin a.state.position) = 2 := by
    rcases le_total (1 / gdist e a.margin a.state.position) 1 with h | h
    · rw [min_eq_right h, max_eq_right (by linarith)]; ring
    · rw [min_eq_left h, max_eq_left (by linarith)]; ring
  rw [this]

/-- C75: outside the obstacle the component of the modulated velocity along the desired one is at least `1 - κ/d` of
it; from `d = κ` on the agent is never turned back. -/
theorem C75_forward_partial (h : Heap ℝ) (a : Agent ℝ) (e : Ellipsoid ℝ) (k : ℕ) (l L κ : ℝ) (sm : Smooth e a.margin k)
    (hb : Between e a.margin l L) (hκ : Aspect l L κ k) (href : e.base.refPos = some e.base.position)
    (hpl : InPlane e a.state.position e.base.position) (hd : 1 ≤ gdist e a.margin a.state.position) :
    ∃ M B, modulationMatrix h a (.ellipsoid e) = .ok (M, B, gdist e a.margin a.state.position) ∧
      ∀ v, (1 - κ / gdist e a.margin a.state.position) * V3.sqNorm v ≤ V3.dot v (M.mulVec v) := by
  obtain ⟨M, B, n, c, h1, h2, h3, h4, h5, h6⟩ := planar_form h a e k l L κ sm hb hκ href hpl (by linarith)
  refine ⟨M, B, h1, fun v => ?_⟩
  rw [h6 v]
  have h0 : 0 < gdist e a.margin a.state.position := by linarith
  have h7 : 1 / gdist e a.margin a.state.position ≤ 1 := by rw [div_le_one h0]; exact hd
  rw [min_eq_right h7, max_eq_right (by linarith)]
  have h8 := form_quad (v := v) h2 h5 (p := 1 + 1 / gdist e a.margin a.state.position)
    (q := 1 - 1 / gdist e a.margin a.state.position) (by have : 0 < 1 / gdist e a.margin a.state.position := by positivity
                                                         linarith)
  refine le_trans (le_of_eq ?_) h8
  ring

/-- C75: the final velocity of an agent near one obstacle at rest. -/
theorem C75_output_partial (h : Heap ℝ) (a : Agent ℝ) (E : Env) (p : Ptr) (e : Ellipsoid ℝ) (k : ℕ) (l L κ critical power : ℝ)
    (hl : E.list = [p]) (hp : h[p]? = some (.ellipsoid e)) (hst : Static (.ellipsoid e)) (sm : Smooth e a.margin k)
    (hb : Between e a.margin l L) (hκ : Aspect l L κ k) (href : e.base.refPos = some e.base.position)
    (hpl : InPlane e a.state.position e.base.position) (hd : 0 < gdist e a.margin a.state.position)
    (hv : a.state.linearVelocity.z = 0) :
    ∃ out, modulateVelocity h a E false false false critical power = .ok (h, out) ∧
      V3.norm out ≤ 2 * κ * (1 + 1 / 10 ^ 8) * V3.norm a.state.linearVelocity := by
  obtain ⟨M, B, h1, h2⟩ := C75_speed_partial h a e k l L κ sm hb hκ href hpl hd
  obtain ⟨out, h3, -, h4⟩ := C39_single h a E false critical power p _ M B _ hl hp hst sm.unit h1 hv (by intro h; cases h)
  refine ⟨out, h3, ?_⟩
  have h5 : out = M.mulVec a.state.linearVelocity + (out - M.mulVec a.state.linearVelocity) := by v3_ring
  have h6 := norm_add_le' (M.mulVec a.state.linearVelocity) (out - M.mulVec a.state.linearVelocity)
  rw [← h5] at h6
  have h7 := h2 a.state.linearVelocity
  nlinarith

/-! ### Non-vacuity: the unit ball, where the bound is attained -/

theorem ball_between : Between (ball V3.zero) 0 1 1 := by
  constructor <;> norm_num [halfLengths, ball, Ellipsoid.ofBase, V3.const, V3.zero, Base.mkRef]

theorem ball_aspect : Aspect 1 1 1 1 := ⟨by norm_num, Or.inl ⟨rfl, by norm_num⟩⟩

example : ∃ M B, modulationMatrix [] (agentAt ⟨1, 0, 0⟩ V3.zero) (.ellipsoid (ball V3.zero)) = .ok (M, B, 1) ∧
    (∀ v, V3.norm (M.mulVec v) ≤ 2 * 1 * V3.norm v) ∧ M.mulVec ⟨0, 1, 0⟩ = ⟨0, 2, 0⟩ := by
  have hd : gdist (ball V3.zero) 0 ⟨1, 0, 0⟩ = 1 := by rw [ball_dist]; norm_num
  have hd0 : gdist (ball V3.zero) 0 V3.zero = 0 := by rw [ball_dist]; simp [V3.zero]
  have hpl : InPlane (ball V3.zero) ⟨1, 0, 0⟩ V3.zero := ⟨⟨1, 0, (ball_apply _ _).symm⟩, ⟨0, 0, (ball_apply _ _).symm⟩⟩
  obtain ⟨M, B, h1, h2⟩ := C75_speed_partial [] (agentAt ⟨1, 0, 0⟩ V3.zero) (ball V3.zero) 1 1 1 1 (ball_smooth _) ball_between
    ball_aspect rfl hpl (by show 0 < gdist (ball V3.zero) 0 ⟨1, 0, 0⟩; rw [hd]; norm_num)
  have hd' : gdist (ball V3.zero) (agentAt ⟨1, 0, 0⟩ V3.zero).margin (agentAt ⟨1, 0, 0⟩ V3.zero).state.position = 1 := hd
  obtain ⟨M', B', h3, h4⟩ := C36_tangent_partial [] (agentAt ⟨1, 0, 0⟩ V3.zero) (ball V3.zero) 1 (ball_smooth _) V3.zero rfl
    (by rw [hd']; show gdist (ball V3.zero) 0 V3.zero < 1; rw [hd0]; norm_num) (Or.inl hpl)
  rw [h1] at h3
  simp only [Res.ok.injEq, Prod.mk.injEq] at h3
  obtain ⟨rfl, -, -⟩ := h3
  rw [hd'] at h1 h4
  refine ⟨M, B, h1, h2, ?_⟩
  have hs : Slope (ball V3.zero) 0 ⟨1, 0, 0⟩ ⟨0, 1, 0⟩ 0 := by
    have h5 := slope_level (ball_smooth V3.zero) ⟨1, 0, 0⟩ ⟨0, 1, 0⟩
    convert h5 using 1
    rw [Quat.toM3_mulVec, ball_inv]
    norm_num [dlevel, ball, Ellipsoid.ofBase, Base.mkRef, State.ofPosition, Pose.ofPosition, Base.pose, Quat.one, Quat.rotate,
      Quat.conjugate, Quat.vec, V3.cross, V3.smul]
  rw [h4 _ hs]
  ext <;> norm_num [V3.smul]

/-- C75 is false when the reference point is not the centre: for every bound there is a reference point inside the
unit ball for which a desired velocity of length 1 is stretched beyond it. -/
theorem C75_negation_reference (N : ℝ) : ∃ (ref : V3 ℝ) (M B : M3 ℝ), gdist (ball ref) 0 ref < 1 ∧
    modulationMatrix [] (agentAt ⟨1, 0, 0⟩ V3.zero) (.ellipsoid (ball ref)) = .ok (M, B, 1) ∧
    N < V3.norm (M.mulVec ⟨1, 0, 0⟩) := by
  obtain ⟨δ, hδ0, hδ1, hδ⟩ : ∃ δ : ℝ, 0 < δ ∧ δ < 1 ∧ N < 2 / δ := by
    refine ⟨1 / (|N| + 2), by positivity, ?_, ?_⟩
    · rw [div_lt_one (by positivity)]; linarith [abs_nonneg N]
    · rw [div_div_eq_mul_div, div_one]
      linarith [le_abs_self N, abs_nonneg N]
  set ref : V3 ℝ := ⟨1 - δ ^ 2, -δ, 0⟩ with href
  have hd : gdist (ball ref) 0 ⟨1, 0, 0⟩ = 1 := by rw [ball_dist]; norm_num
  have hdr : gdist (ball ref) 0 ref < 1 := by 
    rw [ball_dist, href]; simp only []
    have h1 : 0 < δ ^ 2 := by positivity
    have h2 : δ ^ 2 < 1 := by nlinarith
    nlinarith [mul_pos h1 (sub_pos.mpr h2)]
  have hd' : gdist (ball ref) (agentAt ⟨1, 0, 0⟩ V3.zero).margin (agentAt ⟨1, 0, 0⟩ V3.zero).state.position = 1 := hd
  have hpl : InPlane (ball ref) ⟨1, 0, 0⟩ ref := ⟨⟨1, 0, (ball_apply _ _).symm⟩, ⟨_, _, (ball_apply _ _).symm⟩⟩
  obtain ⟨M, B, n, c, h1, h2, h3, h4, h5, h6⟩ := matrix_form [] (agentAt ⟨1, 0, 0⟩ V3.zero) (ball ref) 1 (ball_smooth _) ref rfl
    (by rw [hd']; exact hdr) (Or.inl hpl)
  rw [hd'] at h1 h6
  refine ⟨ref, M, B, hdr, h1, ?_⟩
  have hx : (agentAt ⟨1, 0, 0⟩ V3.zero).state.position = (⟨1, 0, 0⟩ : V3 ℝ) := rfl
  rw [hx] at h4 h5 h6
  have hm : (agentAt ⟨1, 0, 0⟩ V3.zero).margin = 0 := rfl
  rw [hm] at h4
  have hsl : ∀ u : V3 ℝ, c * V3.dot n u = 2 * u.x := by
    intro u
    rw [slope_eq (ball_smooth _) (h4 u), ball_inv]
    norm_num [dlevel, ball, Ellipsoid.ofBase, Base.mkRef, State.ofPosition, Pose.ofPosition, Base.pose, Quat.one, Quat.rotate,
      Quat.conjugate, Quat.vec, V3.cross, V3.smul, halfLengths, V3.const, V3.zero]
  have hratio : V3.dot n ⟨1, 0, 0⟩ / V3.dot n (⟨1, 0, 0⟩ - ref) = 1 / δ ^ 2 := by
    have e1 := hsl ⟨1, 0, 0⟩
    have e2 := hsl (⟨1, 0, 0⟩ - ref)
    simp only [V3.sub_x, href] at e2
    rw [div_eq_div_iff h5.ne' (by positivity)]
    have : c * (V3.dot n ⟨1, 0, 0⟩ * δ ^ 2) = c * (1 * V3.dot n (⟨1, 0, 0⟩ - ref)) := by
      have e3 : c * V3.dot n (⟨1, 0, 0⟩ - ref) = 2 * (1 - (1 - δ ^ 2)) := e2
      linear_combination δ ^ 2 * e1 - e3
    exact mul_left_cancel₀ h3.ne' this
  have hM : M.mulVec ⟨1, 0, 0⟩ = ⟨0, -(2 / δ), 0⟩ := by
    rw [h6, hratio, href]
    ext <;> norm_num [V3.smul] <;> field_simp; norm_num
  have hn : V3.norm (M.mulVec ⟨1, 0, 0⟩) = 2 / δ := by
    rw [hM]
    have : V3.sqNorm (⟨0, -(2 / δ), 0⟩ : V3 ℝ) = (2 / δ) ^ 2 := by simp only [V3.sqNorm, V3.dot]; ring
    rw [V3.norm, this, sqrt_real, Real.sqrt_sq (by positivity)]
  rw [hn]
  exact hδ

end DOA.Props
