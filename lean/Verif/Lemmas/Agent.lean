import Verif.Spec.Agent
import Verif.Lemmas.Ellipsoid

/-!
Histories of calls on an agent; the parameters of the envelope.
-/

set_option linter.unusedSectionVars false
set_option linter.unusedSimpArgs false

namespace DOA
open DOA.Spec

section
variable {α : Type} [Add α] [Sub α] [Mul α] [Div α] [Neg α] [Zero α] [One α]
  [LE α] [LT α] [DecidableLE α] [DecidableLT α] [CMath α]

/-- what is true of an agent after any calls -/
structure AgentInv (h0 : Heap α) (s : Heap α × Agent α) : Prop where
  len : s.1.length = h0.length + 1
  env : s.2.envelope = some h0.length
  dt : s.2.deltaT = lit 1 2
  others : ∀ q < h0.length, s.1[q]? = h0[q]?
  ell : ∃ e, s.1[h0.length]? = some (.ellipsoid e) ∧ e.base.margin = V3.const 0 ∧ e.curv = V3.const 1

theorem inv_mk2 (h0 : Heap α) (st : State α) (m : α) : AgentInv h0 (Agent.mk2 h0 st m) := by
  refine ⟨by simp [Agent.mk2], rfl, rfl, ?_, ?_⟩
  · intro q hq
    simp only [Agent.mk2]
    rw [List.getElem?_append_left hq]
  · refine ⟨_, by simp only [Agent.mk2, List.getElem?_concat_length, Agent.newEnvelope]; rfl, rfl, rfl⟩

theorem inv_withState {h0 : Heap α} {s : Heap α × Agent α} (hi : AgentInv h0 s) (st : State α) :
    ∃ e s', Agent.withState s.1 s.2 st = .ok s' ∧ AgentInv h0 s' ∧ s'.2.state = st ∧ s'.2.margin = s.2.margin ∧
      e.base.margin = V3.const 0 ∧ e.curv = V3.const 1 ∧
      s'.1[h0.length]? = some (.ellipsoid (s'.2.envelopeFor e)) := by
  obtain ⟨e, he, hm, hc⟩ := hi.ell
  have hlt : h0.length < s.1.length := by rw [hi.len]; omega
  refine ⟨e, (s.1.set h0.length (.ellipsoid (Agent.envelopeFor { s.2 with state := st } e)), { s.2 with state := st }),
    ?_, ⟨?_, hi.env, hi.dt, ?_, ?_⟩, rfl, rfl, hm, hc, ?_⟩
  · simp only [Agent.withState, Agent.updateEnvelope, hi.env, Heap.deref, he, Res.ok_bind]
  · simp [hi.len]
  · intro q hq
    simp only []
    rw [List.getElem?_set_ne (by omega)]
    exact hi.others q hq
  · refine ⟨_, List.getElem?_set_self hlt, ?_, ?_⟩
    · exact hm
    · exact hc
  · exact List.getElem?_set_self hlt

theorem inv_call {h0 : Heap α} {s : Heap α × Agent α} (hi : AgentInv h0 s) (c : AgentCall α) :
    ∃ s', runCall s c = .ok s' ∧ AgentInv h0 s' ∧ (s'.2.state, s'.2.margin) = expected (s.2.state, s.2.margin) c ∧
      (c.isState = true → ∃ e : Ellipsoid α, e.base.margin = V3.const 0 ∧ e.curv = V3.const 1 ∧
        s'.1[h0.length]? = some (.ellipsoid (s'.2.envelopeFor e))) := by
  cases c with
  | setSafetyMargin m =>
    refine ⟨_, rfl, ⟨hi.len, hi.env, hi.dt, hi.others, hi.ell⟩, rfl, ?_⟩
    intro h; cases h
  | setPose p =>
    obtain ⟨e, s', h1, h2, h3, h4, h5, h6, h7⟩ := inv_withState hi (s.2.state.setPose p)
    exact ⟨s', h1, h2, by rw [h3, h4]; rfl, fun _ => ⟨e, h5, h6, h7⟩⟩
  | setPosition p =>
    obtain ⟨e, s', h1, h2, h3, h4, h5, h6, h7⟩ := inv_withState hi (s.2.state.setPosition p)
    exact ⟨s', h1, h2, by rw [h3, h4]; rfl, fun _ => ⟨e, h5, h6, h7⟩⟩
  | setOrientation p =>
    obtain ⟨e, s', h1, h2, h3, h4, h5, h6, h7⟩ := inv_withState hi (s.2.state.setOrientation p)
    exact ⟨s', h1, h2, by rw [h3, h4]; rfl, fun _ => ⟨e, h5, h6, h7⟩⟩
  | setLinearVelocity p =>
    obtain ⟨e, s', h1, h2, h3, h4, h5, h6, h7⟩ := inv_withState hi (s.2.state.setLinearVelocity p)
    exact ⟨s', h1, h2, by rw [h3, h4]; rfl, fun _ => ⟨e, h5, h6, h7⟩⟩
  | setAngularVelocity p =>
    obtain ⟨e, s', h1, h2, h3, h4, h5, h6, h7⟩ := inv_withState hi (s.2.state.setAngularVelocity p)
    exact ⟨s', h1, h2, by rw [h3, h4]; rfl, fun _ => ⟨e, h5, h6, h7⟩⟩
  | transform p =>
    obtain ⟨e, s', h1, h2, h3, h4, h5, h6, h7⟩ := inv_withState hi (s.2.state.setPose (p.mul s.2.state.pose))
    exact ⟨s', h1, h2, by rw [h3, h4]; rfl, fun _ => ⟨e, h5, h6, h7⟩⟩

theorem inv_calls {h0 : Heap α} (cs : List (AgentCall α)) : ∀ {s : Heap α × Agent α}, AgentInv h0 s →
    ∃ s', runCalls s cs = .ok s' ∧ AgentInv h0 s' ∧
      (s'.2.state, s'.2.margin) = cs.foldl expected (s.2.state, s.2.margin) := by
  induction cs with
  | nil => intro s hi; exact ⟨s, rfl, hi, rfl⟩
  | cons c cs ih =>
    intro s hi
    obtain ⟨s1, h1, h2, h3, -⟩ := inv_call hi c
    obtain ⟨s2, h4, h5, h6⟩ := ih h2
    exact ⟨s2, by simp only [runCalls, h1, Res.ok_bind, h4], h5, by rw [h6, h3]; rfl⟩

theorem runCalls_append (s : Heap α × Agent α) (cs : List (AgentCall α)) (c : AgentCall α) :
    runCalls s (cs ++ [c]) = runCalls s cs >>= fun s' => runCall s' c := by
  induction cs generalizing s with
  | nil =>
    simp only [List.nil_append, runCalls, Res.ok_bind]
    cases runCall s c <;> rfl
  | cons d cs ih => simp only [List.cons_append, runCalls, bind_assoc, ih]

end

theorem ofAngleZ_unit (t : ℝ) : (Quat.ofAngleZ t).IsUnit := by
  simp only [Quat.IsUnit, Quat.ofAngleZ, Quat.sqNorm, sin_real, cos_real]
  have := Real.sin_sq_add_cos_sq (lit 1 2 * t)
  nlinarith

theorem double_angle (t : ℝ) : Real.cos t = Real.cos (t / 2) ^ 2 - Real.sin (t / 2) ^ 2 ∧
    Real.sin t = 2 * Real.sin (t / 2) * Real.cos (t / 2) := by
  have h : t = 2 * (t / 2) := by ring
  constructor
  · conv_lhs => rw [h, Real.cos_two_mul]
    have := Real.sin_sq_add_cos_sq (t / 2)
    linarith
  · conv_lhs => rw [h, Real.sin_two_mul]

theorem envelopeFor_spec {a : Agent ℝ} {e : Ellipsoid ℝ} (hdt : a.deltaT = lit 1 2)
    (hm : e.base.margin = V3.const 0) (hc : e.curv = V3.const 1) :
    EnvelopeOf a.state.position a.state.linearVelocity a.margin (a.envelopeFor e) := by
  set v := a.state.linearVelocity with hv
  set pos := a.state.position with hpos
  set t : ℝ := Complex.arg ⟨v.normalized.x, v.normalized.y⟩ with ht
  have hd : a.deltaT = 1 / 2 := by rw [hdt]; simp
  have hmar : a.effMargin = max (1 / 10) a.margin := by simp [Agent.effMargin]
  have hcentre : (a.envelopeFor e).base.position = pos + V3.smul (1 / 2) v.normalized := by
    rw [← hd]; rfl
  have hax : (a.envelopeFor e).axis =
      ⟨V3.norm (V3.smul (1 / 2) v.normalized) + max (1 / 10) a.margin, max (1 / 10) a.margin, max (1 / 10) a.margin⟩ := by
    have h1 : pos + V3.smul (1 / 2) v.normalized - pos = V3.smul (1 / 2) v.normalized := by v3_ring
    rw [← hmar, ← h1, ← hd]; rfl
  have hor : (a.envelopeFor e).base.pose.orientation = Quat.ofAngleZ t := by
    have h1 : (a.envelopeFor e).base.pose.orientation = (Quat.ofAngleZ
        (CMath.atan2 (V3.dot v.normalized V3.unitY) (V3.dot v.normalized V3.unitX))).normalized := rfl
    have h2 : V3.dot v.normalized V3.unitY = v.normalized.y := by simp [V3.dot, V3.unitY]
    have h3 : V3.dot v.normalized V3.unitX = v.normalized.x := by simp [V3.dot, V3.unitX]
    rw [h1, h2, h3, atan2_real]
    have hu := ofAngleZ_unit t
    have hu' : (Quat.ofAngleZ t).sqNorm = 1 := hu
    rw [← ht]
    unfold Quat.normalized
    rw [hu', if_pos one_pos]
    simp
  have hzrot : ZRotated (a.envelopeFor e) := by
    refine ⟨?_, ?_, ?_⟩
    · show (a.envelopeFor e).base.pose.orientation.norm = 1
      rw [hor]; exact (Quat.isUnit_iff_norm _).mp (ofAngleZ_unit t)
    · show (a.envelopeFor e).base.pose.orientation.x = 0
      rw [hor]; simp [Quat.ofAngleZ]
    · show (a.envelopeFor e).base.pose.orientation.y = 0
      rw [hor]; simp [Quat.ofAngleZ]
  have hrest : v = V3.zero → v.normalized = V3.zero := by
    intro h0
    rw [h0]
    simp [V3.normalized, V3.sqNorm, V3.dot, V3.zero]
  obtain ⟨hcd, hsd⟩ := double_angle t
  have hdouble : ∀ u : V3 ℝ, (Quat.ofAngleZ t).rotate u =
      ⟨Real.cos t * u.x - Real.sin t * u.y, Real.sin t * u.x + Real.cos t * u.y, u.z⟩ := by
    intro u
    rw [hcd, hsd]
    have h1 := Real.sin_sq_add_cos_sq (t / 2)
    have h2 : (lit 1 2 : ℝ) * t = t / 2 := by simp; ring
    ext <;> simp only [Quat.rotate, Quat.ofAngleZ, Quat.vec, V3.cross, V3.smul, V3.add_x, V3.add_y, V3.add_z,
      sin_real, cos_real, h2]
    · linear_combination (-u.x) * h1
    · linear_combination (-u.y) * h1
    · ring
  have hconj : ∀ u : V3 ℝ, (Quat.ofAngleZ t).conjugate.rotate u =
      ⟨Real.cos t * u.x + Real.sin t * u.y, -Real.sin t * u.x + Real.cos t * u.y, u.z⟩ := by
    intro u
    rw [hcd, hsd]
    have h1 := Real.sin_sq_add_cos_sq (t / 2)
    have h2 : (lit 1 2 : ℝ) * t = t / 2 := by simp; ring
    ext <;> simp only [Quat.rotate, Quat.ofAngleZ, Quat.conjugate, Quat.vec, V3.cross, V3.smul, V3.add_x, V3.add_y,
      V3.add_z, sin_real, cos_real, h2]
    · linear_combination (-u.x) * h1
    · linear_combination (-u.y) * h1
    · ring
  have habs : ∀ z : ℂ, ‖z‖ = √(z.re ^ 2 + z.im ^ 2) := by
    intro z; rw [Complex.norm_def, Complex.normSq_apply, sq, sq]
  refine ⟨?_, ?_, hzrot, ?_, ?_, ?_, ?_, ?_⟩
  · intro h0
    rw [hcentre, hax, hrest h0]
    have : V3.smul (1 / 2) (V3.zero : V3 ℝ) = V3.zero := by ext <;> simp [V3.smul, V3.zero]
    rw [this, V3.add_zero', V3.norm_eq_zero.mpr rfl, zero_add]
    exact ⟨rfl, rfl⟩
  · intro h0
    have hn := V3.norm_pos h0
    rw [hcentre, hax, V3.norm_smul, V3.norm_normalized h0, V3.normalized_of_ne h0]
    refine ⟨?_, by norm_num⟩
    congr 1
    ext <;> simp only [V3.smul] <;> field_simp
  · intro h0
    rw [hor, hdouble]
    have hne : v ≠ V3.zero := by
      intro h; apply h0; rw [h]; simp [V3.zero]
    have hn := V3.norm_pos hne
    have hz : (⟨v.normalized.x, v.normalized.y⟩ : ℂ) ≠ 0 := by
      intro h
      have hx := congrArg Complex.re h
      have hy := congrArg Complex.im h
      rw [V3.normalized_of_ne hne] at hx hy
      simp only [V3.smul, Complex.zero_re, Complex.zero_im, mul_eq_zero, one_div, inv_eq_zero, hn.ne', false_or] at hx hy
      apply h0; rw [hx, hy]; ring
    have hs : √(v.normalized.x ^ 2 + v.normalized.y ^ 2) = √(v.x ^ 2 + v.y ^ 2) / V3.norm v := by
      rw [V3.normalized_of_ne hne]
      simp only [V3.smul]
      rw [show (1 / V3.norm v * v.x) ^ 2 + (1 / V3.norm v * v.y) ^ 2 = (v.x ^ 2 + v.y ^ 2) / (V3.norm v) ^ 2 by
        field_simp, Real.sqrt_div (by positivity), Real.sqrt_sq hn.le]
    have hpos : 0 < v.x ^ 2 + v.y ^ 2 := lt_of_le_of_ne (by positivity) (Ne.symm h0)
    have hsp := Real.sqrt_pos.mpr hpos
    have hct : Real.cos t = v.x / √(v.x ^ 2 + v.y ^ 2) := by
      rw [ht, Complex.cos_arg hz, habs]
      simp only []
      rw [hs, V3.normalized_of_ne hne]
      simp only [V3.smul]
      field_simp
    have hst : Real.sin t = v.y / √(v.x ^ 2 + v.y ^ 2) := by
      rw [ht, Complex.sin_arg, habs]
      simp only []
      rw [hs, V3.normalized_of_ne hne]
      simp only [V3.smul]
      field_simp
    rw [hct, hst]
    ext <;> simp
  · rfl
  · exact hm
  · exact hc
  · rw [Ellipsoid.inside_frame]
    have hfr : (a.envelopeFor e).base.pose.inverse.apply pos =
        (Quat.ofAngleZ t).conjugate.rotate (V3.smul (-(1 / 2)) v.normalized) := by
      have h2 : pos - (a.envelopeFor e).base.pose.position = V3.smul (-(1 / 2)) v.normalized := by
        have h3 : (a.envelopeFor e).base.pose.position = pos + V3.smul (1 / 2) v.normalized := hcentre
        rw [h3]; v3_ring
      simp only [Pose.apply, Pose.inverse]
      rw [← Quat.rotate_add, ← h2, hor]
      congr 1

    have hcs : Real.cos t * v.normalized.y = Real.sin t * v.normalized.x := by
      by_cases hz : (⟨v.normalized.x, v.normalized.y⟩ : ℂ) = 0
      · have hx : v.normalized.x = 0 := congrArg Complex.re hz
        have hy : v.normalized.y = 0 := congrArg Complex.im hz
        rw [hx, hy]; ring
      · rw [ht, Complex.cos_arg hz, Complex.sin_arg]; ring
    have hlen : halfLengths (a.envelopeFor e) V3.zero = (a.envelopeFor e).axis := by
      have h1 : (a.envelopeFor e).base.margin = V3.const 0 := hm
      ext <;> simp [halfLengths, h1, V3.zero, V3.const]
    rw [hfr, hconj, hlen, hax]
    have hmp : (0 : ℝ) < max (1 / 10) a.margin := lt_of_lt_of_le (by norm_num) (le_max_left _ _)
    generalize max (1 / 10) a.margin = M at hmp
    simp only [V3.smul]
    have hy0 : -Real.sin t * (-(1 / 2) * v.normalized.x) + Real.cos t * (-(1 / 2) * v.normalized.y) = 0 := by
      linear_combination (-(1 / 2)) * hcs
    rw [hy0]
    have hN : V3.norm (⟨1 / 2 * v.normalized.x, 1 / 2 * v.normalized.y, 1 / 2 * v.normalized.z⟩ : V3 ℝ) =
        1 / 2 * V3.norm v.normalized := by
      have := V3.norm_smul (1 / 2) v.normalized
      rw [abs_of_pos (by norm_num : (0 : ℝ) < 1 / 2)] at this
      exact this
    rw [hN]
    have hn0 := V3.norm_nonneg v.normalized
    have hsq : V3.norm v.normalized ^ 2 = v.normalized.x ^ 2 + v.normalized.y ^ 2 + v.normalized.z ^ 2 := by
      rw [sq, V3.norm_sq]; simp only [V3.sqNorm, V3.dot]; ring
    have h1 := Real.sin_sq_add_cos_sq t
    rw [zero_div, zero_pow two_ne_zero, add_zero, div_pow, div_le_one (by positivity)]
    have hx : (Real.cos t * (-(1 / 2) * v.normalized.x) + Real.sin t * (-(1 / 2) * v.normalized.y)) ^ 2 =
        1 / 4 * (v.normalized.x ^ 2 + v.normalized.y ^ 2) := by
      linear_combination (1 / 4 * (v.normalized.x ^ 2 + v.normalized.y ^ 2)) * h1
        - 1 / 4 * (Real.cos t * v.normalized.y - Real.sin t * v.normalized.x) * hcs
    rw [hx]
    nlinarith [sq_nonneg v.normalized.z, mul_nonneg hn0 hmp.le]

end DOA
