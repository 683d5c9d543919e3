import Verif.Props.Modulation
import Verif.Lemmas.Barrier

/-!
# C38: trajectories in continuous time
-/

set_option linter.unusedSectionVars false
set_option linter.unusedSimpArgs false

namespace DOA.Props
open DOA DOA.Spec DOA.Modulation DOA.Ellipsoid

/-- The curve `x` has velocity `u` at time `t`. -/
def HasVelocity (x : ℝ → V3 ℝ) (u : V3 ℝ) (t : ℝ) : Prop :=
  HasDerivAt (fun s => (x s).x) u.x t ∧ HasDerivAt (fun s => (x s).y) u.y t ∧
    HasDerivAt (fun s => (x s).z) u.z t

/-- The curve is continuous from time 0 on. -/
def ContinuousCurve (x : ℝ → V3 ℝ) : Prop :=
  ContinuousOn (fun s => (x s).x) (Set.Ici 0) ∧ ContinuousOn (fun s => (x s).y) (Set.Ici 0) ∧
    ContinuousOn (fun s => (x s).z) (Set.Ici 0)

theorem HasVelocity.linear {x : ℝ → V3 ℝ} {u : V3 ℝ} {t : ℝ} (h : HasVelocity x u t) (m : M3 ℝ) (c : V3 ℝ) :
    HasVelocity (fun s => m.mulVec (x s) + c) (m.mulVec u) t := by
  obtain ⟨h1, h2, h3⟩ := h
  have key : ∀ p q r k : ℝ, HasDerivAt (fun s => p * (x s).x + q * (x s).y + r * (x s).z + k)
      (p * u.x + q * u.y + r * u.z) t := fun p q r k =>
    (((h1.const_mul p).add (h2.const_mul q)).add (h3.const_mul r)).add_const k
  exact ⟨key _ _ _ _, key _ _ _ _, key _ _ _ _⟩

theorem ContinuousCurve.linear {x : ℝ → V3 ℝ} (h : ContinuousCurve x) (m : M3 ℝ) (c : V3 ℝ) :
    ContinuousCurve (fun s => m.mulVec (x s) + c) := by
  obtain ⟨h1, h2, h3⟩ := h
  have key : ∀ p q r k : ℝ, ContinuousOn (fun s => p * (x s).x + q * (x s).y + r * (x s).z + k) (Set.Ici 0) :=
    fun p q r k => (((h1.const_mul p).add (h2.const_mul q)).add (h3.const_mul r)).add_const k
  exact ⟨key _ _ _ _, key _ _ _ _, key _ _ _ _⟩

/-- the derivative of the level function at `y` along `u` -/
noncomputable def dlevel (l : V3 ℝ) (k : ℕ) (y u : V3 ℝ) : ℝ :=
  ((2 * k : ℕ) * (y.x / l.x) ^ (2 * k - 1) * (u.x / l.x)) +
    ((2 * k : ℕ) * (y.y / l.y) ^ (2 * k - 1) * (u.y / l.y)) +
    ((2 * k : ℕ) * (y.z / l.z) ^ (2 * k - 1) * (u.z / l.z))

theorem HasVelocity.level {y : ℝ → V3 ℝ} {u : V3 ℝ} {t : ℝ} (h : HasVelocity y u t) (l : V3 ℝ) (k : ℕ) :
    HasDerivAt (fun s => level l k k k (y s)) (dlevel l k (y t) u) t := by
  obtain ⟨h1, h2, h3⟩ := h
  exact (((h1.div_const l.x).fun_pow (2 * k)).add ((h2.div_const l.y).fun_pow (2 * k))).add
    ((h3.div_const l.z).fun_pow (2 * k))

theorem inverse_apply_eq (p : Pose ℝ) (x : V3 ℝ) :
    p.inverse.apply x = p.orientation.conjugate.toM3.mulVec x + p.inverse.position := by
  rw [Quat.toM3_mulVec]; rfl

/-- the slope in terms of the level function -/
theorem slope_level {e : Ellipsoid ℝ} {m : ℝ} {k : ℕ} (sm : Smooth e m k) (x v : V3 ℝ) :
    Slope e m x v (dlevel (halfLengths e (V3.const m)) k (e.base.pose.inverse.apply x)
      (e.base.pose.orientation.conjugate.toM3.mulVec v)) := by
  have hq := unit' sm
  have h1 := hasDerivAt_level (halfLengths e (V3.const m)) k k k (e.base.pose.inverse.apply x)
    (e.base.pose.orientation.conjugate.toM3.mulVec v)
  unfold Slope dlevel
  convert h1 using 3 with t
  rw [gdist, distance_frame e _ _ k k k sm.curv sm.long]
  congr 1
  rw [inverse_apply_eq, inverse_apply_eq, M3.mulVec_add, M3.mulVec_smul]
  v3_ring

/-- C38: an agent that starts outside and follows the modulated velocity `M(x(t)) v(t)` of an arbitrary
continuous desired velocity `v` never reaches the surface of the obstacle: planar motion around any
obstacle, or motion in space around a ball with centred reference point; reference point inside.
Missing for the full statement: curvatures above 1 with different lengths, where it fails because the
normal is wrong (`C37_negation_curvature`, `C38_negation`), and the small-angle branch of `modulate_velocity`,
which lets the final velocity differ from `M v`: `C38_output_partial` is the statement outside of that branch,
`C38_negation_output` shows an agent that enters a ball inside it. -/
theorem C38_never_enters_partial (h : Heap ℝ) (e : Ellipsoid ℝ) (m : ℝ) (k : ℕ) (sm : Smooth e m k) (ref : V3 ℝ)
    (href : e.base.refPos = some ref) (hin : gdist e m ref < 1) (x v u : ℝ → V3 ℝ) (a : ℝ → Agent ℝ)
    (ha : ∀ t, (a t).state.position = x t ∧ (a t).margin = m)
    (hplane : ∀ t, 0 ≤ t → InPlane e (x t) ref ∨ CentredBall e m ref)
    (hv : ContinuousCurve v) (hx : ContinuousCurve x) (hode : ∀ t, 0 < t → HasVelocity x (u t) t)
    (hu : ∀ t, 0 < t → ∃ M B d, modulationMatrix h (a t) (.ellipsoid e) = .ok (M, B, d) ∧
      u t = M.mulVec (v t))
    (h0 : 1 < gdist e m (x 0)) : ∀ t, 0 ≤ t → 1 < gdist e m (x t) := by
  have hq := unit' sm
  set l := halfLengths e (V3.const m) with hl
  set C := e.base.pose.orientation.conjugate.toM3 with hC
  have hy : ∀ t, e.base.pose.inverse.apply (x t) = C.mulVec (x t) + e.base.pose.inverse.position :=
    fun t => inverse_apply_eq _ _
  have hG : ∀ t, gdist e m (x t) = level l k k k (C.mulVec (x t) + e.base.pose.inverse.position) := by
    intro t; rw [← hy, gdist, distance_frame e _ _ k k k sm.curv sm.long]
  have hyc := hx.linear C e.base.pose.inverse.position
  have hvc := hv.linear C V3.zero
  apply barrier (Γ := fun t => gdist e m (x t))
    (g := fun t => dlevel l k (C.mulVec (x t) + e.base.pose.inverse.position) (C.mulVec (v t)))
  · have : (fun t => gdist e m (x t)) = fun t => level l k k k (C.mulVec (x t) + e.base.pose.inverse.position) :=
      funext hG
    rw [this]
    obtain ⟨h1, h2, h3⟩ := hyc
    exact (((h1.div_const l.x).pow (2 * k)).add ((h2.div_const l.y).pow (2 * k))).add
      ((h3.div_const l.z).pow (2 * k))
  · obtain ⟨h1, h2, h3⟩ := hyc
    obtain ⟨g1, g2, g3⟩ := hvc
    simp only [V3.add_zero'] at g1 g2 g3
    have key : ∀ {p q : ℝ → ℝ} (c : ℝ), ContinuousOn p (Set.Ici 0) → ContinuousOn q (Set.Ici 0) →
        ContinuousOn (fun t => (2 * k : ℕ) * (p t / c) ^ (2 * k - 1) * (q t / c)) (Set.Ici 0) :=
      fun c hp hq => (((hp.div_const c).pow (2 * k - 1)).const_mul _).mul (hq.div_const c)
    exact ((key l.x h1 g1).add (key l.y h2 g2)).add (key l.z h3 g3)
  · intro t ht hgt
    obtain ⟨M, B, d, hm, hut⟩ := hu t ht
    have hgt' : gdist e (a t).margin ref < gdist e (a t).margin (a t).state.position := by
      rw [(ha t).1, (ha t).2]; linarith
    have hpl : InPlane e (a t).state.position ref ∨ CentredBall e (a t).margin ref := by
      rw [(ha t).1, (ha t).2]; exact hplane t ht.le
    have sm' : Smooth e (a t).margin k := by rw [(ha t).2]; exact sm
    obtain ⟨M', B', hm', hs⟩ := C37_impenetrable_partial h (a t) e k sm' ref href hgt' hpl
    rw [hm] at hm'
    cases hm'
    rw [(ha t).1, (ha t).2] at hs
    have h1 := hs (v t) _ (slope_level sm (x t) (v t))
    rw [← hut] at h1
    have h2 := slope_level sm (x t) (u t)
    have h3 := ((hode t ht).linear C e.base.pose.inverse.position).level l k
    rw [← hy] at h3
    have h4 : dlevel l k (e.base.pose.inverse.apply (x t)) (C.mulVec (u t)) =
        (1 - 1 / gdist e m (x t)) * dlevel l k (e.base.pose.inverse.apply (x t)) (C.mulVec (v t)) := by
      rw [h2.unique h1, max_eq_right]
      have : 1 / gdist e m (x t) ≤ 1 := by rw [div_le_one (by linarith)]; exact hgt.le
      linarith
    rw [h4] at h3
    have hfun : (fun t => gdist e m (x t)) = fun s => level l k k k (C.mulVec (x s) + e.base.pose.inverse.position) :=
      funext hG
    show HasDerivAt (fun t => gdist e m (x t)) _ t
    rw [hfun]
    rw [← hy t]
    exact h3
  · exact h0

/-- Non-vacuity of C38: around the unit ball, the desired velocity `-(r²/(r+1))` (with `r = 1 + e^{-t}`)
straight at the centre gives the trajectory `r(t) = 1 + e^{-t}`, which approaches the ball but never
reaches it. -/
example : ∃ (x v u : ℝ → V3 ℝ), gdist (ball V3.zero) 0 (x 0) = 4 ∧
    (∀ t, InPlane (ball V3.zero) (x t) V3.zero) ∧ ContinuousCurve v ∧ ContinuousCurve x ∧
    (∀ t, 0 < t → HasVelocity x (u t) t) ∧
    (∀ t, 0 < t → ∃ M B d, modulationMatrix [] (agentAt (x t) V3.zero) (.ellipsoid (ball V3.zero)) = .ok (M, B, d) ∧
      u t = M.mulVec (v t)) ∧ (∀ t, (u t).x < 0) := by
  let r : ℝ → ℝ := fun t => 1 + Real.exp (-t)
  have hr : ∀ t, 1 < r t := fun t => by have := Real.exp_pos (-t); show 1 < 1 + _; linarith
  have hrd : ∀ t, HasDerivAt r (-Real.exp (-t)) t := by
    intro t
    have h1 : HasDerivAt (fun s : ℝ => Real.exp (-s)) (-Real.exp (-t)) t := by
      simpa using (hasDerivAt_id t).neg.exp
    exact h1.const_add 1
  have hrc : Continuous r := continuous_iff_continuousAt.mpr fun t => (hrd t).continuousAt
  refine ⟨fun t => ⟨r t, 0, 0⟩, fun t => ⟨-((r t) ^ 2 / (r t + 1)), 0, 0⟩, fun t => ⟨-Real.exp (-t), 0, 0⟩,
    ?_, ?_, ?_, ?_, ?_, ?_, ?_⟩
  · rw [ball_dist]; simp [r]; norm_num
  · intro t
    exact ⟨⟨r t, 0, (ball_apply _ _).symm⟩, ⟨0, 0, (ball_apply _ _).symm⟩⟩
  · refine ⟨?_, continuousOn_const, continuousOn_const⟩
    apply Continuous.continuousOn
    refine Continuous.neg (Continuous.div (hrc.pow 2) (hrc.add continuous_const) fun t => ?_)
    have := hr t; positivity
  · exact ⟨hrc.continuousOn, continuousOn_const, continuousOn_const⟩
  · intro t _
    exact ⟨hrd t, hasDerivAt_const _ _, hasDerivAt_const _ _⟩
  · intro t _
    have hd : gdist (ball V3.zero) 0 ⟨r t, 0, 0⟩ = (r t) ^ 2 := by rw [ball_dist]; simp
    have hd0 : gdist (ball V3.zero) 0 V3.zero = 0 := by rw [ball_dist]; simp [V3.zero]
    obtain ⟨M, B, hm, hM⟩ := C36_reference [] (agentAt ⟨r t, 0, 0⟩ V3.zero) (ball V3.zero) 1 (ball_smooth _)
      V3.zero rfl (by
        show gdist (ball V3.zero) 0 V3.zero < gdist (ball V3.zero) 0 ⟨r t, 0, 0⟩
        rw [hd, hd0]; have := hr t; positivity)
    refine ⟨M, B, _, hm, ?_⟩
    have hM' : M.mulVec (⟨r t, 0, 0⟩ - V3.zero) = V3.smul (max 0 (1 - 1 / gdist (ball V3.zero) 0 ⟨r t, 0, 0⟩))
      (⟨r t, 0, 0⟩ - V3.zero) := hM
    rw [hd, V3.sub_zero'] at hM'
    have h1 := hr t
    have e1 : (⟨-((r t) ^ 2 / (r t + 1)), 0, 0⟩ : V3 ℝ) = V3.smul (-(r t / (r t + 1))) ⟨r t, 0, 0⟩ := by
      ext <;> simp [V3.smul]; ring
    have hle : 1 / (r t) ^ 2 ≤ 1 := by rw [div_le_one (by positivity)]; nlinarith
    show (⟨-Real.exp (-t), 0, 0⟩ : V3 ℝ) = M.mulVec ⟨-((r t) ^ 2 / (r t + 1)), 0, 0⟩
    rw [e1, M3.mulVec_smul, hM', max_eq_right (by linarith)]
    have e2 : Real.exp (-t) = r t - 1 := by simp [r]
    ext <;> simp only [V3.smul, mul_zero]
    rw [e2]
    field_simp
    ring
  · intro t
    have := Real.exp_pos (-t)
    show -Real.exp (-t) < 0
    linarith

end DOA.Props
