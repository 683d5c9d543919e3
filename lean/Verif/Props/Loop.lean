import Verif.Lemmas.Euler
import Verif.Model.Loop
import Verif.Props.Combine
import Verif.Props.Planar
import Verif.Props.Agent

/-!
# C68, C69: steps of finite length and the control loops
-/

set_option linter.unusedSectionVars false
set_option linter.unusedSimpArgs false

namespace DOA.Props
open DOA DOA.Spec DOA.Modulation DOA.Ellipsoid

/-- `l` is at most every half length of the obstacle, margins included. -/
def Thick (e : Ellipsoid ℝ) (m l : ℝ) : Prop :=
  0 < l ∧ l ≤ (halfLengths e (V3.const m)).x ∧ l ≤ (halfLengths e (V3.const m)).y ∧
    l ≤ (halfLengths e (V3.const m)).z

/-- One step along `M v`, with an error and an additional push `ρ`. -/
theorem step_bound {e : Ellipsoid ℝ} {m l : ℝ} {k : ℕ} (sm : Smooth e m k) (th : Thick e m l)
    {x v u err ρ : V3 ℝ} {s σ t c : ℝ} (ht : 0 ≤ t) (hs : Slope e m x v s) (hu : Slope e m x u (c * s)) (hc : 0 ≤ c)
    (hρ : Slope e m x ρ σ) :
    gdist e m x - t * (c * (2 * k * max 1 (gdist e m x) * (V3.norm v / l))) -
      t * (2 * k * max 1 (gdist e m x) * (V3.norm err / l)) + t * σ ≤
        gdist e m (x + V3.smul t (u + err + ρ)) := by
  obtain ⟨sE, hE⟩ : ∃ sE, Slope e m x err sE := ⟨_, slope_level sm x err⟩
  have h1 := slope_smul sm t (slope_add sm (slope_add sm hu hE) hρ)
  have h2 := gdist_tangent sm h1
  have h3 := slope_bound sm hE th.1 th.2.1 th.2.2.1 th.2.2.2
  have h4 := slope_bound sm hs th.1 th.2.1 th.2.2.1 th.2.2.2
  have h5 := (abs_le.mp h3).1
  have h6 := (abs_le.mp h4).1
  have h7 : -(c * (2 * k * max 1 (gdist e m x) * (V3.norm v / l))) ≤ c * s := by
    have := mul_le_mul_of_nonneg_left h6 hc
    linarith
  have h8 := mul_le_mul_of_nonneg_left (add_le_add (add_le_add h7 h5) (le_refl σ)) ht
  nlinarith

/-- C68: an agent that starts outside and is moved in steps `x' = x + t M(x) v`, with arbitrary velocities
`v`, never enters the obstacle as long as every step satisfies `2k·t·|v| < l` (`l` the smallest half length
of the obstacle, `k` its curvature). Every step keeps at least the fraction `1 - 2k·t·|v|/l` of the
excess of the distance over 1. Scope as for C38. -/
theorem C68_euler_partial (h : ℕ → Heap ℝ) (e : Ellipsoid ℝ) (m l : ℝ) (k : ℕ) (sm : Smooth e m k)
    (th : Thick e m l) (ref : V3 ℝ) (href : e.base.refPos = some ref) (hin : gdist e m ref < 1)
    (x v : ℕ → V3 ℝ) (t : ℕ → ℝ) (a : ℕ → Agent ℝ)
    (ha : ∀ n, (a n).state.position = x n ∧ (a n).margin = m)
    (hplane : ∀ n, InPlane e (x n) ref ∨ CentredBall e m ref)
    (ht : ∀ n, 0 ≤ t n) (hshort : ∀ n, 2 * k * (t n * V3.norm (v n)) < l)
    (hx : ∀ n, ∃ M B d, modulationMatrix (h n) (a n) (.ellipsoid e) = .ok (M, B, d) ∧
      x (n + 1) = x n + V3.smul (t n) (M.mulVec (v n)))
    (h0 : 1 < gdist e m (x 0)) :
    ∀ n, 1 < gdist e m (x n) ∧
      (1 - 2 * k * (t n * V3.norm (v n)) / l) * (gdist e m (x n) - 1) ≤ gdist e m (x (n + 1)) - 1 := by
  have step : ∀ n, 1 < gdist e m (x n) →
      (1 - 2 * k * (t n * V3.norm (v n)) / l) * (gdist e m (x n) - 1) ≤ gdist e m (x (n + 1)) - 1 := by
    intro n hn
    obtain ⟨M, B, d, hm, hx'⟩ := hx n
    have hgt : gdist e (a n).margin ref < gdist e (a n).margin (a n).state.position := by
      rw [(ha n).1, (ha n).2]; linarith
    have hpl : InPlane e (a n).state.position ref ∨ CentredBall e (a n).margin ref := by
      rw [(ha n).1, (ha n).2]; exact hplane n
    have sm' : Smooth e (a n).margin k := by rw [(ha n).2]; exact sm
    obtain ⟨M', B', hm', hs⟩ := C37_impenetrable_partial (h n) (a n) e k sm' ref href hgt hpl
    rw [hm] at hm'
    cases hm'
    rw [(ha n).1, (ha n).2] at hs
    have hsv := slope_level sm (x n) (v n)
    have hle : 1 / gdist e m (x n) ≤ 1 := by rw [div_le_one (by linarith)]; exact hn.le
    have hz : Slope e m (x n) V3.zero 0 := by
      have := slope_smul sm 0 hsv
      rw [zero_mul] at this
      convert this using 1
      ext <;> simp [V3.smul, V3.zero]
    have h1 := step_bound sm th (ht n) hsv (hs _ _ hsv) (le_max_left _ _) hz (err := V3.zero)
    rw [V3.add_zero', V3.add_zero', ← hx', max_eq_right (by linarith), max_eq_right hn.le] at h1
    have hz0 : V3.norm (V3.zero : V3 ℝ) = 0 := by simp [V3.norm, V3.sqNorm, V3.dot, V3.zero, CMath.sqrt]
    rw [hz0] at h1
    have hl := th.1
    have hf : 0 < gdist e m (x n) := by linarith
    have e1 : t n * ((1 - 1 / gdist e m (x n)) * (2 * k * gdist e m (x n) * (V3.norm (v n) / l))) =
        2 * k * (t n * V3.norm (v n)) / l * (gdist e m (x n) - 1) := by
      field_simp
    rw [e1] at h1
    simp only [zero_div, mul_zero, sub_zero, add_zero] at h1
    nlinarith
  intro n
  have hout : ∀ n, 1 < gdist e m (x n) := by
    intro n
    induction n with
    | zero => exact h0
    | succ n ih =>
      have h1 := step n ih
      have h2 : 0 < 1 - 2 * k * (t n * V3.norm (v n)) / l := by
        have := (div_lt_one th.1).mpr (hshort n)
        linarith
      have h3 := mul_pos h2 (sub_pos.mpr ih)
      linarith
  exact ⟨hout n, step n (hout n)⟩

/-- on the x axis, heading along the axis, with the unit ball -/
theorem ball_axis (h : Heap ℝ) (a : Agent ℝ) (r : ℝ) (hx : a.state.position = ⟨r, 0, 0⟩) (hm : a.margin = 0)
    (hr : 1 < r) : ∃ M B, modulationMatrix h a (.ellipsoid (ball V3.zero)) = .ok (M, B, r ^ 2) ∧
      ∀ c, M.mulVec ⟨c, 0, 0⟩ = ⟨(1 - 1 / r ^ 2) * c, 0, 0⟩ := by
  have hd : gdist (ball V3.zero) 0 ⟨r, 0, 0⟩ = r ^ 2 := by rw [ball_dist]; simp
  have hd0 : gdist (ball V3.zero) 0 V3.zero = 0 := by rw [ball_dist]; simp [V3.zero]
  obtain ⟨M, B, h1, hM⟩ := C36_reference h a (ball V3.zero) 1 (by rw [hm]; exact ball_smooth _)
    V3.zero rfl (by rw [hx, hm, hd, hd0]; positivity)
  rw [hx, hm, hd] at h1 hM
  refine ⟨M, B, h1, fun c => ?_⟩
  rw [V3.sub_zero'] at hM
  have hle : 1 / r ^ 2 ≤ 1 := by rw [div_le_one (by positivity)]; nlinarith
  have e1 : (⟨c, 0, 0⟩ : V3 ℝ) = V3.smul (c / r) ⟨r, 0, 0⟩ := by
    ext <;> simp [V3.smul]; field_simp
  rw [e1, M3.mulVec_smul, hM, max_eq_right (by linarith)]
  ext <;> simp only [V3.smul, mul_zero]
  field_simp

theorem ball_thick (ref : V3 ℝ) : Thick (ball ref) 0 1 := by
  norm_num [Thick, halfLengths, ball, Ellipsoid.ofBase, V3.const, V3.zero, Base.mkRef]

theorem ball_plane (a b : ℝ) : InPlane (ball V3.zero) ⟨a, b, 0⟩ V3.zero :=
  ⟨⟨a, b, (ball_apply _ _).symm⟩, ⟨0, 0, (ball_apply _ _).symm⟩⟩

/-- Non-vacuity of C68: from (2,0,0) straight at the centre of the unit ball in steps of length 1/4. -/
example : ∃ (x : ℕ → V3 ℝ), x 0 = ⟨2, 0, 0⟩ ∧ (∀ n, InPlane (ball V3.zero) (x n) V3.zero) ∧
    (∀ n, ∃ M B d, modulationMatrix [] (agentAt (x n) V3.zero) (.ellipsoid (ball V3.zero)) = .ok (M, B, d) ∧
      x (n + 1) = x n + V3.smul (1 / 4) (M.mulVec ⟨-1, 0, 0⟩)) ∧
    (2 * (1 : ℕ) * ((1 / 4) * V3.norm (⟨-1, 0, 0⟩ : V3 ℝ)) < 1) ∧ ∀ n, (x (n + 1)).x < (x n).x := by
  let r : ℕ → ℝ := fun n => Nat.rec 2 (fun _ y => y - 1 / 4 * (1 - 1 / y ^ 2)) n
  have hs : ∀ n, r (n + 1) = r n - 1 / 4 * (1 - 1 / (r n) ^ 2) := fun n => rfl
  have hr : ∀ n, 1 < r n := by
    intro n
    induction n with
    | zero => show (1 : ℝ) < 2; norm_num
    | succ n ih =>
      rw [hs]
      have e1 : 1 - 1 / (r n) ^ 2 = (r n - 1) * ((r n + 1) / (r n) ^ 2) := by
        have : r n ≠ 0 := by positivity
        field_simp; ring
      have h2 : (r n + 1) / (r n) ^ 2 ≤ 2 := by
        rw [div_le_iff₀ (by positivity)]; nlinarith
      rw [e1]
      nlinarith [mul_le_mul_of_nonneg_left h2 (sub_pos.mpr ih).le]
  refine ⟨fun n => ⟨r n, 0, 0⟩, rfl, fun n => ball_plane _ _, fun n => ?_, ?_, fun n => ?_⟩
  · obtain ⟨M, B, hm, hM⟩ := ball_axis [] (agentAt ⟨r n, 0, 0⟩ V3.zero) (r n) rfl rfl (hr n)
    refine ⟨M, B, _, hm, ?_⟩
    show (⟨r (n + 1), 0, 0⟩ : V3 ℝ) = _
    rw [hM, hs]
    ext <;> simp [V3.smul]; ring
  · norm_num [V3.norm, V3.sqNorm, V3.dot, CMath.sqrt]
  · show r (n + 1) < r n
    rw [hs]
    have h1 := hr n
    have : 1 / (r n) ^ 2 < 1 := by rw [div_lt_one (by positivity)]; nlinarith
    linarith

/-- The step condition of C68 cannot be dropped: one step with `t·|v| = 5` from (11/10,0,0) straight at the
unit ball ends inside it. -/
theorem C68_negation_long_steps : ∃ (x v : V3 ℝ) (M B : M3 ℝ) (d : ℝ),
    modulationMatrix [] (agentAt x v) (.ellipsoid (ball V3.zero)) = .ok (M, B, d) ∧
    InPlane (ball V3.zero) x V3.zero ∧
    1 < gdist (ball V3.zero) 0 x ∧ gdist (ball V3.zero) 0 (x + M.mulVec v) < 1 := by
  obtain ⟨M, B, hm, hM⟩ := ball_axis [] (agentAt ⟨11 / 10, 0, 0⟩ ⟨-5, 0, 0⟩) (11 / 10) rfl rfl (by norm_num)
  refine ⟨_, ⟨-5, 0, 0⟩, M, B, _, hm, ball_plane _ _, ?_, ?_⟩
  · rw [ball_dist]; norm_num
  · rw [hM, ball_dist]; norm_num

/-! ## C42 repulsion in `modulate_velocity` -/

/-- C42: in sight of the obstacles, `add_repulsion` adds the sum of the repulsions of all listed obstacles
(threshold 1.1, seen after the shifts of the reference points) when this sum is longer than 1E-4, and
changes nothing else. -/
theorem C42_added (h h' : Heap ℝ) (a : Agent ℝ) (e : Env) (loc planar : Bool) (critical power : ℝ) (mv : V3 ℝ)
    (rs : List (V3 ℝ)) (hne : e.list ≠ []) (hsight : InSight h a e loc)
    (hm : modulateVelocity h a e loc false planar critical power = .ok (h', mv))
    (hr : List.Forall₂ (fun (p : Ptr) r => ∃ o, h'[p]? = some o ∧
      h'.generateRepulsion o a.state.position a.margin (11 / 10) = .ok r) e.list rs) :
    modulateVelocity h a e loc true planar critical power =
      .ok (h', if 1 / 10000 < V3.norm (V3.lsum rs) then mv + V3.lsum rs else mv) := by
  have hs : sightOf h a loc e.list = .ok true := by
    cases loc with
    | false => rfl
    | true =>
      obtain ⟨env, h1, h2⟩ := hsight rfl
      simp [sightOf, h1, h2]
  have hem : ¬ e.list.isEmpty = true := by simpa using hne
  rw [modulateVelocity_eq, if_neg hem, hs] at hm ⊢
  simp only [Res.ok_bind, if_true] at hm ⊢
  obtain ⟨r, hc, hm⟩ := Res.bind_eq_ok.mp hm
  simp only [repOf, Res.ok_bind, Res.ok.injEq, Prod.mk.injEq, finish_none] at hm
  obtain ⟨rfl, rfl⟩ := hm
  rw [hc]
  have hrs : repulsionSum r.1 a e.list = .ok (V3.lsum rs) := by
    have hmap : e.list.mapM (repulsionOf r.1 a) = .ok rs := by
      refine (mapM_ok _ _ _).mpr (hr.imp fun p w hw => ?_)
      obtain ⟨o, h1, h2⟩ := hw
      have e1 : (lit 11 10 : ℝ) = 11 / 10 := by simp
      simp only [repulsionOf, Heap.deref, h1, Res.ok_bind, e1, h2]
    rw [repulsionSum_eq, hmap]
    rfl
  simp only [Res.ok_bind, repOf, hrs]
  have e2 : (lit 1 10000 : ℝ) = 1 / 10000 := by simp
  simp only [finish, e2, V3.hasNaN]
  simp

/-- Non-vacuity: close to the unit ball the repulsion changes the result. -/
example : ∃ mv r, modulateVelocity [.ellipsoid (ball V3.zero)] (agentAt ⟨102 / 100, 0, 0⟩ ⟨-1, 0, 0⟩) (envOf [0])
      false false false 1 2 = .ok ([.ellipsoid (ball V3.zero)], mv) ∧
    modulateVelocity [.ellipsoid (ball V3.zero)] (agentAt ⟨102 / 100, 0, 0⟩ ⟨-1, 0, 0⟩) (envOf [0])
      false true false 1 2 = .ok ([.ellipsoid (ball V3.zero)], mv + r) ∧ 1 < r.x := by
  have hd : gdist (ball V3.zero) 0 ⟨102 / 100, 0, 0⟩ = 10404 / 10000 := by rw [ball_dist]; norm_num
  have hm := matrix_ellipsoid [.ellipsoid (ball V3.zero)] (agentAt ⟨102 / 100, 0, 0⟩ ⟨-1, 0, 0⟩) (ball V3.zero) rfl
  obtain ⟨mv, h1, -, -⟩ := C39_single [.ellipsoid (ball V3.zero)] (agentAt ⟨102 / 100, 0, 0⟩ ⟨-1, 0, 0⟩) (envOf [0])
    false 1 2 0 (.ellipsoid (ball V3.zero)) _ _ _ rfl rfl ⟨rfl, rfl⟩ (ball_smooth _).unit hm rfl
    (by intro h; cases h)
  have hr := C42_near [.ellipsoid (ball V3.zero)] (ball V3.zero) V3.zero ⟨102 / 100, 0, 0⟩ 0 (11 / 10) rfl
    (by rw [hd]; norm_num)
  rw [hd] at hr
  have e1 : V3.lsum [V3.smul (2 / (10404 / 10000)) ((⟨102 / 100, 0, 0⟩ : V3 ℝ) - V3.zero)] = ⟨100 / 51, 0, 0⟩ := by
    simp only [V3.lsum_cons, V3.lsum_nil]
    ext <;> norm_num [V3.smul, V3.zero]
  have hbig : 1 / 10000 < V3.norm (⟨100 / 51, 0, 0⟩ : V3 ℝ) := by
    simp only [V3.norm, V3.sqNorm, V3.dot, CMath.sqrt]
    rw [Real.lt_sqrt (by norm_num)]
    norm_num
  refine ⟨mv, ⟨100 / 51, 0, 0⟩, h1, ?_, by norm_num⟩
  have h2 := C42_added _ _ (agentAt ⟨102 / 100, 0, 0⟩ ⟨-1, 0, 0⟩) (envOf [0]) false false 1 2 mv _
    (by simp [envOf]) (by intro h; cases h) h1 (.cons ⟨_, rfl, hr⟩ .nil)
  rw [e1, if_pos hbig] at h2
  exact h2

/-! ## one obstacle in `modulate_velocity`, with or without repulsion -/

/-- The result for one static obstacle: `M v`, an error of at most 1E-8 `|M v|`, and with `add_repulsion`
near the obstacle an outward push. -/
theorem single_out (h : Heap ℝ) (a : Agent ℝ) (E : Env) (e : Ellipsoid ℝ) (k : ℕ) (p : Ptr) (ref : V3 ℝ)
    (rep : Bool) (critical power : ℝ) (hl : E.list = [p]) (hp : h[p]? = some (.ellipsoid e))
    (hst : Static (.ellipsoid e)) (sm : Smooth e a.margin k) (href : e.base.refPos = some ref)
    (hgt : gdist e a.margin ref < gdist e a.margin a.state.position)
    (hpl : InPlane e a.state.position ref ∨ CentredBall e a.margin ref) (hv : a.state.linearVelocity.z = 0) :
    ∃ M B err ρ σ, modulationMatrix h a (.ellipsoid e) = .ok (M, B, gdist e a.margin a.state.position) ∧
      modulateVelocity h a E false rep false critical power =
        .ok (h, M.mulVec a.state.linearVelocity + err + ρ) ∧
      (∀ v s, Slope e a.margin a.state.position v s →
        Slope e a.margin a.state.position (M.mulVec v) (max 0 (1 - 1 / gdist e a.margin a.state.position) * s)) ∧
      V3.norm err ≤ 1 / 10 ^ 8 * V3.norm (M.mulVec a.state.linearVelocity) ∧
      (angle (M.mulVec a.state.linearVelocity) a.state.linearVelocity = 0 → err = V3.zero) ∧
      Slope e a.margin a.state.position ρ σ ∧ 0 ≤ σ ∧ (rep = false → ρ = V3.zero) ∧
      (rep = true → gdist e a.margin a.state.position < 11 / 10 →
        1 / 10000 < V3.norm (V3.smul (2 / gdist e a.margin a.state.position) (a.state.position - ref)) →
        ρ = V3.smul (2 / gdist e a.margin a.state.position) (a.state.position - ref)) ∧
      (11 / 10 ≤ gdist e a.margin a.state.position → ρ = V3.zero) := by
  obtain ⟨M, B, hm, hs⟩ := C37_impenetrable_partial h a e k sm ref href hgt hpl
  obtain ⟨mv, h1, hex, h2⟩ := C39_single h a E false critical power p (.ellipsoid e) M B _ hl hp hst sm.unit hm hv
    (by intro h; cases h)
  have hzero : angle (M.mulVec a.state.linearVelocity) a.state.linearVelocity = 0 →
      mv - M.mulVec a.state.linearVelocity = V3.zero := by
    intro h0; rw [hex (Or.inl h0)]; ext <;> simp [V3.zero]
  have hmv : M.mulVec a.state.linearVelocity + (mv - M.mulVec a.state.linearVelocity) = mv := by v3_ring
  have hz : Slope e a.margin a.state.position V3.zero 0 := by
    have := slope_smul sm 0 (slope_level sm a.state.position V3.zero)
    rw [zero_mul] at this
    convert this using 1
    ext <;> simp [V3.smul, V3.zero]
  refine ⟨M, B, mv - M.mulVec a.state.linearVelocity, ?_⟩
  simp only [hmv]
  cases rep with
  | false =>
    exact ⟨V3.zero, 0, hm, by rw [V3.add_zero']; exact h1, hs, h2, hzero, hz, le_refl _, fun _ => rfl,
      (fun h => by cases h), fun _ => rfl⟩
  | true =>
    have hrep : ∃ r, h.generateRepulsion (.ellipsoid e) a.state.position a.margin (11 / 10) = .ok r ∧
        (∃ σ, 0 ≤ σ ∧ Slope e a.margin a.state.position r σ) ∧ (gdist e a.margin a.state.position < 11 / 10 →
          r = V3.smul (2 / gdist e a.margin a.state.position) (a.state.position - ref)) ∧
        (11 / 10 ≤ gdist e a.margin a.state.position → r = V3.zero) := by
      by_cases hnear : gdist e a.margin a.state.position < 11 / 10
      · obtain ⟨r, σ, h3, h4, h5⟩ := C42_outward h e ref a.state.position a.margin (11 / 10) k sm href hnear hgt
        refine ⟨r, h3, ⟨σ, h5.le, h4⟩, fun _ => ?_, fun hf => absurd hnear (not_lt.mpr hf)⟩
        rw [C42_near h e ref a.state.position a.margin (11 / 10) href hnear] at h3
        cases h3
        rfl
      · exact ⟨V3.zero, C42_far h (.ellipsoid e) a.state.position a.margin (11 / 10) _ rfl hnear,
          ⟨0, le_refl _, hz⟩, fun hn => absurd hn hnear, fun _ => rfl⟩
    obtain ⟨r, h3, ⟨σ, h4, h5⟩, h6, hfar⟩ := hrep
    have h7 := C42_added h h a E false false critical power mv [r] (by rw [hl]; simp) (by intro h; cases h) h1
      (by rw [hl]; exact .cons ⟨_, hp, h3⟩ .nil)
    have e1 : V3.lsum [r] = r := by rw [V3.lsum_cons, V3.lsum_nil, V3.add_zero']
    rw [e1] at h7
    by_cases hbig : 1 / 10000 < V3.norm r
    · rw [if_pos hbig] at h7
      exact ⟨r, σ, hm, h7, hs, h2, hzero, h5, h4, (fun h => by cases h), (fun _ hn _ => h6 hn), hfar⟩
    · rw [if_neg hbig] at h7
      refine ⟨V3.zero, 0, hm, by rw [V3.add_zero']; exact h7, hs, h2, hzero, hz, le_refl _, fun _ => rfl,
        fun _ hn hb => ?_, fun _ => rfl⟩
      rw [← h6 hn] at hb
      exact absurd hb hbig

/-! ## C69 the control loop -/

theorem norm_add_le (u v : V3 ℝ) : V3.norm (u + v) ≤ V3.norm u + V3.norm v := by
  have h1 := V3.cauchy_schwarz u v
  rw [← V3.norm_sq, ← V3.norm_sq] at h1
  have hu := V3.norm_nonneg u
  have hv := V3.norm_nonneg v
  have h2 : V3.dot u v ≤ V3.norm u * V3.norm v :=
    le_of_abs_le (abs_le_of_sq_le_sq (by nlinarith) (mul_nonneg hu hv))
  have h3 : V3.norm (u + v) * V3.norm (u + v) ≤ (V3.norm u + V3.norm v) * (V3.norm u + V3.norm v) := by
    have e1 : V3.sqNorm (u + v) = V3.sqNorm u + 2 * V3.dot u v + V3.sqNorm v := by
      simp only [V3.sqNorm, V3.dot, V3.add_x, V3.add_y, V3.add_z]; ring
    rw [V3.norm_sq, e1, ← V3.norm_sq u, ← V3.norm_sq v]
    linarith
  nlinarith [V3.norm_nonneg (u + v)]

/-- The situation at the beginning of an iteration: the obstacle `e` is object `p`, the envelope of the agent
is another object, the agent is in the plane. -/
structure OnLoop (e : Ellipsoid ℝ) (p : Ptr) (m : ℝ) (s : Heap ℝ × Agent ℝ) : Prop where
  obj : s.1[p]? = some (.ellipsoid e)
  envelope : ∃ (q : Ptr) (env : Ellipsoid ℝ), q ≠ p ∧ s.2.envelope = some q ∧ s.1[q]? = some (.ellipsoid env)
  margin : s.2.margin = m
  flat : s.2.state.position.z = 0

theorem withState_onLoop {e : Ellipsoid ℝ} {p : Ptr} {m : ℝ} {s : Heap ℝ × Agent ℝ} (hs : OnLoop e p m s)
    (st : State ℝ) (hz : st.position.z = 0) :
    ∃ h', Agent.withState s.1 s.2 st = .ok (h', { s.2 with state := st }) ∧
      OnLoop e p m (h', { s.2 with state := st }) := by
  obtain ⟨q, env, hqp, hq, henv⟩ := hs.envelope
  have hlt : q < s.1.length := by
    by_contra hn
    rw [List.getElem?_eq_none (Nat.le_of_not_lt hn)] at henv
    cases henv
  refine ⟨_, by simp [Agent.withState, Agent.updateEnvelope, hq, Heap.deref, henv]; rfl, ⟨?_, ?_, hs.margin, hz⟩⟩
  · show (List.set s.1 q _)[p]? = _
    rw [List.getElem?_set_ne hqp]
    exact hs.obj
  · exact ⟨q, _, hqp, hq, by rw [List.getElem?_set_self hlt]⟩

/-- the limit of the speed only shortens the velocity -/
theorem limit_eq (c : Loop ℝ) (hc : ∀ m, c.maxVel = some m → 0 ≤ m) (v : V3 ℝ) :
    ∃ g, 0 ≤ g ∧ g ≤ 1 ∧ c.limit v = V3.smul g v ∧ (c.maxVel = none → g = 1) := by
  have h1 : v = V3.smul 1 v := by ext <;> simp [V3.smul]
  unfold Loop.limit
  cases hm : c.maxVel with
  | none => exact ⟨1, by norm_num, le_refl _, h1, fun _ => rfl⟩
  | some m =>
    simp only []
    have hm0 := hc m hm
    split
    · rename_i hlt
      have hv : v ≠ V3.zero := by
        rintro rfl
        have : V3.norm (V3.zero : V3 ℝ) = 0 := by simp [V3.norm, V3.sqNorm, V3.dot, V3.zero, CMath.sqrt]
        linarith
      have hp := V3.norm_pos hv
      refine ⟨m / V3.norm v, by positivity, by rw [div_le_one hp]; exact hlt.le, ?_, fun h => by cases h⟩
      rw [V3.normalized_of_ne hv]
      ext <;> simp only [V3.smul] <;> ring
    · exact ⟨1, by norm_num, le_refl _, h1, fun _ => rfl⟩

/-- What is fixed during the loop. -/
structure LoopSetup (c : Loop ℝ) (E : Env) (e : Ellipsoid ℝ) (p : Ptr) (m l : ℝ) (k : ℕ) (ref : V3 ℝ) : Prop where
  list : E.list = [p]
  static : Static (.ellipsoid e)
  plane : InPlaneZ e.base
  smooth : Smooth e m k
  thick : Thick e m l
  ref : e.base.refPos = some ref
  notLocal : c.isLocal = false
  notPlanar : c.planar = false
  dt : 0 ≤ c.dt
  maxVel : ∀ v, c.maxVel = some v → 0 ≤ v

theorem LoopSetup.inPlane {c : Loop ℝ} {E : Env} {e : Ellipsoid ℝ} {p : Ptr} {m l : ℝ} {k : ℕ} {ref : V3 ℝ}
    (hc : LoopSetup c E e p m l k ref) {x : V3 ℝ} (hx : x.z = 0) : InPlane e x ref := by
  have key : ∀ y : V3 ℝ, y.z = 0 → ∃ a b, y = e.base.pose.apply ⟨a, b, 0⟩ := by
    intro y hy
    refine ⟨(e.base.pose.inverse.apply y).x, (e.base.pose.inverse.apply y).y, ?_⟩
    have h1 := flat_apply (flat_inversePose hc.plane.pose) hy
    have h2 : (⟨(e.base.pose.inverse.apply y).x, (e.base.pose.inverse.apply y).y, 0⟩ : V3 ℝ) =
        e.base.pose.inverse.apply y := by ext <;> simp [h1]
    rw [h2, Pose.apply_apply_inverse (unit' hc.smooth)]
  exact ⟨key x hx, key ref (hc.plane.ref ref hc.ref)⟩

/-- One iteration. -/
theorem iterate_spec {c : Loop ℝ} {E : Env} {e : Ellipsoid ℝ} {p : Ptr} {m l : ℝ} {k : ℕ} {ref : V3 ℝ}
    (hc : LoopSetup c E e p m l k ref) {s : Heap ℝ × Agent ℝ} (hs : OnLoop e p m s) (v : V3 ℝ) (hv : v.z = 0)
    (hgt : gdist e m ref < gdist e m s.2.state.position) :
    ∃ M B err ρ σ g s', 0 ≤ g ∧ g ≤ 1 ∧
      modulationMatrix s.1 s.2 (.ellipsoid e) = .ok (M, B, gdist e m s.2.state.position) ∧
      c.iterate E v s = .ok s' ∧ OnLoop e p m s' ∧
      s'.2.state.position = s.2.state.position + V3.smul (c.dt * g) (M.mulVec v + err + ρ) ∧
      (∀ v s0, Slope e m s.2.state.position v s0 →
        Slope e m s.2.state.position (M.mulVec v) (max 0 (1 - 1 / gdist e m s.2.state.position) * s0)) ∧
      V3.norm err ≤ 1 / 10 ^ 8 * V3.norm (M.mulVec v) ∧ (angle (M.mulVec v) v = 0 → err = V3.zero) ∧
      Slope e m s.2.state.position ρ σ ∧ 0 ≤ σ ∧ (c.addRepulsion = false → ρ = V3.zero) ∧
      (c.addRepulsion = true → gdist e m s.2.state.position < 11 / 10 →
        1 / 10000 < V3.norm (V3.smul (2 / gdist e m s.2.state.position) (s.2.state.position - ref)) →
        ρ = V3.smul (2 / gdist e m s.2.state.position) (s.2.state.position - ref)) ∧
      (11 / 10 ≤ gdist e m s.2.state.position → ρ = V3.zero) ∧
      (c.maxVel = none → g = 1) := by
  obtain ⟨h1, hset, hon⟩ := withState_onLoop hs (s.2.state.setLinearVelocity v) hs.flat
  set a1 : Agent ℝ := { s.2 with state := s.2.state.setLinearVelocity v } with ha1
  have hpos : a1.state.position = s.2.state.position := rfl
  have hmar : a1.margin = m := hs.margin
  have hvel : a1.state.linearVelocity = v := rfl
  obtain ⟨M, B, err, ρ, σ, hm, hmod, hsl, herr, herr0, hρ, hσ, hno, hyes, hfar⟩ := single_out h1 a1 E e k p ref c.addRepulsion
    c.critical c.power hc.list hon.obj hc.static (by rw [hmar]; exact hc.smooth) hc.ref
    (by rw [hmar, hpos]; exact hgt) (Or.inl (by rw [hpos]; exact hc.inPlane hs.flat)) (by rw [hvel]; exact hv)
  rw [hpos, hmar] at hm hsl hρ hyes hfar
  rw [hvel] at hmod herr herr0
  obtain ⟨g, hg0, hg1, hlim, hg⟩ := limit_eq c hc.maxVel (M.mulVec v + err + ρ)
  have hout : (M.mulVec v + err + ρ).z = 0 := by
    refine C48_planar_partial h1 h1 a1 E false c.addRepulsion false c.critical c.power _ (by rw [hpos]; exact hs.flat)
      (by rw [hvel]; exact hv) ?_ hmod
    intro q hq o ho
    rw [hc.list] at hq
    simp only [List.mem_singleton] at hq
    subst hq
    rw [hon.obj] at ho
    cases ho
    refine ⟨hc.plane, ?_⟩
    show e.curv.z ≠ 1 / 2
    rw [hc.smooth.curv.1]
    have hk := hc.smooth.curv.2.1
    have : (1 : ℝ) ≤ k := by exact_mod_cast hk
    show (k : ℝ) ≠ 1 / 2
    linarith
  obtain ⟨h2, hset2, hon2⟩ := withState_onLoop hon (a1.state.setPosition (s.2.state.position +
    V3.smul c.dt (V3.smul g (M.mulVec v + err + ρ)))) (by
      show (s.2.state.position + _).z = 0
      simp only [V3.add_z, V3.smul, hs.flat, hout, mul_zero, add_zero])
  have hmat : modulationMatrix s.1 s.2 (.ellipsoid e) = .ok (M, B, gdist e m s.2.state.position) := by
    rw [← hm, matrix_ellipsoid s.1 s.2 e hc.ref, matrix_ellipsoid h1 a1 e hc.ref, hpos, hmar]
  refine ⟨M, B, err, ρ, σ, g, _, hg0, hg1, hmat, ?_, hon2, ?_, hsl, herr, herr0, hρ, hσ, hno, hyes, hfar, hg⟩
  · unfold Loop.iterate
    rw [show Agent.setLinearVelocity s.1 s.2 v = .ok (h1, a1) from hset]
    simp only [Res.ok_bind, hc.notLocal, hc.notPlanar, hmod, hlim]
    exact hset2
  · show s.2.state.position + _ = _
    congr 1
    ext <;> simp only [V3.smul] <;> ring

/-- The length of the path of the agent in `n` iterations. -/
noncomputable def travelled (c : Loop ℝ) (E : Env) : ℕ → Heap ℝ × Agent ℝ → ℝ
  | 0, _ => 0
  | n + 1, s =>
    match c.iterate E (c.desired s.2.state.position) s with
    | .ok s' => V3.norm (s'.2.state.position - s.2.state.position) + travelled c E n s'
    | _ => 0

theorem travelled_nonneg (c : Loop ℝ) (E : Env) (n : ℕ) : ∀ s, 0 ≤ travelled c E n s := by
  induction n with
  | zero => intro s; exact le_refl _
  | succ n ih =>
    intro s
    unfold travelled
    split
    · exact add_nonneg (V3.norm_nonneg _) (ih _)
    · exact le_refl _

theorem desired_flat (c : Loop ℝ) (ht : c.target.z = 0) {x : V3 ℝ} (hx : x.z = 0) : (c.desired x).z = 0 := by
  simp [Loop.desired, V3.smul, ht, hx]

/-- C69, without repulsion: the control loop of the demonstration programs around one static obstacle in the
plane, with any gain, target, time step, speed limit and starting point outside. As long as every step is
short (`2k·dt·|desired velocity|` plus a tiny term below `l`), the loop never fails and the distance of the
agent stays above `1 - (4k/l)·1E-8·(length of the path)`. -/
theorem C69_loop (c : Loop ℝ) (E : Env) (e : Ellipsoid ℝ) (p : Ptr) (m l : ℝ) (k : ℕ) (ref : V3 ℝ)
    (hc : LoopSetup c E e p m l k ref) (hrep : c.addRepulsion = false) (ht : c.target.z = 0) (n : ℕ) :
    ∀ (s : Heap ℝ × Agent ℝ) (b : ℝ), OnLoop e p m s → b ≤ 1 → b ≤ gdist e m s.2.state.position →
    (∀ i < n, ∀ s' s'', c.run E i s = .ok s' → c.iterate E (c.desired s'.2.state.position) s' = .ok s'' →
      2 * k * (c.dt * V3.norm (c.desired s'.2.state.position) +
        2 / 10 ^ 8 * V3.norm (s''.2.state.position - s'.2.state.position)) ≤ l) →
    gdist e m ref < b - 4 * k / l * (1 / 10 ^ 8) * travelled c E n s →
    ∃ s', c.run E n s = .ok s' ∧ OnLoop e p m s' ∧
      b - 4 * k / l * (1 / 10 ^ 8) * travelled c E n s ≤ gdist e m s'.2.state.position := by
  induction n with
  | zero =>
    intro s b hs hb1 hb _ _
    refine ⟨s, rfl, hs, ?_⟩
    simp only [travelled, mul_zero, sub_zero]
    exact hb
  | succ n ih =>
    intro s b hs hb1 hb hshort hin
    have hl := hc.thick.1
    have hk : (0 : ℝ) ≤ k := Nat.cast_nonneg k
    have hκ : 0 ≤ 4 * k / l * (1 / 10 ^ 8) := by positivity
    have htr := mul_nonneg hκ (travelled_nonneg c E (n + 1) s)
    set x := s.2.state.position with hx
    set v := c.desired x with hv
    obtain ⟨M, B, err, ρ, σ, g, s1, hg0, hg1, hm, hit, hs1, hpos, hsl, herr, -, hρ, hσ, hno, -⟩ :=
      iterate_spec hc hs v (desired_flat c ht hs.flat) (by linarith)
    have hρ0 := hno hrep
    subst hρ0
    rw [V3.add_zero'] at hpos
    set δ := V3.norm (s1.2.state.position - x) with hδ
    have htrav : travelled c E (n + 1) s = δ + travelled c E n s1 := by
      rw [travelled, hit]
    have hsh := hshort 0 (Nat.succ_pos n) s s1 rfl hit
    -- the error in terms of the step
    have hw := V3.norm_nonneg (M.mulVec v)
    have htg : 0 ≤ c.dt * g := mul_nonneg hc.dt hg0
    have hδ' : δ = (c.dt * g) * V3.norm (M.mulVec v + err) := by
      rw [hδ, hpos]
      have e1 : x + V3.smul (c.dt * g) (M.mulVec v + err) - x = V3.smul (c.dt * g) (M.mulVec v + err) := by v3_ring
      rw [e1, V3.norm_smul, abs_of_nonneg htg]
    have hMv : V3.norm (M.mulVec v) ≤ V3.norm (M.mulVec v + err) + V3.norm err := by
      have h1 := norm_add_le (M.mulVec v + err) (-err)
      have e1 : M.mulVec v + err + -err = M.mulVec v := by v3_ring
      have e2 : V3.norm (-err) = V3.norm err := by
        simp only [V3.norm, V3.sqNorm, V3.dot, V3.neg_x, V3.neg_y, V3.neg_z]; congr 1; ring
      rwa [e1, e2] at h1
    have herr2 : V3.norm err ≤ 2 / 10 ^ 8 * V3.norm (M.mulVec v + err) := by
      have := V3.norm_nonneg err
      linarith
    have herr3 : c.dt * g * V3.norm err ≤ 2 / 10 ^ 8 * δ := by
      rw [hδ']
      have := mul_le_mul_of_nonneg_left herr2 htg
      linarith
    have hsv := slope_level hc.smooth x v
    have hstep := step_bound hc.smooth hc.thick htg hsv (hsl _ _ hsv) (le_max_left _ _) hρ (err := err)
    rw [V3.add_zero', ← hpos] at hstep
    set f := gdist e m x with hf
    set f1 := gdist e m s1.2.state.position with hf1
    have hσ' := mul_nonneg htg hσ
    have hvn := V3.norm_nonneg v
    have hen := V3.norm_nonneg err
    have hδ0 : 0 ≤ δ := V3.norm_nonneg _
    have key : b - 4 * k / l * (1 / 10 ^ 8) * δ ≤ f1 := by
      have hη' : c.dt * g * (2 * k * (V3.norm err / l)) ≤ 4 * k / l * (1 / 10 ^ 8) * δ := by
        have h1 := mul_le_mul_of_nonneg_left herr3 (by positivity : 0 ≤ 2 * k / l)
        have e1 : 2 * k / l * (c.dt * g * V3.norm err) = c.dt * g * (2 * k * (V3.norm err / l)) := by ring
        have e2 : 2 * k / l * (2 / 10 ^ 8 * δ) = 4 * k / l * (1 / 10 ^ 8) * δ := by ring
        rwa [e1, e2] at h1
      rcases le_total f 1 with hle | hge
      · have hz : max 0 (1 - 1 / f) = 0 ∨ f ≤ 0 := by
          rcases le_or_gt f 0 with h0 | h0
          · exact Or.inr h0
          · left
            apply max_eq_left
            have : 1 ≤ 1 / f := by rw [le_div_iff₀ h0]; linarith
            linarith
        have hfpos : 0 < f := by
          have h0 : 0 ≤ gdist e m ref := by
            rw [gdist, distance_frame e _ _ k k k hc.smooth.curv hc.smooth.long]; exact level_nonneg _ _ _ _ _
          linarith
        rcases hz with hz | hz
        · rw [hz, max_eq_left hle] at hstep
          simp only [zero_mul, mul_zero, sub_zero, mul_one] at hstep
          linarith
        · linarith
      · have hfpos : 0 < f := by linarith
        have hle1 : 1 / f ≤ 1 := by rw [div_le_one hfpos]; exact hge
        rw [max_eq_right (by linarith : (0 : ℝ) ≤ 1 - 1 / f), max_eq_right hge] at hstep
        have e1 : c.dt * g * ((1 - 1 / f) * (2 * k * f * (V3.norm v / l))) =
            (f - 1) * (2 * k * (c.dt * g * V3.norm v) / l) := by field_simp
        have e2 : c.dt * g * (2 * k * f * (V3.norm err / l)) = f * (c.dt * g * (2 * k * (V3.norm err / l))) := by ring
        rw [e1, e2] at hstep
        have hA : 2 * k * (c.dt * g * V3.norm v) / l + 4 * k / l * (1 / 10 ^ 8) * δ ≤ 1 := by
          have h1 : c.dt * g * V3.norm v ≤ c.dt * V3.norm v := by
            have := mul_le_mul_of_nonneg_left hg1 hc.dt
            nlinarith
          have h2 : 2 * k * (c.dt * g * V3.norm v + 2 / 10 ^ 8 * δ) ≤ l := by
            refine le_trans ?_ hsh
            exact mul_le_mul_of_nonneg_left (by linarith) (by positivity)
          have h3 := (div_le_one hl).mpr h2
          refine le_trans (le_of_eq ?_) h3
          ring
        have hmul := mul_nonneg (sub_nonneg.mpr hge) (sub_nonneg.mpr hA)
        have hfη := mul_le_mul_of_nonneg_left hη' hfpos.le
        nlinarith
    obtain ⟨s', h1, h2, h3⟩ := ih s1 (b - 4 * k / l * (1 / 10 ^ 8) * δ) hs1 (by nlinarith) key (by
      intro i hi s' s'' h1 h2
      refine hshort (i + 1) (Nat.succ_lt_succ hi) s' s'' ?_ h2
      rw [Loop.run, hit]
      exact h1) (by rw [htrav] at hin; linarith)
    refine ⟨s', ?_, h2, ?_⟩
    · rw [Loop.run, hit]; exact h1
    · rw [htrav]; linarith

/-- Near the surface the repulsion is longer than its threshold and pushes outwards. -/
theorem near_push {e : Ellipsoid ℝ} {m l : ℝ} {k : ℕ} (sm : Smooth e m k) (th : Thick e m l) {x ref : V3 ℝ}
    (hin : 121 / 10 ^ 6 * k < (1 - gdist e m ref) * l) (h0 : 1 < gdist e m x) (hnear : gdist e m x ≤ 11 / 10) :
    1 / 10000 < V3.norm (V3.smul (2 / gdist e m x) (x - ref)) ∧
      ∀ σ, Slope e m x (V3.smul (2 / gdist e m x) (x - ref)) σ → 2 * (1 - gdist e m ref) ≤ σ := by
  have hl := th.1
  have hk1 : (1 : ℝ) ≤ k := by exact_mod_cast sm.curv.2.1
  have hτ := slope_level sm x (x - ref)
  generalize dlevel (halfLengths e (V3.const m)) k (e.base.pose.inverse.apply x)
      (e.base.pose.orientation.conjugate.toM3.mulVec (x - ref)) = τ at hτ
  have hτ' : gdist e m x - gdist e m ref ≤ τ := by
    have h1 := gdist_tangent sm (slope_smul sm (-1) hτ)
    have e3 : x + V3.smul (-1) (x - ref) = ref := by
      ext <;> simp only [V3.smul, V3.add_x, V3.add_y, V3.add_z, V3.sub_x, V3.sub_y, V3.sub_z] <;> ring
    rw [e3] at h1
    linarith
  have hτb := slope_bound sm hτ hl th.2.1 th.2.2.1 th.2.2.2
  rw [max_eq_right h0.le] at hτb
  have hf00 : 0 ≤ gdist e m ref := by
    rw [gdist, distance_frame e _ _ k k k sm.curv sm.long]; exact level_nonneg _ _ _ _ _
  have hN := V3.norm_nonneg (x - ref)
  have hσ : ∀ σ, Slope e m x (V3.smul (2 / gdist e m x) (x - ref)) σ → σ = 2 / gdist e m x * τ :=
    fun σ h => h.unique (slope_smul sm _ hτ)
  have hfpos : 0 < gdist e m x := by linarith
  refine ⟨?_, fun σ h => ?_⟩
  · rw [V3.norm_smul, abs_of_pos (by positivity)]
    clear hσ hτ
    generalize V3.norm (x - ref) = N at *
    generalize gdist e m x = f at *
    generalize gdist e m ref = f0 at *
    have h1 : (f - f0) * l ≤ 2 * k * f * N := by
      have h2 := le_trans hτ' (le_trans (le_abs_self τ) hτb)
      have h3 := mul_le_mul_of_nonneg_right h2 hl.le
      refine le_trans h3 (le_of_eq ?_)
      field_simp
    have h4 : 121 / 10 ^ 6 * k < (f - f0) * l := by
      refine lt_of_lt_of_le hin ?_
      exact mul_le_mul_of_nonneg_right (by linarith) hl.le
    have h6 : 121 / 10 ^ 6 < 2 * f * N := by
      have : k * (121 / 10 ^ 6) < k * (2 * f * N) := by linarith
      exact lt_of_mul_lt_mul_left this (by linarith)
    rw [div_mul_eq_mul_div, lt_div_iff₀ hfpos]
    have h7 : f * f ≤ 121 / 100 := by nlinarith
    have h8 : f * (1 / 10000 * f) < f * (2 * N) := by linarith
    exact lt_of_mul_lt_mul_left h8 hfpos.le
  · rw [hσ σ h, div_mul_eq_mul_div, le_div_iff₀ hfpos]
    have h1 : 0 ≤ gdist e m ref * (gdist e m x - 1) := mul_nonneg hf00 (by linarith)
    linarith

/-- One iteration with repulsion and any velocity in the plane: the agent stays outside. -/
theorem iterate_out {c : Loop ℝ} {E : Env} {e : Ellipsoid ℝ} {p : Ptr} {m l : ℝ} {k : ℕ} {ref : V3 ℝ}
    (hc : LoopSetup c E e p m l k ref) (hrep : c.addRepulsion = true)
    (hin : 121 / 10 ^ 6 * k < (1 - gdist e m ref) * l) {s : Heap ℝ × Agent ℝ} (hs : OnLoop e p m s)
    (h0 : 1 < gdist e m s.2.state.position) (v : V3 ℝ) (hv : v.z = 0)
    (hshort : ∀ M B d, modulationMatrix s.1 s.2 (.ellipsoid e) = .ok (M, B, d) →
      2 * k * (c.dt * (V3.norm v + 11 / 10 ^ 8 * V3.norm (M.mulVec v))) < l ∧
      11 / 10 * (k * (1 / 10 ^ 8 * V3.norm (M.mulVec v))) ≤ (1 - gdist e m ref) * l) :
    ∃ s1, c.iterate E v s = .ok s1 ∧ OnLoop e p m s1 ∧ 1 < gdist e m s1.2.state.position := by
  have hl := hc.thick.1
  have hk : (0 : ℝ) ≤ k := Nat.cast_nonneg k
  have hk1 : (1 : ℝ) ≤ k := by exact_mod_cast hc.smooth.curv.2.1
  have hin1 : gdist e m ref < 1 := by
    by_contra hn
    have := mul_nonneg (sub_nonneg.mpr (not_lt.mp hn)) hl.le
    nlinarith
  set x := s.2.state.position with hx
  obtain ⟨M, B, err, ρ, σ, g, s1, hg0, hg1, hm, hit, hs1, hpos, hsl, herr, -, hρ, hσ, -, hyes, -, -⟩ :=
    iterate_spec hc hs v hv (by linarith)
  obtain ⟨hsh, hsp⟩ := hshort M B _ hm
  have htg : 0 ≤ c.dt * g := mul_nonneg hc.dt hg0
  have hsv := slope_level hc.smooth x v
  have hstep := step_bound hc.smooth hc.thick htg hsv (hsl _ _ hsv) (le_max_left _ _) hρ (err := err)
  rw [← hpos] at hstep
  set f := gdist e m x with hf
  set f0 := gdist e m ref with hf0
  set W := V3.norm (M.mulVec v) with hW
  have hW0 : 0 ≤ W := V3.norm_nonneg _
  have hvn := V3.norm_nonneg v
  have hfpos : 0 < f := by linarith
  have hle1 : 1 / f ≤ 1 := by rw [div_le_one hfpos]; exact h0.le
  have hf00 : 0 ≤ f0 := by
    rw [hf0, gdist, distance_frame e _ _ k k k hc.smooth.curv hc.smooth.long]; exact level_nonneg _ _ _ _ _
  rw [max_eq_right (by linarith : (0 : ℝ) ≤ 1 - 1 / f), max_eq_right h0.le] at hstep
  set η := 2 * k * (c.dt * g * V3.norm v) / l with hη
  set η' := 2 * k * (c.dt * g * (1 / 10 ^ 8 * W)) / l with hη'
  have hη0 : 0 ≤ η := by positivity
  have hη'0 : 0 ≤ η' := by positivity
  have e1 : c.dt * g * ((1 - 1 / f) * (2 * k * f * (V3.norm v / l))) = (f - 1) * η := by
    rw [hη]; field_simp
  have e2 : c.dt * g * (2 * k * f * (V3.norm err / l)) ≤ f * η' := by
    have h1 := mul_le_mul_of_nonneg_left herr (by positivity : 0 ≤ 2 * k / l * (c.dt * g) * f)
    refine le_trans (le_of_eq ?_) (le_trans h1 (le_of_eq ?_))
    · ring
    · rw [hη']; ring
  rw [e1] at hstep
  have hA : η + 11 * η' < 1 := by
    have h1 : c.dt * g * (V3.norm v + 11 / 10 ^ 8 * W) ≤ c.dt * (V3.norm v + 11 / 10 ^ 8 * W) := by
      have h2 := mul_le_mul_of_nonneg_left hg1 hc.dt
      exact mul_le_mul_of_nonneg_right (by linarith) (by positivity)
    have h2 : 2 * k * (c.dt * g * (V3.norm v + 11 / 10 ^ 8 * W)) < l :=
      lt_of_le_of_lt (mul_le_mul_of_nonneg_left h1 (by positivity)) hsh
    have h3 := (div_lt_one hl).mpr h2
    refine lt_of_le_of_lt (le_of_eq ?_) h3
    rw [hη, hη']; ring
  have hσ' := mul_nonneg htg hσ
  have hf1 : 0 < f - 1 := by linarith
  have key : 1 < gdist e m s1.2.state.position := by
    rcases le_or_gt (11 / 10) f with hfar | hnear
    · have h1 : f * η' ≤ (f - 1) * (11 * η') := by nlinarith
      have h2 := mul_pos hf1 (sub_pos.mpr hA)
      nlinarith
    · -- the repulsion acts
      obtain ⟨hnorm, hpush⟩ := near_push hc.smooth hc.thick hin h0 hnear.le
      have hσ2 : 2 * (1 - f0) ≤ σ := by
        rw [hyes hrep hnear hnorm] at hρ
        exact hpush σ hρ
      have hη2 : f * η' ≤ c.dt * g * (2 * (1 - f0)) := by
        have h1 : f * (k * (1 / 10 ^ 8 * W)) ≤ (1 - f0) * l := by
          refine le_trans ?_ hsp
          exact mul_le_mul_of_nonneg_right hnear.le (by positivity)
        have h2 := mul_le_mul_of_nonneg_left h1 (by positivity : 0 ≤ 2 * (c.dt * g) / l)
        refine le_trans (le_of_eq ?_) (le_trans h2 (le_of_eq ?_))
        · rw [hη']; ring
        · field_simp
      have h3 := mul_le_mul_of_nonneg_left hσ2 htg
      have h4 : 0 < (f - 1) * (1 - η) := mul_pos hf1 (by linarith)
      linarith
  exact ⟨s1, hit, hs1, key⟩

/-- C69, with repulsion: the agent never enters the obstacle at all. The tiny errors of the interpolation are
outweighed by the repulsion near the surface. The conditions are: short steps, a modulated speed `|M v|`
that is not astronomically large, and a reference point that is not too near to the surface. -/
theorem C69_loop_repulsion (c : Loop ℝ) (E : Env) (e : Ellipsoid ℝ) (p : Ptr) (m l : ℝ) (k : ℕ) (ref : V3 ℝ)
    (hc : LoopSetup c E e p m l k ref) (hrep : c.addRepulsion = true) (ht : c.target.z = 0)
    (hin : 121 / 10 ^ 6 * k < (1 - gdist e m ref) * l) (n : ℕ) :
    ∀ (s : Heap ℝ × Agent ℝ), OnLoop e p m s → 1 < gdist e m s.2.state.position →
    (∀ i < n, ∀ s' M B d, c.run E i s = .ok s' → modulationMatrix s'.1 s'.2 (.ellipsoid e) = .ok (M, B, d) →
      2 * k * (c.dt * (V3.norm (c.desired s'.2.state.position) +
        11 / 10 ^ 8 * V3.norm (M.mulVec (c.desired s'.2.state.position)))) < l ∧
      11 / 10 * (k * (1 / 10 ^ 8 * V3.norm (M.mulVec (c.desired s'.2.state.position)))) ≤ (1 - gdist e m ref) * l) →
    ∃ s', c.run E n s = .ok s' ∧ OnLoop e p m s' ∧ 1 < gdist e m s'.2.state.position := by
  induction n with
  | zero => intro s hs h0 _; exact ⟨s, rfl, hs, h0⟩
  | succ n ih =>
    intro s hs h0 hshort
    obtain ⟨s1, hit, hs1, key⟩ := iterate_out hc hrep hin hs h0 (c.desired s.2.state.position)
      (desired_flat c ht hs.flat) (fun M B d hm => hshort 0 (Nat.succ_pos n) s M B d rfl hm)
    obtain ⟨s', h1, h2, h3⟩ := ih s1 hs1 key (by
      intro i hi s' M' B' d' h1 h2
      refine hshort (i + 1) (Nat.succ_lt_succ hi) s' M' B' d' ?_ h2
      rw [Loop.run, hit]
      exact h1)
    exact ⟨s', by rw [Loop.run, hit]; exact h1, h2, h3⟩

/-! ### Non-vacuity: from the x axis straight at the unit ball, for every number of iterations -/

/-- Gain 1, steps of 1/100, target (−3,0,0) on the other side of the ball. -/
noncomputable def axisLoop (rep : Bool) : Loop ℝ :=
  { gain := 1, dt := 1 / 100, target := ⟨-3, 0, 0⟩, maxVel := none, isLocal := false, addRepulsion := rep,
    planar := false, critical := 1, power := 2 }

/-- The ball and the envelope of the agent. -/
noncomputable def axisStart : Heap ℝ × Agent ℝ :=
  ([.ellipsoid (ball V3.zero), .ellipsoid (ball V3.zero)], { agentAt ⟨2, 0, 0⟩ V3.zero with envelope := some 1 })

theorem axis_setup (rep : Bool) : LoopSetup (axisLoop rep) (envOf [0]) (ball V3.zero) 0 0 1 1 V3.zero := by
  refine ⟨rfl, ⟨rfl, rfl⟩, ⟨rfl, rfl, rfl, ?_, rfl, rfl, rfl⟩, ball_smooth _, ball_thick _, rfl, rfl, rfl, ?_, ?_⟩
  · intro v hv; cases hv; rfl
  · norm_num [axisLoop]
  · intro v hv; cases hv

theorem axis_start : OnLoop (ball V3.zero) 0 0 axisStart :=
  ⟨rfl, ⟨1, ball V3.zero, by decide, rfl, rfl⟩, rfl, rfl⟩

theorem angle_axis {p q : ℝ} (hp : p < 0) (hq : q < 0) : angle ⟨p, 0, 0⟩ ⟨q, 0, 0⟩ = 0 := by
  have hn : ∀ r : ℝ, r < 0 → V3.norm (⟨r, 0, 0⟩ : V3 ℝ) = -r := by
    intro r hr
    show Real.sqrt (r * r + 0 * 0 + 0 * 0) = -r
    rw [show r * r + 0 * 0 + 0 * 0 = (-r) ^ 2 by ring, Real.sqrt_sq (by linarith)]
  rw [angle, hn p hp, hn q hq]
  have : V3.dot (⟨p, 0, 0⟩ : V3 ℝ) ⟨q, 0, 0⟩ / (-p * -q) = 1 := by
    have : p * q ≠ 0 := mul_ne_zero hp.ne hq.ne
    show (p * q + 0 * 0 + 0 * 0) / (-p * -q) = 1
    rw [show -p * -q = p * q by ring, show p * q + 0 * 0 + 0 * 0 = p * q by ring, div_self this]
  rw [this, Real.arccos_one]

/-- One iteration on the axis. -/
theorem axis_step (rep : Bool) {s : Heap ℝ × Agent ℝ} (hs : OnLoop (ball V3.zero) 0 0 s) {X : ℝ}
    (hX : s.2.state.position = ⟨X, 0, 0⟩) (h1 : 1 < X) (h2 : X ≤ 2) :
    ∃ s' X', (axisLoop rep).iterate (envOf [0]) ((axisLoop rep).desired s.2.state.position) s = .ok s' ∧
      OnLoop (ball V3.zero) 0 0 s' ∧ s'.2.state.position = ⟨X', 0, 0⟩ ∧ 1 < X' ∧ X' ≤ 2 ∧
      (rep = false → X' ≤ X) := by
  have hdes : (axisLoop rep).desired s.2.state.position = ⟨-(X + 3), 0, 0⟩ := by
    rw [hX]; ext <;> simp [Loop.desired, axisLoop, V3.smul]
  have hd : gdist (ball V3.zero) 0 ⟨X, 0, 0⟩ = X ^ 2 := by rw [ball_dist]; simp
  have hd0 : gdist (ball V3.zero) 0 V3.zero = 0 := by rw [ball_dist]; simp [V3.zero]
  rw [hdes]
  obtain ⟨M, B, err, ρ, σ, g, s', -, -, hm, hit, hs', hpos, -, -, herr, -, -, hno, hyes, hfar, hg⟩ :=
    iterate_spec (axis_setup rep) hs ⟨-(X + 3), 0, 0⟩ rfl (by rw [hX, hd, hd0]; positivity)
  obtain ⟨M', B', hm', hM⟩ := ball_axis s.1 s.2 X hX hs.margin h1
  rw [hm] at hm'
  simp only [Res.ok.injEq, Prod.mk.injEq] at hm'
  obtain ⟨rfl, -, -⟩ := hm'
  have hl : 1 / X ^ 2 < 1 := by rw [div_lt_one (by positivity)]; nlinarith
  have hi0 : 0 < 1 / X ^ 2 := by positivity
  have hix : 1 / X ^ 2 * X ^ 2 = 1 := by field_simp
  rw [hM] at herr hpos
  have herr := herr (angle_axis (by nlinarith) (by linarith))
  have hg := hg rfl
  rw [hX] at hpos hyes hfar
  rw [hd] at hyes hfar
  have hρ : ∃ q, ρ = ⟨q, 0, 0⟩ ∧ 0 ≤ q ∧ q ≤ 2 ∧ (rep = false → q = 0) := by
    cases rep with
    | false => exact ⟨0, hno rfl, le_refl _, by norm_num, fun _ => rfl⟩
    | true =>
      by_cases hn : X ^ 2 < 11 / 10
      · have hv : V3.smul (2 / X ^ 2) ((⟨X, 0, 0⟩ : V3 ℝ) - V3.zero) = ⟨2 / X, 0, 0⟩ := by
          ext <;> simp [V3.smul, V3.zero]; field_simp
        rw [hv] at hyes
        refine ⟨2 / X, hyes rfl hn ?_, by positivity, ?_, fun h => by cases h⟩
        · have : V3.norm (⟨2 / X, 0, 0⟩ : V3 ℝ) = 2 / X := by
            show Real.sqrt (2 / X * (2 / X) + 0 * 0 + 0 * 0) = _
            rw [show 2 / X * (2 / X) + 0 * 0 + 0 * 0 = (2 / X) ^ 2 by ring, Real.sqrt_sq (by positivity)]
          rw [this]
          have : 1 ≤ 2 / X := by rw [le_div_iff₀ (by linarith)]; linarith
          linarith
        · rw [div_le_iff₀ (by linarith)]; linarith
      · exact ⟨0, hfar (not_lt.mp hn), le_refl _, by norm_num, fun h => by cases h⟩
  obtain ⟨q, hq, hq0, hq2, hqf⟩ := hρ
  have hqfar : 11 / 10 ≤ X ^ 2 → q = 0 := by
    intro h
    have := hfar h
    rw [hq] at this
    exact congrArg V3.x this
  refine ⟨s', X + 1 / 100 * ((1 - 1 / X ^ 2) * -(X + 3) + q), hit, hs', ?_, ?_, ?_, ?_⟩
  · rw [hpos, herr, hq, hg]
    ext <;> simp [V3.smul, V3.zero, axisLoop]
  · have h3 : (1 - 1 / X ^ 2) * (X + 3) ≤ 8 * (X - 1) := by
      have : (1 - 1 / X ^ 2) * (X + 3) = 1 / X ^ 2 * ((X - 1) * ((X + 1) * (X + 3))) := by
        field_simp; ring
      rw [this]
      have h5 : 1 / X ^ 2 * ((X + 1) * (X + 3)) ≤ 8 := by
        rw [one_div, inv_mul_le_iff₀ (by positivity)]; nlinarith
      nlinarith
    nlinarith
  · by_cases hn : X ^ 2 < 11 / 10
    · have : X < 11 / 10 := by nlinarith
      nlinarith
    · rw [hqfar (not_lt.mp hn)]; nlinarith
  · intro hr; rw [hqf hr]; nlinarith

/-- The states visited on the axis. -/
theorem axis_run (rep : Bool) (n : ℕ) : ∀ {s : Heap ℝ × Agent ℝ}, OnLoop (ball V3.zero) 0 0 s → ∀ {X : ℝ},
    s.2.state.position = ⟨X, 0, 0⟩ → 1 < X → X ≤ 2 →
    ∃ s' X', (axisLoop rep).run (envOf [0]) n s = .ok s' ∧ OnLoop (ball V3.zero) 0 0 s' ∧
      s'.2.state.position = ⟨X', 0, 0⟩ ∧ 1 < X' ∧ X' ≤ 2 ∧
      (rep = false → travelled (axisLoop rep) (envOf [0]) n s ≤ X - X') := by
  induction n with
  | zero => intro s hs X hX h1 h2; exact ⟨s, X, rfl, hs, hX, h1, h2, fun _ => by simp [travelled]⟩
  | succ n ih =>
    intro s hs X hX h1 h2
    obtain ⟨s1, X1, hit, hs1, hX1, h11, h12, h13⟩ := axis_step rep hs hX h1 h2
    obtain ⟨s', X', hrun, hs', hX', h1', h2', h3'⟩ := ih hs1 hX1 h11 h12
    refine ⟨s', X', by rw [Loop.run, hit]; exact hrun, hs', hX', h1', h2', fun hr => ?_⟩
    rw [travelled, hit]
    show V3.norm (s1.2.state.position - s.2.state.position) + travelled (axisLoop rep) (envOf [0]) n s1 ≤ _
    have h4 := h3' hr
    have h5 : V3.norm (s1.2.state.position - s.2.state.position) = X - X1 := by
      rw [hX, hX1]
      show Real.sqrt ((X1 - X) * (X1 - X) + (0 - 0) * (0 - 0) + (0 - 0) * (0 - 0)) = _
      rw [show (X1 - X) * (X1 - X) + (0 - 0) * (0 - 0) + (0 - 0) * (0 - 0) = (X - X1) ^ 2 by ring,
        Real.sqrt_sq (by linarith [h13 hr])]
    linarith

/-- The desired velocity and the modulated one are short on the axis. -/
theorem axis_short (rep : Bool) {s : Heap ℝ × Agent ℝ} (hs : OnLoop (ball V3.zero) 0 0 s) {X : ℝ}
    (hX : s.2.state.position = ⟨X, 0, 0⟩) (h1 : 1 < X) (h2 : X ≤ 2) :
    V3.norm ((axisLoop rep).desired s.2.state.position) ≤ 5 ∧
    ∀ M B d, modulationMatrix s.1 s.2 (.ellipsoid (ball V3.zero)) = .ok (M, B, d) →
      V3.norm (M.mulVec ((axisLoop rep).desired s.2.state.position)) ≤ 5 := by
  have hdes : (axisLoop rep).desired s.2.state.position = ⟨-(X + 3), 0, 0⟩ := by
    rw [hX]; ext <;> simp [Loop.desired, axisLoop, V3.smul]
  have hn : ∀ r : ℝ, V3.norm (⟨r, 0, 0⟩ : V3 ℝ) = |r| := by
    intro r
    show Real.sqrt (r * r + 0 * 0 + 0 * 0) = _
    rw [show r * r + 0 * 0 + 0 * 0 = r ^ 2 by ring, Real.sqrt_sq_eq_abs]
  rw [hdes, hn]
  refine ⟨by rw [abs_le]; constructor <;> linarith, fun M B d hm => ?_⟩
  obtain ⟨M', B', hm', hM⟩ := ball_axis s.1 s.2 X hX hs.margin h1
  rw [hm] at hm'
  simp only [Res.ok.injEq, Prod.mk.injEq] at hm'
  obtain ⟨rfl, -, -⟩ := hm'
  rw [hM, hn]
  have hl : 1 / X ^ 2 < 1 := by rw [div_lt_one (by positivity)]; nlinarith
  have hi0 : 0 < 1 / X ^ 2 := by positivity
  rw [abs_le]; constructor <;> nlinarith

/-- C69_loop on the axis: the hypotheses hold for every number of iterations. -/
example (n : ℕ) : ∃ s', (axisLoop false).run (envOf [0]) n axisStart = .ok s' ∧ OnLoop (ball V3.zero) 0 0 s' ∧
    1 - 4 / 10 ^ 8 ≤ gdist (ball V3.zero) 0 s'.2.state.position := by
  have hd0 : gdist (ball V3.zero) 0 V3.zero = 0 := by rw [ball_dist]; simp [V3.zero]
  obtain ⟨s0, X0, -, -, -, h01, -, htr⟩ := axis_run false n axis_start rfl (by norm_num) (le_refl _)
  have htr := htr rfl
  obtain ⟨s', h1, h2, h3⟩ := C69_loop _ _ _ _ _ _ _ _ (axis_setup false) rfl rfl n axisStart 1 axis_start (le_refl _)
    (by show 1 ≤ gdist (ball V3.zero) 0 ⟨2, 0, 0⟩; rw [ball_dist]; norm_num)
    (by
      intro i _ s' s'' hrun hit
      obtain ⟨t, X, hrun', ht, hX, hX1, hX2, -⟩ := axis_run false i axis_start rfl (by norm_num) (le_refl _)
      rw [hrun] at hrun'
      cases hrun'
      obtain ⟨t', X', hit', -, hX', hX1', hX2', hle⟩ := axis_step false ht hX hX1 hX2
      rw [hit] at hit'
      cases hit'
      have h5 : V3.norm (s''.2.state.position - s'.2.state.position) = X - X' := by
        rw [hX, hX']
        show Real.sqrt ((X' - X) * (X' - X) + (0 - 0) * (0 - 0) + (0 - 0) * (0 - 0)) = _
        rw [show (X' - X) * (X' - X) + (0 - 0) * (0 - 0) + (0 - 0) * (0 - 0) = (X - X') ^ 2 by ring,
          Real.sqrt_sq (by linarith [hle rfl])]
      have h6 := (axis_short false ht hX hX1 hX2).1
      rw [h5]
      show 2 * ((1 : ℕ) : ℝ) * (1 / 100 * _ + _) ≤ 1
      push_cast
      nlinarith)
    (by rw [hd0]; push_cast; nlinarith)
  refine ⟨s', h1, h2, le_trans ?_ h3⟩
  push_cast
  nlinarith

/-- C69_loop_repulsion on the axis. -/
example (n : ℕ) : ∃ s', (axisLoop true).run (envOf [0]) n axisStart = .ok s' ∧ OnLoop (ball V3.zero) 0 0 s' ∧
    1 < gdist (ball V3.zero) 0 s'.2.state.position := by
  have hd0 : gdist (ball V3.zero) 0 V3.zero = 0 := by rw [ball_dist]; simp [V3.zero]
  refine C69_loop_repulsion _ _ _ _ _ _ _ _ (axis_setup true) rfl rfl (by rw [hd0]; norm_num) n axisStart axis_start
    (by show 1 < gdist (ball V3.zero) 0 ⟨2, 0, 0⟩; rw [ball_dist]; norm_num) ?_
  intro i _ s' M B d hrun hm
  obtain ⟨t, X, hrun', ht, hX, hX1, hX2, -⟩ := axis_run true i axis_start rfl (by norm_num) (le_refl _)
  rw [hrun] at hrun'
  cases hrun'
  obtain ⟨h1, h2⟩ := axis_short true ht hX hX1 hX2
  have h2 := h2 M B d hm
  rw [hd0]
  constructor
  · show 2 * ((1 : ℕ) : ℝ) * (1 / 100 * _) < 1
    push_cast
    nlinarith
  · push_cast
    nlinarith

/-! ## C70 the demonstration programs as they are -/

section
variable {α : Type} [Add α] [Sub α] [Mul α] [Div α] [Neg α] [Zero α] [One α]
  [LE α] [LT α] [DecidableLE α] [DecidableLT α] [CMath α]

/-- C70: testSingleConfiguration.cpp and test3D.cpp read `previous_vel` before it has a value. -/
theorem C70_negation_uninitialised (c : Loop α) (E : Env) (n : ℕ) (s : Heap α × Agent α) :
    c.runMixed E (n + 1) none s = .ub .uninitialised := rfl

/-- C70: adding obstacles leaves the list of the environment empty until `update()` is called. -/
theorem C70_list_empty (h : Heap α) (ps : List Ptr) (b : Bool) (E : Env)
    (hE : ps.foldlM (fun e p => Env.addObstacle h e p) (Env.mk' b) = .ok E) : E.list = [] := by
  have key : ∀ (ps : List Ptr) (E0 E : Env), ps.foldlM (fun e p => Env.addObstacle h e p) E0 = .ok E →
      E.list = E0.list := by
    intro ps
    induction ps with
    | nil => intro E0 E hE; cases hE; rfl
    | cons p ps ih =>
      intro E0 E hE
      rw [List.foldlM_cons] at hE
      obtain ⟨E1, h1, h2⟩ := Res.bind_eq_ok.mp hE
      rw [ih E1 E h2]
      unfold Env.addObstacle at h1
      obtain ⟨o, -, h1⟩ := Res.bind_eq_ok.mp h1
      split at h1
      · cases h1
      · cases h1; rfl
  exact key ps _ E hE

theorem withState_env (s : Heap α × Agent α) (st : State α) (hs : HasEnvelope s.1 s.2) :
    ∃ h', Agent.withState s.1 s.2 st = .ok (h', { s.2 with state := st }) ∧
      HasEnvelope h' { s.2 with state := st } := by
  obtain ⟨q, env, hq, henv⟩ := hs
  have hlt : q < s.1.length := by
    by_contra hn
    rw [List.getElem?_eq_none (Nat.le_of_not_lt hn)] at henv
    cases henv
  refine ⟨_, by simp [Agent.withState, Agent.updateEnvelope, hq, Heap.deref, henv]; rfl,
    ⟨q, _, hq, by rw [List.getElem?_set_self hlt]⟩⟩

/-- C70: with an empty list one iteration moves the agent by `dt` times its velocity, whatever the obstacles
and the options. -/
theorem C70_iterate_empty (c : Loop α) (E : Env) (hE : E.list = []) (v : V3 α) (s : Heap α × Agent α)
    (hs : HasEnvelope s.1 s.2) : ∃ s', c.iterate E v s = .ok s' ∧ HasEnvelope s'.1 s'.2 ∧
      s'.2.margin = s.2.margin ∧
      s'.2.state.position = s.2.state.position + V3.smul c.dt (c.limit v) := by
  obtain ⟨h1, hw1, he1⟩ := withState_env s (s.2.state.setLinearVelocity v) hs
  obtain ⟨h2, hw2, he2⟩ := withState_env (h1, { s.2 with state := s.2.state.setLinearVelocity v })
    ((s.2.state.setLinearVelocity v).setPosition (s.2.state.position + V3.smul c.dt (c.limit v))) he1
  refine ⟨(h2, { s.2 with state :=
      (s.2.state.setLinearVelocity v).setPosition (s.2.state.position + V3.smul c.dt (c.limit v)) }), ?_, he2, rfl, rfl⟩
  unfold Loop.iterate
  rw [show Agent.setLinearVelocity s.1 s.2 v = .ok (h1, { s.2 with state := s.2.state.setLinearVelocity v }) from hw1]
  have hmod := fun (h : Heap α) (a : Agent α) => C40_empty h a E c.isLocal c.addRepulsion c.planar c.critical c.power hE
  simp only [Res.ok_bind, hmod]
  exact hw2

end

section
variable {α : Type} [Add α] [Sub α] [Mul α] [Div α] [Neg α] [Zero α] [One α]
  [LE α] [LT α] [DecidableLE α] [DecidableLT α] [CMath α]

/-- C70: testSingleConfiguration.cpp and test3D.cpp, had `previous_vel` been initialised: with an empty list
every iteration moves the agent by `dt` times the mixed velocity. -/
theorem C70_mixed (c : Loop α) (E : Env) (hE : E.list = []) (n : ℕ) (prev : V3 α) (s : Heap α × Agent α)
    (hs : HasEnvelope s.1 s.2) : ∃ s1, HasEnvelope s1.1 s1.2 ∧ s1.2.margin = s.2.margin ∧
      s1.2.state.position = s.2.state.position + V3.smul c.dt (c.limit
        (V3.smul (lit 8 10) (c.desired s.2.state.position) + V3.smul (lit 2 10) prev)) ∧
      c.runMixed E (n + 1) (some prev) s = c.runMixed E n (some (c.desired s.2.state.position)) s1 := by
  obtain ⟨s1, h1, h2, h3, h4⟩ := C70_iterate_empty c E hE
    (V3.smul (lit 8 10) (c.desired s.2.state.position) + V3.smul (lit 2 10) prev) s hs
  exact ⟨s1, h2, h3, h4, by rw [Loop.runMixed, h1]; rfl⟩

/-- C70: testWall.cpp. With an empty list `exist_path` always answers yes, and the loop is the loop without
the test. -/
theorem C70_wall (c : Loop α) (E : Env) (hE : E.list = []) (n : ℕ) (s : Heap α × Agent α)
    (hs : HasEnvelope s.1 s.2) : s.2.existPath s.1 c.target E.list = .ok true ∧
    ∃ s1, HasEnvelope s1.1 s1.2 ∧ s1.2.margin = s.2.margin ∧
      s1.2.state.position = s.2.state.position + V3.smul c.dt (c.limit (c.desired s.2.state.position)) ∧
      c.runWall E (n + 1) s = c.runWall E n s1 := by
  have hp : s.2.existPath s.1 c.target E.list = .ok true := by rw [hE]; rfl
  refine ⟨hp, ?_⟩
  obtain ⟨h', ht, het⟩ := withState_env s (s.2.state.setLinearVelocity (V3.smul (lit 9 10)
      (c.desired s.2.state.position) + V3.smul (lit 1 10) V3.zero)) hs
  rw [← Agent.setLinearVelocity] at ht
  obtain ⟨s1, h1, h2, h3, h4⟩ := C70_iterate_empty c E hE (c.desired s.2.state.position) (h', _) het
  refine ⟨s1, h2, h3, h4, ?_⟩
  rw [Loop.runWall, Loop.iterateWall, hp]
  simp only [Res.ok_bind, if_true, ht, h1]

/-- The obstacle of testMovingObstacle.cpp one step later. -/
def advanced (c : Loop α) (goal : V3 α) (o : Ellipsoid α) : Ellipsoid α :=
  let w := V3.smul (-c.gain) (o.base.position - goal)
  { o with base := { o.base with state := (o.base.state.setLinearVelocity w).setPosition (o.base.position + V3.smul c.dt w),
                                 refPos := some (o.base.position + V3.smul c.dt w) } }

/-- One iteration of testMovingObstacle.cpp with an empty list. -/
theorem moving_step (c : Loop α) (E : Env) (hE : E.list = []) (name : String) (hf : Env.find E.map name = some 0)
    (goal : V3 α) (o en : Ellipsoid α) (a : Agent α) (ha : a.envelope = some 1) :
    ∃ en' a', c.iterateMoving E name goal ([.ellipsoid o, .ellipsoid en], a) =
        .ok ([.ellipsoid (advanced c goal o), .ellipsoid en'], a') ∧
      a'.envelope = some 1 ∧ a'.margin = a.margin ∧
      a'.state.position = a.state.position + V3.smul c.dt (c.limit (c.desired a.state.position)) := by
  have hl : ∀ h : Heap α, E.lookup h name = .ok 0 := by
    intro h; simp [Env.lookup, Env.lookupSlot, Env.readSlot, hf]
  have hmod := fun (h : Heap α) (a : Agent α) => C40_empty h a E c.isLocal c.addRepulsion c.planar c.critical c.power hE
  let d := c.desired a.state.position
  let a1 : Agent α := { a with state := a.state.setLinearVelocity d }
  let a2 : Agent α := { a with state := (a.state.setLinearVelocity d).setPosition (a.state.position + V3.smul c.dt (c.limit d)) }
  refine ⟨a2.envelopeFor (a1.envelopeFor en), a2, ?_, ha, rfl, rfl⟩
  unfold Loop.iterateMoving
  simp only [hl, Res.ok_bind, hmod]
  simp [Agent.setLinearVelocity, Agent.setPosition, Agent.withState, Agent.updateEnvelope, ha, Heap.deref,
    Heap.setRef, Heap.fuel, Heap.setRefAux, Obj.mapBase, hmod]
  refine ⟨⟨rfl, ?_⟩, ?_⟩ <;> simp only [a1, a2, ha] <;> rfl

end

/-- C70: the control loop of a program that never calls `env.update()` is the undisturbed linear system: the
agent goes straight to the target. -/
theorem C70_straight (c : Loop ℝ) (E : Env) (hE : E.list = []) (hm : c.maxVel = none) (n : ℕ) :
    ∀ (s : Heap ℝ × Agent ℝ), HasEnvelope s.1 s.2 → ∃ s', c.run E n s = .ok s' ∧ s'.2.margin = s.2.margin ∧
      s'.2.state.position = c.target + V3.smul ((1 - c.dt * c.gain) ^ n) (s.2.state.position - c.target) := by
  induction n with
  | zero =>
    intro s _
    refine ⟨s, rfl, rfl, ?_⟩
    ext <;> simp only [V3.smul, V3.add_x, V3.add_y, V3.add_z, V3.sub_x, V3.sub_y, V3.sub_z] <;> ring
  | succ n ih =>
    intro s hs
    obtain ⟨s1, h1, h2, h3, h4⟩ := C70_iterate_empty c E hE (c.desired s.2.state.position) s hs
    obtain ⟨s', h5, h6, h7⟩ := ih s1 h2
    refine ⟨s', by rw [Loop.run, h1]; exact h5, by rw [h6, h3], ?_⟩
    rw [h7, h4]
    simp only [Loop.limit, hm, Loop.desired]
    ext <;> simp only [V3.smul, V3.add_x, V3.add_y, V3.add_z, V3.sub_x, V3.sub_y, V3.sub_z] <;> ring

/-- The obstacle of testMovingObstacle.cpp after `n` iterations and the agent. -/
theorem moving_run (E : Env) (hE : E.list = []) (hf : Env.find E.map "w1" = some 0) (n : ℕ) :
    ∀ (o en : Ellipsoid ℝ) (a : Agent ℝ), a.envelope = some 1 →
    (∀ k ≤ n, V3.norm (V3.smul ((99 / 100) ^ k) (a.state.position - ⟨0, 1 / 10, 0⟩)) ≤ 100) →
    ∃ o' en' a', (Moving.loop : Loop ℝ).runMoving E "w1" ⟨-5, 0, 0⟩ n ([.ellipsoid o, .ellipsoid en], a) =
        .ok ([.ellipsoid o', .ellipsoid en'], a') ∧ a'.margin = a.margin ∧
      a'.state.position = ⟨0, 1 / 10, 0⟩ + V3.smul ((99 / 100) ^ n) (a.state.position - ⟨0, 1 / 10, 0⟩) ∧
      o'.axis = o.axis ∧ o'.curv = o.curv ∧ o'.base.margin = o.base.margin ∧
      o'.base.pose.orientation = o.base.pose.orientation ∧
      o'.base.pose.position = ⟨-5, 0, 0⟩ + V3.smul ((99 / 100) ^ n) (o.base.pose.position - ⟨-5, 0, 0⟩) := by
  induction n with
  | zero =>
    intro o en a _ _
    refine ⟨o, en, a, rfl, rfl, ?_, rfl, rfl, rfl, rfl, ?_⟩ <;>
      ext <;> simp only [V3.smul, V3.add_x, V3.add_y, V3.add_z, V3.sub_x, V3.sub_y, V3.sub_z] <;> ring
  | succ n ih =>
    intro o en a ha hb
    obtain ⟨en1, a1, h1, ha1, hm1, hp1⟩ := moving_step (Moving.loop : Loop ℝ) E hE "w1" hf ⟨-5, 0, 0⟩ o en a ha
    have hg : (Moving.loop : Loop ℝ).gain = 1 := rfl
    have ht : (Moving.loop : Loop ℝ).dt = 1 / 100 := by norm_num [Moving.loop]
    have hta : (Moving.loop : Loop ℝ).target = ⟨0, 1 / 10, 0⟩ := by ext <;> norm_num [Moving.loop]
    have hlim : (Moving.loop : Loop ℝ).limit ((Moving.loop : Loop ℝ).desired a.state.position) =
        (Moving.loop : Loop ℝ).desired a.state.position := by
      have hv : V3.norm ((Moving.loop : Loop ℝ).desired a.state.position) ≤ 100 := by
        have := hb 0 (Nat.zero_le _)
        rw [Loop.desired, hg, hta, V3.norm_smul]
        rw [pow_zero, V3.norm_smul] at this
        simpa using this
      show (if _ then _ else _) = _
      rw [if_neg]
      rw [show (lit 100 1 : ℝ) = 100 by simp]
      exact not_lt.mpr hv
    rw [hlim, Loop.desired, hg, ht, hta] at hp1
    have hp1' : a1.state.position - ⟨0, 1 / 10, 0⟩ = V3.smul (99 / 100) (a.state.position - ⟨0, 1 / 10, 0⟩) := by
      rw [hp1]
      ext <;> simp only [V3.smul, V3.add_x, V3.add_y, V3.add_z, V3.sub_x, V3.sub_y, V3.sub_z] <;> ring
    obtain ⟨o', en', a', h2, h3, h4, h5, h6, h7, h8, h9⟩ := ih (advanced Moving.loop ⟨-5, 0, 0⟩ o) en1 a1 ha1 (by
      intro k hk
      have := hb (k + 1) (Nat.succ_le_succ hk)
      rw [hp1']
      rw [show V3.smul ((99 / 100) ^ k) (V3.smul (99 / 100) (a.state.position - ⟨0, 1 / 10, 0⟩)) =
        V3.smul ((99 / 100) ^ (k + 1)) (a.state.position - ⟨0, 1 / 10, 0⟩) by
          ext <;> simp only [V3.smul] <;> ring]
      exact this)
    refine ⟨o', en', a', by rw [Loop.runMoving, h1]; exact h2, by rw [h3, hm1], ?_, h5, h6, h7, h8, ?_⟩
    · rw [h4, hp1']
      ext <;> simp only [V3.smul, V3.add_x, V3.add_y, V3.add_z, V3.sub_x, V3.sub_y, V3.sub_z] <;> ring
    · rw [h9]
      simp only [advanced, Base.pose, State.setPosition,
        State.setLinearVelocity, Base.position, State.position, hg, ht, Pose.setPosition]
      ext <;> simp only [V3.smul, V3.add_x, V3.add_y, V3.add_z, V3.sub_x, V3.sub_y, V3.sub_z] <;> ring

/-- C70: what testMovingObstacle.cpp does. The obstacle passes over the agent: after 69 iterations the agent is
well inside the obstacle (without margins). -/
theorem C70_negation_moving : ∃ o' en' a', Moving.program (α := ℝ) 69 = .ok ([.ellipsoid o', .ellipsoid en'], a') ∧
    a'.margin = 1 / 10 ∧
    1 < gdist (Moving.obstacle : Ellipsoid ℝ) (1 / 10) (Moving.start (α := ℝ)).2.state.position ∧
    gdist o' (1 / 10) a'.state.position < 1 / 100 := by
  obtain ⟨E, hE⟩ : ∃ E, Moving.env [.ellipsoid (Moving.obstacle : Ellipsoid ℝ)] = .ok E := ⟨_, rfl⟩
  have hl : E.list = [] := C70_list_empty _ _ _ _ hE
  have hf : Env.find E.map "w1" = some 0 := by cases hE; rfl
  obtain ⟨o', en', a', h1, h2, h3, h4, h5, h6, h7, h8⟩ := moving_run E hl hf 69 Moving.obstacle
    ((match (Agent.newEnvelope V3.zero : Obj ℝ) with | .ellipsoid e => e | _ => Moving.obstacle))
    (Moving.start (α := ℝ)).2 rfl (by
      intro k _
      rw [V3.norm_smul, abs_of_nonneg (by positivity)]
      have h1 : ((99 : ℝ) / 100) ^ k ≤ 1 := pow_le_one₀ (by norm_num) (by norm_num)
      have h2 : V3.norm ((Moving.start (α := ℝ)).2.state.position - ⟨0, 1 / 10, 0⟩) ≤ 1 := by
        rw [V3.norm, CMath.sqrt]
        show Real.sqrt _ ≤ 1
        rw [Real.sqrt_le_left (by norm_num), one_pow]
        norm_num [Moving.start, Agent.mk2, State.ofPosition, State.position, Pose.ofPosition, V3.sqNorm, V3.dot]
      nlinarith [V3.norm_nonneg ((Moving.start (α := ℝ)).2.state.position - ⟨0, 1 / 10, 0⟩)])
  have key : ∀ (o : Ellipsoid ℝ), o.axis = (Moving.obstacle : Ellipsoid ℝ).axis →
      o.curv = (Moving.obstacle : Ellipsoid ℝ).curv → o.base.margin = (Moving.obstacle : Ellipsoid ℝ).base.margin →
      o.base.pose.orientation = (Moving.obstacle : Ellipsoid ℝ).base.pose.orientation → ∀ x,
      gdist o (1 / 10) x = level ⟨12 / 10, 16 / 10, 1 / 10⟩ 1 1 1 (x - o.base.pose.position) := by
    intro o e1 e2 e3 e4 x
    have hc : HasCurv o 1 1 1 := by simp [HasCurv, e2, Moving.obstacle, Ellipsoid.ofBase, V3.const]
    have hL : halfLengths o (V3.const (1 / 10)) = ⟨12 / 10, 16 / 10, 1 / 10⟩ := by
      ext <;> norm_num [halfLengths, e1, e3, Moving.obstacle, Ellipsoid.ofBase, Base.mkState, V3.const]
    rw [gdist, distance_frame o _ _ 1 1 1 hc (by rw [hL]; norm_num [AllGt]), hL]
    congr 1
    simp only [Pose.inverse, Pose.apply, e4]
    ext <;> simp [Moving.obstacle, Ellipsoid.ofBase, Base.mkState, Base.pose, State.ofPosition, Pose.ofPosition, Quat.one,
      Quat.conjugate, Quat.rotate, Quat.vec, V3.cross, V3.smul] <;> ring
  refine ⟨o', en', a', ?_, ?_, ?_, ?_⟩
  · unfold Moving.program
    rw [hE]
    rw [show (⟨-5, 0, 0⟩ : V3 ℝ) = ⟨-lit 5 1, 0, 0⟩ by ext <;> simp] at h1
    exact h1
  · rw [h2]; norm_num [Moving.start, Agent.mk2]
  · rw [key Moving.obstacle rfl rfl rfl rfl]
    norm_num [level, Moving.obstacle, Ellipsoid.ofBase, Base.mkState, Base.pose, State.ofPosition, Pose.ofPosition,
      Moving.start, Agent.mk2, State.position]
  · rw [key o' h4 h5 h6 h7, h8, h3]
    norm_num [level, Moving.obstacle, Ellipsoid.ofBase, Base.mkState, Base.pose, State.ofPosition, Pose.ofPosition,
      Moving.start, Agent.mk2, State.position, V3.smul]

theorem kit_env : ∃ E, KIT.env (KIT.heap (α := ℝ)) = .ok E ∧ E.list = [] := by
  have h : ∃ E, KIT.env (KIT.heap (α := ℝ)) = .ok E := by
    refine ⟨_, rfl⟩
  obtain ⟨E, hE⟩ := h
  exact ⟨E, hE, C70_list_empty _ _ _ _ hE⟩

theorem level_le {L y : V3 ℝ} {l : ℝ} (hl : 0 < l) (hx : l ≤ L.x) (hy : l ≤ L.y) (hz : l ≤ L.z) :
    level L 1 1 1 y ≤ V3.sqNorm y / l ^ 2 := by
  have key : ∀ a b : ℝ, l ≤ b → (a / b) ^ (2 * 1) ≤ a * a / l ^ 2 := by
    intro a b hb
    rw [div_pow, mul_one, ← sq]
    refine div_le_div_of_nonneg_left (sq_nonneg a) (by positivity) ?_
    nlinarith
  have k1 := key y.x L.x hx
  have k2 := key y.y L.y hy
  have k3 := key y.z L.z hz
  simp only [level, V3.sqNorm, V3.dot]
  rw [add_div, add_div]
  linarith

theorem le_level {L y : V3 ℝ} {l : ℝ} (hl : AllGt L 0) (hx : L.x ≤ l) (hy : L.y ≤ l) (hz : L.z ≤ l) :
    V3.sqNorm y / l ^ 2 ≤ level L 1 1 1 y := by
  obtain ⟨p1, p2, p3⟩ := hl
  have key : ∀ a b : ℝ, 0 < b → b ≤ l → a * a / l ^ 2 ≤ (a / b) ^ (2 * 1) := by
    intro a b h0 hb
    rw [div_pow, mul_one, ← sq]
    refine div_le_div_of_nonneg_left (sq_nonneg a) (by positivity) ?_
    nlinarith
  have k1 := key y.x L.x p1 hx
  have k2 := key y.y L.y p2 hy
  have k3 := key y.z L.z p3 hz
  simp only [level, V3.sqNorm, V3.dot]
  rw [add_div, add_div]
  linarith

/-- obstacle e5 of testKIT.cpp -/
noncomputable def kitE5 : Ellipsoid ℝ :=
  KIT.obstacle "e5" ⟨lit 37 10, lit 47 10, 0⟩ (lit 75 100) ⟨lit 55 100, lit 3 10, 0⟩

theorem kitE5_level (x : V3 ℝ) :
    gdist kitE5 (6 / 10) x = level ⟨115 / 100, 9 / 10, 6 / 10⟩ 1 1 1 (kitE5.base.pose.inverse.apply x) ∧
      V3.sqNorm (kitE5.base.pose.inverse.apply x) = V3.sqNorm (x - ⟨37 / 10, 47 / 10, 0⟩) := by
  have hu : kitE5.base.pose.orientation.IsUnit := by
    apply Pose.fixOrientation_unit
    · intro h0
      have h1 := ofAngleZ_unit (lit 75 100)
      rw [h0] at h1
      simp [Quat.IsUnit, Quat.sqNorm] at h1
    · have h1 := ofAngleZ_unit (lit 75 100)
      unfold Quat.IsUnit at h1
      rw [Quat.norm, h1]
      norm_num [CMath.sqrt]
  have hc : HasCurv kitE5 1 1 1 := by simp [HasCurv, kitE5, KIT.obstacle, Ellipsoid.ofBase, V3.const]
  have hL : halfLengths kitE5 (V3.const (6 / 10)) = ⟨115 / 100, 9 / 10, 6 / 10⟩ := by
    ext <;> norm_num [halfLengths, kitE5, KIT.obstacle, Ellipsoid.ofBase, Base.mkState, V3.const]
  constructor
  · rw [gdist, distance_frame kitE5 _ _ 1 1 1 hc (by rw [hL]; norm_num [AllGt]), hL]
  · have hp : kitE5.base.pose.position = ⟨37 / 10, 47 / 10, 0⟩ := by
      ext <;> norm_num [kitE5, KIT.obstacle, Ellipsoid.ofBase, Base.mkState, Base.pose, State.mk2, Pose.mk2]
    have e1 : kitE5.base.pose.inverse.apply x =
        kitE5.base.pose.orientation.conjugate.rotate (x - ⟨37 / 10, 47 / 10, 0⟩) := by
      rw [← hp]
      simp only [Pose.apply, Pose.inverse]
      rw [← Quat.rotate_add]
      rfl
    rw [e1, ← V3.norm_sq, ← V3.norm_sq, Quat.norm_rotate hu.conjugate]

/-- C70: what testKIT.cpp does. The agent starts outside the safety region of obstacle e5 (margin 0.6) and
after 109 iterations it is inside it: the obstacles are never taken into account. -/
theorem C70_negation_kit : ∃ s', KIT.program (α := ℝ) 109 = .ok s' ∧ s'.2.margin = 6 / 10 ∧
    1 < gdist kitE5 (6 / 10) (KIT.start (α := ℝ)).2.state.position ∧
    gdist kitE5 (6 / 10) s'.2.state.position < 1 := by
  obtain ⟨E, hE, hl⟩ := kit_env
  obtain ⟨s', h1, h2, h3⟩ := C70_straight (KIT.loop (α := ℝ)) E hl rfl 109 KIT.start
    ⟨_, _, rfl, by simp [KIT.start, Agent.mk2, Agent.newEnvelope]; rfl⟩
  refine ⟨s', ?_, ?_, ?_, ?_⟩
  · unfold KIT.program
    rw [hE]
    exact h1
  · rw [h2]; norm_num [KIT.start, Agent.mk2]
  · obtain ⟨e1, e2⟩ := kitE5_level (KIT.start (α := ℝ)).2.state.position
    rw [e1]
    refine lt_of_lt_of_le ?_ (le_level (l := 115 / 100) (by norm_num [AllGt]) (by norm_num) (by norm_num) (by norm_num))
    rw [e2]
    norm_num [KIT.start, Agent.mk2, State.ofPosition, State.position, Pose.ofPosition, V3.sqNorm, V3.dot]
  · obtain ⟨e1, e2⟩ := kitE5_level s'.2.state.position
    rw [e1]
    refine lt_of_le_of_lt (level_le (l := 6 / 10) (by norm_num) (by norm_num) (by norm_num) (by norm_num)) ?_
    rw [e2, h3]
    norm_num [KIT.start, Agent.mk2, State.ofPosition, State.position, Pose.ofPosition, V3.sqNorm, V3.dot, V3.smul,
      KIT.loop]

end DOA.Props
