import Verif.Props.HullMoving
import Verif.Props.Speed

/-!
# C106: an agent inside an obstacle gets out again

An agent may find itself inside an obstacle: an obstacle appears or grows at its place, or its first position is given
so. With repulsion the loop brings it out after a number of iterations that is known in advance, and keeps it out
from then on (one obstacle at rest). Without repulsion, and between two obstacles, it can be stuck for ever.
-/

set_option linter.unusedSectionVars false
set_option linter.unusedSimpArgs false

namespace DOA.Props
open DOA DOA.Spec DOA.Modulation DOA.Ellipsoid DOA.Hull

/-- Inside the obstacle the repulsion is longer than its threshold and pushes outwards. -/
theorem inner_push {e : Ellipsoid ℝ} {m l η : ℝ} {k : ℕ} (sm : Smooth e m k) (th : Thick e m l) {x ref : V3 ℝ}
    (hlong : k / 10 ^ 4 < η * l) (hd : 0 < gdist e m x) (hf0 : gdist e m ref ≤ (1 - η) * gdist e m x)
    (hin : gdist e m x ≤ 1) :
    1 / 10000 < V3.norm (V3.smul (2 / gdist e m x) (x - ref)) ∧
      ∀ σ, Slope e m x (V3.smul (2 / gdist e m x) (x - ref)) σ → 2 * η ≤ σ := by
  have hl := th.1
  have hk1 : (1 : ℝ) ≤ k := by exact_mod_cast sm.curv.2.1
  have hτ := slope_level sm x (x - ref)
  generalize dlevel (halfLengths e (V3.const m)) k (e.base.pose.inverse.apply x)
      (e.base.pose.orientation.conjugate.toM3.mulVec (x - ref)) = τ at hτ
  have hτ' : η * gdist e m x ≤ τ := by
    have h1 := gdist_tangent sm (slope_smul sm (-1) hτ)
    have e3 : x + V3.smul (-1) (x - ref) = ref := by
      ext <;> simp only [V3.smul, V3.add_x, V3.add_y, V3.add_z, V3.sub_x, V3.sub_y, V3.sub_z] <;> ring
    rw [e3] at h1
    linarith
  have hτb := slope_bound sm hτ hl th.2.1 th.2.2.1 th.2.2.2
  rw [max_eq_left hin, mul_one] at hτb
  have hσ : ∀ σ, Slope e m x (V3.smul (2 / gdist e m x) (x - ref)) σ → σ = 2 / gdist e m x * τ :=
    fun σ h => h.unique (slope_smul sm _ hτ)
  refine ⟨?_, fun σ h => ?_⟩
  · rw [V3.norm_smul, abs_of_pos (by positivity)]
    clear hσ hτ hf0
    generalize V3.norm (x - ref) = N at *
    generalize gdist e m x = f at *
    have h1 : η * f * l ≤ 2 * k * N := by
      have h2 := le_trans hτ' (le_trans (le_abs_self τ) hτb)
      have h3 := mul_le_mul_of_nonneg_right h2 hl.le
      refine le_trans h3 (le_of_eq ?_)
      field_simp
    have h4 := mul_lt_mul_of_pos_right hlong hd
    have h6 : k * (1 / 10 ^ 4 * f) < k * (2 * N) := by linarith
    have h7 := lt_of_mul_lt_mul_left h6 (by linarith)
    rw [div_mul_eq_mul_div, lt_div_iff₀ hd]
    linarith
  · rw [hσ σ h, div_mul_eq_mul_div, le_div_iff₀ hd]
    linarith

/-- The iteration without limit of the speed and the one with it use the same modulated velocity. -/
theorem iterate_limited {c : Loop ℝ} {E : Env} {v : V3 ℝ} {s s0 s1 : Heap ℝ × Agent ℝ}
    (h0 : ({ c with maxVel := none } : Loop ℝ).iterate E v s = .ok s0) (h1 : c.iterate E v s = .ok s1) :
    ∃ w, s0.2.state.position = s.2.state.position + V3.smul c.dt w ∧
      s1.2.state.position = s.2.state.position + V3.smul c.dt (c.limit w) := by
  unfold Loop.iterate at h0 h1
  simp only [Res.bind_eq_ok] at h0 h1
  obtain ⟨a, ha, r, hr, h0⟩ := h0
  obtain ⟨a', ha', r', hr', h1⟩ := h1
  rw [ha] at ha'
  cases ha'
  rw [hr] at hr'
  cases hr'
  simp only [Agent.setPosition, Agent.withState, Res.bind_eq_ok] at h0 h1
  obtain ⟨_, -, h0⟩ := h0
  obtain ⟨_, -, h1⟩ := h1
  cases h0
  cases h1
  exact ⟨r.2, rfl, rfl⟩

/-- The limit leaves at least the part `γ` of a velocity not longer than `W`, if it is at least `γ·W`. -/
theorem limit_ge {c : Loop ℝ} {w : V3 ℝ} {γ W : ℝ} (hγ0 : 0 ≤ γ) (hγ : γ ≤ 1) (hw : V3.norm w ≤ W)
    (hV : ∀ V, c.maxVel = some V → γ * W ≤ V) : ∃ g, γ ≤ g ∧ c.limit w = V3.smul g w := by
  have h1 : w = V3.smul 1 w := by ext <;> simp [V3.smul]
  unfold Loop.limit
  cases hm : c.maxVel with
  | none => exact ⟨1, hγ, h1⟩
  | some V =>
    simp only []
    have hV0 := hV V hm
    have h2 := mul_le_mul_of_nonneg_left hw hγ0
    split
    · rcases eq_or_ne w V3.zero with rfl | hw0
      · refine ⟨1, hγ, ?_⟩
        have hz : (V3.zero : V3 ℝ).normalized = V3.zero := by simp [V3.normalized, V3.sqNorm, V3.dot, V3.zero]
        rw [hz]
        ext <;> simp [V3.smul, V3.zero]
      have hp := V3.norm_pos hw0
      refine ⟨V / V3.norm w, by rw [le_div_iff₀ hp]; linarith, ?_⟩
      rw [V3.normalized_of_ne hw0]
      ext <;> simp only [V3.smul] <;> ring
    · exact ⟨1, hγ, h1⟩

/-- One iteration inside the obstacle: the distance grows at least by `dt·γ·η`, if the limit of the speed (if there is one) is at
least the part `γ` of the speed. -/
theorem iterate_rise {c : Loop ℝ} {E : Env} {e : Ellipsoid ℝ} {p : Ptr} {m l η γ : ℝ} {k : ℕ} {ref : V3 ℝ}
    (hc : LoopSetup c E e p m l k ref) (hrep : c.addRepulsion = true) (hη : 0 < η) (hγ0 : 0 ≤ γ) (hγ : γ ≤ 1)
    (hlong : k / 10 ^ 4 < η * l) {s : Heap ℝ × Agent ℝ} (hs : OnLoop e p m s)
    (hd : 0 < gdist e m s.2.state.position) (hf0 : gdist e m ref ≤ (1 - η) * gdist e m s.2.state.position)
    (hin : gdist e m s.2.state.position ≤ 1) (v : V3 ℝ) (hv : v.z = 0)
    (hshort : ∀ M B d, modulationMatrix s.1 s.2 (.ellipsoid e) = .ok (M, B, d) →
      2 * k * (1 / 10 ^ 8 * V3.norm (M.mulVec v)) ≤ η * l ∧
      ∀ V, c.maxVel = some V → γ * ((1 + 1 / 10 ^ 8) * V3.norm (M.mulVec v) + 2 / d * V3.norm (s.2.state.position - ref)) ≤ V) :
    ∃ s1, c.iterate E v s = .ok s1 ∧ OnLoop e p m s1 ∧
      gdist e m s.2.state.position + c.dt * γ * η ≤ gdist e m s1.2.state.position := by
  have hl := hc.thick.1
  have hk : (0 : ℝ) ≤ k := Nat.cast_nonneg k
  have hgt : gdist e m ref < gdist e m s.2.state.position := by nlinarith
  have hc0 : LoopSetup { c with maxVel := none } E e p m l k ref :=
    ⟨hc.list, hc.static, hc.plane, hc.smooth, hc.thick, hc.ref, hc.notLocal, hc.notPlanar, hc.dt, fun V h => by cases h⟩
  obtain ⟨_, _, _, _, _, _, s1, -, -, -, hit, hs1, hpos1, -⟩ := iterate_spec hc hs v hv hgt
  refine ⟨s1, hit, hs1, ?_⟩
  rcases eq_or_lt_of_le hc.dt with hdt | hdt
  · rw [hpos1, ← hdt]
    have : ∀ (q : ℝ) (u : V3 ℝ), s.2.state.position + V3.smul (0 * q) u = s.2.state.position := by
      intro q u; ext <;> simp [V3.smul]
    rw [this]
    simp
  obtain ⟨M, B, err, ρ, σ, g, s0, hg0, hg1, hm, hit0, -, hpos, hsl, herr, -, hρ, hσ, -, hyes, -, hg⟩ :=
    iterate_spec hc0 hs v hv hgt
  obtain ⟨hW, hV⟩ := hshort M B _ hm
  have hg' := hg rfl
  subst hg'
  obtain ⟨hnorm, hpush⟩ := inner_push hc.smooth hc.thick hlong hd hf0 hin
  have hρe := hyes hrep (by linarith) hnorm
  have hσ2 : 2 * η ≤ σ := by
    rw [hρe] at hρ
    exact hpush σ hρ
  obtain ⟨w, hw0, hw1⟩ := iterate_limited hit0 hit
  have hw : w = M.mulVec v + err + ρ := by
    rw [hpos, mul_one] at hw0
    have hx := congrArg V3.x hw0
    have hy := congrArg V3.y hw0
    have hz := congrArg V3.z hw0
    simp only [V3.add_x, V3.add_y, V3.add_z, V3.smul] at hx hy hz
    ext
    · exact (mul_left_cancel₀ hdt.ne' (add_left_cancel hx)).symm
    · exact (mul_left_cancel₀ hdt.ne' (add_left_cancel hy)).symm
    · exact (mul_left_cancel₀ hdt.ne' (add_left_cancel hz)).symm
  have hwn : V3.norm w ≤ (1 + 1 / 10 ^ 8) * V3.norm (M.mulVec v) +
      2 / gdist e m s.2.state.position * V3.norm (s.2.state.position - ref) := by
    have h1 := norm_add_le' (M.mulVec v + err) ρ
    have h2 := norm_add_le' (M.mulVec v) err
    have h3 : V3.norm ρ = 2 / gdist e m s.2.state.position * V3.norm (s.2.state.position - ref) := by
      rw [hρe, V3.norm_smul, abs_of_pos (by positivity)]
    rw [hw]
    linarith
  obtain ⟨g, hgγ, hlim⟩ := limit_ge hγ0 hγ hwn hV
  have hg0' : 0 ≤ g := le_trans hγ0 hgγ
  have hsv := slope_level hc.smooth s.2.state.position v
  have hstep := step_bound hc.smooth hc.thick (mul_nonneg hc.dt hg0') hsv (hsl _ _ hsv) (le_max_left _ _) hρ (err := err)
  have hposg : s1.2.state.position = s.2.state.position + V3.smul (c.dt * g) (M.mulVec v + err + ρ) := by
    rw [hw1, hlim, hw]
    ext <;> simp only [V3.smul, V3.add_x, V3.add_y, V3.add_z] <;> ring
  rw [← hposg] at hstep
  have h0 : max 0 (1 - 1 / gdist e m s.2.state.position) = 0 := by
    rw [max_eq_left]
    rw [sub_nonpos, le_div_iff₀ hd]
    linarith
  rw [h0, max_eq_left hin, mul_one, zero_mul, mul_zero, sub_zero] at hstep
  have h1 : 2 * k * (V3.norm err / l) ≤ η := by
    have h2 := mul_le_mul_of_nonneg_left herr (by positivity : 0 ≤ 2 * (k : ℝ))
    rw [← mul_div_assoc, div_le_iff₀ hl]
    linarith
  have hdg := mul_nonneg hc.dt hg0'
  have h2 := mul_le_mul_of_nonneg_left h1 hdg
  have h3 := mul_le_mul_of_nonneg_left hσ2 hdg
  have h4 := mul_le_mul_of_nonneg_right (mul_le_mul_of_nonneg_left hgγ hc.dt) hη.le
  linarith

theorem run_add (c : Loop ℝ) (E : Env) (j i : ℕ) : ∀ s s' : Heap ℝ × Agent ℝ, c.run E i s = .ok s' →
    c.run E (i + j) s = c.run E j s' := by
  induction i with
  | zero => intro s s' h; cases h; rw [Nat.zero_add]
  | succ i ih =>
    intro s s' h
    rw [Loop.run, Res.bind_eq_ok] at h
    obtain ⟨s1, h1, h2⟩ := h
    rw [show i + 1 + j = (i + j) + 1 by omega, Loop.run, h1, Res.ok_bind]
    exact ih s1 s' h2

/-- C106: an agent inside an ellipsoid at rest, with `1 - f₀/d ≥ η > 0` (`d` the distance function at the agent, `f₀` that
of the reference point), is outside after at most `n` iterations if `n·dt·γ·η > 1 - d`. It does not matter where the target is
and how long the steps are. The conditions are that the modulated speed is not astronomically large, that the
obstacle is not tiny in comparison with the threshold of the repulsion, and that the limit of the speed leaves the part `γ`
of it (`γ = 1` without limit). -/
theorem C106_leaves_partial (c : Loop ℝ) (E : Env) (e : Ellipsoid ℝ) (p : Ptr) (m l η γ : ℝ) (k : ℕ) (ref : V3 ℝ)
    (hc : LoopSetup c E e p m l k ref) (hrep : c.addRepulsion = true) (ht : c.target.z = 0)
    (hη : 0 < η) (hγ0 : 0 ≤ γ) (hγ : γ ≤ 1) (hlong : k / 10 ^ 4 < η * l) (n : ℕ) :
    ∀ (s : Heap ℝ × Agent ℝ), OnLoop e p m s → 0 < gdist e m s.2.state.position →
    gdist e m ref ≤ (1 - η) * gdist e m s.2.state.position →
    (∀ i < n, ∀ s' M B d, c.run E i s = .ok s' → gdist e m s'.2.state.position ≤ 1 →
      modulationMatrix s'.1 s'.2 (.ellipsoid e) = .ok (M, B, d) →
      2 * k * (1 / 10 ^ 8 * V3.norm (M.mulVec (c.desired s'.2.state.position))) ≤ η * l ∧
      ∀ V, c.maxVel = some V → γ * ((1 + 1 / 10 ^ 8) * V3.norm (M.mulVec (c.desired s'.2.state.position)) +
        2 / d * V3.norm (s'.2.state.position - ref)) ≤ V) →
    1 - gdist e m s.2.state.position < n * (c.dt * γ * η) →
    ∃ i ≤ n, ∃ s', c.run E i s = .ok s' ∧ OnLoop e p m s' ∧ 1 < gdist e m s'.2.state.position := by
  induction n with
  | zero => intro s hs _ _ _ h1; exact ⟨0, le_refl _, s, rfl, hs, by simp at h1; exact h1⟩
  | succ n ih =>
    intro s hs hd hf0 hshort h1
    rcases lt_or_ge 1 (gdist e m s.2.state.position) with hout | hin
    · exact ⟨0, Nat.zero_le _, s, rfl, hs, hout⟩
    obtain ⟨s1, hit, hs1, key⟩ := iterate_rise hc hrep hη hγ0 hγ hlong hs hd hf0 hin (c.desired s.2.state.position)
      (desired_flat c ht hs.flat) (fun M B d hm => hshort 0 (Nat.succ_pos n) s M B d rfl hin hm)
    have hstep := mul_nonneg (mul_nonneg hc.dt hγ0) hη.le
    have hf00 : 0 ≤ gdist e m ref := by
      rw [gdist, distance_frame e _ _ k k k hc.smooth.curv hc.smooth.long]; exact level_nonneg _ _ _ _ _
    have hη1 : 0 ≤ 1 - η := by
      by_contra hn
      have := mul_neg_of_neg_of_pos (not_le.mp hn) hd
      linarith
    obtain ⟨i, hi, s', h2, h3, h4⟩ := ih s1 hs1 (by linarith)
      (le_trans hf0 (mul_le_mul_of_nonneg_left (by linarith) hη1)) (by
        intro i hi s' M B d h1 h2 h3
        refine hshort (i + 1) (Nat.succ_lt_succ hi) s' M B d ?_ h2 h3
        rw [Loop.run, hit]
        exact h1) (by push_cast at h1; linarith)
    exact ⟨i + 1, Nat.succ_le_succ hi, s', by rw [Loop.run, hit]; exact h2, h3, h4⟩

/-- C106, to the end: after `n` iterations the agent is outside, if it can leave in that time and satisfies the conditions of
C69 when it is outside. -/
theorem C106_stays_partial (c : Loop ℝ) (E : Env) (e : Ellipsoid ℝ) (p : Ptr) (m l η γ : ℝ) (k : ℕ) (ref : V3 ℝ)
    (hc : LoopSetup c E e p m l k ref) (hrep : c.addRepulsion = true) (ht : c.target.z = 0)
    (hη : 0 < η) (hγ0 : 0 ≤ γ) (hγ : γ ≤ 1) (hlong : k / 10 ^ 4 < η * l) (hin : 121 / 10 ^ 6 * k < (1 - gdist e m ref) * l) (n : ℕ)
    (s : Heap ℝ × Agent ℝ) (hs : OnLoop e p m s) (hd : 0 < gdist e m s.2.state.position)
    (hf0 : gdist e m ref ≤ (1 - η) * gdist e m s.2.state.position)
    (hshort : ∀ i < n, ∀ s' M B d, c.run E i s = .ok s' → modulationMatrix s'.1 s'.2 (.ellipsoid e) = .ok (M, B, d) →
      (2 * k * (1 / 10 ^ 8 * V3.norm (M.mulVec (c.desired s'.2.state.position))) ≤ η * l ∧
      ∀ V, c.maxVel = some V → γ * ((1 + 1 / 10 ^ 8) * V3.norm (M.mulVec (c.desired s'.2.state.position)) +
        2 / d * V3.norm (s'.2.state.position - ref)) ≤ V) ∧
      2 * k * (c.dt * (V3.norm (c.desired s'.2.state.position) +
        11 / 10 ^ 8 * V3.norm (M.mulVec (c.desired s'.2.state.position)))) < l ∧
      11 / 10 * (k * (1 / 10 ^ 8 * V3.norm (M.mulVec (c.desired s'.2.state.position)))) ≤ (1 - gdist e m ref) * l)
    (htime : 1 - gdist e m s.2.state.position < n * (c.dt * γ * η)) :
    ∃ s', c.run E n s = .ok s' ∧ OnLoop e p m s' ∧ 1 < gdist e m s'.2.state.position := by
  obtain ⟨i, hi, s1, h1, h2, h3⟩ := C106_leaves_partial c E e p m l η γ k ref hc hrep ht hη hγ0 hγ hlong n s hs hd hf0
    (fun i hi s' M B d h1 _ h3 => (hshort i hi s' M B d h1 h3).1) htime
  obtain ⟨s', h4, h5, h6⟩ := C69_loop_repulsion c E e p m l k ref hc hrep ht hin (n - i) s1 h2 h3
    (fun j hj s' M B d h4 h5 => (hshort (i + j) (by omega) s' M B d (by rw [run_add c E j i s s1 h1]; exact h4) h5).2)
  refine ⟨s', ?_, h5, h6⟩
  rw [← h4, ← run_add c E (n - i) i s s1 h1]
  congr 1
  omega

/-- C106 with explicit conditions, for a reference point at the centre: the agent leaves within the time `(1 - d)/γ` (that is, in
less than one unit of time without limit of the speed, wherever it is, whatever the obstacle looks like and whatever the steps
are). `l`, `L` are the smallest half length and the largest one in the plane. -/
theorem C106_leaves_explicit_partial (c : Loop ℝ) (E : Env) (e : Ellipsoid ℝ) (p : Ptr) (m l L κ γ : ℝ) (k : ℕ)
    (hc : LoopSetup c E e p m l k e.base.position) (hb : Between e m l L) (hκ : Aspect l L κ k)
    (hrep : c.addRepulsion = true) (hγ0 : 0 ≤ γ) (hγ : γ ≤ 1) (ht : c.target.z = 0) (hlong : k / 10 ^ 4 < l)
    (hfast : 4 * k * κ * (|c.gain| * (3 / 2 * L + V3.norm (e.base.position - c.target))) ≤ 10 ^ 8 * l)
    (s : Heap ℝ × Agent ℝ) (hs : OnLoop e p m s) (hd : 0 < gdist e m s.2.state.position)
    (hV : ∀ V, c.maxVel = some V → γ * ((1 + 1 / 10 ^ 8) * (2 * κ * (|c.gain| * (3 / 2 * L + V3.norm (e.base.position - c.target)))) +
      3 * L / gdist e m s.2.state.position) ≤ V) (n : ℕ)
    (htime : 1 - gdist e m s.2.state.position < n * (c.dt * γ)) :
    ∃ i ≤ n, ∃ s', c.run E i s = .ok s' ∧ OnLoop e p m s' ∧ 1 < gdist e m s'.2.state.position := by
  have hL : 0 < L := lt_of_lt_of_le hb.pos (le_trans hb.x_ge hb.x_le)
  have step : ∀ t : Heap ℝ × Agent ℝ, OnLoop e p m t → gdist e m s.2.state.position ≤ gdist e m t.2.state.position →
      gdist e m t.2.state.position ≤ 1 →
      ∀ M B d, modulationMatrix t.1 t.2 (.ellipsoid e) = .ok (M, B, d) →
      2 * k * (1 / 10 ^ 8 * V3.norm (M.mulVec (c.desired t.2.state.position))) ≤ 1 * l ∧
      ∀ V, c.maxVel = some V → γ * ((1 + 1 / 10 ^ 8) * V3.norm (M.mulVec (c.desired t.2.state.position)) +
        2 / d * V3.norm (t.2.state.position - e.base.position)) ≤ V := by
    intro t ht' hdt hin' M B d hM
    have hd' : 0 < gdist e m t.2.state.position := lt_of_lt_of_le hd hdt
    have hmar := ht'.margin
    obtain ⟨M', B', h1, h2⟩ := C75_speed_partial t.1 t.2 e k l L κ (by rw [hmar]; exact hc.smooth) (by rw [hmar]; exact hb) hκ
      hc.ref (hc.inPlane ht'.flat) (by rw [hmar]; exact hd')
    rw [hM] at h1
    simp only [Res.ok.injEq, Prod.mk.injEq] at h1
    obtain ⟨rfl, -, rfl⟩ := h1
    have h3 := h2 (c.desired t.2.state.position)
    have h4 := near_centre hc.smooth hb (plane_of hc.smooth hc.plane ht'.flat).2 (T := 1) (le_refl _) hin'
    have h5 : V3.norm (c.desired t.2.state.position) ≤
        |c.gain| * (3 / 2 * L + V3.norm (e.base.position - c.target)) := by
      have e1 : t.2.state.position - c.target = (t.2.state.position - e.base.position) + (e.base.position - c.target) := by
        v3_ring
      have e2 : V3.norm (c.desired t.2.state.position) = |c.gain| * V3.norm (t.2.state.position - c.target) := by
        simp only [Loop.desired, V3.norm_smul, abs_neg]
      rw [e2, e1]
      refine mul_le_mul_of_nonneg_left ?_ (abs_nonneg _)
      have := norm_add_le' (t.2.state.position - e.base.position) (e.base.position - c.target)
      linarith
    have hk : (0 : ℝ) ≤ k := Nat.cast_nonneg k
    have h7 := le_trans h3 (mul_le_mul_of_nonneg_left h5 (by linarith [hκ.1]))
    have h6 := mul_le_mul_of_nonneg_left h7 hk
    refine ⟨by linarith, fun V hVe => le_trans (mul_le_mul_of_nonneg_left ?_ hγ0) (hV V hVe)⟩
    refine add_le_add (mul_le_mul_of_nonneg_left h7 (by norm_num)) ?_
    rw [hmar]
    have h8 : 2 / gdist e m t.2.state.position ≤ 2 / gdist e m s.2.state.position :=
      div_le_div_of_nonneg_left (by norm_num) hd hdt
    refine le_trans (mul_le_mul h8 h4 (V3.norm_nonneg _) (by positivity)) (le_of_eq ?_)
    field_simp
  have hc0 := gdist_centre hc.smooth
  clear hfast hκ hV
  suffices H : ∀ n : ℕ, ∀ t : Heap ℝ × Agent ℝ, OnLoop e p m t → gdist e m s.2.state.position ≤ gdist e m t.2.state.position →
      1 - gdist e m t.2.state.position < n * (c.dt * γ) →
      ∃ i ≤ n, ∃ s', c.run E i t = .ok s' ∧ OnLoop e p m s' ∧ 1 < gdist e m s'.2.state.position from
    H n s hs (le_refl _) htime
  clear htime n
  intro n
  induction n with
  | zero => intro t hot _ htime; exact ⟨0, le_refl _, t, rfl, hot, by simp at htime; exact htime⟩
  | succ n ih =>
    intro t hot hdt htime
    rcases lt_or_ge 1 (gdist e m t.2.state.position) with hout | hin
    · exact ⟨0, Nat.zero_le _, t, rfl, hot, hout⟩
    obtain ⟨s1, hit, hs1, key⟩ := iterate_rise hc hrep one_pos hγ0 hγ (by linarith) hot (lt_of_lt_of_le hd hdt)
      (by rw [hc0]; simp) hin (c.desired t.2.state.position) (desired_flat c ht hot.flat) (step t hot hdt hin)
    have := mul_nonneg hc.dt hγ0
    obtain ⟨i, hi, s', h2, h3, h4⟩ := ih s1 hs1 (by linarith) (by push_cast at htime; linarith)
    exact ⟨i + 1, Nat.succ_le_succ hi, s', by rw [Loop.run, hit]; exact h2, h3, h4⟩

/-- Non-vacuity: the agent at (1/2, 0, 0) in the unit ball, with the target (−3, 0, 0) on the other side of the centre: it is
outside after at most 76 steps of 1/100. -/
example : ∃ i ≤ 76, ∃ s', (axisLoop true).run (envOf [0]) i
    ([.ellipsoid (ball V3.zero), .ellipsoid (ball V3.zero)], { agentAt ⟨1 / 2, 0, 0⟩ V3.zero with envelope := some 1 }) = .ok s' ∧
      OnLoop (ball V3.zero) 0 0 s' ∧ 1 < gdist (ball V3.zero) 0 s'.2.state.position := by
  have hd : gdist (ball V3.zero) 0 ⟨1 / 2, 0, 0⟩ = 1 / 4 := by rw [ball_dist]; norm_num
  have hn : V3.norm ((ball V3.zero).base.position - (axisLoop true).target) = 3 := by
    have e1 : (ball V3.zero).base.position - (axisLoop true).target = ⟨3, 0, 0⟩ := by
      ext <;> simp [ball, Ellipsoid.ofBase, Base.mkRef, State.ofPosition, Pose.ofPosition, Base.position, State.position, V3.zero,
        axisLoop]
    rw [e1]
    show Real.sqrt (3 * 3 + 0 * 0 + 0 * 0) = 3
    rw [show (3 * 3 + 0 * 0 + 0 * 0 : ℝ) = 3 ^ 2 by norm_num, Real.sqrt_sq (by norm_num)]
  refine C106_leaves_explicit_partial (axisLoop true) (envOf [0]) (ball V3.zero) 0 0 1 1 1 1 1 (axis_setup true) ball_between
    ball_aspect rfl zero_le_one (le_refl _) rfl (by norm_num) ?_ _ ⟨rfl, ⟨1, ball V3.zero, by decide, rfl, rfl⟩, rfl, rfl⟩ ?_
    (fun V h => by cases h) 76 ?_
  · rw [hn]; norm_num [axisLoop]
  · show 0 < gdist (ball V3.zero) 0 ⟨1 / 2, 0, 0⟩
    rw [hd]; norm_num
  · show 1 - gdist (ball V3.zero) 0 ⟨1 / 2, 0, 0⟩ < _
    rw [hd]; norm_num [axisLoop]

/-- Non-vacuity, with the limit 1 of the speed: 1651 steps. -/
example : ∃ i ≤ 1651, ∃ s', ({ axisLoop true with maxVel := some 1 } : Loop ℝ).run (envOf [0]) i
    ([.ellipsoid (ball V3.zero), .ellipsoid (ball V3.zero)], { agentAt ⟨1 / 2, 0, 0⟩ V3.zero with envelope := some 1 }) = .ok s' ∧
      OnLoop (ball V3.zero) 0 0 s' ∧ 1 < gdist (ball V3.zero) 0 s'.2.state.position := by
  have hd : gdist (ball V3.zero) 0 ⟨1 / 2, 0, 0⟩ = 1 / 4 := by rw [ball_dist]; norm_num
  have hn : V3.norm ((ball V3.zero).base.position - (axisLoop true).target) = 3 := by
    have e1 : (ball V3.zero).base.position - (axisLoop true).target = ⟨3, 0, 0⟩ := by
      ext <;> simp [ball, Ellipsoid.ofBase, Base.mkRef, State.ofPosition, Pose.ofPosition, Base.position, State.position, V3.zero,
        axisLoop]
    rw [e1]
    show Real.sqrt (3 * 3 + 0 * 0 + 0 * 0) = 3
    rw [show (3 * 3 + 0 * 0 + 0 * 0 : ℝ) = 3 ^ 2 by norm_num, Real.sqrt_sq (by norm_num)]
  have hs := axis_setup true
  refine C106_leaves_explicit_partial { axisLoop true with maxVel := some 1 } (envOf [0]) (ball V3.zero) 0 0 1 1 1 (1 / 22) 1
    ⟨hs.list, hs.static, hs.plane, hs.smooth, hs.thick, hs.ref, hs.notLocal, hs.notPlanar, hs.dt, fun V h => by cases h; norm_num⟩
    ball_between ball_aspect rfl (by norm_num) (by norm_num) rfl (by norm_num) ?_ _
    ⟨rfl, ⟨1, ball V3.zero, by decide, rfl, rfl⟩, rfl, rfl⟩ ?_ ?_ 1651 ?_
  · show 4 * _ * 1 * (|(axisLoop true).gain| * (3 / 2 * 1 + V3.norm ((ball V3.zero).base.position - (axisLoop true).target))) ≤ _
    rw [hn]; norm_num [axisLoop]
  · show 0 < gdist (ball V3.zero) 0 ⟨1 / 2, 0, 0⟩
    rw [hd]; norm_num
  · intro V hV
    cases hV
    show 1 / 22 * ((1 + 1 / 10 ^ 8) * (2 * 1 * (|(axisLoop true).gain| *
      (3 / 2 * 1 + V3.norm ((ball V3.zero).base.position - (axisLoop true).target)))) +
      3 * 1 / gdist (ball V3.zero) 0 ⟨1 / 2, 0, 0⟩) ≤ 1
    rw [hn, hd]; norm_num [axisLoop]
  · show 1 - gdist (ball V3.zero) 0 ⟨1 / 2, 0, 0⟩ < _
    rw [hd]; norm_num [axisLoop]

/-- Non-vacuity: the agent at (1/2, 0, 0) in the unit ball does not want to move. After 76 steps of 1/100 it is outside, and
stays there for ever. -/
example (n : ℕ) (hn : 76 ≤ n) : ∃ s', ({ axisLoop true with gain := 0 } : Loop ℝ).run (envOf [0]) n
    ([.ellipsoid (ball V3.zero), .ellipsoid (ball V3.zero)], { agentAt ⟨1 / 2, 0, 0⟩ V3.zero with envelope := some 1 }) = .ok s' ∧
      OnLoop (ball V3.zero) 0 0 s' ∧ 1 < gdist (ball V3.zero) 0 s'.2.state.position := by
  have hd : gdist (ball V3.zero) 0 ⟨1 / 2, 0, 0⟩ = 1 / 4 := by rw [ball_dist]; norm_num
  have hd0 : gdist (ball V3.zero) 0 V3.zero = 0 := by rw [ball_dist]; simp [V3.zero]
  have hs := axis_setup true
  have hdes : ∀ x, ({ axisLoop true with gain := 0 } : Loop ℝ).desired x = V3.zero := by
    intro x; ext <;> simp [Loop.desired, V3.smul, V3.zero]
  have hM : ∀ M : M3 ℝ, M.mulVec V3.zero = V3.zero := by intro M; ext <;> simp [M3.mulVec, V3.zero]
  have hz : V3.norm (V3.zero : V3 ℝ) = 0 := V3.norm_eq_zero.mpr rfl
  have hn' : (76 : ℝ) ≤ n := by exact_mod_cast hn
  refine C106_stays_partial { axisLoop true with gain := 0 } (envOf [0]) (ball V3.zero) 0 0 1 1 1 1 V3.zero
    ⟨hs.list, hs.static, hs.plane, hs.smooth, hs.thick, hs.ref, hs.notLocal, hs.notPlanar, hs.dt, hs.maxVel⟩ rfl rfl
    one_pos zero_le_one (le_refl _) (by norm_num) (by rw [hd0]; norm_num) n _ ⟨rfl, ⟨1, ball V3.zero, by decide, rfl, rfl⟩, rfl, rfl⟩ ?_ ?_ ?_ ?_
  · show 0 < gdist (ball V3.zero) 0 ⟨1 / 2, 0, 0⟩
    rw [hd]; norm_num
  · rw [hd0]; simp
  · intro i _ s' M B d _ _
    rw [hdes, hM, hz, hd0]
    exact ⟨⟨by norm_num, fun V h => by cases h⟩, by norm_num⟩
  · show 1 - gdist (ball V3.zero) 0 ⟨1 / 2, 0, 0⟩ < n * (1 / 100 * 1 * 1)
    rw [hd]; linarith

/-- C106 is false without repulsion: an agent inside an obstacle at rest whose target lies on the line through the reference
point and the agent (before, behind or inside the obstacle) stays at its place for ever. -/
theorem C106_negation (c : Loop ℝ) (E : Env) (e : Ellipsoid ℝ) (p : Ptr) (m l r : ℝ) (k : ℕ) (ref : V3 ℝ)
    (hc : LoopSetup c E e p m l k ref) (hrep : c.addRepulsion = false) (n : ℕ) :
    ∀ s : Heap ℝ × Agent ℝ, OnLoop e p m s → gdist e m ref < gdist e m s.2.state.position →
    gdist e m s.2.state.position ≤ 1 → c.target = ref + V3.smul r (s.2.state.position - ref) →
    ∃ s', c.run E n s = .ok s' ∧ s'.2.state.position = s.2.state.position := by
  induction n with
  | zero => intro s _ _ _ _; exact ⟨s, rfl, rfl⟩
  | succ n ih =>
    intro s hs hgt hin ht
    have hmar := hs.margin
    have hf00 : 0 ≤ gdist e m ref := by
      rw [gdist, distance_frame e _ _ k k k hc.smooth.curv hc.smooth.long]; exact level_nonneg _ _ _ _ _
    have hd : 0 < gdist e m s.2.state.position := by linarith
    have hdes : c.desired s.2.state.position = V3.smul (-c.gain * (1 - r)) (s.2.state.position - ref) := by
      simp only [Loop.desired, ht]
      ext <;> simp only [V3.smul, V3.add_x, V3.add_y, V3.add_z, V3.sub_x, V3.sub_y, V3.sub_z] <;> ring
    have hrz := hc.plane.ref ref hc.ref
    obtain ⟨M, B, err, ρ, σ, g, s1, -, -, hm, hit, hs1, hpos, -, herr, -, -, -, hno, -, -, -⟩ :=
      iterate_spec hc hs (c.desired s.2.state.position)
        (by rw [hdes]; simp [V3.smul, hs.flat, hrz]) hgt
    obtain ⟨M', B', h1, h2⟩ := C36_reference s.1 s.2 e k (by rw [hmar]; exact hc.smooth) ref hc.ref (by rw [hmar]; exact hgt)
    rw [hmar, hm] at h1
    simp only [Res.ok.injEq, Prod.mk.injEq] at h1
    obtain ⟨rfl, -, -⟩ := h1
    have hM0 : M.mulVec (c.desired s.2.state.position) = V3.zero := by
      have h0 : max 0 (1 - 1 / gdist e s.2.margin s.2.state.position) = 0 := by
        rw [hmar, max_eq_left]
        rw [sub_nonpos, le_div_iff₀ hd]
        linarith
      rw [hdes, M3.mulVec_smul, h2, h0]
      ext <;> simp [V3.smul, V3.zero]
    have herr0 : err = V3.zero := by
      rw [hM0, V3.norm_eq_zero.mpr rfl, mul_zero] at herr
      exact V3.norm_eq_zero.mp (le_antisymm herr (V3.norm_nonneg _))
    have hsame : s1.2.state.position = s.2.state.position := by
      rw [hpos, hM0, herr0, hno hrep]
      ext <;> simp [V3.smul, V3.zero]
    obtain ⟨s', h3, h4⟩ := ih s1 hs1 (by rw [hsame]; exact hgt) (by rw [hsame]; exact hin) (by rw [hsame]; exact ht)
    exact ⟨s', by rw [Loop.run, hit]; exact h3, by rw [h4, hsame]⟩

/-- The same agent as above, without repulsion. -/
example (n : ℕ) : ∃ s', (axisLoop false).run (envOf [0]) n
    ([.ellipsoid (ball V3.zero), .ellipsoid (ball V3.zero)], { agentAt ⟨1 / 2, 0, 0⟩ V3.zero with envelope := some 1 }) = .ok s' ∧
      s'.2.state.position = ⟨1 / 2, 0, 0⟩ := by
  have hd : gdist (ball V3.zero) 0 ⟨1 / 2, 0, 0⟩ = 1 / 4 := by rw [ball_dist]; norm_num
  have hd0 : gdist (ball V3.zero) 0 V3.zero = 0 := by rw [ball_dist]; simp [V3.zero]
  refine C106_negation (axisLoop false) (envOf [0]) (ball V3.zero) 0 0 1 (-6) 1 V3.zero (axis_setup false) rfl n _
    ⟨rfl, ⟨1, ball V3.zero, by decide, rfl, rfl⟩, rfl, rfl⟩ ?_ ?_ ?_
  · show gdist (ball V3.zero) 0 V3.zero < gdist (ball V3.zero) 0 ⟨1 / 2, 0, 0⟩
    rw [hd, hd0]; norm_num
  · show gdist (ball V3.zero) 0 ⟨1 / 2, 0, 0⟩ ≤ 1
    rw [hd]; norm_num
  · show (⟨-3, 0, 0⟩ : V3 ℝ) = V3.zero + V3.smul (-6) (⟨1 / 2, 0, 0⟩ - V3.zero)
    ext <;> norm_num [V3.smul, V3.zero]

/-! ### Between two obstacles -/

/-- nothing is left of a velocity that every matrix takes to zero -/
theorem core_zero {rv : V3 ℝ} {l : List (M3 ℝ × ℝ)} (h : ∀ x ∈ l, x.1.mulVec rv = V3.zero) : core rv l = V3.zero := by
  have hsum : ((l.map fun x => angleTerm (dsFrame rv.normalized).transpose rv.normalized rv x.1 x.2).map (·.1)).sum = 0 := by
    apply List.sum_eq_zero
    intro y hy
    simp only [List.map_map, List.mem_map, Function.comp_apply] at hy
    obtain ⟨x, hx, rfl⟩ := hy
    simp only [angleTerm, h x hx]
    rw [V3.norm_eq_zero.mpr rfl, zero_mul]
  unfold core
  simp only [hsum]
  ext <;> simp [V3.smul, V3.zero]

/-- what a unit ball does to an agent at the origin that is inside it -/
theorem ballAt_inside (h : Heap ℝ) (a : Agent ℝ) (ha : a.state.position = V3.zero) (hm : a.margin = 0) (c v : ℝ)
    (hc : c ^ 2 = 1 / 4) :
    (∃ M B, modulationMatrix h a (.ellipsoid (ballAt ⟨c, 0, 0⟩)) = .ok (M, B, 1 / 4) ∧ M.mulVec ⟨v, 0, 0⟩ = V3.zero) ∧
    h.generateRepulsion (.ellipsoid (ballAt ⟨c, 0, 0⟩)) a.state.position a.margin (lit 11 10) = .ok ⟨-(8 * c), 0, 0⟩ := by
  have hd : gdist (ballAt ⟨c, 0, 0⟩) 0 V3.zero = 1 / 4 := by rw [ballAt_dist]; simp [V3.zero]; linarith
  have hd0 : gdist (ballAt ⟨c, 0, 0⟩) 0 ⟨c, 0, 0⟩ = 0 := by rw [ballAt_dist]; simp
  have hc0 : c ≠ 0 := by rintro rfl; norm_num at hc
  constructor
  · obtain ⟨M, B, h1, h2⟩ := C36_reference h a (ballAt ⟨c, 0, 0⟩) 1 (by rw [hm]; exact ballAt_smooth _) ⟨c, 0, 0⟩ rfl
      (by rw [hm, ha, hd, hd0]; norm_num)
    rw [hm, ha, hd] at h1 h2
    refine ⟨M, B, h1, ?_⟩
    have e1 : (⟨v, 0, 0⟩ : V3 ℝ) = V3.smul (-(v / c)) (V3.zero - ⟨c, 0, 0⟩) := by
      ext <;> simp [V3.smul, V3.zero]
      field_simp
    rw [e1, M3.mulVec_smul, h2, max_eq_left (by norm_num)]
    ext <;> simp [V3.smul, V3.zero]
  · rw [ha, hm]
    unfold Heap.generateRepulsion
    have hdist : h.distanceToAgent (.ellipsoid (ballAt ⟨c, 0, 0⟩)) V3.zero (0 : ℝ) = .ok (1 / 4) := by
      rw [← hd]; rfl
    rw [hdist, Res.ok_bind, if_pos (by norm_num)]
    have hf : (ballAt ⟨c, 0, 0⟩).repulsionFactor V3.zero (0 : ℝ) (lit 2 1) = 8 := by
      have : (ballAt ⟨c, 0, 0⟩).distanceToPoint V3.zero (V3.const (0 : ℝ)) = 1 / 4 := hd
      simp only [Ellipsoid.repulsionFactor, this]
      norm_num
    show (ballAt ⟨c, 0, 0⟩).repulsionVector V3.zero 0 = _
    show Res.ok (V3.smul ((ballAt ⟨c, 0, 0⟩).repulsionFactor V3.zero (0 : ℝ) (lit 2 1)) (V3.zero - ⟨c, 0, 0⟩)) = _
    rw [hf]
    congr 1
    ext <;> simp [V3.smul, V3.zero]

/-- Two unit balls at (±1/2, 0, 0), and an agent at the origin. -/
structure Squeezed (s : Heap ℝ × Agent ℝ) : Prop where
  left : s.1[0]? = some (.ellipsoid (ballAt ⟨1 / 2, 0, 0⟩))
  right : s.1[1]? = some (.ellipsoid (ballAt ⟨-(1 / 2), 0, 0⟩))
  envelope : ∃ env, s.2.envelope = some 2 ∧ s.1[2]? = some (.ellipsoid env)
  margin : s.2.margin = 0
  position : s.2.state.position = V3.zero

theorem squeezed_state {s : Heap ℝ × Agent ℝ} (hs : Squeezed s) (st : State ℝ) (hz : st.position = V3.zero) :
    ∃ h', Agent.withState s.1 s.2 st = .ok (h', { s.2 with state := st }) ∧ Squeezed (h', { s.2 with state := st }) := by
  obtain ⟨h1, h2, ⟨env, hq, henv⟩, h4, h5⟩ := hs
  have hlt : 2 < s.1.length := by
    by_contra hn
    rw [List.getElem?_eq_none (Nat.le_of_not_lt hn)] at henv
    cases henv
  refine ⟨_, by simp [Agent.withState, Agent.updateEnvelope, hq, Heap.deref, henv]; rfl, ?_, ?_, ?_, h4, hz⟩
  · simpa using h1
  · simpa using h2
  · exact ⟨_, hq, List.getElem?_set_self hlt⟩

theorem squeezed_out (h : Heap ℝ) (a : Agent ℝ) (hs : Squeezed (h, a)) (v : ℝ) (hv : a.state.linearVelocity = ⟨v, 0, 0⟩)
    (rep : Bool) (critical power : ℝ) :
    modulateVelocity h a (envOf [0, 1]) false rep false critical power = .ok (h, V3.zero) := by
  obtain ⟨⟨M, B, m1, m2⟩, r1⟩ := ballAt_inside h a hs.position hs.margin (1 / 2) v (by norm_num)
  obtain ⟨⟨M', B', m3, m4⟩, r2⟩ := ballAt_inside h a hs.position hs.margin (-(1 / 2)) v (by norm_num)
  have hits : (envOf [0, 1]).list.mapM (itemOf h a) =
      .ok [⟨(ballAt ⟨1 / 2, 0, 0⟩).base, M, B, 1 / 4⟩, ⟨(ballAt ⟨-(1 / 2), 0, 0⟩).base, M', B', 1 / 4⟩] := by
    show [0, 1].mapM (itemOf h a) = _
    rw [mapM_ok]
    exact .cons (itemOf_ok hs.left m1) (.cons (itemOf_ok hs.right m3) .nil)
  have hrep : repulsionSum h a (envOf [0, 1]).list = .ok V3.zero := by
    show repulsionSum h a [0, 1] = _
    have g0 : h[0]? = _ := hs.left
    have g1 : h[1]? = _ := hs.right
    simp only [repulsionSum, List.foldlM_cons, List.foldlM_nil, Heap.deref, g0, g1, Res.ok_bind, r1, r2]
    show Res.ok _ = _
    congr 1
    ext <;> simp [V3.zero]
  rw [modulate_unrepelled h a _ rep critical power _ (by simp [envOf]) hits hrep]
  congr 2
  have hov : ∀ x, obsVel x [⟨(ballAt ⟨1 / 2, 0, 0⟩).base, M, B, 1 / 4⟩, ⟨(ballAt ⟨-(1 / 2), 0, 0⟩).base, M', B', 1 / 4⟩]
      critical power = V3.zero := by
    intro x
    unfold obsVel
    apply lsum_zero
    intro i hi
    simp only [List.mem_cons, List.not_mem_nil, or_false] at hi
    rcases hi with rfl | rfl
    · exact obstacleVelocity_static rfl rfl _ _ _
    · exact obstacleVelocity_static rfl rfl _ _ _
  rw [combine_eq, hov, V3.sub_zero', V3.add_zero', hv]
  apply core_zero
  intro x hx
  simp only [pairs, List.map_cons, List.map_nil, List.mem_cons, List.not_mem_nil, or_false] at hx
  rcases hx with rfl | rfl
  · exact m2
  · exact m4

/-- C106 is false for two obstacles, also with repulsion: an agent in the middle of two overlapping balls, with any target on
the line through the centres, stays there for ever, for all gains, time steps, limits and exponents. The two repulsions
cancel each other. -/
theorem C106_negation_between (c : Loop ℝ) (T : ℝ) (ht : c.target = ⟨T, 0, 0⟩) (hl : c.isLocal = false)
    (hp : c.planar = false) (n : ℕ) : ∀ s : Heap ℝ × Agent ℝ, Squeezed s →
    ∃ s', c.run (envOf [0, 1]) n s = .ok s' ∧ Squeezed s' := by
  induction n with
  | zero => intro s hs; exact ⟨s, rfl, hs⟩
  | succ n ih =>
    intro s hs
    have hdes : c.desired s.2.state.position = ⟨c.gain * T, 0, 0⟩ := by
      rw [hs.position, Loop.desired, ht]
      ext <;> simp [V3.smul, V3.zero]
    obtain ⟨h1, hset, hon⟩ := squeezed_state hs (s.2.state.setLinearVelocity (c.desired s.2.state.position)) hs.position
    have hmod := squeezed_out h1 _ hon (c.gain * T) hdes c.addRepulsion c.critical c.power
    have hlim : c.limit V3.zero = V3.zero := by
      have hz : (V3.zero : V3 ℝ).normalized = V3.zero := by simp [V3.normalized, V3.sqNorm, V3.dot, V3.zero]
      unfold Loop.limit
      cases c.maxVel with
      | none => rfl
      | some m =>
        simp only [hz]
        split
        · ext <;> simp [V3.smul, V3.zero]
        · rfl
    obtain ⟨h2, hset2, hon2⟩ := squeezed_state hon
      ((s.2.state.setLinearVelocity (c.desired s.2.state.position)).setPosition (s.2.state.position + V3.smul c.dt V3.zero)) (by
        show s.2.state.position + V3.smul c.dt V3.zero = V3.zero
        rw [hs.position]
        ext <;> simp [V3.smul, V3.zero])
    obtain ⟨s', h3, h4⟩ := ih _ hon2
    refine ⟨s', ?_, h4⟩
    rw [Loop.run]
    unfold Loop.iterate
    rw [show Agent.setLinearVelocity s.1 s.2 (c.desired s.2.state.position) = _ from hset]
    simp only [Res.ok_bind, hl, hp, hmod, hlim]
    rw [show Agent.setPosition h1 _ _ = _ from hset2]
    exact h3

example : Squeezed ([.ellipsoid (ballAt ⟨1 / 2, 0, 0⟩), .ellipsoid (ballAt ⟨-(1 / 2), 0, 0⟩), .ellipsoid (ball V3.zero)],
    { agentAt V3.zero V3.zero with envelope := some 2 }) :=
  ⟨rfl, rfl, ⟨ball V3.zero, rfl, rfl⟩, rfl, rfl⟩

/-! ### Inside a hull -/

/-- The agent is at `x`, the hull `k` at the address `p`. -/
structure AtHull (k : Hull ℝ) (p : Ptr) (x : V3 ℝ) (s : Heap ℝ × Agent ℝ) : Prop where
  obj : s.1[p]? = some (.hull k)
  envelope : ∃ q env, q ≠ p ∧ s.2.envelope = some q ∧ s.1[q]? = some (.ellipsoid env)
  position : s.2.state.position = x

theorem atHull_state {k : Hull ℝ} {p : Ptr} {x : V3 ℝ} {s : Heap ℝ × Agent ℝ} (hs : AtHull k p x s) (st : State ℝ)
    (hz : st.position = x) :
    ∃ h', Agent.withState s.1 s.2 st = .ok (h', { s.2 with state := st }) ∧ AtHull k p x (h', { s.2 with state := st }) := by
  obtain ⟨h1, ⟨q, env, hqp, hq, henv⟩, h5⟩ := hs
  have hlt : q < s.1.length := by
    by_contra hn
    rw [List.getElem?_eq_none (Nat.le_of_not_lt hn)] at henv
    cases henv
  refine ⟨_, by simp [Agent.withState, Agent.updateEnvelope, hq, Heap.deref, henv]; rfl, ?_, ?_, hz⟩
  · show (s.1.set q _)[p]? = _
    rw [List.getElem?_set_ne hqp]; exact h1
  · exact ⟨q, _, hqp, hq, List.getElem?_set_self hlt⟩

theorem atHull_out {k : Hull ℝ} {p : Ptr} {x : V3 ℝ} (h : Heap ℝ) (a : Agent ℝ) (hs : AtHull k p x (h, a)) (E : Env)
    (hl : E.list = [p]) (hk : FlatHull k) (hside : k.isInside = false) (hst : Static (.hull k))
    (hin : k.pointIsInside x = .ok true) (w : V3 ℝ) (hw : IsChord k x w) (hz : x.z = k.base.position.z)
    (hlong : 1 / 10000 ≤ w.norm) (hturn : DOA.Props.turn (x - k.base.position) w ≠ 0) (r : ℝ)
    (hv : a.state.linearVelocity = V3.smul r (x - k.base.position)) (rep : Bool) (critical power : ℝ) :
    modulateVelocity h a E false rep false critical power = .ok (h, V3.zero) := by
  have hx : a.state.position = x := hs.position
  have h0 : h[p]? = some (.hull k) := hs.obj
  obtain ⟨w', hw', hwz, hn⟩ := chord_of k hk x hin
  have := chord_unique hw' hw
  subst this
  obtain ⟨s, hsm, hcol, hlt, hd⟩ := hull_distance_eq k hk.ok x (V3.const a.margin) hin
  have hspos := hk.pos s hsm
  have hlt' := hlt.mp rfl
  rw [hside, if_neg (by simp), inverse_apply_one hk.orient] at hd
  rw [inverse_apply_one hk.orient] at hlt'
  have hr0 : x - k.base.position ≠ V3.zero := by
    intro h0
    rw [h0] at hturn
    simp [DOA.Props.turn, V3.zero] at hturn
  have hp := V3.norm_pos hr0
  have hdpos : 0 < (x - k.base.position).norm / s.x := by positivity
  obtain ⟨M, B, hm, hM⟩ := chord_matrix h a (.hull k) k.base.position w' ((x - k.base.position).norm / s.x) hk.orient hk.ref
    (by rw [hx]; exact hn) (by rw [hx]; exact hd) hdpos (by rw [hx]; exact hz) hwz hlong (by rw [hx]; exact hturn)
  rw [hx] at hM
  have hits : E.list.mapM (itemOf h a) = .ok [⟨k.base, M, B, (x - k.base.position).norm / s.x⟩] := by
    rw [hl, mapM_ok]; exact .cons (itemOf_ok h0 hm) .nil
  have hrep : repulsionSum h a E.list = .ok V3.zero := by
    rw [hl]
    have hd' : h.distanceToAgent (.hull k) a.state.position a.margin = .ok ((x - k.base.position).norm / s.x) := by
      rw [hx]; exact hd
    have hg : h.generateRepulsion (.hull k) a.state.position a.margin (lit 11 10) = .ok V3.zero := by
      unfold Heap.generateRepulsion
      rw [hd', Res.ok_bind]
      split <;> rfl
    simp only [repulsionSum, List.foldlM_cons, List.foldlM_nil, Heap.deref, h0, Res.ok_bind, hg]
    show Res.ok _ = _
    congr 1
    ext <;> simp [V3.zero]
  rw [modulate_unrepelled h a E rep critical power _ (by simp [hl]) hits hrep]
  congr 2
  have hov : ∀ y, obsVel y [⟨k.base, M, B, (x - k.base.position).norm / s.x⟩] critical power = V3.zero := by
    intro y
    unfold obsVel
    apply lsum_zero
    intro i hi
    simp only [List.mem_cons, List.not_mem_nil, or_false] at hi
    subst hi
    exact obstacleVelocity_static hst.1 hst.2 _ _ _
  rw [combine_eq, hov, V3.sub_zero', V3.add_zero', hv]
  apply core_zero
  intro y hy
  simp only [pairs, List.map_cons, List.map_nil, List.mem_cons, List.not_mem_nil, or_false] at hy
  subst hy
  have hz0 : (x - k.base.position).z = 0 := by simp [hz]
  have hmax : max 0 (1 - 1 / ((x - k.base.position).norm / s.x)) = 0 := by
    rw [max_eq_left]
    rw [sub_nonpos, le_div_iff₀ hdpos, one_mul, div_le_one hspos]
    exact hlt'.le
  have hself : DOA.Props.turn (x - k.base.position) (x - k.base.position) = 0 := by simp [DOA.Props.turn]; ring
  rw [M3.mulVec_smul, hM _ hz0, hmax, hself]
  ext <;> simp [V3.smul, V3.zero]

/-- C106 is false for hulls, with or without repulsion (hulls do not repel): an agent inside a hull at rest, with any target on the
line through the centre of the hull and the agent, stays at its place for ever, for all gains, time steps, limits and
exponents. -/
theorem C106_negation_hull (c : Loop ℝ) (E : Env) (p : Ptr) (k : Hull ℝ) (x w : V3 ℝ) (r : ℝ) (hl : E.list = [p])
    (hk : FlatHull k) (hside : k.isInside = false) (hst : Static (.hull k)) (hin : k.pointIsInside x = .ok true)
    (hw : IsChord k x w) (hz : x.z = k.base.position.z) (hlong : 1 / 10000 ≤ w.norm)
    (hturn : DOA.Props.turn (x - k.base.position) w ≠ 0)
    (ht : c.target = k.base.position + V3.smul r (x - k.base.position)) (hloc : c.isLocal = false)
    (hp : c.planar = false) (n : ℕ) : ∀ s : Heap ℝ × Agent ℝ, AtHull k p x s →
    ∃ s', c.run E n s = .ok s' ∧ AtHull k p x s' := by
  induction n with
  | zero => intro s hs; exact ⟨s, rfl, hs⟩
  | succ n ih =>
    intro s hs
    have hdes : c.desired s.2.state.position = V3.smul (-c.gain * (1 - r)) (x - k.base.position) := by
      rw [hs.position, Loop.desired, ht]
      ext <;> simp only [V3.smul, V3.add_x, V3.add_y, V3.add_z, V3.sub_x, V3.sub_y, V3.sub_z] <;> ring
    obtain ⟨h1, hset, hon⟩ := atHull_state hs (s.2.state.setLinearVelocity (c.desired s.2.state.position)) hs.position
    have hmod := atHull_out h1 _ hon E hl hk hside hst hin w hw hz hlong hturn _ hdes c.addRepulsion c.critical c.power
    have hlim : c.limit V3.zero = V3.zero := by
      have hz : (V3.zero : V3 ℝ).normalized = V3.zero := by simp [V3.normalized, V3.sqNorm, V3.dot, V3.zero]
      unfold Loop.limit
      cases c.maxVel with
      | none => rfl
      | some m =>
        simp only [hz]
        split
        · ext <;> simp [V3.smul, V3.zero]
        · rfl
    obtain ⟨h2, hset2, hon2⟩ := atHull_state hon
      ((s.2.state.setLinearVelocity (c.desired s.2.state.position)).setPosition (s.2.state.position + V3.smul c.dt V3.zero)) (by
        show s.2.state.position + V3.smul c.dt V3.zero = x
        rw [hs.position]
        ext <;> simp [V3.smul, V3.zero])
    obtain ⟨s', h3, h4⟩ := ih _ hon2
    refine ⟨s', ?_, h4⟩
    rw [Loop.run]
    unfold Loop.iterate
    rw [show Agent.setLinearVelocity s.1 s.2 (c.desired s.2.state.position) = _ from hset]
    simp only [Res.ok_bind, hloc, hp, hmod, hlim]
    rw [show Agent.setPosition h1 _ _ = _ from hset2]
    exact h3

/-- Non-vacuity: an agent halfway to the surface of the hull `midge`. -/
example (c : Loop ℝ) (e : Ellipsoid ℝ) (ht : c.target = ⟨8, 6, 0⟩) (hloc : c.isLocal = false) (hp : c.planar = false) (n : ℕ) :
    ∃ s', c.run (envOf [0]) n ([.hull midge, .ellipsoid e],
      { agentAt ⟨1 / 25, 3 / 100, 0⟩ V3.zero with envelope := some 1 }) = .ok s' ∧ s'.2.state.position = ⟨1 / 25, 3 / 100, 0⟩ := by
  have hx : midge.base.position = V3.zero := rfl
  have hcol : midge.column ⟨1 / 25, 3 / 100, 0⟩ = 2 := by
    refine Eq.trans ?_ midge_column
    refine column_ray (k := midge) (k' := midge) rfl rfl rfl (t := 1 / 2) (by norm_num) ?_
    rw [hx]
    ext <;> norm_num [V3.smul, V3.zero]
  have hrn : V3.norm (⟨2 / 25, 3 / 50, 0⟩ : V3 ℝ) = 1 / 10 := by
    have : (⟨2 / 25, 3 / 50, 0⟩ : V3 ℝ) = V3.smul (1 / 10) ⟨4 / 5, 3 / 5, 0⟩ := by ext <;> norm_num [V3.smul]
    rw [this, V3.norm_smul_pos (by norm_num), norm_three_four _ (by norm_num), mul_one]
  have hin : midge.pointIsInside ⟨1 / 25, 3 / 100, 0⟩ = .ok true := by
    refine overrun (k := midge) (k' := midge) (r := ⟨2 / 25, 3 / 50, 0⟩) (t := 1 / 2) rfl rfl rfl
      (s := ⟨1 / 10, Real.pi / 2, Real.pi / 2⟩) (by rw [midge_column]; rfl) hrn.symm (by rw [hrn]; norm_num) ?_ (by norm_num)
      (by norm_num)
    rw [hx]
    ext <;> norm_num [V3.smul, V3.zero]
  have hw2 : V3.norm (⟨-1 / 5, -1 / 10, 0⟩ : V3 ℝ) ^ 2 = 1 / 20 := by
    rw [sq, V3.norm_sq]; norm_num [V3.sqNorm, V3.dot]
  have hw0 := V3.norm_nonneg (⟨-1 / 5, -1 / 10, 0⟩ : V3 ℝ)
  obtain ⟨s', h1, h2⟩ := C106_negation_hull c (envOf [0]) 0 midge ⟨1 / 25, 3 / 100, 0⟩ ⟨-1 / 5, -1 / 10, 0⟩ 200 rfl midge_flat rfl
    ⟨rfl, rfl⟩ hin ⟨⟨0, 1 / 10, 0⟩, ⟨-1 / 5, 0, 0⟩, by rw [hcol]; rfl, by rw [hcol]; rfl, by ext <;> norm_num⟩ rfl (by nlinarith)
    (by rw [hx]; norm_num [DOA.Props.turn, V3.zero])
    (by rw [ht, hx]; ext <;> norm_num [V3.smul, V3.zero]) hloc hp n
    ([.hull midge, .ellipsoid e], { agentAt ⟨1 / 25, 3 / 100, 0⟩ V3.zero with envelope := some 1 })
    ⟨rfl, ⟨1, e, by norm_num, rfl, rfl⟩, rfl⟩
  exact ⟨s', h1, h2.position⟩

end DOA.Props
