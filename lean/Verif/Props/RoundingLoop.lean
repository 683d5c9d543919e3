import Verif.Lemmas.FpStep
import Verif.Lemmas.Binary64

/-!
# C79: the control loop in finite precision, for every number of iterations

The loop of testKIT.cpp with one obstacle at rest, in floating point.  The rounding errors of the iterations do not
accumulate: one precision suffices for all of them.
-/

set_option linter.unusedSectionVars false
set_option linter.unusedSimpArgs false

namespace DOA.Props
open Filter Spec Modulation DOA

theorem onHeap_fp {e : Ellipsoid ℝ} {p : Ptr} {m : ℝ} {s : Heap ℝ × Agent ℝ} (hs : OnLoop e p m s) (A : Arith) :
    OnHeap (e.fp A) p (A.ld m) (s.1.fp A, s.2.fp A) := by
  have hget : ∀ (q : Ptr) (b : Ellipsoid ℝ), s.1[q]? = some (.ellipsoid b) → (s.1.fp A)[q]? = some (.ellipsoid (b.fp A)) := by
    intro q b h
    unfold Heap.fp
    rw [List.getElem?_map, h]
    rfl
  obtain ⟨q, env, h1, h2, h3⟩ := hs.envelope
  refine ⟨hget _ _ hs.obj, ⟨q, env.fp A, h1, h2, hget _ _ h3⟩, ?_⟩
  show A.ld s.2.margin = _
  rw [hs.margin]

/-- C79: there is a precision such that with every arithmetic at least this precise the computed loop never fails, never
leaves the finite numbers and the plane, keeps a fixed gap from the obstacle and stays within the given distance of the
target, after any number of iterations. -/
theorem C79_forever (c : Loop ℝ) (E : Env) (e : Ellipsoid ℝ) (p : Ptr) (m l L κ T R : ℝ) (k : ℕ)
    (hc : LoopSetup c E e p m l k e.base.position) (hb : Between e m l L) (hκ : Aspect l L κ k) (hk : k ≤ 2 ^ 52)
    (hrep : c.addRepulsion = true) (ht : c.target.z = 0) (s : Heap ℝ × Agent ℝ) (hs : OnLoop e p m s)
    (h1 : 1 < gdist e m s.2.state.position) (hK : Kept c e.base.position s.2.state.position l L κ k T R) :
    ∃ δ > 0, ∃ η > 0, ∀ A : Arith, A.Within δ → A.PowZero → ∀ n : ℕ, ∃ (s' : Heap (Fp A) × Agent (Fp A)) (x : V3 ℝ),
      (c.fp A).run E n (s.1.fp A, s.2.fp A) = .ok s' ∧ s'.2.state.position.Is x ∧ x.z = 0 ∧ 1 + η ≤ gdist e m x ∧
      V3.norm (x - c.target) ≤ R := by
  have kit : Kit c E e p m l L κ T R k s.2.state.position := ⟨hc, hb, hκ, hk, ht, hK⟩
  obtain ⟨η, hη, hηd, hη1, hη2⟩ := relaxed_eta (d := (gdist e m s.2.state.position - 1) / 2) hb.pos hK (by linarith)
  have hstart : ∀ᶠ A in fine, ∃ x1, (s.2.state.position.fp A).Is x1 ∧ Within' e m c.target R η x1 :=
    (pl_v3 (F := fine) hs.flat).inside hc.smooth hs.flat (by linarith) hK.start
  obtain ⟨δ, hδ, hall⟩ := eventually_fine.mp (hstart.and (next_inside kit hη hη1 hη2))
  refine ⟨δ, hδ, η, hη, fun A hA hp => ?_⟩
  obtain ⟨⟨x0, hx0, hin0⟩, hstep⟩ := hall A hA
  have key : ∀ n : ℕ, ∀ (s1 : Heap (Fp A) × Agent (Fp A)) (x : V3 ℝ), OnHeap (e.fp A) p (A.ld m) s1 →
      s1.2.state.position.Is x → Within' e m c.target R η x →
      ∃ (s' : Heap (Fp A) × Agent (Fp A)) (x' : V3 ℝ), (c.fp A).run E n s1 = .ok s' ∧ s'.2.state.position.Is x' ∧
        Within' e m c.target R η x' := by
    intro n
    induction n with
    | zero => intro s1 x _ h2 h3; exact ⟨s1, x, rfl, h2, h3⟩
    | succ n ih =>
      intro s1 x hon h2 h3
      obtain ⟨s2, hit, hon2, hpos⟩ := iterate_ell (c := c.fp A) (r := e.base.position.fp A) hc.list
        (by show (e.base.fp A).refPos = _
            unfold Base.fp; rw [hc.ref]; rfl) hc.notLocal hc.notPlanar hon
        ((c.fp A).desired s1.2.state.position)
      obtain ⟨x1, h4, h5⟩ := hstep hp _ _ h2 h3
      have hpos' : s2.2.state.position = nextPos A c e m s1.2.state.position := by
        rw [hpos, show (c.fp A).addRepulsion = true from hrep]
        rfl
      obtain ⟨s', x', h6, h7, h8⟩ := ih s2 x1 hon2 (by rw [hpos']; exact h4) h5
      refine ⟨s', x', ?_, h7, h8⟩
      rw [Loop.run, hit]
      exact h6
  intro n
  obtain ⟨s', x', h2, h3, h4, h5, h6⟩ := key n _ x0 (onHeap_fp hs A) hx0 hin0
  exact ⟨s', x', h2, h3, h4, h5, h6⟩

theorem format_powZero {f : Format} (hw : f.Wide) : f.arith.PowZero := by
  intro n hn
  show f.rnd ((0 : ℝ) ^ (n : ℝ)) = _
  rw [Real.zero_rpow (by exact_mod_cast hn.ne')]
  exact (Format.arith_sound hw).zero

/-- C79 for binary formats with rounding to nearest, gradual underflow and overflow: from some number of bits on. -/
theorem C79_formats (c : Loop ℝ) (E : Env) (e : Ellipsoid ℝ) (p : Ptr) (m l L κ T R : ℝ) (k : ℕ)
    (hc : LoopSetup c E e p m l k e.base.position) (hb : Between e m l L) (hκ : Aspect l L κ k) (hk : k ≤ 2 ^ 52)
    (hrep : c.addRepulsion = true) (ht : c.target.z = 0) (s : Heap ℝ × Agent ℝ) (hs : OnLoop e p m s)
    (h1 : 1 < gdist e m s.2.state.position) (hK : Kept c e.base.position s.2.state.position l L κ k T R) :
    ∃ P : ℕ, ∃ η > 0, ∀ f : Format, f.Wide → P ≤ f.p → ∀ n : ℕ,
      ∃ (s' : Heap (Fp f.arith) × Agent (Fp f.arith)) (x : V3 ℝ),
        (c.fp f.arith).run E n (s.1.fp f.arith, s.2.fp f.arith) = .ok s' ∧ s'.2.state.position.Is x ∧ x.z = 0 ∧
        1 + η ≤ gdist e m x ∧ V3.norm (x - c.target) ≤ R := by
  obtain ⟨δ, hδ, η, hη, hall⟩ := C79_forever c E e p m l L κ T R k hc hb hκ hk hrep ht s hs h1 hK
  obtain ⟨P, hP⟩ := exists_pow_lt_of_lt_one hδ (by norm_num : (1 / 2 : ℝ) < 1)
  refine ⟨P, η, hη, fun f hw hle => hall f.arith ?_ (format_powZero hw)⟩
  have h2 : (2 : ℝ) ^ (-(f.p : ℤ)) ≤ δ := by
    rw [zpow_neg, zpow_natCast, ← inv_pow, ← one_div]
    exact le_trans (pow_le_pow_of_le_one (by norm_num) (by norm_num) hle) hP.le
  exact (Format.arith_within hw).weaken (by positivity) h2

/-! ### Non-vacuity: past the unit ball, with a limit of the speed -/

/-- Gain 1, time step 1/100, speed at most 1/2. -/
noncomputable def slowLoop : Loop ℝ := { axisLoop true with maxVel := some (1 / 2) }

/-- The agent starts at (2, 1, 0). -/
noncomputable def slowStart : Heap ℝ × Agent ℝ :=
  ([.ellipsoid (ball V3.zero), .ellipsoid (ball V3.zero)], { agentAt ⟨2, 1, 0⟩ V3.zero with envelope := some 1 })

theorem slow_setup : LoopSetup slowLoop (envOf [0]) (ball V3.zero) 0 0 1 1 V3.zero := by
  have h := axis_setup true
  refine ⟨h.list, h.static, h.plane, h.smooth, h.thick, h.ref, h.notLocal, h.notPlanar, h.dt, ?_⟩
  rintro v ⟨⟩
  norm_num

theorem slow_kept : Kept slowLoop (ball V3.zero).base.position slowStart.2.state.position 1 1 1 1 2 7 := by
  have n1 : V3.norm ((ball V3.zero).base.position - slowLoop.target) = 3 := by
    show Real.sqrt ((0 - -3) * (0 - -3) + (0 - 0) * (0 - 0) + (0 - 0) * (0 - 0)) = 3
    rw [show ((0 - -3) * (0 - -3) + (0 - 0) * (0 - 0) + (0 - 0) * (0 - 0) : ℝ) = 3 ^ 2 by norm_num, Real.sqrt_sq (by norm_num)]
  have n2 : V3.norm (slowStart.2.state.position - slowLoop.target) < 7 := by
    show Real.sqrt ((2 - -3) * (2 - -3) + (1 - 0) * (1 - 0) + (0 - 0) * (0 - 0)) < 7
    rw [Real.sqrt_lt' (by norm_num)]
    norm_num
  refine ⟨?_, ?_, ?_, ?_, by norm_num, by norm_num, ?_, n2, ?_, ?_, ?_, by norm_num⟩
  · norm_num [slowLoop, axisLoop]
  · norm_num [slowLoop, axisLoop]
  · rintro v ⟨⟩; norm_num
  · norm_num [slowLoop, axisLoop]
  · norm_num [slowLoop, axisLoop]
  · rw [n1]; norm_num [slowLoop, axisLoop]
  · norm_num [slowLoop, axisLoop]
  · norm_num [slowLoop, axisLoop]

example : ∃ P : ℕ, ∃ η > 0, ∀ f : Format, f.Wide → P ≤ f.p → ∀ n : ℕ,
    ∃ (s' : Heap (Fp f.arith) × Agent (Fp f.arith)) (x : V3 ℝ),
      (slowLoop.fp f.arith).run (envOf [0]) n (slowStart.1.fp f.arith, slowStart.2.fp f.arith) = .ok s' ∧
      s'.2.state.position.Is x ∧ x.z = 0 ∧ 1 + η ≤ gdist (ball V3.zero) 0 x ∧ V3.norm (x - slowLoop.target) ≤ 7 :=
  C79_formats slowLoop (envOf [0]) (ball V3.zero) 0 0 1 1 1 2 7 1 slow_setup ball_between ball_aspect (by norm_num) rfl rfl
    slowStart ⟨rfl, ⟨1, ball V3.zero, by decide, rfl, rfl⟩, rfl, rfl⟩
    (by show 1 < gdist (ball V3.zero) 0 ⟨2, 1, 0⟩; rw [ball_dist]; norm_num) slow_kept

end DOA.Props
