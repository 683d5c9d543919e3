import Verif.Lemmas.FpRegular
import Verif.Lemmas.Binary64
import Verif.Props.Loop

/-!
# C77 finite precision: the computed velocity is close to the exact one
-/

set_option linter.unusedSectionVars false
set_option linter.unusedSimpArgs false

namespace DOA.Props
open DOA Spec Modulation

theorem convV_iff {u : ∀ A, V3 (Fp A)} {v : V3 ℝ} (h : ConvV fine u v) (ε : ℝ) (hε : 0 < ε) :
    ∃ δ > 0, ∀ A : Arith, A.Within δ → ∃ w : V3 ℝ, (u A).Is w ∧ V3.norm (w - v) < ε := by
  obtain ⟨δ1, p1, h1⟩ := conv_iff.mp h.x (ε / 2) (by positivity)
  obtain ⟨δ2, p2, h2⟩ := conv_iff.mp h.y (ε / 2) (by positivity)
  obtain ⟨δ3, p3, h3⟩ := conv_iff.mp h.z (ε / 2) (by positivity)
  have hp : 0 < min δ1 (min δ2 δ3) := lt_min p1 (lt_min p2 p3)
  refine ⟨min δ1 (min δ2 δ3), hp, fun A hA => ?_⟩
  obtain ⟨r1, e1, b1⟩ := h1 A (hA.weaken hp (min_le_left _ _))
  obtain ⟨r2, e2, b2⟩ := h2 A (hA.weaken hp (le_trans (min_le_right _ _) (min_le_left _ _)))
  obtain ⟨r3, e3, b3⟩ := h3 A (hA.weaken hp (le_trans (min_le_right _ _) (min_le_right _ _)))
  refine ⟨⟨r1, r2, r3⟩, ⟨e1, e2, e3⟩, ?_⟩
  have hsq : V3.sqNorm ((⟨r1, r2, r3⟩ : V3 ℝ) - v) < ε ^ 2 := by
    simp only [V3.sqNorm, V3.dot, V3.sub_x, V3.sub_y, V3.sub_z]
    have k1 := abs_lt.mp b1
    have k2 := abs_lt.mp b2
    have k3 := abs_lt.mp b3
    nlinarith [k1.1, k1.2, k2.1, k2.2, k3.1, k3.2]
  rw [V3.norm, sqrt_real]
  exact (Real.sqrt_lt' hε).mpr hsq

/-- the velocity computed from loaded data -/
theorem conv_loaded (es : List (Ellipsoid ℝ × V3 ℝ)) (x v : V3 ℝ) (m c p : ℝ) (rep : Bool)
    (hk : ∀ er ∈ es, ∃ k1 k2 k3, HasCurv er.1 k1 k2 k3 ∧ k1 ≤ 2 ^ 52 ∧ k2 ≤ 2 ^ 52 ∧ k3 ≤ 2 ^ 52)
    (hr : Regular es x v m rep c p) :
    ConvV fine (fun A => ellOut (es.map fun er => (er.1.fp A, er.2.fp A)) (x.fp A) (v.fp A) (A.ld m) rep (A.ld c) (A.ld p))
      (ellOut es x v m rep c p) := by
  have h1 : List.Forall₂ (ConvER fine) (es.map fun er A => (er.1.fp A, er.2.fp A)) es := by
    rw [List.forall₂_map_left_iff]
    refine List.forall₂_same.mpr fun er he => ?_
    obtain ⟨k1, k2, k3, h1, h2⟩ := hk er he
    exact conv_ell er.1 er.2 h1 h2
  have h2 := conv_ellOut h1 (conv_v3 x) (conv_v3 v) (Conv.rnd m) (Conv.rnd c) (Conv.rnd p) rep hr
  refine h2.congr (Filter.Eventually.of_forall fun A => ?_)
  rw [List.map_map]
  rfl

/-- C77: in an environment of ellipsoids, for every input at which the exact run is regular: to every tolerance there is
a precision such that with every arithmetic of this precision (whatever the rounding mode and the errors of libm), on the
rounded data, `modulate_velocity` returns, the velocity is finite, and it is within the tolerance of the exact velocity. -/
theorem C77_accuracy_partial (h : Heap ℝ) (a : Agent ℝ) (e : Env) (rep : Bool) (critical power : ℝ)
    (es : List (Ellipsoid ℝ × V3 ℝ)) (hne : e.list ≠ []) (hl : List.Forall₂ (Leads h) e.list es)
    (hk : ∀ er ∈ es, ∃ k1 k2 k3, HasCurv er.1 k1 k2 k3 ∧ k1 ≤ 2 ^ 52 ∧ k2 ≤ 2 ^ 52 ∧ k3 ≤ 2 ^ 52)
    (hr : Regular es a.state.position a.state.linearVelocity a.margin rep critical power) :
    ∃ v, modulateVelocity h a e false rep false critical power = .ok (h, v) ∧
      ∀ ε > 0, ∃ δ > 0, ∀ A : Arith, A.Within δ → ∃ (u : V3 (Fp A)) (w : V3 ℝ),
        modulateVelocity (h.fp A) (a.fp A) e false rep false (A.ld critical) (A.ld power) = .ok (h.fp A, u) ∧
        u.Is w ∧ V3.norm (w - v) < ε := by
  refine ⟨_, modulate_ell hne hl rep critical power, fun ε hε => ?_⟩
  have hconv := conv_loaded es a.state.position a.state.linearVelocity a.margin critical power rep hk hr
  obtain ⟨δ, h0, h1⟩ := convV_iff hconv ε hε
  refine ⟨δ, h0, fun A hA => ?_⟩
  obtain ⟨w, h2, h3⟩ := h1 A hA
  have h4 : List.Forall₂ (Leads (h.fp A)) e.list (es.map fun er => (er.1.fp A, er.2.fp A)) := by
    rw [List.forall₂_map_right_iff]
    exact hl.imp fun p er hh => leads_fp hh A
  have h5 := modulate_ell (a := a.fp A) hne h4 rep (A.ld critical) (A.ld power)
  exact ⟨_, w, h5, h2, h3⟩

/-- C77 for static obstacles of ellipsoidal shape, an agent outside all of them that can see the reference points from
outside, and a planar velocity: apart from the thresholds of the code nothing is required. -/
theorem C77_static_partial (h : Heap ℝ) (a : Agent ℝ) (e : Env) (rep : Bool) (critical power : ℝ)
    (es : List (Ellipsoid ℝ × V3 ℝ)) (hne : e.list ≠ []) (hl : List.Forall₂ (Leads h) e.list es)
    (hf : ∀ er ∈ es, Free er a.state.position a.margin critical) (hz : a.state.linearVelocity.z = 0)
    (hv : a.state.linearVelocity ≠ V3.zero)
    (ha : (turn es a.state.position a.state.linearVelocity a.margin critical power).norm ≠ 1 / 10000)
    (hrep : rep = true → (∀ er ∈ es, gdist er.1 a.margin a.state.position ≠ 11 / 10) ∧
      ((es.map fun er => ellRep er.1 er.2 a.state.position a.margin).foldl (· + ·) V3.zero).norm ≠ 1 / 10000) :
    ∃ v, modulateVelocity h a e false rep false critical power = .ok (h, v) ∧
      ∀ ε > 0, ∃ δ > 0, ∀ A : Arith, A.Within δ → ∃ (u : V3 (Fp A)) (w : V3 ℝ),
        modulateVelocity (h.fp A) (a.fp A) e false rep false (A.ld critical) (A.ld power) = .ok (h.fp A, u) ∧
        u.Is w ∧ V3.norm (w - v) < ε := by
  refine C77_accuracy_partial h a e rep critical power es hne hl ?_ (regular_of_free rep hf hz hv ha hrep)
  intro er he
  obtain ⟨k, hk, sm⟩ := (hf er he).smooth
  exact ⟨k, k, k, sm.curv, hk, hk, hk⟩

/-- C77 for IEEE 754 formats: enough bits suffice. -/
theorem C77_formats_partial (h : Heap ℝ) (a : Agent ℝ) (e : Env) (rep : Bool) (critical power : ℝ)
    (es : List (Ellipsoid ℝ × V3 ℝ)) (hne : e.list ≠ []) (hl : List.Forall₂ (Leads h) e.list es)
    (hk : ∀ er ∈ es, ∃ k1 k2 k3, HasCurv er.1 k1 k2 k3 ∧ k1 ≤ 2 ^ 52 ∧ k2 ≤ 2 ^ 52 ∧ k3 ≤ 2 ^ 52)
    (hr : Regular es a.state.position a.state.linearVelocity a.margin rep critical power) :
    ∃ v, modulateVelocity h a e false rep false critical power = .ok (h, v) ∧
      ∀ ε > 0, ∃ P : ℕ, ∀ f : Format, f.Wide → P ≤ f.p → ∃ (u : V3 (Fp f.arith)) (w : V3 ℝ),
        modulateVelocity (h.fp f.arith) (a.fp f.arith) e false rep false (f.arith.ld critical) (f.arith.ld power)
          = .ok (h.fp f.arith, u) ∧ u.Is w ∧ V3.norm (w - v) < ε := by
  obtain ⟨v, h1, h2⟩ := C77_accuracy_partial h a e rep critical power es hne hl hk hr
  refine ⟨v, h1, fun ε hε => ?_⟩
  obtain ⟨δ, hδ, h3⟩ := h2 ε hε
  obtain ⟨P, hP⟩ := exists_pow_lt_of_lt_one hδ (by norm_num : (1 / 2 : ℝ) < 1)
  refine ⟨P, fun f hw hp => h3 f.arith ?_⟩
  have hle : (2 : ℝ) ^ (-(f.p : ℤ)) ≤ δ := by
    rw [zpow_neg, zpow_natCast, ← inv_pow, ← one_div]
    exact le_trans (pow_le_pow_of_le_one (by norm_num) (by norm_num) hp) hP.le
  exact (Format.arith_within hw).weaken (Format.q_pos _) hle

/-- `double` is one of these formats. -/
example : Format.binary64.Wide ∧ Format.binary64.arith.Within (2 ^ (-53 : ℤ)) :=
  ⟨Format.binary64_wide, Format.arith_within Format.binary64_wide⟩

/-- The condition on the angle for a single obstacle. -/
theorem turn_single (er : Ellipsoid ℝ × V3 ℝ) (x v : V3 ℝ) (m c p : ℝ) (hf : Free er x m c) (hz : v.z = 0) (hv : v ≠ V3.zero) :
    (turn [er] x v m c p).norm = angle ((ellItem er.1 er.2 x m).matrix.mulVec v) v := by
  obtain ⟨k, -, sm⟩ := hf.smooth
  have hq := (Quat.isUnit_iff_norm _).mpr sm.unit
  have hev := eigen_pos hf.outside
  set M := (ellItem er.1 er.2 x m).matrix with hM
  have hM0 : M.mulVec v ≠ V3.zero := product_ne_zero hq hf.clear.regular hev hv
  have hd := definite_planar hz hv hM0 (fun c hc => not_opposite hq _ ⟨hev.1.le, hev.2.1.le, hev.2.2.le⟩ hc hv)
  have hw : weightObstacles [(ellItem er.1 er.2 x m).dist] c p = [1] := by
    unfold weightObstacles
    simp only [List.map_cons, List.map_nil, List.foldl_cons, List.foldl_nil, sum, zero_add]
    by_cases h2 : (ellItem er.1 er.2 x m).dist ≤ c
    · simp [h2, MathTools.ofInt]
    · have : (0 : ℝ) < ((ellItem er.1 er.2 x m).dist - c) ^ (-p) := Real.rpow_pos_of_pos (by linarith [not_le.mp h2]) _
      simp only [pow_real, h2, if_false, lt_irrefl]
      rw [div_self this.ne']
  unfold turn
  simp only [List.map_cons, List.map_nil, hw, List.zip_cons_cons, List.zip_nil_right, List.foldl_cons, List.foldl_nil, ← hM]
  have hv1 : V3.norm v.normalized = 1 := V3.norm_normalized hv
  have hw1 : V3.norm (M.mulVec v).normalized = 1 := V3.norm_normalized hM0
  have hvz : v.normalized.z = 0 := by rw [V3.normalized_of_ne hv]; simp [V3.smul, hz]
  have hcomp := comp_sq hv1 hvz hw1
  have hang : angle (M.mulVec v) v = Real.arccos (V3.dot (M.mulVec v).normalized v.normalized) := by
    unfold angle; rw [V3.dot_normalized hM0 hv]
  unfold angleTerm
  simp only [V2.add, V2.zero, V2.scale, safeAcos_real, mul_one, zero_add]
  rw [← hang]
  have hpos : 0 ≤ angle (M.mulVec v) v := Real.arccos_nonneg _
  by_cases h0 : 0 < V2.sqNorm (⟨((dsFrame v.normalized).transpose.mulVec (M.mulVec v).normalized).y,
    ((dsFrame v.normalized).transpose.mulVec (M.mulVec v).normalized).z⟩ : V2 ℝ)
  · have hn : V2.sqNorm (V2.normalized (⟨((dsFrame v.normalized).transpose.mulVec (M.mulVec v).normalized).y,
        ((dsFrame v.normalized).transpose.mulVec (M.mulVec v).normalized).z⟩ : V2 ℝ)) = 1 := by
      unfold V2.normalized
      rw [if_pos h0]
      generalize ((dsFrame v.normalized).transpose.mulVec (M.mulVec v).normalized).y = s at h0 ⊢
      generalize ((dsFrame v.normalized).transpose.mulVec (M.mulVec v).normalized).z = t at h0 ⊢
      have hs := Real.mul_self_sqrt h0.le
      have hs0 := Real.sqrt_pos.mpr h0
      simp only [V2.sqNorm, sqrt_real] at hs hs0 ⊢
      generalize √(s * s + t * t) = q at hs hs0 ⊢
      field_simp
      nlinarith
    generalize V2.normalized (⟨((dsFrame v.normalized).transpose.mulVec (M.mulVec v).normalized).y,
        ((dsFrame v.normalized).transpose.mulVec (M.mulVec v).normalized).z⟩ : V2 ℝ) = u at hn ⊢
    simp only [V2.norm, V2.sqNorm, sqrt_real] at hn ⊢
    rw [show u.x * angle (M.mulVec v) v * (u.x * angle (M.mulVec v) v) + u.y * angle (M.mulVec v) v * (u.y * angle (M.mulVec v) v)
      = (angle (M.mulVec v) v) ^ 2 * (u.x * u.x + u.y * u.y) by ring, hn, mul_one, Real.sqrt_sq hpos]
  · have hsum : V2.sqNorm (⟨((dsFrame v.normalized).transpose.mulVec (M.mulVec v).normalized).y,
        ((dsFrame v.normalized).transpose.mulVec (M.mulVec v).normalized).z⟩ : V2 ℝ) = 0 :=
      le_antisymm (not_lt.mp h0) (V2.sqNorm_nonneg _)
    have hy : ((dsFrame v.normalized).transpose.mulVec (M.mulVec v).normalized).y = 0 := by
      simp only [V2.sqNorm] at hsum
      nlinarith [mul_self_nonneg ((dsFrame v.normalized).transpose.mulVec (M.mulVec v).normalized).y,
        mul_self_nonneg ((dsFrame v.normalized).transpose.mulVec (M.mulVec v).normalized).z]
    have hzz : ((dsFrame v.normalized).transpose.mulVec (M.mulVec v).normalized).z = 0 := by
      simp only [V2.sqNorm] at hsum
      nlinarith [mul_self_nonneg ((dsFrame v.normalized).transpose.mulVec (M.mulVec v).normalized).y,
        mul_self_nonneg ((dsFrame v.normalized).transpose.mulVec (M.mulVec v).normalized).z]
    have hone : 1 ≤ V3.dot (M.mulVec v).normalized v.normalized := by
      rcases hd.2 with h | h | h
      · exact absurd hy h
      · exact absurd hzz h
      · exact h
    have h00 : angle (M.mulVec v) v = 0 := by rw [hang, Real.arccos_of_one_le hone]
    rw [h00]
    simp [V2.norm, V2.sqNorm]

theorem normalized_axis {c : ℝ} (hc : 0 < c) : V3.normalized (V3.smul c (⟨1, 0, 0⟩ : V3 ℝ)) = ⟨1, 0, 0⟩ := by
  have h1 : V3.norm (⟨1, 0, 0⟩ : V3 ℝ) = 1 := by rw [V3.norm_eq_one_iff]; simp [V3.sqNorm, V3.dot]
  have hn : V3.norm (V3.smul c (⟨1, 0, 0⟩ : V3 ℝ)) = c := by rw [V3.norm_smul, h1, abs_of_pos hc, mul_one]
  have hne : V3.smul c (⟨1, 0, 0⟩ : V3 ℝ) ≠ V3.zero := by
    intro h0; rw [h0, V3.norm_eq_zero.mpr rfl] at hn; linarith
  rw [V3.normalized_of_ne hne, hn]
  ext <;> simp [V3.smul]; field_simp

theorem ball_normal2 : (ball V3.zero).normalToAgent ⟨2, 0, 0⟩ 0 = ⟨1, 0, 0⟩ := by
  rw [Ellipsoid.normal_frame (ball V3.zero) ⟨2, 0, 0⟩ 0 1 1 1 (ball_smooth _).curv (ball_smooth _).long, ball_inv]
  have e1 : (⟨(2 * ((1 : ℕ) : ℝ) * 2 / ((halfLengths (ball V3.zero) (V3.const 0)).x * (halfLengths (ball V3.zero) (V3.const 0)).x)) ^ (2 * 1 - 1),
      (2 * ((1 : ℕ) : ℝ) * 0 / ((halfLengths (ball V3.zero) (V3.const 0)).y * (halfLengths (ball V3.zero) (V3.const 0)).y)) ^ (2 * 1 - 1),
      (2 * ((1 : ℕ) : ℝ) * 0 / ((halfLengths (ball V3.zero) (V3.const 0)).z * (halfLengths (ball V3.zero) (V3.const 0)).z)) ^ (2 * 1 - 1)⟩ : V3 ℝ)
      = V3.smul 4 ⟨1, 0, 0⟩ := by
    ext <;> simp [V3.smul, halfLengths, ball, Ellipsoid.ofBase, V3.const, V3.zero, Base.mkRef]; norm_num
  rw [e1, normalized_axis (by norm_num)]

theorem ball_free : Free (ball V3.zero, V3.zero) ⟨2, 0, 0⟩ 0 1 := by
  have hd : gdist (ball V3.zero) 0 ⟨2, 0, 0⟩ = 4 := by rw [ball_dist]; norm_num
  have hd0 : gdist (ball V3.zero) 0 V3.zero = 0 := by rw [ball_dist]; simp [V3.zero]
  refine ⟨⟨1, by norm_num, ball_smooth _⟩, rfl, rfl, ?_, ?_, ?_, ?_⟩
  · show gdist (ball V3.zero) 0 V3.zero < gdist (ball V3.zero) 0 ⟨2, 0, 0⟩
    rw [hd, hd0]; norm_num
  · show 1 < gdist (ball V3.zero) 0 ⟨2, 0, 0⟩
    rw [hd]; norm_num
  · show gdist (ball V3.zero) 0 ⟨2, 0, 0⟩ ≠ 1
    rw [hd]; norm_num
  · show (V3.cross ((ball V3.zero).normalToAgent ⟨2, 0, 0⟩ 0) V3.unitZ).norm ≠ _
    rw [ball_normal2]
    have : V3.norm (V3.cross (⟨1, 0, 0⟩ : V3 ℝ) V3.unitZ) = 1 := by
      rw [V3.norm_eq_one_iff]; simp [V3.cross, V3.unitZ, V3.sqNorm, V3.dot]
    rw [this]; norm_num

theorem ball_turned : (ellItem (ball V3.zero) V3.zero ⟨2, 0, 0⟩ 0).matrix.mulVec ⟨-1, 1, 0⟩ = ⟨-(3 / 4), 5 / 4, 0⟩ := by
  have hd : (ball V3.zero).distanceToPoint ⟨2, 0, 0⟩ (V3.const 0) = 4 := by
    have := ball_dist V3.zero ⟨2, 0, 0⟩
    unfold gdist at this
    rw [this]; norm_num
  have hr : referenceDirection (ball V3.zero).base.pose ⟨2, 0, 0⟩ V3.zero = ⟨1, 0, 0⟩ := by
    unfold referenceDirection
    rw [ball_inv, ball_inv]
    have e1 : (⟨2, 0, 0⟩ : V3 ℝ) - V3.zero = V3.smul 2 ⟨1, 0, 0⟩ := by ext <;> simp [V3.smul, V3.zero]
    rw [e1, normalized_axis (by norm_num)]
  have ht : tangentVector (⟨1, 0, 0⟩ : V3 ℝ) = ⟨0, -1, 0⟩ := by
    unfold tangentVector
    have h1 : V3.cross (⟨1, 0, 0⟩ : V3 ℝ) V3.unitZ = ⟨0, -1, 0⟩ := by ext <;> simp [V3.cross, V3.unitZ]
    have h2 : V3.norm (⟨0, -1, 0⟩ : V3 ℝ) = 1 := by rw [V3.norm_eq_one_iff]; simp [V3.sqNorm, V3.dot]
    simp only [h1, h2, lit_real]
    rw [if_neg (by norm_num)]
  have hev : diagonalEigenvalues (4 : ℝ) 1 = ⟨3 / 4, 5 / 4, 5 / 4⟩ := by
    unfold diagonalEigenvalues
    rw [if_neg (by norm_num)]
    simp only [pow_real, div_one, Real.rpow_one]; norm_num
  have hq : (ball V3.zero).base.orientation = Quat.one := rfl
  unfold ellItem
  simp only [hd, ball_normal2, hr, hev, hq]
  rw [modulationProduct_mulVec (by simp [Quat.IsUnit, Quat.sqNorm, Quat.one])]
  unfold referenceBasis
  simp only [ht]
  ext <;> simp [Quat.rotate, Quat.conjugate, Quat.one, Quat.vec, M3.mulVec, M3.had, M3.inverse, M3.det, V3.cross, V3.smul]

/-- Non-vacuity of C77: beside the unit ball. -/
example : ∃ v, modulateVelocity [.ellipsoid (ball V3.zero)] (agentAt ⟨2, 0, 0⟩ ⟨-1, 1, 0⟩) (envOf [0]) false false false 1 2
      = .ok ([.ellipsoid (ball V3.zero)], v) ∧
    ∀ ε > 0, ∃ δ > 0, ∀ A : Arith, A.Within δ → ∃ (u : V3 (Fp A)) (w : V3 ℝ),
      modulateVelocity (Heap.fp A [.ellipsoid (ball V3.zero)]) ((agentAt ⟨2, 0, 0⟩ ⟨-1, 1, 0⟩).fp A) (envOf [0]) false false false
        (A.ld 1) (A.ld 2) = .ok (Heap.fp A [.ellipsoid (ball V3.zero)], u) ∧ u.Is w ∧ V3.norm (w - v) < ε := by
  refine C77_static_partial _ _ _ false 1 2 [(ball V3.zero, V3.zero)] (by simp [envOf, Env.list]) (.cons ⟨rfl, rfl⟩ .nil) ?_ rfl
    (by intro h; have := congrArg V3.x h; norm_num [agentAt, V3.zero] at this) ?_ (by intro h; cases h)
  · intro er he
    rw [List.mem_singleton.mp he]
    exact ball_free
  · show (turn [(ball V3.zero, V3.zero)] ⟨2, 0, 0⟩ ⟨-1, 1, 0⟩ 0 1 2).norm ≠ _
    rw [turn_single _ _ _ _ _ _ ball_free rfl (by intro h; have := congrArg V3.x h; norm_num [V3.zero] at this), ball_turned]
    unfold angle
    intro h
    have h1 : V3.dot (⟨-(3 / 4), 5 / 4, 0⟩ : V3 ℝ) ⟨-1, 1, 0⟩ = 2 := by norm_num [V3.dot]
    have h2 : 0 ≤ V3.norm (⟨-(3 / 4), 5 / 4, 0⟩ : V3 ℝ) * V3.norm (⟨-1, 1, 0⟩ : V3 ℝ) :=
      mul_nonneg (V3.norm_nonneg _) (V3.norm_nonneg _)
    have h3 : (V3.norm (⟨-(3 / 4), 5 / 4, 0⟩ : V3 ℝ) * V3.norm (⟨-1, 1, 0⟩ : V3 ℝ)) ^ 2 = 17 / 4 := by
      rw [mul_pow, pow_two, pow_two, V3.norm_sq, V3.norm_sq]; norm_num [V3.sqNorm, V3.dot]
    rw [h1] at h
    set q := V3.norm (⟨-(3 / 4), 5 / 4, 0⟩ : V3 ℝ) * V3.norm (⟨-1, 1, 0⟩ : V3 ℝ)
    have hq : 2.06 < q := by nlinarith
    have hq1 : 2 / q < 0.98 := by rw [div_lt_iff₀ (by linarith)]; linarith
    have hq0 : 0 < 2 / q := by positivity
    have h4 := Real.cos_arccos (x := 2 / q) (by linarith) (by linarith)
    rw [h] at h4
    have h5 := Real.one_sub_sq_div_two_le_cos (x := (1 / 10000 : ℝ))
    norm_num at h5
    linarith

end DOA.Props
