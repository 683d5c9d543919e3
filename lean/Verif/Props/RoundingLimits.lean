import Verif.Props.Rounding

/-!
# C77 finite precision: where the computed velocity is far from the exact one
-/

set_option linter.unusedSectionVars false
set_option linter.unusedSimpArgs false

namespace DOA.Props
open DOA Spec Modulation

/-- a plate in the plane yz at the origin, of half thickness `l` -/
def plate (l : ℝ) : Ellipsoid ℝ := { ball V3.zero with axis := ⟨l, 1, 1⟩ }

theorem plate_pose (l : ℝ) (x : V3 ℝ) : (plate l).base.pose.inverse.apply x = x := ball_inv V3.zero x

theorem plate_dist (l : ℝ) : (plate l).distanceToPoint ⟨1, 0, 0⟩ (V3.const 0) =
    if 1 / 10000 < l then (1 / l) ^ 2 else 1 := by
  unfold Ellipsoid.distanceToPoint
  rw [plate_pose]
  have e1 : (plate l).axis + (plate l).base.margin + V3.const 0 = (⟨l, 1, 1⟩ : V3 ℝ) := by
    ext <;> simp [plate, V3.const, ball, Ellipsoid.ofBase, Base.mkRef, V3.zero]
  have e2 : (plate l).curv = ⟨1, 1, 1⟩ := rfl
  simp only [e1, e2, Ellipsoid.scaled, Ellipsoid.epsilon, lit_real, pow_real]
  have h2 : ((2 : ℤ) : ℝ) / ((1 : ℕ) : ℝ) * 1 = ((2 : ℕ) : ℝ) := by norm_num
  by_cases h : 1 / 10000 < l
  · have h' : ((1 : ℤ) : ℝ) / ((10000 : ℕ) : ℝ) < l := by norm_num; norm_num at h; exact h
    rw [if_pos h, if_pos h', if_pos (by norm_num), h2, Real.rpow_natCast, Real.rpow_natCast]
    norm_num
  · have h' : ¬((1 : ℤ) : ℝ) / ((10000 : ℕ) : ℝ) < l := by norm_num; norm_num at h; exact h
    rw [if_neg h, if_neg h', if_pos (by norm_num), h2, Real.rpow_natCast, Real.rpow_natCast]
    norm_num

theorem plate_normal (l : ℝ) (hl : 0 < l) : (plate l).normalToAgent ⟨1, 0, 0⟩ 0 = ⟨1, 0, 0⟩ := by
  unfold Ellipsoid.normalToAgent
  rw [plate_pose]
  have e1 : (plate l).axis + (plate l).base.margin + V3.const 0 = (⟨l, 1, 1⟩ : V3 ℝ) := by
    ext <;> simp [plate, V3.const, ball, Ellipsoid.ofBase, Base.mkRef, V3.zero]
  have e2 : (plate l).curv = ⟨1, 1, 1⟩ := rfl
  simp only [e1, e2, Ellipsoid.scaledSq, Ellipsoid.epsilon, lit_real, pow_real]
  have h2 : ((2 : ℤ) : ℝ) / ((1 : ℕ) : ℝ) * 1 - 1 = ((1 : ℕ) : ℝ) := by norm_num
  simp only [h2, Real.rpow_natCast]
  by_cases h : ((1 : ℤ) : ℝ) / ((10000 : ℕ) : ℝ) < l
  · rw [if_pos h]
    rw [← normalized_axis (c := 2 / (l * l)) (by positivity)]
    congr 1
    ext <;> simp [V3.smul]
  · rw [if_neg h, ← normalized_axis (c := 2) (by norm_num)]
    congr 1
    ext <;> simp [V3.smul]

/-- the modulation by the plate -/
theorem plate_turned (l : ℝ) (hl : 0 < l) (h1 : l < 1) :
    (ellItem (plate l) V3.zero ⟨1, 0, 0⟩ 0).matrix.mulVec ⟨-1, 0, 0⟩ = ⟨-(if 1 / 10000 < l then 1 - l ^ 2 else 0), 0, 0⟩ := by
  have hr : referenceDirection (plate l).base.pose ⟨1, 0, 0⟩ V3.zero = ⟨1, 0, 0⟩ := by
    unfold referenceDirection
    rw [plate_pose, plate_pose]
    have e1 : (⟨1, 0, 0⟩ : V3 ℝ) - V3.zero = V3.smul 1 ⟨1, 0, 0⟩ := by ext <;> simp [V3.smul, V3.zero]
    rw [e1, normalized_axis (by norm_num)]
  have ht : tangentVector (⟨1, 0, 0⟩ : V3 ℝ) = ⟨0, -1, 0⟩ := by
    unfold tangentVector
    have h1 : V3.cross (⟨1, 0, 0⟩ : V3 ℝ) V3.unitZ = ⟨0, -1, 0⟩ := by ext <;> simp [V3.cross, V3.unitZ]
    have h2 : V3.norm (⟨0, -1, 0⟩ : V3 ℝ) = 1 := by rw [V3.norm_eq_one_iff]; simp [V3.sqNorm, V3.dot]
    simp only [h1, h2, lit_real]
    rw [if_neg (by norm_num)]
  have hq : (plate l).base.orientation = Quat.one := rfl
  have hev : ∃ μ : ℝ, diagonalEigenvalues (if 1 / 10000 < l then (1 / l) ^ 2 else 1) 1 =
      ⟨if 1 / 10000 < l then 1 - l ^ 2 else 0, μ, μ⟩ := by
    by_cases h : 1 / 10000 < l
    · refine ⟨1 + l ^ 2, ?_⟩
      rw [if_pos h, if_pos h]
      unfold diagonalEigenvalues
      have hlt : ¬(1 / l) ^ 2 ≤ 1 := by
        rw [not_le]
        exact one_lt_pow₀ ((one_lt_div hl).mpr h1) (by norm_num)
      simp only [if_neg hlt, pow_real, div_one, Real.rpow_one]
      have : 1 / (1 / l) ^ 2 = l ^ 2 := by field_simp
      rw [this]
    · refine ⟨2, ?_⟩
      rw [if_neg h, if_neg h]
      unfold diagonalEigenvalues
      simp only [le_refl, if_true]; norm_num
  obtain ⟨μ, hev⟩ := hev
  unfold ellItem
  simp only [plate_dist, plate_normal l hl, hr, hev, hq]
  rw [modulationProduct_mulVec (by simp [Quat.IsUnit, Quat.sqNorm, Quat.one])]
  unfold referenceBasis
  simp only [ht]
  ext <;> simp [Quat.rotate, Quat.conjugate, Quat.one, Quat.vec, M3.mulVec, M3.had, M3.inverse, M3.det, V3.cross, V3.smul]

/-- the exact velocity -/
theorem plate_exact (l : ℝ) (hl : 0 < l) (h1 : l < 1) (c p : ℝ) :
    modulateVelocity [.ellipsoid (plate l)] (agentAt ⟨1, 0, 0⟩ ⟨-1, 0, 0⟩) (envOf [0]) false false false c p
      = .ok ([.ellipsoid (plate l)], ⟨-(if 1 / 10000 < l then 1 - l ^ 2 else 0), 0, 0⟩) := by
  have hl0 : List.Forall₂ (Leads [.ellipsoid (plate l)]) (envOf [0]).list [(plate l, V3.zero)] := .cons ⟨rfl, rfl⟩ .nil
  rw [modulate_ell (by simp [envOf, Env.list]) hl0]
  congr 2
  unfold ellOut
  rw [finish_real, combine_eq]
  have hov : obsVel (⟨1, 0, 0⟩ : V3 ℝ) [ellItem (plate l) V3.zero ⟨1, 0, 0⟩ 0] c p = V3.zero := by
    unfold obsVel
    apply lsum_zero
    intro i hi
    rw [List.mem_singleton.mp hi]
    exact obstacleVelocity_static rfl rfl _ _ _
  show core ((⟨-1, 0, 0⟩ : V3 ℝ) - obsVel ⟨1, 0, 0⟩ [ellItem (plate l) V3.zero ⟨1, 0, 0⟩ 0] c p)
    (pairs [ellItem (plate l) V3.zero ⟨1, 0, 0⟩ 0] c p) + obsVel ⟨1, 0, 0⟩ [ellItem (plate l) V3.zero ⟨1, 0, 0⟩ 0] c p = _
  have hpairs : pairs [ellItem (plate l) V3.zero ⟨1, 0, 0⟩ 0] c p = [((ellItem (plate l) V3.zero ⟨1, 0, 0⟩ 0).matrix, 1)] := by
    simp [pairs, weightOf_single]
  rw [hov, hpairs, V3.sub_zero', V3.add_zero']
  have ht := plate_turned l hl h1
  set s : ℝ := if 1 / 10000 < l then 1 - l ^ 2 else 0 with hs
  have hs0 : 0 ≤ s := by
    rw [hs]; split
    · nlinarith
    · exact le_refl _
  rw [← ht]
  refine (core_single rfl ?_).1 ?_
  · intro c hc _ h
    rw [ht] at h
    have := congrArg V3.x h
    simp [V3.smul] at this
    linarith
  · rw [ht]
    have hn : V3.norm (⟨-1, 0, 0⟩ : V3 ℝ) = 1 := by rw [V3.norm_eq_one_iff]; simp [V3.sqNorm, V3.dot]
    have hn2 : V3.norm (⟨-s, 0, 0⟩ : V3 ℝ) = s := by
      have : (⟨-s, 0, 0⟩ : V3 ℝ) = V3.smul s ⟨-1, 0, 0⟩ := by ext <;> simp [V3.smul]
      rw [this, V3.norm_smul, hn, abs_of_nonneg hs0, mul_one]
    unfold angle
    rw [hn, hn2]
    have hd : V3.dot (⟨-s, 0, 0⟩ : V3 ℝ) ⟨-1, 0, 0⟩ = s := by simp [V3.dot]
    rw [hd, mul_one]
    rcases hs0.lt_or_eq with h0 | h0
    · left; rw [div_self h0.ne', Real.arccos_one]
    · right; rw [← h0, div_zero, Real.arccos_zero]
      have := Real.two_le_pi
      linarith

/-- Negation of C77 without its conditions, whatever the arithmetic: as soon as some half lengths on either side of the
threshold 1e-4 are represented by the same double, there is an environment with one such plate, where the exact velocity
is defined and the computed one misses it by 2/5 of the speed. -/
theorem C77_negation_threshold (A : Arith) (l1 l2 : ℝ) (h0 : 0 < l1) (h1 : l1 ≤ 1 / 10000) (h2 : 1 / 10000 < l2) (h3 : l2 ≤ 1 / 10)
    (hA : A.rnd l1 = A.rnd l2) :
    ∃ (h : Heap ℝ) (v : V3 ℝ),
      modulateVelocity h (agentAt ⟨1, 0, 0⟩ ⟨-1, 0, 0⟩) (envOf [0]) false false false 1 2 = .ok (h, v) ∧
      ∀ (u : V3 (Fp A)) (w : V3 ℝ), modulateVelocity (h.fp A) ((agentAt ⟨1, 0, 0⟩ ⟨-1, 0, 0⟩).fp A) (envOf [0]) false false false
        (A.ld 1) (A.ld 2) = .ok (h.fp A, u) → u.Is w → 2 / 5 < V3.norm (w - v) := by
  have e1 := plate_exact l1 h0 (by linarith) 1 2
  have e2 := plate_exact l2 (by linarith) (by linarith) 1 2
  rw [if_neg (not_lt.mpr h1)] at e1
  rw [if_pos h2] at e2
  have hsame : Heap.fp A [.ellipsoid (plate l1)] = Heap.fp A [.ellipsoid (plate l2)] := by
    simp only [Heap.fp, List.map_cons, List.map_nil, Obj.fp, Ellipsoid.fp, plate, V3.fp, Arith.ld, hA]
  by_contra hcon
  push Not at hcon
  obtain ⟨u1, w1, c1, d1, b1⟩ := hcon _ _ e1
  obtain ⟨u2, w2, c2, d2, b2⟩ := hcon _ _ e2
  rw [hsame, c2] at c1
  have hu : u2 = u1 := congrArg Prod.snd (Res.ok.inj c1)
  subst hu
  have hw : w1 = w2 := by
    obtain ⟨a1, a2, a3⟩ := d1
    obtain ⟨a4, a5, a6⟩ := d2
    rw [a4] at a1; rw [a5] at a2; rw [a6] at a3
    ext
    · exact (Dbl.fin.inj a1).symm
    · exact (Dbl.fin.inj a2).symm
    · exact (Dbl.fin.inj a3).symm
  subst hw
  have hxn : ∀ u : V3 ℝ, |u.x| ≤ V3.norm u := by
    intro u
    rw [V3.norm, sqrt_real, ← Real.sqrt_sq_eq_abs]
    apply Real.sqrt_le_sqrt
    simp only [V3.sqNorm, V3.dot]; nlinarith [mul_self_nonneg u.y, mul_self_nonneg u.z]
  have k1 := hxn (w1 - ⟨-0, 0, 0⟩)
  have k2 := hxn (w1 - ⟨-(1 - l2 ^ 2), 0, 0⟩)
  simp only [V3.sub_x] at k1 k2
  have k3 := abs_le.mp (le_trans k1 b1)
  have k4 := abs_le.mp (le_trans k2 b2)
  nlinarith [k3.1, k4.2]

/-- in `double` there are such lengths -/
theorem binary64_threshold : Format.binary64.rnd (1 / 10000) = Format.binary64.rnd (1 / 10000 + 2 ^ (-100 : ℤ)) := by
  have key : ∀ x : ℝ, 1 / 10000 ≤ x → x ≤ 1 / 10000 + 2 ^ (-100 : ℤ) →
      Format.binary64.rnd x = Format.binary64.rndPos x ∧ Format.binary64.nearest x = 7378697629483821 * 2 ^ (-66 : ℤ) := by
    intro x h1 h2
    have hx : 0 < x := by linarith
    refine ⟨Format.rnd_nonneg hx.le, ?_⟩
    have hlog : Int.log 2 x = -14 := by
      have a1 : (-14 : ℤ) ≤ Int.log 2 x := by
        apply (Int.zpow_le_iff_le_log (b := 2) (by norm_num) hx).mp
        norm_num at h1 ⊢; linarith
      have a2 : Int.log 2 x < -13 := by
        apply (Int.lt_zpow_iff_log_lt (b := 2) (by norm_num) hx).mp
        norm_num at h2 ⊢; linarith
      omega
    have he : Format.binary64.expo x = -66 := by
      unfold Format.expo; rw [hlog]; rfl
    unfold Format.nearest
    rw [he]
    have hfl : ⌊x / 2 ^ (-66 : ℤ)⌋ = 7378697629483820 := by
      rw [Int.floor_eq_iff]
      norm_num at h1 h2 ⊢
      constructor <;> linarith
    have hr : rne (x / 2 ^ (-66 : ℤ)) = 7378697629483821 := by
      unfold rne
      rw [hfl]
      have g1 : 1 / 2 < x / 2 ^ (-66 : ℤ) - ((7378697629483820 : ℤ) : ℝ) := by
        norm_num at h1 ⊢; linarith
      rw [if_neg (by linarith), if_pos g1]; norm_num
    rw [hr]; norm_num
  obtain ⟨a1, a2⟩ := key (1 / 10000) (le_refl _) (by norm_num)
  obtain ⟨b1, b2⟩ := key (1 / 10000 + 2 ^ (-100 : ℤ)) (by norm_num) (le_refl _)
  rw [a1, b1]
  unfold Format.rndPos
  rw [a2, b2]

/-- Negation of C77 without its conditions, for `double`. -/
theorem C77_negation_double : ∃ (h : Heap ℝ) (v : V3 ℝ),
    modulateVelocity h (agentAt ⟨1, 0, 0⟩ ⟨-1, 0, 0⟩) (envOf [0]) false false false 1 2 = .ok (h, v) ∧
    ∀ (u : V3 (Fp Format.binary64.arith)) (w : V3 ℝ), modulateVelocity (h.fp Format.binary64.arith)
      ((agentAt ⟨1, 0, 0⟩ ⟨-1, 0, 0⟩).fp Format.binary64.arith) (envOf [0]) false false false
      (Format.binary64.arith.ld 1) (Format.binary64.arith.ld 2) = .ok (h.fp Format.binary64.arith, u) → u.Is w →
      2 / 5 < V3.norm (w - v) :=
  C77_negation_threshold Format.binary64.arith (1 / 10000) (1 / 10000 + 2 ^ (-100 : ℤ)) (by norm_num) (le_refl _)
    (by norm_num) (by norm_num) binary64_threshold

end DOA.Props
