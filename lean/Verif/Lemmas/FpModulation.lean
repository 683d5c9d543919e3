import Verif.Lemmas.FpGeom
import Verif.Lemmas.DblCollect
import Verif.Spec.Fp

/-!
# Convergence of finite precision arithmetic: ellipsoids, modulation
-/

set_option linter.unusedSectionVars false
set_option linter.unusedSimpArgs false

namespace DOA
open Filter Topology

variable {F : Filter Arith} [Fine F]

/-! ### ellipsoids -/

structure ConvB (F : Filter Arith) (b : ∀ A, Base (Fp A)) (b0 : Base ℝ) : Prop where
  pose : ConvP F (fun A => (b A).pose) b0.pose
  lin : ConvV F (fun A => (b A).state.linearVelocity) b0.state.linearVelocity
  ang : ConvV F (fun A => (b A).state.angularVelocity) b0.state.angularVelocity
  margin : ConvV F (fun A => (b A).margin) b0.margin

/-- The exponents are exact natural numbers, everything else converges. -/
structure ConvE (F : Filter Arith) (e : ∀ A, Ellipsoid (Fp A)) (e0 : Ellipsoid ℝ) (k1 k2 k3 : ℕ) : Prop where
  base : ConvB F (fun A => (e A).base) e0.base
  axis : ConvV F (fun A => (e A).axis) e0.axis
  curv : ∀ᶠ A in F, (e A).curv = ⟨⟨.fin k1⟩, ⟨.fin k2⟩, ⟨.fin k3⟩⟩
  curv0 : e0.curv = ⟨k1, k2, k3⟩
  pos : 1 ≤ k1 ∧ 1 ≤ k2 ∧ 1 ≤ k3
  small : 2 * k1 ≤ 2 ^ 53 ∧ 2 * k2 ≤ 2 ^ 53 ∧ 2 * k3 ≤ 2 ^ 53

theorem Arith.Sound.nat {A : Arith} (hA : A.Sound) {n : ℕ} (hn : n ≤ 2 ^ 53) : A.rnd n = .fin n := by
  have := hA.int n (by rw [abs_of_nonneg (by positivity)]; exact_mod_cast hn)
  simpa using this

theorem fp_two_mul {A : Arith} (hA : A.Sound) {k : ℕ} (hk : 2 * k ≤ 2 ^ 53) :
    ((lit 2 1 : Fp A) * ⟨.fin k⟩).v = .fin ((2 * k : ℕ) : ℝ) := by
  have h2 : (lit 2 1 : Fp A).v = .fin 2 := by
    show A.rnd ((2 : Int) / ((1 : Nat) : ℝ)) = _
    have := hA.nat (n := 2) (by norm_num)
    norm_num at this ⊢
    exact this
  show A.round ((lit 2 1 : Fp A).v * .fin k) = _
  rw [h2]
  show A.rnd (2 * (k : ℝ)) = _
  rw [← hA.nat hk]
  push_cast
  rfl

theorem fp_two_mul_sub {A : Arith} (hA : A.Sound) {k : ℕ} (hk : 2 * k ≤ 2 ^ 53) (h1 : 1 ≤ k) :
    ((lit 2 1 : Fp A) * ⟨.fin k⟩ - 1).v = .fin ((2 * k - 1 : ℕ) : ℝ) := by
  show A.round (((lit 2 1 : Fp A) * ⟨.fin k⟩).v - .fin 1) = _
  rw [fp_two_mul hA hk, Dbl.fin_sub]
  show A.rnd _ = _
  rw [← hA.nat (n := 2 * k - 1) (by omega), Nat.cast_sub (by omega)]
  push_cast
  rfl

theorem pow_even {t c : ℝ} {k : ℕ} (hc : c = k) : CMath.pow t (lit 2 1 * c) = t ^ (2 * k) := by
  have h1 : ((2 : Int) : ℝ) / ((1 : Nat) : ℝ) * c = ((2 * k : ℕ) : ℝ) := by rw [hc]; push_cast; ring
  simp only [lit_real, pow_real, h1, Real.rpow_natCast]

theorem pow_odd {t c : ℝ} {k : ℕ} (hc : c = k) (hk : 1 ≤ k) : CMath.pow t (lit 2 1 * c - 1) = t ^ (2 * k - 1) := by
  have h1 : ((2 : Int) : ℝ) / ((1 : Nat) : ℝ) * c - 1 = ((2 * k - 1 : ℕ) : ℝ) := by
    rw [hc, Nat.cast_sub (by omega)]; push_cast; ring
  simp only [lit_real, pow_real, h1, Real.rpow_natCast]

theorem Conv.pow_even {x c : Fam} {t c0 : ℝ} {k : ℕ} (h : Conv F x t) (hc : ∀ᶠ A in F, c A = ⟨.fin k⟩) (hc0 : c0 = k)
    (hk : 2 * k ≤ 2 ^ 53) : Conv F (fun A => CMath.pow (x A) (DOA.lit 2 1 * c A)) (CMath.pow t (DOA.lit 2 1 * c0)) := by
  rw [DOA.pow_even hc0]
  refine h.pow_nat ?_
  filter_upwards [hc, sound_fine] with A h1 h2
  rw [h1]; exact fp_two_mul h2 hk

theorem Conv.pow_odd {x c : Fam} {t c0 : ℝ} {k : ℕ} (h : Conv F x t) (hc : ∀ᶠ A in F, c A = ⟨.fin k⟩) (hc0 : c0 = k)
    (h1 : 1 ≤ k) (hk : 2 * k ≤ 2 ^ 53) :
    Conv F (fun A => CMath.pow (x A) (DOA.lit 2 1 * c A - 1)) (CMath.pow t (DOA.lit 2 1 * c0 - 1)) := by
  rw [DOA.pow_odd hc0 h1]
  refine h.pow_nat ?_
  filter_upwards [hc, sound_fine] with A h2 h3
  rw [h2]; exact fp_two_mul_sub h3 hk h1

theorem Conv.scaled {v l : Fam} {v0 l0 : ℝ} (hv : Conv F v v0) (hl : Conv F l l0) (h : l0 ≠ 1 / 10000) :
    Conv F (fun A => Ellipsoid.scaled (v A) (l A)) (Ellipsoid.scaled v0 l0) := by
  have he : Conv F (fun _ => Ellipsoid.epsilon) (Ellipsoid.epsilon : ℝ) := Conv.lit 1 10000
  have h1 : (Ellipsoid.epsilon : ℝ) = 1 / 10000 := by simp [Ellipsoid.epsilon]
  unfold Ellipsoid.scaled
  rcases lt_or_gt_of_ne h with h2 | h2
  · rw [if_neg (by rw [h1]; exact h2.not_gt)]
    exact ite_false hv (he.not_lt hl (by rw [h1]; exact h2))
  · rw [if_pos (by rw [h1]; exact h2)]
    exact ite_true (hv.div hl (by have : (0 : ℝ) < 1 / 10000 := by norm_num
                                  linarith)) (he.lt hl (by rw [h1]; exact h2))

theorem Conv.scaledSq {v l : Fam} {v0 l0 : ℝ} (hv : Conv F v v0) (hl : Conv F l l0) (h : l0 ≠ 1 / 10000) :
    Conv F (fun A => Ellipsoid.scaledSq (v A) (l A)) (Ellipsoid.scaledSq v0 l0) := by
  have he : Conv F (fun _ => Ellipsoid.epsilon) (Ellipsoid.epsilon : ℝ) := Conv.lit 1 10000
  have h1 : (Ellipsoid.epsilon : ℝ) = 1 / 10000 := by simp [Ellipsoid.epsilon]
  unfold Ellipsoid.scaledSq
  rcases lt_or_gt_of_ne h with h2 | h2
  · rw [if_neg (by rw [h1]; exact h2.not_gt)]
    exact ite_false hv (he.not_lt hl (by rw [h1]; exact h2))
  · rw [if_pos (by rw [h1]; exact h2)]
    have : l0 ≠ 0 := by have : (0 : ℝ) < 1 / 10000 := by norm_num
                        linarith
    exact ite_true (hv.div (hl.mul hl) (mul_ne_zero this this)) (he.lt hl (by rw [h1]; exact h2))

namespace ConvE
variable {e : ∀ A, Ellipsoid (Fp A)} {e0 : Ellipsoid ℝ} {k1 k2 k3 : ℕ} {x : ∀ A, V3 (Fp A)} {x0 : V3 ℝ} {m : Fam} {m0 : ℝ}

theorem curv_x (h : ConvE F e e0 k1 k2 k3) : (∀ᶠ A in F, (e A).curv.x = ⟨.fin k1⟩) ∧ e0.curv.x = k1 :=
  ⟨h.curv.mono fun _ h => by rw [h], by rw [h.curv0]⟩
theorem curv_y (h : ConvE F e e0 k1 k2 k3) : (∀ᶠ A in F, (e A).curv.y = ⟨.fin k2⟩) ∧ e0.curv.y = k2 :=
  ⟨h.curv.mono fun _ h => by rw [h], by rw [h.curv0]⟩
theorem curv_z (h : ConvE F e e0 k1 k2 k3) : (∀ᶠ A in F, (e A).curv.z = ⟨.fin k3⟩) ∧ e0.curv.z = k3 :=
  ⟨h.curv.mono fun _ h => by rw [h], by rw [h.curv0]⟩

theorem exact {c : Fam} {k : ℕ} (hc : ∀ᶠ A in F, c A = ⟨.fin k⟩) : Conv F c k :=
  ⟨fun _ => k, hc.mono fun _ h => by rw [h], tendsto_const_nhds⟩

theorem distance (h : ConvE F e e0 k1 k2 k3) (hx : ConvV F x x0) {m : ∀ A, V3 (Fp A)} {m0 : V3 ℝ} (hm : ConvV F m m0)
    (hl : OffThreshold (e0.axis + e0.base.margin + m0)) :
    Conv F (fun A => (e A).distanceToPoint (x A) (m A)) (e0.distanceToPoint x0 m0) := by
  have hp := h.base.pose.inverse.apply hx
  have hlen := (h.axis.add h.base.margin).add hm
  have h1 := Conv.pow_even (hp.x.scaled hlen.x hl.1) h.curv_x.1 h.curv_x.2 h.small.1
  have h2 := Conv.pow_even (hp.y.scaled hlen.y hl.2.1) h.curv_y.1 h.curv_y.2 h.small.2.1
  have h3 := Conv.pow_even (hp.z.scaled hlen.z hl.2.2) h.curv_z.1 h.curv_z.2 h.small.2.2
  exact (h1.add h2).add h3

theorem normal (h : ConvE F e e0 k1 k2 k3) (hx : ConvV F x x0) (hm : Conv F m m0)
    (hl : OffThreshold (e0.axis + e0.base.margin + V3.const m0)) (hn : e0.normalToAgent x0 m0 ≠ V3.zero) :
    ConvV F (fun A => (e A).normalToAgent (x A) (m A)) (e0.normalToAgent x0 m0) := by
  have hp := h.base.pose.inverse.apply hx
  have hlen := (h.axis.add h.base.margin).add (ConvV.const hm)
  have cx : Conv F (fun A => (e A).curv.x) e0.curv.x := by rw [h.curv_x.2]; exact exact h.curv_x.1
  have cy : Conv F (fun A => (e A).curv.y) e0.curv.y := by rw [h.curv_y.2]; exact exact h.curv_y.1
  have cz : Conv F (fun A => (e A).curv.z) e0.curv.z := by rw [h.curv_z.2]; exact exact h.curv_z.1
  have t1 := (((Conv.lit 2 1).mul cx).mul hp.x).scaledSq hlen.x hl.1
  have t2 := (((Conv.lit 2 1).mul cy).mul hp.y).scaledSq hlen.y hl.2.1
  have t3 := (((Conv.lit 2 1).mul cz).mul hp.z).scaledSq hlen.z hl.2.2
  have n1 := t1.pow_odd h.curv_x.1 h.curv_x.2 h.pos.1 h.small.1
  have n2 := t2.pow_odd h.curv_y.1 h.curv_y.2 h.pos.2.1 h.small.2.1
  have n3 := t3.pow_odd h.curv_z.1 h.curv_z.2 h.pos.2.2 h.small.2.2
  have hv : ConvV F (fun A => ⟨_, _, _⟩) ⟨_, _, _⟩ := ⟨n1, n2, n3⟩
  refine hv.normalized ?_
  rcases (V3.sqNorm_nonneg' (⟨_, _, _⟩ : V3 ℝ)).lt_or_eq with h0 | h0
  · exact h0
  · exfalso
    apply hn
    unfold Ellipsoid.normalToAgent V3.normalized
    simp only []
    rw [if_neg (by rw [← h0]; exact lt_irrefl _)]
    simp only [V3.sqNorm, V3.dot] at h0
    ext <;> simp only [V3.zero] <;> nlinarith [mul_self_nonneg (CMath.pow (Ellipsoid.scaledSq (lit 2 1 * e0.curv.x *
      (e0.base.pose.inverse.apply x0).x) (e0.axis + e0.base.margin + V3.const m0).x) (lit 2 1 * e0.curv.x - 1)),
      mul_self_nonneg (CMath.pow (Ellipsoid.scaledSq (lit 2 1 * e0.curv.y *
      (e0.base.pose.inverse.apply x0).y) (e0.axis + e0.base.margin + V3.const m0).y) (lit 2 1 * e0.curv.y - 1)),
      mul_self_nonneg (CMath.pow (Ellipsoid.scaledSq (lit 2 1 * e0.curv.z *
      (e0.base.pose.inverse.apply x0).z) (e0.axis + e0.base.margin + V3.const m0).z) (lit 2 1 * e0.curv.z - 1))]

end ConvE

/-! ### one obstacle -/

namespace Modulation

theorem conv_eigenvalues {d : Fam} {d0 : ℝ} (h : Conv F d d0) :
    ConvV F (fun A => diagonalEigenvalues (d A) 1) (diagonalEigenvalues d0 1) := by
  have key : Conv F (fun A => if d A ≤ 1 then 1 else 1 / CMath.pow (d A) (1 / 1)) (if d0 ≤ 1 then 1 else 1 / CMath.pow d0 (1 / 1)) := by
    have hb : 0 < d0 → Conv F (fun A => 1 / CMath.pow (d A) (1 / 1)) (1 / CMath.pow d0 (1 / 1)) := fun h0 =>
      Conv.one.div (h.pow (Conv.one.div Conv.one one_ne_zero) h0) (Real.rpow_pos_of_pos h0 _).ne'
    rcases lt_trichotomy d0 1 with h1 | h1 | h1
    · rw [if_pos h1.le]; exact Conv.ite_true Conv.one (h.le Conv.one h1)
    · rw [if_pos h1.le]
      refine Conv.ite Conv.one ?_
      have := hb (by linarith)
      rw [h1] at this
      simpa using this
    · rw [if_neg h1.not_ge]; exact Conv.ite_false (hb (by linarith)) (h.not_le Conv.one h1)
  exact ⟨Conv.one.sub key, Conv.one.add key, Conv.one.add key⟩

theorem conv_tangent {n : ∀ A, V3 (Fp A)} {n0 : V3 ℝ} (h : ConvV F n n0) (ht : (V3.cross n0 V3.unitZ).norm ≠ 1 / 10000) :
    ConvV F (fun A => tangentVector (n A)) (tangentVector n0) := by
  have hz := h.cross ConvV.unitZ
  have hy := h.cross ConvV.unitY
  have he := Conv.lit (F := F) 1 10000
  have h1 : (lit 1 10000 : ℝ) = 1 / 10000 := by simp
  unfold tangentVector
  simp only []
  rcases lt_or_gt_of_ne ht with h2 | h2
  · rw [if_pos (by rw [h1]; exact h2)]
    exact ConvV.ite_true hy (hz.norm.lt he (by rw [h1]; exact h2))
  · rw [if_neg (by rw [h1]; exact h2.not_gt)]
    exact ConvV.ite_false hz (hz.norm.not_lt he (by rw [h1]; exact h2))

theorem conv_orthogonalBasis {n : ∀ A, V3 (Fp A)} {n0 : V3 ℝ} (h : ConvV F n n0)
    (ht : (V3.cross n0 V3.unitZ).norm ≠ 1 / 10000) : ConvM F (fun A => orthogonalBasis (n A)) (orthogonalBasis n0) :=
  ⟨h, conv_tangent h ht, (conv_tangent h ht).cross h⟩

theorem conv_referenceBasis {n r : ∀ A, V3 (Fp A)} {n0 r0 : V3 ℝ} (h : ConvV F n n0) (hr : ConvV F r r0)
    (ht : (V3.cross n0 V3.unitZ).norm ≠ 1 / 10000) : ConvM F (fun A => referenceBasis (n A) (r A)) (referenceBasis n0 r0) :=
  ⟨hr, conv_tangent h ht, (conv_tangent h ht).cross hr⟩

theorem sqNorm_pos_of_normalized {v : V3 ℝ} (h : v.normalized ≠ V3.zero) : 0 < V3.sqNorm v := by
  rcases (V3.sqNorm_nonneg' v).lt_or_eq with h0 | h0
  · exact h0
  · exfalso
    apply h
    unfold V3.normalized
    rw [if_neg (by rw [← h0]; exact lt_irrefl _)]
    simp only [V3.sqNorm, V3.dot] at h0
    ext <;> simp only [V3.zero] <;> nlinarith [mul_self_nonneg v.x, mul_self_nonneg v.y, mul_self_nonneg v.z]

theorem conv_referenceDirection {p : ∀ A, Pose (Fp A)} {p0 : Pose ℝ} {x r : ∀ A, V3 (Fp A)} {x0 r0 : V3 ℝ} (h : ConvP F p p0)
    (hx : ConvV F x x0) (hr : ConvV F r r0) (hne : referenceDirection p0 x0 r0 ≠ V3.zero) :
    ConvV F (fun A => referenceDirection (p A) (x A) (r A)) (referenceDirection p0 x0 r0) :=
  ((h.inverse.apply hx).sub (h.inverse.apply hr)).normalized (sqNorm_pos_of_normalized hne)

theorem conv_product {q : ∀ A, Quat (Fp A)} {q0 : Quat ℝ} {b : ∀ A, M3 (Fp A)} {b0 : M3 ℝ} {d : ∀ A, V3 (Fp A)} {d0 : V3 ℝ}
    (hq : ConvQ F q q0) (hb : ConvM F b b0) (hd : ConvV F d d0) (hdet : b0.det ≠ 0) (hq0 : 0 < q0.sqNorm) :
    ConvM F (fun A => modulationProduct (q A) (b A) (d A)) (modulationProduct q0 b0 d0) :=
  (((hq.toM3.mul hb).mulDiag hd).mul (hb.inverse hdet)).mul (hq.inverse hq0).toM3

theorem conv_obstacleVelocity {x : ∀ A, V3 (Fp A)} {x0 : V3 ℝ} {o : ∀ A, Base (Fp A)} {o0 : Base ℝ} {d w : Fam} {d0 w0 : ℝ}
    {b : ∀ A, M3 (Fp A)} {b0 : M3 ℝ} (hx : ConvV F x x0) (ho : ConvB F o o0) (hd : Conv F d d0) (hw : Conv F w w0) (hb : ConvM F b b0) :
    ConvV F (fun A => obstacleVelocity (x A) (o A) (d A) (w A) (b A)) (obstacleVelocity x0 o0 d0 w0 b0) := by
  have hang := ho.ang.cross (hx.sub ho.pose.position)
  have he := (((Conv.one.maxS hd).sub Conv.one).neg).exp
  have hv := hb.mulVec (hb.transpose.mulVec (ConvV.smul he (ho.lin.add hang)))
  exact ⟨hv.x.mul hw, hv.y.mul hw, hv.z.mul hw⟩

theorem conv_dsFrame {v : ∀ A, V3 (Fp A)} {v0 : V3 ℝ} (h : ConvV F v v0) : ConvM F (fun A => dsFrame (v A)) (dsFrame v0) := by
  unfold dsFrame
  simp only [ite_self]
  exact ⟨h, h.cross ConvV.unitZ, (h.cross ConvV.unitZ).cross h⟩

theorem safeAcos_real (x : ℝ) : safeAcos x = Real.arccos x := by
  unfold safeAcos
  simp only []
  split
  · rename_i h; simp only [acos_real]; rw [Real.arccos_of_le_neg_one (le_refl _), Real.arccos_of_le_neg_one h.le]
  · split
    · rename_i h; simp only [acos_real]; rw [Real.arccos_of_one_le (le_refl _), Real.arccos_of_one_le h.le]
    · rfl

theorem conv_safeAcos {x : Fam} {a : ℝ} (h : Conv F x a) : Conv F (fun A => safeAcos (x A)) (safeAcos a) := by
  have h1 : Conv F (fun A => if x A < -1 then -1 else if 1 < x A then 1 else x A) (max (-1) (min 1 a)) := by
    have hm : Conv F (fun _ => -1) (-1 : ℝ) := Conv.one.neg
    have inner : Conv F (fun A => if 1 < x A then 1 else x A) (min 1 a) := by
      rcases lt_trichotomy a 1 with h2 | h2 | h2
      · rw [min_eq_right h2.le]; exact Conv.ite_false h (Conv.one.not_lt h h2)
      · rw [h2, min_self]; rw [h2] at h; exact Conv.ite Conv.one h
      · rw [min_eq_left h2.le]; exact Conv.ite_true Conv.one (Conv.one.lt h h2)
    rcases lt_trichotomy a (-1) with h2 | h2 | h2
    · rw [max_eq_left (le_trans (min_le_right _ _) h2.le)]; exact Conv.ite_true hm (h.lt hm h2)
    · have h3 : min 1 a = -1 := by rw [h2]; norm_num
      rw [h3, max_self]; rw [h3] at inner; exact Conv.ite hm inner
    · rw [max_eq_right (le_min (by norm_num) h2.le)]; exact Conv.ite_false inner (h.not_lt hm h2)
  have h2 := h1.acos (by
    filter_upwards with A hlt
    split at hlt
    · exact absurd (show (-1 : ℝ) < -1 from hlt) (lt_irrefl _)
    · rename_i hn
      split at hlt
      · exact absurd (show (1 : ℝ) < -1 from hlt) (by norm_num)
      · exact hn hlt) (by
    filter_upwards with A hlt
    split at hlt
    · exact absurd (show (1 : ℝ) < -1 from hlt) (by norm_num)
    · split at hlt
      · exact absurd (show (1 : ℝ) < 1 from hlt) (lt_irrefl _)
      · rename_i hn; exact hn hlt)
  have h3 : Real.arccos (max (-1) (min 1 a)) = safeAcos a := by
    rw [safeAcos_real]
    rcases le_total a (-1) with h4 | h4
    · rw [max_eq_left (le_trans (min_le_right _ _) h4), Real.arccos_of_le_neg_one (le_refl _), Real.arccos_of_le_neg_one h4]
    · rw [max_eq_right (le_min (by norm_num) h4)]
      rcases le_total 1 a with h5 | h5
      · rw [min_eq_left h5, Real.arccos_of_one_le (le_refl _), Real.arccos_of_one_le h5]
      · rw [min_eq_right h5]
  rw [← h3]
  exact h2

theorem sqNorm_pos {v : V3 ℝ} (h : v ≠ V3.zero) : 0 < V3.sqNorm v := by
  rcases (V3.sqNorm_nonneg' v).lt_or_eq with h0 | h0
  · exact h0
  · exfalso
    apply h
    simp only [V3.sqNorm, V3.dot] at h0
    ext <;> simp only [V3.zero] <;> nlinarith [mul_self_nonneg v.x, mul_self_nonneg v.y, mul_self_nonneg v.z]

theorem conv_angleTerm {f m : ∀ A, M3 (Fp A)} {f0 m0 : M3 ℝ} {nrv rv : ∀ A, V3 (Fp A)} {nrv0 rv0 : V3 ℝ} {w : Fam} {w0 : ℝ}
    (hf : ConvM F f f0) (hn : ConvV F nrv nrv0) (hr : ConvV F rv rv0) (hm : ConvM F m m0) (hw : Conv F w w0)
    (hd : Definite f0 nrv0 rv0 m0) :
    Conv F (fun A => (angleTerm (f A) (nrv A) (rv A) (m A) (w A)).1) (angleTerm f0 nrv0 rv0 m0 w0).1 ∧
    ConvV2 F (fun A => (angleTerm (f A) (nrv A) (rv A) (m A) (w A)).2) (angleTerm f0 nrv0 rv0 m0 w0).2 := by
  have hmv := hm.mulVec hr
  have hnm := hmv.normalized (sqNorm_pos hd.1)
  have ht := hf.mulVec hnm
  have hcos := hnm.dot hn
  have hac := conv_safeAcos hcos
  have ha : ConvV2 F (fun A => ⟨((f A).mulVec ((m A).mulVec (rv A)).normalized).y,
      ((f A).mulVec ((m A).mulVec (rv A)).normalized).z⟩) ⟨(f0.mulVec (m0.mulVec rv0).normalized).y,
      (f0.mulVec (m0.mulVec rv0).normalized).z⟩ := ⟨ht.y, ht.z⟩
  refine ⟨hmv.norm.mul hw, ?_⟩
  by_cases h0 : 0 < V2.sqNorm (⟨(f0.mulVec (m0.mulVec rv0).normalized).y, (f0.mulVec (m0.mulVec rv0).normalized).z⟩ : V2 ℝ)
  · exact ((ha.normalized h0).scale hac).scale hw
  · have hy : (f0.mulVec (m0.mulVec rv0).normalized).y = 0 := by
      simp only [V2.sqNorm] at h0; nlinarith [mul_self_nonneg (f0.mulVec (m0.mulVec rv0).normalized).y,
        mul_self_nonneg (f0.mulVec (m0.mulVec rv0).normalized).z]
    have hz : (f0.mulVec (m0.mulVec rv0).normalized).z = 0 := by
      simp only [V2.sqNorm] at h0; nlinarith [mul_self_nonneg (f0.mulVec (m0.mulVec rv0).normalized).y,
        mul_self_nonneg (f0.mulVec (m0.mulVec rv0).normalized).z]
    have hone : 1 ≤ V3.dot (m0.mulVec rv0).normalized nrv0 := by
      rcases hd.2 with h | h | h
      · exact absurd hy h
      · exact absurd hz h
      · exact h
    have hac0 : safeAcos (V3.dot (m0.mulVec rv0).normalized nrv0) = 0 := by
      rw [safeAcos_real, Real.arccos_of_one_le hone]
    rw [hac0] at hac
    have hz2 : ConvV2 F (fun A => ⟨((f A).mulVec ((m A).mulVec (rv A)).normalized).y,
        ((f A).mulVec ((m A).mulVec (rv A)).normalized).z⟩) V2.zero := by
      rw [hy, hz] at ha; exact ha
    obtain ⟨b1, b2⟩ := hz2.normalized_bdd
    have h3 : ConvV2 F (fun A => ((⟨((f A).mulVec ((m A).mulVec (rv A)).normalized).y,
        ((f A).mulVec ((m A).mulVec (rv A)).normalized).z⟩ : V2 (Fp A)).normalized.scale
          (safeAcos (V3.dot ((m A).mulVec (rv A)).normalized (nrv A))))) V2.zero := ⟨b1.mul_null hac, b2.mul_null hac⟩
    have h4 := h3.scale hw
    have h5 : (angleTerm f0 nrv0 rv0 m0 w0).2 = V2.zero.scale w0 := by
      unfold angleTerm
      simp only [hac0]
      ext <;> simp [V2.scale, V2.zero]
    rw [h5]
    exact h4

theorem conv_reconstruct {s : ∀ A, V2 (Fp A)} {s0 : V2 ℝ} (h : ConvV2 F s s0) (hs : s0.norm ≠ 1 / 10000) :
    ConvV F (fun A => reconstruct (s A)) (reconstruct s0) := by
  have hn := h.norm
  have he := Conv.lit (F := F) 1 10000
  have h1 : (lit 1 10000 : ℝ) = 1 / 10000 := by simp
  unfold reconstruct
  simp only []
  rcases lt_or_gt_of_ne hs with h2 | h2
  · rw [if_pos (by rw [h1]; exact h2)]
    exact ConvV.ite_true ⟨Conv.one, h.x, h.y⟩ (hn.lt he (by rw [h1]; exact h2))
  · rw [if_neg (by rw [h1]; exact h2.not_gt)]
    have hne : s0.norm ≠ 0 := by have : (0 : ℝ) < 1 / 10000 := by norm_num
                                 linarith
    have hq := hn.sin.div hn hne
    exact ConvV.ite_false ⟨hn.cos, hq.mul h.x, hq.mul h.y⟩ (hn.not_lt he (by rw [h1]; exact h2))

end Modulation

/-! ### lists -/

/-- A family of folds. -/
theorem conv_foldl {X : Arith → Type} {Y : Arith → Type} {X0 Y0 : Type} (R : (∀ A, X A) → X0 → Prop) (S : (∀ A, Y A) → Y0 → Prop)
    (f : ∀ A, Y A → X A → Y A) (f0 : Y0 → X0 → Y0)
    (hf : ∀ acc acc0 x x0, S acc acc0 → R x x0 → S (fun A => f A (acc A) (x A)) (f0 acc0 x0))
    (l : List (∀ A, X A)) (l0 : List X0) (hl : List.Forall₂ R l l0) :
    ∀ acc acc0, S acc acc0 → S (fun A => (l.map (fun x => x A)).foldl (f A) (acc A)) (l0.foldl f0 acc0) := by
  induction hl with
  | nil => intro acc acc0 h; exact h
  | cons hx _ ih =>
    intro acc acc0 h
    exact ih _ _ (hf _ _ _ _ h hx)

theorem forall₂_zip {α β γ δ : Type*} {R : α → β → Prop} {S : γ → δ → Prop} {l1 : List α} {l2 : List β} {l3 : List γ}
    {l4 : List δ} (h : List.Forall₂ R l1 l2) (h' : List.Forall₂ S l3 l4) :
    List.Forall₂ (fun x y => R x.1 y.1 ∧ S x.2 y.2) (l1.zip l3) (l2.zip l4) := by
  induction h generalizing l3 l4 with
  | nil => simp
  | cons hx _ ih =>
    cases h' with
    | nil => simp
    | cons hy hr => exact .cons ⟨hx, hy⟩ (ih hr)

theorem forall₂_right {α β : Type*} {R : α → β → Prop} {p : β → Prop} {l : List α} {l0 : List β} (h : List.Forall₂ R l l0)
    (hp : ∀ b ∈ l0, p b) : List.Forall₂ (fun a b => R a b ∧ p b) l l0 := by
  induction h with
  | nil => exact .nil
  | cons hx _ ih => exact .cons ⟨hx, hp _ (by simp)⟩ (ih fun b hb => hp b (by simp [hb]))

namespace Modulation

structure ConvI (F : Filter Arith) (i : ∀ A, Item (Fp A)) (i0 : Item ℝ) : Prop where
  base : ConvB F (fun A => (i A).base) i0.base
  matrix : ConvM F (fun A => (i A).matrix) i0.matrix
  basis : ConvM F (fun A => (i A).basis) i0.basis
  dist : Conv F (fun A => (i A).dist) i0.dist

theorem conv_sum {l : List Fam} {l0 : List ℝ} (h : List.Forall₂ (Conv F) l l0) :
    Conv F (fun A => Modulation.sum (l.map (fun x => x A))) (Modulation.sum l0) :=
  conv_foldl (X := Fp) (Y := Fp) (Conv F) (Conv F) (fun _ a b => a + b) (fun a b => a + b)
    (fun _ _ _ _ h1 h2 => h1.add h2) l l0 h _ _ Conv.zero

theorem crit_eventually {l : List Fam} {l0 : List ℝ} {c : Fam} {c0 : ℝ} (h : List.Forall₂ (Conv F) l l0) (hc : Conv F c c0)
    (hne : ∀ d ∈ l0, d ≠ c0) :
    ∀ᶠ A in F, ((l.map (fun x => x A)).map (fun d => if d ≤ c A then (1 : Int) else 0))
      = l0.map (fun d => if d ≤ c0 then (1 : Int) else 0) := by
  induction h with
  | nil => exact Eventually.of_forall fun _ => rfl
  | @cons x x0 l l0 hx _ ih =>
    have h1 : ∀ᶠ A in F, (if x A ≤ c A then (1 : Int) else 0) = if x0 ≤ c0 then (1 : Int) else 0 := by
      rcases lt_or_gt_of_ne (hne x0 (by simp)) with h2 | h2
      · rw [if_pos h2.le]; exact (hx.le hc h2).mono fun _ h => if_pos h
      · rw [if_neg h2.not_ge]; exact (hx.not_le hc h2).mono fun _ h => if_neg h
    filter_upwards [h1, ih fun d hd => hne d (by simp [hd])] with A k1 k2
    simp only [List.map_cons, k1, k2]

theorem conv_weights {l : List Fam} {l0 : List ℝ} {c p : Fam} {c0 p0 : ℝ} (h : List.Forall₂ (Conv F) l l0) (hc : Conv F c c0)
    (hp : Conv F p p0) (hne : ∀ d ∈ l0, d ≠ c0) :
    ∃ ws : List Fam, (∀ᶠ A in F, weightObstacles (l.map (fun x => x A)) (c A) (p A) = ws.map (fun x => x A)) ∧
      List.Forall₂ (Conv F) ws (weightObstacles l0 c0 p0) := by
  have hev := crit_eventually h hc hne
  unfold weightObstacles
  simp only []
  generalize hs : (l0.map (fun d => if d ≤ c0 then (1 : Int) else 0)) = crit at hev
  by_cases h0 : 0 < crit.foldl (· + ·) 0
  · refine ⟨crit.map (fun i A => MathTools.ofInt i / MathTools.ofInt (crit.foldl (· + ·) 0)), ?_, ?_⟩
    · filter_upwards [hev] with A h1
      rw [h1, if_pos h0, List.map_map]; rfl
    · rw [if_pos h0]
      have hne : (lit (crit.foldl (· + ·) 0) 1 : ℝ) ≠ 0 := by
        have : ((crit.foldl (· + ·) 0 : ℤ) : ℝ) ≠ 0 := by exact_mod_cast h0.ne'
        simpa using this
      rw [List.forall₂_map_left_iff, List.forall₂_map_right_iff]
      exact List.forall₂_same.mpr fun i _ => (Conv.lit i 1).div (Conv.lit _ 1) hne
  · have hpos : ∀ d ∈ l0, c0 < d := by
      intro d hd
      by_contra hcd
      apply h0
      have key : ∀ (l : List ℝ) (a : Int), a ≤ (l.map (fun d => if d ≤ c0 then (1 : Int) else 0)).foldl (· + ·) a := by
        intro l
        induction l with
        | nil => intro a; exact le_refl _
        | cons b l ih =>
          intro a
          simp only [List.map_cons, List.foldl_cons]
          refine le_trans ?_ (ih _)
          split <;> omega
      obtain ⟨l1, l2, rfl⟩ := List.append_of_mem hd
      rw [← hs, List.map_append, List.foldl_append, List.map_cons, List.foldl_cons, if_pos (_root_.not_lt.mp hcd)]
      have h1 := key l1 0
      have h2 := key l2 ((l1.map (fun d => if d ≤ c0 then (1 : Int) else 0)).foldl (· + ·) 0 + 1)
      omega
    have hpw : List.Forall₂ (Conv F) (l.map (fun d A => CMath.pow (d A - c A) (-p A)))
        (l0.map (fun d => CMath.pow (d - c0) (-p0))) := by
      rw [List.forall₂_map_left_iff, List.forall₂_map_right_iff]
      exact (forall₂_right h hpos).imp fun x x0 hx => (hx.1.sub hc).pow hp.neg (sub_pos.mpr hx.2)
    have hsum := conv_sum hpw
    refine ⟨l.map (fun d A => CMath.pow (d A - c A) (-p A) /
      Modulation.sum ((l.map (fun d A => CMath.pow (d A - c A) (-p A))).map (fun x => x A))), ?_, ?_⟩
    · filter_upwards [hev] with A h1
      rw [h1, if_neg h0]
      simp only [List.map_map]
      rfl
    · rw [if_neg h0]
      have hp' : ∀ w ∈ l0.map (fun d => CMath.pow (d - c0) (-p0)), (0 : ℝ) < w := by
        intro w hw
        obtain ⟨d, hd, rfl⟩ := List.mem_map.mp hw
        exact Real.rpow_pos_of_pos (sub_pos.mpr (hpos d hd)) _
      have hfold : ∀ (l : List ℝ) (a : ℝ), l.foldl (· + ·) a = a + l.sum := by
        intro l
        induction l with
        | nil => intro a; simp
        | cons b l ih => intro a; rw [List.foldl_cons, ih, List.sum_cons]; ring
      by_cases hnil : l0 = []
      · subst hnil; cases h; exact .nil
      · have hs0 : 0 < Modulation.sum (l0.map (fun d => CMath.pow (d - c0) (-p0))) := by
          unfold Modulation.sum
          rw [hfold, zero_add]
          apply List.sum_pos _ hp'
          simpa using hnil
        rw [List.forall₂_map_left_iff, List.forall₂_map_right_iff]
        rw [List.forall₂_map_left_iff] at hpw
        exact hpw.imp fun x x0 hx => hx.div hsum hs0.ne'

section
variable {α : Type} [Add α] [Sub α] [Mul α] [Div α] [Neg α] [Zero α] [One α]
  [LE α] [LT α] [DecidableLE α] [DecidableLT α] [CMath α]

/-- the obstacle velocity for items with their weights -/
def zipVel (x : V3 α) (l : List (Item α × α)) : V3 α :=
  l.foldl (fun acc y => acc + obstacleVelocity x y.1.base y.1.dist y.2 y.1.basis) V3.zero

/-- speed and angle sum for items with their weights -/
def zipSum (rv : V3 α) (l : List (Item α × α)) : α × V2 α :=
  l.foldl (fun (acc : α × V2 α) y =>
    let t := angleTerm (dsFrame rv.normalized).transpose rv.normalized rv y.1.matrix y.2
    (acc.1 + t.1, acc.2.add t.2)) (0, V2.zero)

/-- `combine` after the weights -/
def zipOut (rv ov : V3 α) (acc : α × V2 α) : V3 α :=
  let mv := (dsFrame rv.normalized).mulVec (reconstruct acc.2)
  (⟨mv.x * acc.1, mv.y * acc.1, mv.z * acc.1⟩ : V3 α) + ov

theorem combine_zip (x v : V3 α) (its : List (Item α)) (c p : α) :
    combine x v its c p =
      zipOut (v - zipVel x (its.zip (weightObstacles (its.map (·.dist)) c p)))
        (zipVel x (its.zip (weightObstacles (its.map (·.dist)) c p)))
        (zipSum (v - zipVel x (its.zip (weightObstacles (its.map (·.dist)) c p)))
          (its.zip (weightObstacles (its.map (·.dist)) c p))) := rfl

end

def ConvZ (F : Filter Arith) (y : ∀ A, Item (Fp A) × Fp A) (y0 : Item ℝ × ℝ) : Prop := ConvI F (fun A => (y A).1) y0.1 ∧ Conv F (fun A => (y A).2) y0.2

theorem conv_zipVel {x : ∀ A, V3 (Fp A)} {x0 : V3 ℝ} {l : List (∀ A, Item (Fp A) × Fp A)} {l0 : List (Item ℝ × ℝ)}
    (hx : ConvV F x x0) (hl : List.Forall₂ (ConvZ F) l l0) :
    ConvV F (fun A => zipVel (x A) (l.map (fun y => y A))) (zipVel x0 l0) :=
  conv_foldl (X := fun A => Item (Fp A) × Fp A) (Y := fun A => V3 (Fp A)) (ConvZ F) (ConvV F)
    (fun A acc y => acc + obstacleVelocity (x A) y.1.base y.1.dist y.2 y.1.basis)
    (fun acc y => acc + obstacleVelocity x0 y.1.base y.1.dist y.2 y.1.basis)
    (fun _ _ _ _ h1 h2 => h1.add (conv_obstacleVelocity hx h2.1.base h2.1.dist h2.2 h2.1.basis)) _ _ hl _ _ ConvV.zero

theorem conv_zipSum {rv : ∀ A, V3 (Fp A)} {rv0 : V3 ℝ} {l : List (∀ A, Item (Fp A) × Fp A)} {l0 : List (Item ℝ × ℝ)}
    (hrv : ConvV F rv rv0) (h0 : rv0 ≠ V3.zero) (hl : List.Forall₂ (ConvZ F) l l0)
    (hd : ∀ y ∈ l0, Definite (dsFrame rv0.normalized).transpose rv0.normalized rv0 y.1.matrix) :
    Conv F (fun A => (zipSum (rv A) (l.map (fun y => y A))).1) (zipSum rv0 l0).1 ∧
    ConvV2 F (fun A => (zipSum (rv A) (l.map (fun y => y A))).2) (zipSum rv0 l0).2 := by
  have hn := hrv.normalized (sqNorm_pos h0)
  have hf := (conv_dsFrame hn).transpose
  exact conv_foldl (X := fun A => Item (Fp A) × Fp A) (Y := fun A => Fp A × V2 (Fp A))
    (fun y y0 => ConvZ F y y0 ∧ Definite (dsFrame rv0.normalized).transpose rv0.normalized rv0 y0.1.matrix)
    (fun acc acc0 => Conv F (fun A => (acc A).1) acc0.1 ∧ ConvV2 F (fun A => (acc A).2) acc0.2)
    (fun A acc y =>
      let t := angleTerm (dsFrame (rv A).normalized).transpose (rv A).normalized (rv A) y.1.matrix y.2
      (acc.1 + t.1, acc.2.add t.2))
    (fun acc y =>
      let t := angleTerm (dsFrame rv0.normalized).transpose rv0.normalized rv0 y.1.matrix y.2
      (acc.1 + t.1, acc.2.add t.2))
    (fun _ _ y y0 h1 h2 =>
      let h3 := conv_angleTerm hf hn hrv h2.1.1.matrix h2.1.2 h2.2
      ⟨h1.1.add h3.1, h1.2.add h3.2⟩) _ _ (forall₂_right hl hd) (fun _ => (0, V2.zero)) (0, V2.zero) ⟨Conv.zero, ConvV2.zero⟩

theorem conv_zipOut {rv ov : ∀ A, V3 (Fp A)} {rv0 ov0 : V3 ℝ} {acc : ∀ A, Fp A × V2 (Fp A)} {acc0 : ℝ × V2 ℝ}
    (hrv : ConvV F rv rv0) (h0 : rv0 ≠ V3.zero) (hov : ConvV F ov ov0) (h1 : Conv F (fun A => (acc A).1) acc0.1)
    (h2 : ConvV2 F (fun A => (acc A).2) acc0.2) (ha : acc0.2.norm ≠ 1 / 10000) :
    ConvV F (fun A => zipOut (rv A) (ov A) (acc A)) (zipOut rv0 ov0 acc0) := by
  have hrec := (conv_dsFrame (hrv.normalized (sqNorm_pos h0))).mulVec (conv_reconstruct h2 ha)
  have h3 : ConvV F (fun A => ⟨_, _, _⟩) ⟨_, _, _⟩ := ⟨hrec.x.mul h1, hrec.y.mul h1, hrec.z.mul h1⟩
  exact h3.add hov

theorem conv_combine {x v : ∀ A, V3 (Fp A)} {x0 v0 : V3 ℝ} {l : List (∀ A, Item (Fp A))} {l0 : List (Item ℝ)} {c p : Fam}
    {c0 p0 : ℝ} (hx : ConvV F x x0) (hv : ConvV F v v0) (hl : List.Forall₂ (ConvI F) l l0) (hc : Conv F c c0) (hp : Conv F p p0)
    (hd : Decided x0 v0 l0 c0 p0) :
    ConvV F (fun A => combine (x A) (v A) (l.map (fun i => i A)) (c A) (p A)) (combine x0 v0 l0 c0 p0) := by
  have hdist : List.Forall₂ (Conv F) (l.map (fun i A => (i A).dist)) (l0.map (·.dist)) := by
    rw [List.forall₂_map_left_iff, List.forall₂_map_right_iff]
    exact hl.imp fun _ _ h => h.dist
  obtain ⟨ws, hw1, hw2⟩ := conv_weights hdist hc hp (by
    intro d hd'; obtain ⟨i, hi, rfl⟩ := List.mem_map.mp hd'; exact hd.critical i hi)
  have hz : List.Forall₂ (ConvZ F) ((l.zip ws).map (fun y A => (y.1 A, y.2 A)))
      (l0.zip (weightObstacles (l0.map (·.dist)) c0 p0)) := by
    rw [List.forall₂_map_left_iff]
    exact forall₂_zip hl hw2
  have hov := conv_zipVel hx hz
  have hrv := hv.sub hov
  have hsum := conv_zipSum hrv hd.moving hz fun y hy => hd.definite y.1 (List.of_mem_zip hy).1
  have hout := conv_zipOut hrv hd.moving hov hsum.1 hsum.2 hd.angle
  rw [combine_zip]
  refine ConvV.congr hout ?_
  filter_upwards [hw1] with A h1
  have h2 : (l.map (fun i => i A)).map (·.dist) = (l.map (fun i A => (i A).dist)).map (fun x => x A) := by
    rw [List.map_map, List.map_map]; rfl
  have h3 : (l.map (fun i => i A)).zip (ws.map (fun x => x A)) = ((l.zip ws).map (fun y A => (y.1 A, y.2 A))).map (fun y => y A) := by
    rw [List.zip_map, List.map_map]; rfl
  rw [combine_zip, h2, h1, h3]

end Modulation
end DOA
