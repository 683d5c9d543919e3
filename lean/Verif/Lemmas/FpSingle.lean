import Verif.Lemmas.FpFlat
import Verif.Lemmas.FpRegular
import Verif.Lemmas.Planar

/-!
# Finite precision in the plane: one obstacle at rest

Every ultrafilter of arithmetics of growing precision has a limit of the modulated velocity, also when the exact computation
is at a threshold or when the velocity vanishes.
-/

set_option linter.unusedSectionVars false
set_option linter.unusedSimpArgs false

namespace DOA
open Filter Topology Spec

variable {F : Filter Arith} [Fine F]

/-! ### loaded data in the plane -/

theorem null_ld : Null F (fun A => A.ld 0) := by
  filter_upwards [sound_fine] with A hA
  exact hA.zero

theorem null_ld' {r : ℝ} (h : r = 0) : Null F (fun A => A.ld r) := by rw [h]; exact null_ld

theorem pl_v3 {v : V3 ℝ} (h : v.z = 0) : PlV F (fun A => v.fp A) v := ⟨Modulation.conv_v3 v, null_ld' h⟩

theorem pl_pose {p : Pose ℝ} (hp : Modulation.FlatPose p) : PlP F (fun A => p.fp A) p :=
  ⟨pl_v3 hp.2.2, Modulation.conv_quat _, null_ld' hp.1, null_ld' hp.2.1⟩

/-- all components are exactly zero -/
structure NullV (F : Filter Arith) (v : ∀ A, V3 (Fp A)) : Prop where
  x : Null F (fun A => (v A).x)
  y : Null F (fun A => (v A).y)
  z : Null F (fun A => (v A).z)

namespace NullV
variable {u v : ∀ A, V3 (Fp A)} {a : V3 ℝ} {s : Fam} {t : ℝ}

theorem conv (h : NullV F v) : ConvV F v V3.zero := ⟨h.x.conv, h.y.conv, h.z.conv⟩
theorem pl (h : NullV F v) : PlV F v V3.zero := ⟨h.conv, h.z⟩
theorem fp : NullV F (fun A => (V3.zero : V3 ℝ).fp A) := ⟨null_ld, null_ld, null_ld⟩
theorem zero : NullV F (fun _ => V3.zero) := ⟨Null.zero, Null.zero, Null.zero⟩
theorem add (h : NullV F u) (h' : NullV F v) : NullV F (fun A => u A + v A) := ⟨h.x.add h'.x, h.y.add h'.y, h.z.add h'.z⟩
theorem smul (hs : Conv F s t) (h : NullV F u) : NullV F (fun A => V3.smul (s A) (u A)) :=
  ⟨Null.mul_right hs h.x, Null.mul_right hs h.y, Null.mul_right hs h.z⟩
theorem cross (h : NullV F u) (h' : ConvV F v a) : NullV F (fun A => V3.cross (u A) (v A)) :=
  ⟨(h.y.mul_left h'.z).sub (h.z.mul_left h'.y), (h.z.mul_left h'.x).sub (h.x.mul_left h'.z),
    (h.x.mul_left h'.y).sub (h.y.mul_left h'.x)⟩
theorem mulVec {m : ∀ A, M3 (Fp A)} {m0 : M3 ℝ} (hm : ConvM F m m0) (h : NullV F v) : NullV F (fun A => (m A).mulVec (v A)) :=
  ⟨((Null.mul_right hm.c0.x h.x).add (Null.mul_right hm.c1.x h.y)).add (Null.mul_right hm.c2.x h.z),
    ((Null.mul_right hm.c0.y h.x).add (Null.mul_right hm.c1.y h.y)).add (Null.mul_right hm.c2.y h.z),
    ((Null.mul_right hm.c0.z h.x).add (Null.mul_right hm.c1.z h.y)).add (Null.mul_right hm.c2.z h.z)⟩

end NullV

theorem PlV.sub_null {u v : ∀ A, V3 (Fp A)} {a : V3 ℝ} (h : PlV F u a) (h' : NullV F v) : PlV F (fun A => u A - v A) a := by
  have h1 := h.sub h'.pl
  have h2 : a - V3.zero = a := by ext <;> simp [V3.zero]
  rwa [h2] at h1

theorem PlV.add_null {u v : ∀ A, V3 (Fp A)} {a : V3 ℝ} (h : PlV F u a) (h' : NullV F v) : PlV F (fun A => u A + v A) a := by
  have h1 := h.add h'.pl
  have h2 : a + V3.zero = a := by ext <;> simp [V3.zero]
  rwa [h2] at h1

namespace Modulation

/-! ### the pieces of the modulation matrix -/

theorem pl_normal {e : Ellipsoid ℝ} {k : ℕ} {m : ℝ} (sm : Smooth e m k) (hk : k ≤ 2 ^ 52) (hf : FlatPose e.base.pose)
    (hp : ∀ᶠ A in F, A.PowZero) {x : ∀ A, V3 (Fp A)} {x0 : V3 ℝ} (hx : PlV F x x0) (hn : e.normalToAgent x0 m ≠ V3.zero) :
    PlV F (fun A => (e.fp A).normalToAgent (x A) (A.ld m)) (e.normalToAgent x0 m) := by
  have hr := conv_ell (F := F) e V3.zero sm.curv ⟨hk, hk, hk⟩
  have hl := off_of_long sm.long
  have hkp := sm.curv.2.1
  have hm : Conv F (fun A => A.ld m) m := Conv.rnd m
  have h : ConvE F (fun A => e.fp A) e k k k := by
    refine ⟨conv_base _, conv_v3 _, ?_, sm.curv.1, ⟨hkp, hkp, hkp⟩, by omega, by omega, by omega⟩
    filter_upwards [sound_fine] with A hA
    show e.curv.fp A = _
    rw [sm.curv.1]
    unfold V3.fp Arith.ld
    rw [hA.nat (by omega)]
  have hc := h.normal hx.conv hm hl hn
  have hpp := (pl_pose hf).inverse.apply hx
  have hlen := (h.axis.add h.base.margin).add (ConvV.const hm)
  have cx : Conv F (fun A => (e.fp A).curv.x) e.curv.x := by rw [h.curv_x.2]; exact ConvE.exact h.curv_x.1
  have cy : Conv F (fun A => (e.fp A).curv.y) e.curv.y := by rw [h.curv_y.2]; exact ConvE.exact h.curv_y.1
  have cz : Conv F (fun A => (e.fp A).curv.z) e.curv.z := by rw [h.curv_z.2]; exact ConvE.exact h.curv_z.1
  have t1 := (((Conv.lit 2 1).mul cx).mul hpp.x).scaledSq hlen.x hl.1
  have t2 := (((Conv.lit 2 1).mul cy).mul hpp.y).scaledSq hlen.y hl.2.1
  have l2 := Conv.lit (F := F) 2 1
  have t3 := ((l2.mul cz).mul hpp.z).scaledSq hlen.z hl.2.2
  have n1 := t1.pow_odd h.curv_x.1 h.curv_x.2 h.pos.1 h.small.1
  have n2 := t2.pow_odd h.curv_y.1 h.curv_y.2 h.pos.2.1 h.small.2.1
  have n3 := t3.pow_odd h.curv_z.1 h.curv_z.2 h.pos.2.2 h.small.2.2
  have z1 := Null.mul_right (l2.mul cz) hpp.null
  have he : Conv F (fun _ => Ellipsoid.epsilon) (Ellipsoid.epsilon : ℝ) := Conv.lit 1 10000
  have hgt : ∀ᶠ A in F, Ellipsoid.epsilon < ((e.fp A).axis + (e.fp A).base.margin + V3.const (A.ld m)).z := by
    refine he.lt hlen.z ?_
    have : (Ellipsoid.epsilon : ℝ) = 1 / 10000 := by simp [Ellipsoid.epsilon]
    rw [this]; exact sm.long.2.2
  have hlz : (e.axis + e.base.margin + V3.const m).z ≠ 0 := by
    have h1 : 1 / 10000 < (e.axis + e.base.margin + V3.const m).z := sm.long.2.2
    have : (0 : ℝ) < 1 / 10000 := by norm_num
    linarith
  have z2 : Null F (fun A => Ellipsoid.scaledSq (lit 2 1 * (e.fp A).curv.z * ((e.fp A).base.pose.inverse.apply (x A)).z)
      ((e.fp A).axis + (e.fp A).base.margin + V3.const (A.ld m)).z) := by
    refine (z1.div (((l2.mul cz).mul hpp.z).div (hlen.z.mul hlen.z) (mul_ne_zero hlz hlz))).congr ?_
    filter_upwards [hgt] with A h1
    unfold Ellipsoid.scaledSq
    rw [if_pos h1]
    rfl
  have z3 := z2.pow (k := 2 * k - 1) (c := fun A => lit 2 1 * (e.fp A).curv.z - 1) hp (by omega) (by
    filter_upwards [h.curv_z.1, sound_fine] with A h1 hA
    rw [h1]; exact fp_two_mul_sub hA (by omega) hkp)
  have hv : PlV F (fun A => ⟨_, _, _⟩) ⟨_, _, _⟩ := ⟨⟨n1, n2, n3⟩, z3⟩
  exact hv.of_normalized hc

theorem flat_unit_cross {n : V3 ℝ} (hz : n.z = 0) (h1 : V3.norm n = 1) : (V3.cross n V3.unitZ).norm = 1 := by
  have h2 := (V3.norm_eq_one_iff n).mp h1
  refine (V3.norm_eq_one_iff _).mpr ?_
  simp only [V3.sqNorm, V3.dot, V3.cross, V3.unitZ, hz] at h2 ⊢
  linear_combination h2

theorem pl_tangent {n : ∀ A, V3 (Fp A)} {n0 : V3 ℝ} (h : PlV F n n0) (hz : n0.z = 0) (h1 : V3.norm n0 = 1) :
    PlV F (fun A => tangentVector (n A)) (tangentVector n0) := by
  have hc := flat_unit_cross hz h1
  have hcross := PlV.cross_up h UpV.unitZ
  have hconv := conv_tangent h.conv (by rw [hc]; norm_num)
  refine ⟨hconv, hcross.null.congr ?_⟩
  have he := Conv.lit (F := F) 1 10000
  filter_upwards [hcross.conv.norm.not_lt he (by rw [hc]; simp; norm_num)] with A h2
  unfold tangentVector
  simp only []
  rw [if_neg h2]

theorem pl_referenceBasis {n r : ∀ A, V3 (Fp A)} {n0 r0 : V3 ℝ} (h : PlV F n n0) (hr : PlV F r r0) (hz : n0.z = 0)
    (h1 : V3.norm n0 = 1) : PlM F (fun A => referenceBasis (n A) (r A)) (referenceBasis n0 r0) :=
  ⟨hr, pl_tangent h hz h1, (pl_tangent h hz h1).cross hr⟩

theorem pl_dsFrame {v : ∀ A, V3 (Fp A)} {v0 : V3 ℝ} (h : PlV F v v0) : PlM F (fun A => dsFrame (v A)) (dsFrame v0) := by
  unfold dsFrame
  simp only [ite_self]
  exact ⟨h, h.cross_up UpV.unitZ, (h.cross_up UpV.unitZ).cross h⟩

theorem pl_product {q : ∀ A, Quat (Fp A)} {q0 : Quat ℝ} {b : ∀ A, M3 (Fp A)} {b0 : M3 ℝ} {d : ∀ A, V3 (Fp A)} {d0 : V3 ℝ}
    (hq : PlQ F q q0) (hb : PlM F b b0) (hd : ConvV F d d0) (hdet : b0.det ≠ 0) (hq0 : 0 < q0.sqNorm) :
    PlM F (fun A => modulationProduct (q A) (b A) (d A)) (modulationProduct q0 b0 d0) :=
  (((hq.toM3.mul hb).mulDiag hd).mul (hb.inverse hdet)).mul (hq.inverse hq0).toM3

/-! ### the interpolation -/

/-- the second component of a normalised vector -/
theorem null_normalized2 {u : ∀ A, V2 (Fp A)} {b : V2 ℝ} (hz : Null F (fun A => (u A).y))
    (h : ConvV2 F (fun A => (u A).normalized) b) : Null F (fun A => (u A).normalized.y) := by
  obtain ⟨r, h1, -⟩ := h.y
  filter_upwards [h1, hz, sound_fine] with A h2 h3 hA
  unfold V2.normalized at h2 ⊢
  split at h2 <;> rename_i hp
  · rw [if_pos hp]
    have h4 : A.round ((u A).y.v / (CMath.sqrt (V2.sqNorm (u A))).v) = .fin (r A) := h2
    show A.round ((u A).y.v / (CMath.sqrt (V2.sqNorm (u A))).v) = _
    rw [h3] at h4 ⊢
    generalize (CMath.sqrt (V2.sqNorm (u A))).v = d at h4 ⊢
    cases d with
    | fin r =>
      by_cases hr : r = 0
      · rw [hr, Dbl.fin_div_zero] at h4
        have : Dbl.signed 0 = .nan := by simp [Dbl.signed]
        rw [this] at h4
        cases h4
      · rw [Dbl.fin_div hr]
        show A.rnd (0 / r) = _
        rw [zero_div, hA.zero]
    | pinf => show A.rnd 0 = _; exact hA.zero
    | ninf => show A.rnd 0 = _; exact hA.zero
    | nan => cases h4
  · rw [if_neg hp]; exact h3

section ultra
variable {U : Ultrafilter Arith} [Fine (U : Filter Arith)]

/-- The two branches of the reconstruction. -/
def Rec (s : V2 ℝ) (r : V3 ℝ) : Prop :=
  (s.norm ≤ 1 / 10000 ∧ r = ⟨1, s.x, s.y⟩) ∨
  (1 / 10000 ≤ s.norm ∧ r = ⟨Real.cos s.norm, Real.sin s.norm / s.norm * s.x, Real.sin s.norm / s.norm * s.y⟩)

theorem reconstruct_ultra {s : ∀ A, V2 (Fp A)} {s0 : V2 ℝ} (h : ConvV2 U s s0) (hz : Null U (fun A => (s A).y)) :
    ∃ r, PlV U (fun A => reconstruct (s A)) r ∧ Rec s0 r := by
  have hn := h.norm
  have he := Conv.lit (F := U) 1 10000
  have h1 : (lit 1 10000 : ℝ) = 1 / 10000 := by simp
  rcases ultra_em (U := U) (fun A => (s A).norm < lit 1 10000) with h2 | h2
  · refine ⟨⟨1, s0.x, s0.y⟩, PlV.congr (u := fun A => ⟨1, (s A).x, (s A).y⟩) ⟨⟨Conv.one, h.x, h.y⟩, hz⟩ ?_, Or.inl ⟨?_, rfl⟩⟩
    · filter_upwards [h2] with A h3
      unfold reconstruct
      simp only []
      rw [if_pos h3]
    · rw [← h1]; exact hn.le_of_lt he h2
  · have h3 : 1 / 10000 ≤ s0.norm := by rw [← h1]; exact hn.le_of_not_lt he h2
    have hne : s0.norm ≠ 0 := by have : (0 : ℝ) < 1 / 10000 := by norm_num
                                 linarith
    have hq := hn.sin.div hn hne
    refine ⟨_, PlV.congr (u := fun A => ⟨CMath.cos (s A).norm, CMath.sin (s A).norm / (s A).norm * (s A).x,
      CMath.sin (s A).norm / (s A).norm * (s A).y⟩) ⟨⟨hn.cos, hq.mul h.x, hq.mul h.y⟩, Null.mul_right hq hz⟩ ?_, Or.inr ⟨h3, rfl⟩⟩
    filter_upwards [h2] with A h4
    unfold reconstruct
    simp only []
    rw [if_neg h4]

/-- One term of the angle sum has a limit, and it is the exact one if there is a velocity. -/
theorem angleTerm_ultra {m : ∀ A, M3 (Fp A)} {m0 : M3 ℝ} {rv : ∀ A, V3 (Fp A)} {rv0 : V3 ℝ} {w : Fam} {w0 : ℝ}
    (hr : PlV U rv rv0) (hm : PlM U m m0) (hw : Conv U w w0)
    (hd : rv0 ≠ V3.zero → Definite (dsFrame rv0.normalized).transpose rv0.normalized rv0 m0) :
    ∃ b s0, PlV U (fun A => (rv A).normalized) b ∧ (rv0 ≠ V3.zero → b = rv0.normalized) ∧
      Conv U (fun A => (angleTerm (dsFrame (rv A).normalized).transpose (rv A).normalized (rv A) (m A) (w A)).1)
        ((m0.mulVec rv0).norm * w0) ∧
      ConvV2 U (fun A => (angleTerm (dsFrame (rv A).normalized).transpose (rv A).normalized (rv A) (m A) (w A)).2) s0 ∧
      Null U (fun A => (angleTerm (dsFrame (rv A).normalized).transpose (rv A).normalized (rv A) (m A) (w A)).2.y) ∧
      (rv0 ≠ V3.zero → s0 = (angleTerm (dsFrame rv0.normalized).transpose rv0.normalized rv0 m0 w0).2) := by
  obtain ⟨b, hb, hb0⟩ := hr.normalized_ultra
  have hf := (pl_dsFrame hb).transpose
  have hmv := hm.mulVec hr
  obtain ⟨b1, hn, -⟩ := hmv.normalized_ultra
  have ht := hf.mulVec hn
  have ha : ConvV2 U (fun A => ⟨((dsFrame (rv A).normalized).transpose.mulVec ((m A).mulVec (rv A)).normalized).y,
      ((dsFrame (rv A).normalized).transpose.mulVec ((m A).mulVec (rv A)).normalized).z⟩)
      ⟨((dsFrame b).transpose.mulVec b1).y, ((dsFrame b).transpose.mulVec b1).z⟩ := ⟨ht.y, ht.z⟩
  obtain ⟨b2, h2, -⟩ := ha.normalized_ultra
  have hy := null_normalized2 ht.null h2
  have hac := conv_safeAcos (hn.conv.dot hb.conv)
  have hall := (h2.scale hac).scale hw
  have hnull : Null U (fun A => (angleTerm (dsFrame (rv A).normalized).transpose (rv A).normalized (rv A) (m A) (w A)).2.y) :=
    (hy.mul_left hac).mul_left hw
  by_cases h0 : rv0 = V3.zero
  · exact ⟨b, _, hb, fun h => absurd h0 h, hmv.conv.norm.mul hw, hall, hnull, fun h => absurd h0 h⟩
  · have hb' := hb0 h0
    subst hb'
    have := conv_angleTerm (pl_dsFrame hb).transpose.conv hb.conv hr.conv hm.conv hw (hd h0)
    exact ⟨_, _, hb, fun _ => rfl, hmv.conv.norm.mul hw, this.2, hnull, fun _ => rfl⟩

theorem V2.norm_scale_fp (v : V2 ℝ) (t : ℝ) : (v.scale t).norm = |t| * v.norm := by
  have h1 : (v.scale t).sqNorm = t ^ 2 * v.sqNorm := by simp only [V2.sqNorm, V2.scale]; ring
  show Real.sqrt (v.scale t).sqNorm = _
  rw [h1, Real.sqrt_mul (sq_nonneg t), Real.sqrt_sq_eq_abs]
  rfl

theorem V2.norm_normalized_le (v : V2 ℝ) : v.normalized.norm ≤ 1 := by
  by_cases h : 0 < v.sqNorm
  · have h1 : v.normalized = v.scale (1 / v.norm) := by
      unfold V2.normalized
      rw [if_pos h]
      ext <;> simp only [V2.scale] <;> show _ / v.norm = _ <;> ring
    have hn : 0 < v.norm := Real.sqrt_pos.mpr h
    rw [h1, V2.norm_scale_fp, abs_of_pos (by positivity), one_div_mul_cancel hn.ne']
  · have h0 : v.sqNorm = 0 := le_antisymm (not_lt.mp h) (V2.sqNorm_nonneg v)
    unfold V2.normalized
    rw [if_neg h]
    show Real.sqrt v.sqNorm ≤ 1
    rw [h0, Real.sqrt_zero]
    norm_num

/-- Both branches of the reconstruction are within 1E-8 of the modulated velocity. -/
theorem rec_close {rv : V3 ℝ} {M : M3 ℝ} (hz : rv.z = 0) (hrv : rv ≠ V3.zero)
    (hopp : ∀ c : ℝ, 0 < c → rv ≠ V3.zero → M.mulVec rv ≠ V3.smul (-c) rv) {r : V3 ℝ}
    (hr : Rec (angleTerm (dsFrame rv.normalized).transpose rv.normalized rv M 1).2 r) :
    V3.norm (V3.smul (M.mulVec rv).norm ((dsFrame rv.normalized).mulVec r) - M.mulVec rv) ≤ 1 / 10 ^ 8 * (M.mulVec rv).norm := by
  set s := (angleTerm (dsFrame rv.normalized).transpose rv.normalized rv M 1).2 with hs
  obtain ⟨h1, h2, -⟩ := core_single hz hopp
  have hcore : core rv [(M, 1)] = V3.smul (M.mulVec rv).norm ((dsFrame rv.normalized).mulVec (reconstruct s)) := by
    unfold core
    simp only [List.map_cons, List.map_nil, List.sum_cons, List.sum_nil, add_zero]
    have : (angleTerm (dsFrame rv.normalized).transpose rv.normalized rv M 1).1 = (M.mulVec rv).norm := by
      unfold angleTerm; simp only [mul_one]
    rw [this]
  by_cases hrec : r = reconstruct s
  · rw [hrec, ← hcore]; exact h2
  · -- a tie, computed on the other side
    have hlit : (lit 1 10000 : ℝ) = 1 / 10000 := by simp
    have hbig : ¬ s.norm < lit 1 10000 → reconstruct s = ⟨Real.cos s.norm, Real.sin s.norm / s.norm * s.x,
        Real.sin s.norm / s.norm * s.y⟩ := by
      intro h; unfold reconstruct; simp only []; rw [if_neg h]; rfl
    have hsmall : s.norm < lit 1 10000 → reconstruct s = ⟨1, s.x, s.y⟩ := by
      intro h; unfold reconstruct; simp only []; rw [if_pos h]
    rcases hr with ⟨h3, h4⟩ | ⟨h3, h4⟩
    · have h5 : ¬ s.norm < lit 1 10000 := fun h => hrec (by rw [h4, hsmall h])
      have h6 : s.norm = 1 / 10000 := by rw [hlit] at h5; linarith
      have hang : s.norm ≤ Spec.angle (M.mulVec rv) rv ∨ M.mulVec rv = V3.zero := by
        by_cases hu0 : M.mulVec rv = V3.zero
        · exact Or.inr hu0
        · left
          have e1 : s = (V2.scale (V2.normalized ⟨((dsFrame rv.normalized).transpose.mulVec (M.mulVec rv).normalized).y,
            ((dsFrame rv.normalized).transpose.mulVec (M.mulVec rv).normalized).z⟩)
              (safeAcos (V3.dot (M.mulVec rv).normalized rv.normalized))) := by
            rw [hs]; unfold angleTerm; simp only [V2.scale, mul_one]
          have e2 : safeAcos (V3.dot (M.mulVec rv).normalized rv.normalized) = Spec.angle (M.mulVec rv) rv := by
            rw [safeAcos_eq]; unfold Spec.angle; rw [V3.dot_normalized hu0 hrv]
          have e3 : 0 ≤ Spec.angle (M.mulVec rv) rv := Real.arccos_nonneg _
          rw [e1, e2, V2.norm_scale_fp, abs_of_nonneg e3]
          have := V2.norm_normalized_le ⟨((dsFrame rv.normalized).transpose.mulVec (M.mulVec rv).normalized).y,
            ((dsFrame rv.normalized).transpose.mulVec (M.mulVec rv).normalized).z⟩
          nlinarith
      rcases hang with hang | hang
      · have h7 := h1 (Or.inr (by rw [h6] at hang; exact hang))
        have hv1 : V3.norm rv.normalized = 1 := V3.norm_normalized hrv
        have hvz : rv.normalized.z = 0 := by rw [V3.normalized_of_ne hrv]; simp [V3.smul, hz]
        have hnn := V3.norm_nonneg (M.mulVec rv)
        rw [hcore, hbig h5, h6] at h7
        have e1 : V3.smul (M.mulVec rv).norm ((dsFrame rv.normalized).mulVec r) - M.mulVec rv =
            V3.smul (M.mulVec rv).norm ((dsFrame rv.normalized).mulVec
              ⟨1 - Real.cos (1 / 10000), s.x - Real.sin (1 / 10000) / (1 / 10000) * s.x,
                s.y - Real.sin (1 / 10000) / (1 / 10000) * s.y⟩) := by
          have gen : ∀ (N : ℝ) (f : M3 ℝ) (a b : V3 ℝ), V3.smul N (f.mulVec a) - V3.smul N (f.mulVec b) =
              V3.smul N (f.mulVec (a - b)) := by
            intro N f a b
            ext <;> simp only [V3.smul, M3.mulVec, V3.sub_x, V3.sub_y, V3.sub_z] <;> ring
          have g1 := gen (M.mulVec rv).norm (dsFrame rv.normalized) r ⟨Real.cos (1 / 10000),
            Real.sin (1 / 10000) / (1 / 10000) * s.x, Real.sin (1 / 10000) / (1 / 10000) * s.y⟩
          rw [h7, h4] at g1
          rw [h4, g1]
          rfl
        rw [e1, V3.norm_smul, abs_of_nonneg hnn, mul_comm]
        refine mul_le_mul_of_nonneg_right ?_ hnn
        show Real.sqrt _ ≤ _
        rw [sqNorm_frame hv1 hvz]
        refine Real.sqrt_le_iff.mpr ⟨by norm_num, ?_⟩
        simp only [V3.sqNorm, V3.dot]
        have a1 := Real.one_sub_sq_div_two_le_cos (x := 1 / 10000)
        have a2 := Real.cos_le_one (1 / 10000)
        have a3 := Real.sin_gt_sub_cube (x := 1 / 10000) (by norm_num)
        have a4 := Real.sin_lt (x := 1 / 10000) (by norm_num)
        have a5 := V2.norm_sq s
        rw [h6] at a5
        simp only [V2.sqNorm] at a5
        generalize Real.cos (1 / 10000) = c at *
        generalize Real.sin (1 / 10000) = q at *
        have e2 : (1 - c) * (1 - c) + (s.x - q / (1 / 10000) * s.x) * (s.x - q / (1 / 10000) * s.x) +
            (s.y - q / (1 / 10000) * s.y) * (s.y - q / (1 / 10000) * s.y) =
            (1 - c) ^ 2 + (s.x * s.x + s.y * s.y) * (1 - q * 10000) ^ 2 := by ring
        rw [e2, ← a5]
        have e3 : (1 : ℝ) / 10000 * (1 / 10000) * (1 - q * 10000) ^ 2 = (1 / 10000 - q) ^ 2 := by ring
        rw [e3]
        have b1 : (1 - c) ^ 2 ≤ ((1 / 10000) ^ 2 / 2) ^ 2 := by
          have : 0 ≤ 1 - c := by linarith
          gcongr; linarith
        have b2 : (1 / 10000 - q) ^ 2 ≤ ((1 / 10000) ^ 3 / 4) ^ 2 := by
          have : 0 ≤ 1 / 10000 - q := by linarith
          gcongr; linarith
        norm_num at b1 b2 ⊢
        linarith
      · rw [hang, V3.norm_eq_zero.mpr rfl]
        have : V3.smul (0 : ℝ) ((dsFrame rv.normalized).mulVec r) - V3.zero = V3.zero := by ext <;> simp [V3.smul, V3.zero]
        rw [this, V3.norm_eq_zero.mpr rfl]; norm_num
    · exact absurd (h4.trans (hbig (by rw [hlit]; exact not_lt.mpr h3)).symm) hrec

/-- The modulated velocity before repulsion. -/
theorem single_ultra {e : Ellipsoid ℝ} {ref : V3 ℝ} {k : ℕ} {m c p : ℝ} (sm : Smooth e m k) (hk : k ≤ 2 ^ 52)
    (hf : FlatPose e.base.pose) (hrz : ref.z = 0) (hlin : e.base.state.linearVelocity = V3.zero)
    (hang : e.base.state.angularVelocity = V3.zero) (hp : ∀ᶠ A in (U : Filter Arith), A.PowZero)
    {x v : ∀ A, V3 (Fp A)} {x0 v0 : V3 ℝ} (hx : PlV U x x0) (hv : PlV U v v0)
    (hstar : gdist e m ref < gdist e m x0) (hout : 1 < gdist e m x0) (hc : c < gdist e m x0) :
    ∃ w0, PlV U (fun A => combine (x A) (v A) [ellItem (e.fp A) (ref.fp A) (x A) (A.ld m)] (A.ld c) (A.ld p)) w0 ∧
      V3.norm (w0 - (ellItem e ref x0 m).matrix.mulVec v0) ≤ 1 / 10 ^ 8 * V3.norm ((ellItem e ref x0 m).matrix.mulVec v0) := by
  have hq := (Quat.isUnit_iff_norm _).mpr sm.unit
  have hq0 : 0 < e.base.orientation.sqNorm := by rw [show e.base.orientation.sqNorm = 1 from hq]; exact one_pos
  have hl := off_of_long sm.long
  obtain ⟨y, w, co⟩ := coord sm hstar
  have hnr := co.nr
  have hn0 : e.normalToAgent x0 m ≠ V3.zero := by
    intro h0; rw [h0] at hnr; simp [V3.dot, V3.zero] at hnr
  have hr0 : referenceDirection e.base.pose x0 ref ≠ V3.zero := by
    intro h0; rw [h0] at hnr; simp [V3.dot, V3.zero] at hnr
  have hdet := coord_det sm co
  have hm : Conv (U : Filter Arith) (fun A => A.ld m) m := Conv.rnd m
  have hER := conv_ell (F := U) e ref sm.curv ⟨hk, hk, hk⟩
  obtain ⟨k1, k2, k3, hE⟩ := hER.ell
  have hn := pl_normal (F := U) sm hk hf hp hx hn0
  have hnz := hn.flat
  have hn1 : V3.norm (e.normalToAgent x0 m) = 1 := by
    have h1 := sqNorm_pos_of_normalized (v := _) (show V3.normalized _ ≠ V3.zero from hn0)
    exact V3.norm_normalized (fun h => by rw [h] at h1; simp [V3.sqNorm, V3.dot, V3.zero] at h1)
  have hd : Conv (U : Filter Arith) (fun A => (e.fp A).distanceToPoint (x A) (V3.const (A.ld m))) (gdist e m x0) :=
    hE.distance hx.conv (ConvV.const hm) hl
  have hrp : PlV U (fun A => ref.fp A) ref := pl_v3 hrz
  have hpose : PlP (U : Filter Arith) (fun A => e.base.pose.fp A) e.base.pose := pl_pose hf
  have hr : PlV U (fun A => referenceDirection (e.fp A).base.pose (x A) (ref.fp A)) (referenceDirection e.base.pose x0 ref) :=
    ((hpose.inverse.apply hx).sub (hpose.inverse.apply hrp)).normalized (sqNorm_pos_of_normalized hr0)
  have hb := pl_referenceBasis hn hr hnz hn1
  have hM : PlM U (fun A => (ellItem (e.fp A) (ref.fp A) (x A) (A.ld m)).matrix) (ellItem e ref x0 m).matrix :=
    pl_product hpose.orientation hb (conv_eigenvalues hd) hdet hq0
  have hB : ConvM U (fun A => (ellItem (e.fp A) (ref.fp A) (x A) (A.ld m)).basis) (ellItem e ref x0 m).basis :=
    conv_orthogonalBasis hn.conv (by rw [flat_unit_cross hnz hn1]; norm_num)
  -- the weight
  obtain ⟨ws, hw1, hw2⟩ := conv_weights (F := U) (l := [fun A => (e.fp A).distanceToPoint (x A) (V3.const (A.ld m))])
    (l0 := [gdist e m x0]) (c := fun A => A.ld c) (p := fun A => A.ld p) (.cons hd .nil) (Conv.rnd c) (Conv.rnd p)
    (by intro d hd; simp only [List.mem_singleton] at hd; rw [hd]; exact hc.ne')
  have hw0 : weightObstacles [gdist e m x0] c p = [1] := by
    have hpos : 0 < (gdist e m x0 - c) ^ (-p) := Real.rpow_pos_of_pos (sub_pos.mpr hc) _
    simp only [weightObstacles, Modulation.sum, List.map_cons, List.map_nil, List.foldl_cons, List.foldl_nil, pow_real,
      if_neg (not_le.mpr hc)]
    norm_num
    exact hpos.ne'
  rw [hw0] at hw2
  obtain ⟨w, rfl⟩ : ∃ w, ws = [w] := by
    cases hw2 with
    | cons h1 h2 => cases h2; exact ⟨_, rfl⟩
  have hw : Conv U w 1 := by
    cases hw2 with
    | cons h1 _ => exact h1
  -- the obstacle does not move
  have hNlin : NullV (U : Filter Arith) (fun A => (e.fp A).base.state.linearVelocity) := by
    have : (fun A => (e.fp A).base.state.linearVelocity) = fun A => (V3.zero : V3 ℝ).fp A := by
      funext A; show e.base.state.linearVelocity.fp A = _; rw [hlin]
    rw [this]; exact NullV.fp
  have hNang : NullV (U : Filter Arith) (fun A => (e.fp A).base.state.angularVelocity) := by
    have : (fun A => (e.fp A).base.state.angularVelocity) = fun A => (V3.zero : V3 ℝ).fp A := by
      funext A; show e.base.state.angularVelocity.fp A = _; rw [hang]
    rw [this]; exact NullV.fp
  have hov : NullV (U : Filter Arith) (fun A => V3.zero + obstacleVelocity (x A) (ellItem (e.fp A) (ref.fp A) (x A) (A.ld m)).base
      (ellItem (e.fp A) (ref.fp A) (x A) (A.ld m)).dist (w A) (ellItem (e.fp A) (ref.fp A) (x A) (A.ld m)).basis) := by
    have h1 := hNang.cross (hx.conv.sub hE.base.pose.position)
    have he := (((Conv.one.maxS hd).sub Conv.one).neg).exp
    have h2 := NullV.mulVec hB (NullV.mulVec hB.transpose (NullV.smul he (hNlin.add h1)))
    exact NullV.zero.add ⟨h2.x.mul_left hw, h2.y.mul_left hw, h2.z.mul_left hw⟩
  have hrv := hv.sub_null hov
  have hev := eigen_pos hout
  have hopp : ∀ c : ℝ, 0 < c → v0 ≠ V3.zero → (ellItem e ref x0 m).matrix.mulVec v0 ≠ V3.smul (-c) v0 := fun c hc hv =>
    not_opposite hq _ ⟨hev.1.le, hev.2.1.le, hev.2.2.le⟩ hc hv
  obtain ⟨b, s0, hb1, hb2, hs1, hs2, hs3, hs4⟩ := angleTerm_ultra hrv hM hw (fun h0 =>
    definite_planar hv.flat h0 (product_ne_zero hq hdet hev h0) fun c hc => hopp c hc h0)
  -- adding to zero
  have hsum1 := Conv.zero.add hs1
  have hsum2 := ConvV2.zero.add hs2
  have hsum3 : Null (U : Filter Arith) (fun A => (V2.zero.add (angleTerm (dsFrame ((v A) - (V3.zero + obstacleVelocity (x A)
      (ellItem (e.fp A) (ref.fp A) (x A) (A.ld m)).base (ellItem (e.fp A) (ref.fp A) (x A) (A.ld m)).dist (w A)
      (ellItem (e.fp A) (ref.fp A) (x A) (A.ld m)).basis)).normalized).transpose ((v A) - (V3.zero + obstacleVelocity (x A)
      (ellItem (e.fp A) (ref.fp A) (x A) (A.ld m)).base (ellItem (e.fp A) (ref.fp A) (x A) (A.ld m)).dist (w A)
      (ellItem (e.fp A) (ref.fp A) (x A) (A.ld m)).basis)).normalized ((v A) - (V3.zero + obstacleVelocity (x A)
      (ellItem (e.fp A) (ref.fp A) (x A) (A.ld m)).base (ellItem (e.fp A) (ref.fp A) (x A) (A.ld m)).dist (w A)
      (ellItem (e.fp A) (ref.fp A) (x A) (A.ld m)).basis)) (ellItem (e.fp A) (ref.fp A) (x A) (A.ld m)).matrix (w A)).2).y) :=
    Null.zero.add hs3
  obtain ⟨r, hr1, hr2⟩ := reconstruct_ultra hsum2 hsum3
  have hmv := (pl_dsFrame hb1).mulVec hr1
  have hfin := (PlV.scale hsum1 hmv).add_null hov
  refine ⟨_, hfin.congr ?_, ?_⟩
  · filter_upwards [hw1] with A h1
    rw [combine_zip]
    have h2 : weightObstacles ([ellItem (e.fp A) (ref.fp A) (x A) (A.ld m)].map (·.dist)) (A.ld c) (A.ld p) = [w A] := h1
    rw [h2]
    rfl
  · have hs0 : V2.zero.add s0 = s0 := by ext <;> simp [V2.add, V2.zero]
    rw [hs0] at hr2
    have hsm : ∀ (u : V3 ℝ) (t : ℝ), (⟨u.x * (0 + t * 1), u.y * (0 + t * 1), u.z * (0 + t * 1)⟩ : V3 ℝ) = V3.smul t u := by
      intro u t; ext <;> simp only [V3.smul] <;> ring
    rw [hsm]
    by_cases h0 : v0 = V3.zero
    · have h1 : (ellItem e ref x0 m).matrix.mulVec v0 = V3.zero := by
        rw [h0]; ext <;> simp [M3.mulVec, V3.zero]
      rw [h1, V3.norm_eq_zero.mpr rfl]
      have : V3.smul (0 : ℝ) ((dsFrame b).mulVec r) - V3.zero = V3.zero := by ext <;> simp [V3.smul, V3.zero]
      rw [this, V3.norm_eq_zero.mpr rfl]; norm_num
    · rw [hs4 h0] at hr2
      rw [hb2 h0]
      exact rec_close hv.flat h0 hopp hr2

/-- The repulsion. -/
theorem rep_ultra {e : Ellipsoid ℝ} {ref : V3 ℝ} {k : ℕ} {m : ℝ} (sm : Smooth e m k) (hk : k ≤ 2 ^ 52) (hrz : ref.z = 0)
    {x : ∀ A, V3 (Fp A)} {x0 : V3 ℝ} (hx : PlV U x x0) (hout : 1 < gdist e m x0) :
    ∃ ρ, PlV U (fun A => ellRep (e.fp A) (ref.fp A) (x A) (A.ld m)) ρ ∧
      ((11 / 10 ≤ gdist e m x0 ∧ ρ = V3.zero) ∨
       (gdist e m x0 ≤ 11 / 10 ∧ ρ = V3.smul (2 / gdist e m x0) (x0 - ref))) := by
  have hm : Conv (U : Filter Arith) (fun A => A.ld m) m := Conv.rnd m
  have hER := conv_ell (F := U) e ref sm.curv ⟨hk, hk, hk⟩
  obtain ⟨k1, k2, k3, hE⟩ := hER.ell
  have hd : Conv (U : Filter Arith) (fun A => (e.fp A).distanceToPoint (x A) (V3.const (A.ld m))) (gdist e m x0) :=
    hE.distance hx.conv (ConvV.const hm) (off_of_long sm.long)
  have ht := Conv.lit (F := U) 11 10
  have h4 : (lit 11 10 : ℝ) = 11 / 10 := by simp
  have h5 : (lit 2 1 : ℝ) = 2 := by simp
  have hrp : PlV U (fun A => ref.fp A) ref := pl_v3 hrz
  rcases ultra_em (U := U) (fun A => (e.fp A).distanceToPoint (x A) (V3.const (A.ld m)) < lit 11 10) with h | h
  · refine ⟨_, PlV.congr (PlV.smul ((Conv.lit (F := U) 2 1).div hd (by linarith)) (hx.sub hrp)) ?_, Or.inr ⟨?_, by rw [h5]⟩⟩
    · filter_upwards [h] with A h1
      unfold ellRep; rw [if_pos h1]
    · rw [← h4]; exact hd.le_of_lt ht h
  · refine ⟨_, PlV.congr PlV.zero ?_, Or.inl ⟨?_, rfl⟩⟩
    · filter_upwards [h] with A h1
      unfold ellRep; rw [if_neg h1]
    · rw [← h4]; exact hd.le_of_not_lt ht h

/-- The velocity returned by `modulate_velocity`. -/
theorem ellOut_ultra {e : Ellipsoid ℝ} {ref : V3 ℝ} {k : ℕ} {m c p : ℝ} (sm : Smooth e m k) (hk : k ≤ 2 ^ 52)
    (hf : FlatPose e.base.pose) (hrz : ref.z = 0) (hlin : e.base.state.linearVelocity = V3.zero)
    (hang : e.base.state.angularVelocity = V3.zero) (hp : ∀ᶠ A in (U : Filter Arith), A.PowZero)
    {x v : ∀ A, V3 (Fp A)} {x0 v0 : V3 ℝ} (hx : PlV U x x0) (hv : PlV U v v0)
    (hstar : gdist e m ref < gdist e m x0) (hout : 1 < gdist e m x0) (hc : c < gdist e m x0)
    (hbig : gdist e m x0 ≤ 11 / 10 → 1 / 10000 < V3.norm (V3.smul (2 / gdist e m x0) (x0 - ref))) :
    ∃ err ρ, PlV U (fun A => ellOut [(e.fp A, ref.fp A)] (x A) (v A) (A.ld m) true (A.ld c) (A.ld p))
        ((ellItem e ref x0 m).matrix.mulVec v0 + err + ρ) ∧
      V3.norm err ≤ 1 / 10 ^ 8 * V3.norm ((ellItem e ref x0 m).matrix.mulVec v0) ∧
      ((11 / 10 ≤ gdist e m x0 ∧ ρ = V3.zero) ∨
       (gdist e m x0 ≤ 11 / 10 ∧ ρ = V3.smul (2 / gdist e m x0) (x0 - ref))) := by
  obtain ⟨w0, hw, hw'⟩ := single_ultra (c := c) (p := p) sm hk hf hrz hlin hang hp hx hv hstar hout hc
  obtain ⟨ρ, hρ, hρ'⟩ := rep_ultra sm hk hrz hx hout
  have e1 : (ellItem e ref x0 m).matrix.mulVec v0 + (w0 - (ellItem e ref x0 m).matrix.mulVec v0) = w0 := by v3_ring
  refine ⟨w0 - (ellItem e ref x0 m).matrix.mulVec v0, ρ, ?_, hw', hρ'⟩
  rw [e1]
  have hsum : PlV U (fun A => V3.zero + ellRep (e.fp A) (ref.fp A) (x A) (A.ld m)) ρ := by
    have h1 := PlV.zero.add hρ
    have h2 : V3.zero + ρ = ρ := by ext <;> simp [V3.zero]
    rwa [h2] at h1
  have ht := Conv.lit (F := U) 1 10000
  have h4 : (lit 1 10000 : ℝ) = 1 / 10000 := by simp
  have key : PlV U (fun A => if lit 1 10000 < (V3.zero + ellRep (e.fp A) (ref.fp A) (x A) (A.ld m)).norm then
      combine (x A) (v A) [ellItem (e.fp A) (ref.fp A) (x A) (A.ld m)] (A.ld c) (A.ld p) +
        (V3.zero + ellRep (e.fp A) (ref.fp A) (x A) (A.ld m))
      else combine (x A) (v A) [ellItem (e.fp A) (ref.fp A) (x A) (A.ld m)] (A.ld c) (A.ld p)) (w0 + ρ) := by
    rcases hρ' with ⟨h1, h2⟩ | ⟨h1, h2⟩
    · have h3 : w0 + ρ = w0 := by rw [h2]; ext <;> simp [V3.zero]
      rw [h3]
      refine hw.congr ?_
      filter_upwards [ht.not_lt hsum.conv.norm (by rw [h2, V3.norm_eq_zero.mpr rfl, h4]; norm_num)] with A h5
      rw [if_neg h5]
    · refine (hw.add hsum).congr ?_
      filter_upwards [ht.lt hsum.conv.norm (by rw [h2, h4]; exact hbig h1)] with A h5
      rw [if_pos h5]
  refine key.congr ?_
  filter_upwards [key.conv.noNaN] with A h1
  unfold ellOut finish
  simp only [if_true, List.map_cons, List.map_nil, List.foldl_cons, List.foldl_nil, h1, Bool.false_eq_true, if_false]

end ultra
end Modulation
end DOA
