import Mathlib.Order.Filter.Ultrafilter.Basic
import Mathlib.Topology.Order.Compact
import Verif.Lemmas.FpWorld
import Verif.Spec.FpLoop

/-!
# Finite precision in the plane

Values that are exactly zero stay exactly zero: with rotations about the z axis and positions in the plane the computed
velocity has z component 0, without any error.  Along an ultrafilter every bounded family of values converges, so that
normalisation of a vector tending to zero has a limit too.
-/

set_option linter.unusedSectionVars false
set_option linter.unusedSimpArgs false

namespace DOA
open Filter Topology


variable {F : Filter Arith} [Fine F]

/-- exactly zero -/
def Null (F : Filter Arith) (x : Fam) : Prop := ∀ᶠ A in F, (x A).v = .fin 0

namespace Null
variable {x y : Fam} {a b : ℝ}

theorem conv (h : Null F x) : Conv F x 0 := ⟨fun _ => 0, h, tendsto_const_nhds⟩
theorem zero : Null F (fun _ => 0) := Eventually.of_forall fun _ => rfl

theorem neg (h : Null F x) : Null F (fun A => -x A) := by
  filter_upwards [h] with A h1
  show -(x A).v = _
  rw [h1]
  show Dbl.fin (-0) = _
  rw [neg_zero]

theorem add (h : Null F x) (h' : Null F y) : Null F (fun A => x A + y A) := by
  filter_upwards [h, h', sound_fine] with A h1 h2 hA
  show A.round ((x A).v + (y A).v) = _
  rw [h1, h2]
  show A.rnd (0 + 0) = _
  rw [add_zero, hA.zero]

theorem sub (h : Null F x) (h' : Null F y) : Null F (fun A => x A - y A) := by
  filter_upwards [h, h', sound_fine] with A h1 h2 hA
  show A.round ((x A).v - (y A).v) = _
  rw [h1, h2, Dbl.fin_sub]
  show A.rnd (0 - 0) = _
  rw [sub_zero, hA.zero]

theorem mul_left (h : Null F x) (h' : Conv F y b) : Null F (fun A => x A * y A) := by
  obtain ⟨s, h3, -⟩ := h'
  filter_upwards [h, h3, sound_fine] with A h1 h2 hA
  show A.round ((x A).v * (y A).v) = _
  rw [h1, h2]
  show A.rnd (0 * s A) = _
  rw [zero_mul, hA.zero]

theorem mul_right (h' : Conv F y b) (h : Null F x) : Null F (fun A => y A * x A) := by
  obtain ⟨s, h3, -⟩ := h'
  filter_upwards [h, h3, sound_fine] with A h1 h2 hA
  show A.round ((y A).v * (x A).v) = _
  rw [h1, h2]
  show A.rnd (s A * 0) = _
  rw [mul_zero, hA.zero]

/-- A quotient that is finite. -/
theorem div (h : Null F x) (h' : Conv F (fun A => x A / y A) a) : Null F (fun A => x A / y A) := by
  obtain ⟨s, h3, -⟩ := h'
  filter_upwards [h, h3, sound_fine] with A h1 h2 hA
  show A.round ((x A).v / (y A).v) = _
  have h4 : A.round ((x A).v / (y A).v) = .fin (s A) := h2
  rw [h1] at h4 ⊢
  generalize (y A).v = d at h4 ⊢
  cases d with
  | fin r =>
    by_cases hr : r = 0
    · rw [hr, Dbl.fin_div_zero] at h4
      have : Dbl.signed 0 = .nan := by simp [Dbl.signed]
      rw [this] at h4
      cases h4
    · rw [Dbl.fin_div hr]
      show A.rnd (0 / r) = _
      rw [zero_div, hA.zero]
  | pinf => show A.rnd 0 = _; exact hA.zero
  | ninf => show A.rnd 0 = _; exact hA.zero
  | nan => cases h4

theorem congr (h : Null F x) (hxy : ∀ᶠ A in F, y A = x A) : Null F y := by
  filter_upwards [h, hxy] with A h1 h2; rw [h2, h1]

theorem ite {p : Arith → Prop} [∀ A, Decidable (p A)] (h : Null F x) (h' : Null F y) :
    Null F (fun A => if p A then x A else y A) := by
  filter_upwards [h, h'] with A h1 h2
  split <;> assumption

theorem pow {k : ℕ} {c : Fam} (h : Null F x) (hp : ∀ᶠ A in F, A.PowZero) (hk : 0 < k) (hc : ∀ᶠ A in F, (c A).v = .fin k) :
    Null F (fun A => CMath.pow (x A) (c A)) := by
  filter_upwards [h, hp, hc] with A h1 h2 h3
  show (Fp.libm2 CMath.pow A.pow (x A) (c A)).v = _
  simp only [Fp.libm2, h1, h3, Dbl.fin_pow_nat]
  exact h2 k hk

end Null

/-! ### horizontal and vertical vectors -/

/-- a vector in the plane, exactly -/
structure PlV (F : Filter Arith) (v : ∀ A, V3 (Fp A)) (a : V3 ℝ) : Prop extends ConvV F v a where
  null : Null F (fun A => (v A).z)

/-- a vector along the z axis, exactly -/
structure UpV (F : Filter Arith) (v : ∀ A, V3 (Fp A)) (a : V3 ℝ) : Prop extends ConvV F v a where
  nullx : Null F (fun A => (v A).x)
  nully : Null F (fun A => (v A).y)

theorem UpV.unitZ : UpV F (fun _ => V3.unitZ) V3.unitZ := ⟨ConvV.unitZ, Null.zero, Null.zero⟩

namespace PlV
variable {u v : ∀ A, V3 (Fp A)} {a b : V3 ℝ} {s : Fam} {t : ℝ}

theorem conv (h : PlV F u a) : ConvV F u a := h.toConvV
theorem zero : PlV F (fun _ => V3.zero) V3.zero := ⟨ConvV.zero, Null.zero⟩
theorem add (h : PlV F u a) (h' : PlV F v b) : PlV F (fun A => u A + v A) (a + b) :=
  ⟨h.conv.add h'.conv, h.null.add h'.null⟩
theorem sub (h : PlV F u a) (h' : PlV F v b) : PlV F (fun A => u A - v A) (a - b) :=
  ⟨h.conv.sub h'.conv, h.null.sub h'.null⟩
theorem neg (h : PlV F u a) : PlV F (fun A => -u A) (-a) := ⟨h.conv.neg, h.null.neg⟩
theorem smul (hs : Conv F s t) (h : PlV F u a) : PlV F (fun A => V3.smul (s A) (u A)) (V3.smul t a) :=
  ⟨ConvV.smul hs h.conv, Null.mul_right hs h.null⟩
theorem scale (hs : Conv F s t) (h : PlV F u a) :
    PlV F (fun A => ⟨(u A).x * s A, (u A).y * s A, (u A).z * s A⟩) ⟨a.x * t, a.y * t, a.z * t⟩ :=
  ⟨⟨h.x.mul hs, h.y.mul hs, h.z.mul hs⟩, h.null.mul_left hs⟩
theorem cross (h : PlV F u a) (h' : PlV F v b) : UpV F (fun A => V3.cross (u A) (v A)) (V3.cross a b) :=
  ⟨h.conv.cross h'.conv, (Null.mul_right h.y h'.null).sub (h.null.mul_left h'.y),
    (h.null.mul_left h'.x).sub (Null.mul_right h.x h'.null)⟩
theorem cross_up (h : PlV F u a) (h' : UpV F v b) : PlV F (fun A => V3.cross (u A) (v A)) (V3.cross a b) :=
  ⟨h.conv.cross h'.toConvV, (Null.mul_right h.x h'.nully).sub (Null.mul_right h.y h'.nullx)⟩
theorem up_cross (h : UpV F u a) (h' : PlV F v b) : PlV F (fun A => V3.cross (u A) (v A)) (V3.cross a b) :=
  ⟨h.toConvV.cross h'.conv, (h.nullx.mul_left h'.y).sub (h.nully.mul_left h'.x)⟩

theorem congr (h : PlV F u a) (hv : ∀ᶠ A in F, v A = u A) : PlV F v a :=
  ⟨h.conv.congr hv, h.null.congr (hv.mono fun _ h => by rw [h])⟩

/-- the limit is in the plane -/
theorem flat [F.NeBot] (h : PlV F u a) : a.z = 0 := by
  obtain ⟨r, h1, h2⟩ := h.z
  refine tendsto_nhds_unique h2 (tendsto_const_nhds.congr' ?_)
  filter_upwards [h1, h.null] with A h3 h4
  rw [h3] at h4
  exact (Dbl.fin.inj h4).symm

/-- Normalisation, if it converges. -/
theorem of_normalized (h : PlV F u a) (hn : ConvV F (fun A => (u A).normalized) b) : PlV F (fun A => (u A).normalized) b := by
  refine ⟨hn, ?_⟩
  obtain ⟨r, h1, -⟩ := hn.z
  filter_upwards [h1, h.null, sound_fine] with A h2 h3 hA
  by_cases hp : (0 : Fp A) < V3.sqNorm (u A)
  · unfold V3.normalized at h2 ⊢
    rw [if_pos hp] at h2 ⊢
    have h4 : A.round ((u A).z.v / (CMath.sqrt (V3.sqNorm (u A))).v) = .fin (r A) := h2
    show A.round ((u A).z.v / (CMath.sqrt (V3.sqNorm (u A))).v) = _
    rw [h3] at h4 ⊢
    generalize (CMath.sqrt (V3.sqNorm (u A))).v = d at h4 ⊢
    cases d with
    | fin r =>
      by_cases hr : r = 0
      · rw [hr, Dbl.fin_div_zero] at h4
        have : Dbl.signed 0 = .nan := by simp [Dbl.signed]
        rw [this] at h4
        cases h4
      · rw [Dbl.fin_div hr]
        show A.rnd (0 / r) = _
        rw [zero_div, hA.zero]
    | pinf => show A.rnd 0 = _; exact hA.zero
    | ninf => show A.rnd 0 = _; exact hA.zero
    | nan => cases h4
  · unfold V3.normalized
    rw [if_neg hp]
    exact h3

theorem normalized (h : PlV F u a) (ha : 0 < V3.sqNorm a) : PlV F (fun A => (u A).normalized) a.normalized :=
  h.of_normalized (h.conv.normalized ha)

end PlV

/-! ### matrices that keep the plane -/

structure PlM (F : Filter Arith) (m : ∀ A, M3 (Fp A)) (a : M3 ℝ) : Prop where
  c0 : PlV F (fun A => (m A).c0) a.c0
  c1 : PlV F (fun A => (m A).c1) a.c1
  c2 : UpV F (fun A => (m A).c2) a.c2

namespace PlM
variable {m n : ∀ A, M3 (Fp A)} {a b : M3 ℝ} {v : ∀ A, V3 (Fp A)} {w : V3 ℝ}

theorem conv (h : PlM F m a) : ConvM F m a := ⟨h.c0.conv, h.c1.conv, h.c2.toConvV⟩

theorem mulVec (h : PlM F m a) (hv : PlV F v w) : PlV F (fun A => (m A).mulVec (v A)) (a.mulVec w) :=
  ⟨h.conv.mulVec hv.conv, ((h.c0.null.mul_left hv.x).add (h.c1.null.mul_left hv.y)).add (Null.mul_right h.c2.z hv.null)⟩
theorem mulVec_up (h : PlM F m a) (hv : UpV F v w) : UpV F (fun A => (m A).mulVec (v A)) (a.mulVec w) :=
  ⟨h.conv.mulVec hv.toConvV,
    ((Null.mul_right h.c0.x hv.nullx).add (Null.mul_right h.c1.x hv.nully)).add (h.c2.nullx.mul_left hv.z),
    ((Null.mul_right h.c0.y hv.nullx).add (Null.mul_right h.c1.y hv.nully)).add (h.c2.nully.mul_left hv.z)⟩
theorem mul (h : PlM F m a) (h' : PlM F n b) : PlM F (fun A => (m A).mul (n A)) (a.mul b) :=
  ⟨h.mulVec h'.c0, h.mulVec h'.c1, h.mulVec_up h'.c2⟩
theorem transpose (h : PlM F m a) : PlM F (fun A => (m A).transpose) a.transpose :=
  ⟨⟨h.conv.transpose.c0, h.c2.nullx⟩, ⟨h.conv.transpose.c1, h.c2.nully⟩, ⟨h.conv.transpose.c2, h.c0.null, h.c1.null⟩⟩
theorem mulDiag (h : PlM F m a) (hv : ConvV F v w) : PlM F (fun A => (m A).mulDiag (v A)) (a.mulDiag w) :=
  ⟨⟨(h.conv.mulDiag hv).c0, h.c0.null.mul_left hv.x⟩, ⟨(h.conv.mulDiag hv).c1, h.c1.null.mul_left hv.y⟩,
    ⟨(h.conv.mulDiag hv).c2, h.c2.nullx.mul_left hv.z, h.c2.nully.mul_left hv.z⟩⟩
theorem inverse (h : PlM F m a) (hd : a.det ≠ 0) : PlM F (fun A => (m A).inverse) a.inverse := by
  have hi : Conv F (fun A => 1 / (m A).det) (1 / a.det) := Conv.one.div h.conv.det hd
  have hc := h.conv.inverse hd
  refine ⟨⟨hc.c0, ?_⟩, ⟨hc.c1, ?_⟩, ⟨hc.c2, ?_, ?_⟩⟩
  · exact ((Null.mul_right h.c0.y h.c1.null).sub (Null.mul_right h.c1.y h.c0.null)).mul_left hi
  · exact ((Null.mul_right h.c1.x h.c0.null).sub (Null.mul_right h.c0.x h.c1.null)).mul_left hi
  · exact ((Null.mul_right h.c1.x h.c2.nully).sub (h.c2.nullx.mul_left h.c1.y)).mul_left hi
  · exact ((h.c2.nullx.mul_left h.c0.y).sub (Null.mul_right h.c0.x h.c2.nully)).mul_left hi

end PlM

/-! ### rotations about the z axis -/

structure PlQ (F : Filter Arith) (q : ∀ A, Quat (Fp A)) (a : Quat ℝ) : Prop extends ConvQ F q a where
  nullx : Null F (fun A => (q A).x)
  nully : Null F (fun A => (q A).y)

structure PlP (F : Filter Arith) (p : ∀ A, Pose (Fp A)) (a : Pose ℝ) : Prop where
  position : PlV F (fun A => (p A).position) a.position
  orientation : PlQ F (fun A => (p A).orientation) a.orientation

namespace PlQ
variable {q : ∀ A, Quat (Fp A)} {a : Quat ℝ} {v : ∀ A, V3 (Fp A)} {w : V3 ℝ}

theorem vec (h : PlQ F q a) : UpV F (fun A => (q A).vec) a.vec := ⟨h.toConvQ.vec, h.nullx, h.nully⟩
theorem conjugate (h : PlQ F q a) : PlQ F (fun A => (q A).conjugate) a.conjugate :=
  ⟨h.toConvQ.conjugate, h.nullx.neg, h.nully.neg⟩
theorem rotate (h : PlQ F q a) (hv : PlV F v w) : PlV F (fun A => (q A).rotate (v A)) (a.rotate w) := by
  have h1 := PlV.up_cross h.vec hv
  have h2 := h1.add h1
  exact (hv.add (.smul h.w h2)).add (PlV.up_cross h.vec h2)
theorem toM3 (h : PlQ F q a) : PlM F (fun A => (q A).toM3) a.toM3 := by
  have l2 := Conv.lit (F := F) 2 1
  have tx := Null.mul_right l2 h.nullx
  have ty := Null.mul_right l2 h.nully
  have tz := l2.mul h.z
  have hc := h.toConvQ.toM3
  exact ⟨⟨hc.c0, (Null.mul_right tz h.nullx).sub (ty.mul_left h.w)⟩, ⟨hc.c1, (Null.mul_right tz h.nully).add (tx.mul_left h.w)⟩,
    ⟨hc.c2, (Null.mul_right tz h.nullx).add (ty.mul_left h.w), (Null.mul_right tz h.nully).sub (tx.mul_left h.w)⟩⟩
theorem inverse (h : PlQ F q a) (ha : 0 < a.sqNorm) : PlQ F (fun A => (q A).inverse) a.inverse := by
  have hc := h.toConvQ.inverse ha
  have hs := h.toConvQ.sqNorm
  have hp := Conv.zero.lt hs ha
  refine ⟨hc, ?_, ?_⟩
  · refine (h.nullx.neg.div (h.x.neg.div hs ha.ne')).congr ?_
    filter_upwards [hp] with A h1
    unfold Quat.inverse; rw [if_pos h1]
  · refine (h.nully.neg.div (h.y.neg.div hs ha.ne')).congr ?_
    filter_upwards [hp] with A h1
    unfold Quat.inverse; rw [if_pos h1]

end PlQ

namespace PlP
variable {p : ∀ A, Pose (Fp A)} {a : Pose ℝ} {v : ∀ A, V3 (Fp A)} {w : V3 ℝ}

theorem conv (h : PlP F p a) : ConvP F p a := ⟨h.position.conv, h.orientation.toConvQ⟩
theorem inverse (h : PlP F p a) : PlP F (fun A => (p A).inverse) a.inverse :=
  ⟨h.orientation.conjugate.rotate h.position.neg, h.orientation.conjugate⟩
theorem apply (h : PlP F p a) (hv : PlV F v w) : PlV F (fun A => (p A).apply (v A)) (a.apply w) :=
  (h.orientation.rotate hv).add h.position

end PlP

/-! ### ultrafilters -/

section ultra
variable {U : Ultrafilter Arith} [Fine (U : Filter Arith)]

theorem Bdd.conv {x : Fam} {K : ℝ} (h : Bdd U x K) : ∃ a, Conv U x a := by
  have hm : Filter.map (fun A => (x A).v.toReal) (U : Filter Arith) ≤ 𝓟 (Set.Icc (-K) K) := by
    rw [Filter.le_principal_iff, Filter.mem_map]
    filter_upwards [h] with A ⟨r, h1, h2⟩
    show (x A).v.toReal ∈ Set.Icc (-K) K
    rw [h1]
    exact abs_le.mp h2
  obtain ⟨a, -, ha⟩ := isCompact_Icc.ultrafilter_le_nhds (U.map fun A => (x A).v.toReal) hm
  refine ⟨a, fun A => (x A).v.toReal, ?_, ha⟩
  filter_upwards [h] with A ⟨r, h1, _⟩
  rw [h1]; rfl

theorem ultra_em (p : Arith → Prop) : (∀ᶠ A in (U : Filter Arith), p A) ∨ ∀ᶠ A in (U : Filter Arith), ¬ p A :=
  U.em p

theorem Conv.le_of_lt {x y : Fam} {a b : ℝ} (h : Conv U x a) (h' : Conv U y b)
    (hlt : ∀ᶠ A in (U : Filter Arith), x A < y A) : a ≤ b := by
  obtain ⟨r, h1, h2⟩ := h
  obtain ⟨s, h3, h4⟩ := h'
  refine le_of_tendsto_of_tendsto h2 h4 ?_
  filter_upwards [h1, h3, hlt] with A k1 k2 k3
  have k4 : (x A).v < (y A).v := k3
  rw [k1, k2] at k4
  exact (show r A < s A from k4).le

theorem Conv.le_of_not_lt {x y : Fam} {a b : ℝ} (h : Conv U x a) (h' : Conv U y b)
    (hlt : ∀ᶠ A in (U : Filter Arith), ¬ x A < y A) : b ≤ a := by
  by_contra hab
  obtain ⟨A, h1, h2⟩ := ((h.lt h' (_root_.not_le.mp hab)).and hlt).exists
  exact h2 h1

/-- Every family of two component vectors that converges has normalised vectors that converge. -/
theorem ConvV2.normalized_ultra {u : ∀ A, V2 (Fp A)} {a : V2 ℝ} (h : ConvV2 U u a) :
    ∃ b, ConvV2 U (fun A => (u A).normalized) b ∧ (0 < a.sqNorm → b = a.normalized) := by
  by_cases h0 : 0 < a.sqNorm
  · exact ⟨_, h.normalized h0, fun _ => rfl⟩
  · have ha : a = V2.zero := by
      simp only [V2.sqNorm] at h0
      ext <;> simp only [V2.zero] <;> nlinarith [mul_self_nonneg a.x, mul_self_nonneg a.y]
    rw [ha] at h
    obtain ⟨b1, b2⟩ := h.normalized_bdd
    obtain ⟨x, hx⟩ := b1.conv
    obtain ⟨y, hy⟩ := b2.conv
    exact ⟨⟨x, y⟩, ⟨hx, hy⟩, fun h => absurd h h0⟩

/-- For a vector in the plane the third component does not matter. -/
theorem PlV.normalized_two {u : ∀ A, V3 (Fp A)} {a : V3 ℝ} (h : PlV F u a) :
    ∀ᶠ A in F, (u A).normalized.x = (⟨(u A).x, (u A).y⟩ : V2 (Fp A)).normalized.x ∧
      (u A).normalized.y = (⟨(u A).x, (u A).y⟩ : V2 (Fp A)).normalized.y := by
  have hxy : Conv F (fun A => (u A).x * (u A).x + (u A).y * (u A).y) (a.x * a.x + a.y * a.y) :=
    (h.x.mul h.x).add (h.y.mul h.y)
  obtain ⟨r, h1, -⟩ := hxy
  filter_upwards [h1, h.null, sound_fine] with A h2 h3 hA
  have hsq : V3.sqNorm (u A) = V2.sqNorm ⟨(u A).x, (u A).y⟩ := by
    have e1 : (V3.sqNorm (u A)).v = A.round (((u A).x * (u A).x + (u A).y * (u A).y).v + A.round ((u A).z.v * (u A).z.v)) := rfl
    have e2 : ((u A).x * (u A).x + (u A).y * (u A).y).v = A.round (((u A).x * (u A).x).v + ((u A).y * (u A).y).v) := rfl
    have e3 : A.round ((u A).z.v * (u A).z.v) = .fin 0 := by
      rw [h3]
      show A.rnd (0 * 0) = _
      rw [mul_zero, hA.zero]
    have e4 : A.rnd (r A) = .fin (r A) := by
      rw [e2] at h2
      generalize ((u A).x * (u A).x).v + ((u A).y * (u A).y).v = d at h2
      cases d with
      | fin s => exact hA.idem _ _ h2
      | pinf => cases h2
      | ninf => cases h2
      | nan => cases h2
    have e5 : (V3.sqNorm (u A)).v = .fin (r A) := by
      rw [e1, e3, h2]
      show A.rnd (r A + 0) = _
      rw [add_zero, e4]
    have e6 : (V2.sqNorm (⟨(u A).x, (u A).y⟩ : V2 (Fp A))).v = .fin (r A) := h2
    have : ∀ p q : Fp A, p.v = q.v → p = q := by rintro ⟨p⟩ ⟨q⟩ h; cases h; rfl
    exact this _ _ (e5.trans e6.symm)
  unfold V3.normalized V2.normalized
  rw [hsq]
  constructor <;> split <;> rfl

theorem PlV.normalized_ultra {u : ∀ A, V3 (Fp A)} {a : V3 ℝ} (h : PlV U u a) :
    ∃ b, PlV U (fun A => (u A).normalized) b ∧ (a ≠ V3.zero → b = a.normalized) := by
  by_cases h0 : a = V3.zero
  · have h2 : ConvV2 U (fun A => ⟨(u A).x, (u A).y⟩) ⟨a.x, a.y⟩ := ⟨h.x, h.y⟩
    obtain ⟨b, hb, -⟩ := h2.normalized_ultra
    have e := h.normalized_two
    have hz : Conv U (fun A => (u A).normalized.z) 0 := by
      refine Null.conv ?_
      have hbx := hb.x
      obtain ⟨s, h3, h4⟩ := h.conv.sqNorm
      rw [h0] at h4
      have h5 : V3.sqNorm (V3.zero : V3 ℝ) = 0 := by simp [V3.sqNorm, V3.dot, V3.zero]
      rw [h5] at h4
      have hσ : Conv U (fun A => ⟨A.rnd (Real.sqrt (s A))⟩) (Real.sqrt 0) :=
        conv_rnd ((Real.continuous_sqrt.tendsto _).comp h4)
      obtain ⟨σ, h6, -⟩ := hσ
      have h7 : ∀ᶠ A in (U : Filter Arith), s A < 1 := h4.eventually_lt_const (by norm_num)
      have hround : ∀ᶠ A in (U : Filter Arith), A.rnd (s A) = .fin (s A) := by
        filter_upwards [h3, sound_fine] with A k1 hA
        have k2 : A.round (((u A).x * (u A).x + (u A).y * (u A).y).v + ((u A).z * (u A).z).v) = .fin (s A) := k1
        generalize ((u A).x * (u A).x + (u A).y * (u A).y).v + ((u A).z * (u A).z).v = d at k2
        cases d with
        | fin t => exact hA.idem _ _ k2
        | pinf => cases k2
        | ninf => cases k2
        | nan => cases k2
      filter_upwards [h.null, h3, h6, h7, hround, sound_fine] with A k1 k2 k3 k4 k5 hA
      unfold V3.normalized
      by_cases hp : (0 : Fp A) < V3.sqNorm (u A)
      · rw [if_pos hp]
        have hs0 : 0 < s A := by
          have : Dbl.fin 0 < (V3.sqNorm (u A)).v := hp
          rw [k2] at this; exact this
        have hs1 : s A ≤ Real.sqrt (s A) := Real.le_sqrt_of_sq_le (by nlinarith)
        have hσ0 : 0 < σ A := lt_of_lt_of_le hs0 (hA.mono_fin hs1 k5 k3)
        show A.round ((u A).z.v / A.round (CMath.sqrt (V3.sqNorm (u A)).v)) = _
        rw [k1, k2, Dbl.fin_sqrt hs0.le]
        show A.round (.fin 0 / A.rnd _) = _
        have k3' : A.rnd (Real.sqrt (s A)) = .fin (σ A) := k3
        rw [k3', Dbl.fin_div hσ0.ne', zero_div]
        exact hA.zero
      · rw [if_neg hp]; exact k1
    have hc : ConvV U (fun A => (u A).normalized) ⟨b.x, b.y, 0⟩ :=
      ⟨hb.x.congr (e.mono fun A h => by rw [h.1]), hb.y.congr (e.mono fun A h => by rw [h.2]), hz⟩
    exact ⟨_, h.of_normalized hc, fun h => absurd h0 h⟩
  · exact ⟨_, h.normalized (Modulation.sqNorm_pos h0), fun _ => rfl⟩

end ultra
end DOA
