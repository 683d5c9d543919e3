import Verif.Lemmas.Fp
import Verif.Lemmas.Dbl

/-!
# Convergence of finite precision arithmetic: vectors, matrices, quaternions, poses, ellipsoids
-/

set_option linter.unusedSectionVars false
set_option linter.unusedSimpArgs false

namespace DOA
open Filter Topology

variable {F : Filter Arith} [Fine F]

structure ConvV (F : Filter Arith) (v : ∀ A, V3 (Fp A)) (a : V3 ℝ) : Prop where
  x : Conv F (fun A => (v A).x) a.x
  y : Conv F (fun A => (v A).y) a.y
  z : Conv F (fun A => (v A).z) a.z

structure ConvV2 (F : Filter Arith) (v : ∀ A, V2 (Fp A)) (a : V2 ℝ) : Prop where
  x : Conv F (fun A => (v A).x) a.x
  y : Conv F (fun A => (v A).y) a.y

structure ConvM (F : Filter Arith) (m : ∀ A, M3 (Fp A)) (a : M3 ℝ) : Prop where
  c0 : ConvV F (fun A => (m A).c0) a.c0
  c1 : ConvV F (fun A => (m A).c1) a.c1
  c2 : ConvV F (fun A => (m A).c2) a.c2

structure ConvQ (F : Filter Arith) (q : ∀ A, Quat (Fp A)) (a : Quat ℝ) : Prop where
  w : Conv F (fun A => (q A).w) a.w
  x : Conv F (fun A => (q A).x) a.x
  y : Conv F (fun A => (q A).y) a.y
  z : Conv F (fun A => (q A).z) a.z

structure ConvP (F : Filter Arith) (p : ∀ A, Pose (Fp A)) (a : Pose ℝ) : Prop where
  position : ConvV F (fun A => (p A).position) a.position
  orientation : ConvQ F (fun A => (p A).orientation) a.orientation

/-! ### signs -/

namespace Dbl

/-- not negative, or NaN -/
def NN (d : Dbl) : Prop := ¬ d < 0

theorem NN.add {a b : Dbl} (ha : NN a) (hb : NN b) : NN (a + b) := by
  match a, b, ha, hb with
  | fin r, fin s, ha, hb =>
    intro h
    have h1 : ¬ r < 0 := ha
    have h2 : ¬ s < 0 := hb
    have h3 : r + s < 0 := h
    linarith
  | ninf, _, ha, _ => exact (ha trivial).elim
  | _, ninf, _, hb => exact (hb trivial).elim
  | fin _, pinf, _, _ => exact fun h => h.elim
  | pinf, fin _, _, _ => exact fun h => h.elim
  | pinf, pinf, _, _ => exact fun h => h.elim
  | nan, fin _, _, _ => exact fun h => h.elim
  | nan, pinf, _, _ => exact fun h => h.elim
  | nan, nan, _, _ => exact fun h => h.elim
  | fin _, nan, _, _ => exact fun h => h.elim
  | pinf, nan, _, _ => exact fun h => h.elim

theorem NN.mul_self (a : Dbl) : NN (a * a) := by
  cases a
  · rename_i r
    intro h
    have h3 : r * r < 0 := h
    nlinarith [mul_self_nonneg r]
  all_goals exact fun h => h.elim

theorem NN.round {A : Arith} (hA : A.Sound) {a : Dbl} (ha : NN a) : NN (A.round a) := by
  cases a with
  | fin r =>
    have h1 : 0 ≤ r := not_lt.mp ha
    have h2 := hA.mono 0 r h1
    have h3 : A.rnd 0 = .fin 0 := by simpa using hA.int 0 (by norm_num)
    rw [h3] at h2
    show NN (A.rnd r)
    intro h
    cases hr : A.rnd r with
    | fin s => rw [hr] at h h2; exact absurd h (not_lt.mpr (show (0 : ℝ) ≤ s from h2))
    | pinf => rw [hr] at h; exact h.elim
    | ninf => rw [hr] at h2; exact h2.elim
    | nan => rw [hr] at h; exact h.elim
  | _ => exact ha

end Dbl

theorem V3.sqNorm_nn {A : Arith} (hA : A.Sound) (v : V3 (Fp A)) : ¬ V3.sqNorm v < 0 :=
  Dbl.NN.round hA (.add (.round hA (.add (.round hA (.mul_self _)) (.round hA (.mul_self _)))) (.round hA (.mul_self _)))

theorem V2.sqNorm_nn {A : Arith} (hA : A.Sound) (v : V2 (Fp A)) : ¬ V2.sqNorm v < 0 :=
  Dbl.NN.round hA (.add (.round hA (.mul_self _)) (.round hA (.mul_self _)))

/-! ### vectors -/

namespace ConvV
variable {u v : ∀ A, V3 (Fp A)} {a b : V3 ℝ} {s : Fam} {t : ℝ}

theorem add (h : ConvV F u a) (h' : ConvV F v b) : ConvV F (fun A => u A + v A) (a + b) :=
  ⟨h.x.add h'.x, h.y.add h'.y, h.z.add h'.z⟩
theorem sub (h : ConvV F u a) (h' : ConvV F v b) : ConvV F (fun A => u A - v A) (a - b) :=
  ⟨h.x.sub h'.x, h.y.sub h'.y, h.z.sub h'.z⟩
theorem neg (h : ConvV F u a) : ConvV F (fun A => -u A) (-a) := ⟨h.x.neg, h.y.neg, h.z.neg⟩
theorem smul (hs : Conv F s t) (h : ConvV F u a) : ConvV F (fun A => V3.smul (s A) (u A)) (V3.smul t a) :=
  ⟨hs.mul h.x, hs.mul h.y, hs.mul h.z⟩
theorem sdiv (h : ConvV F u a) (hs : Conv F s t) (ht : t ≠ 0) : ConvV F (fun A => V3.sdiv (u A) (s A)) (V3.sdiv a t) :=
  ⟨h.x.div hs ht, h.y.div hs ht, h.z.div hs ht⟩
theorem const (hs : Conv F s t) : ConvV F (fun A => V3.const (s A)) (V3.const t) := ⟨hs, hs, hs⟩
theorem zero : ConvV F (fun _ => V3.zero) V3.zero := ⟨.zero, .zero, .zero⟩
theorem unitX : ConvV F (fun _ => V3.unitX) V3.unitX := ⟨.one, .zero, .zero⟩
theorem unitY : ConvV F (fun _ => V3.unitY) V3.unitY := ⟨.zero, .one, .zero⟩
theorem unitZ : ConvV F (fun _ => V3.unitZ) V3.unitZ := ⟨.zero, .zero, .one⟩

theorem dot (h : ConvV F u a) (h' : ConvV F v b) : Conv F (fun A => V3.dot (u A) (v A)) (V3.dot a b) :=
  ((h.x.mul h'.x).add (h.y.mul h'.y)).add (h.z.mul h'.z)
theorem cross (h : ConvV F u a) (h' : ConvV F v b) : ConvV F (fun A => V3.cross (u A) (v A)) (V3.cross a b) :=
  ⟨(h.y.mul h'.z).sub (h.z.mul h'.y), (h.z.mul h'.x).sub (h.x.mul h'.z), (h.x.mul h'.y).sub (h.y.mul h'.x)⟩
theorem sqNorm (h : ConvV F u a) : Conv F (fun A => V3.sqNorm (u A)) (V3.sqNorm a) := h.dot h
theorem norm (h : ConvV F u a) : Conv F (fun A => V3.norm (u A)) (V3.norm a) :=
  h.sqNorm.sqrt (sound_fine.mono fun _ hA => V3.sqNorm_nn hA _)

/-- Either branch, if both have the same limit. -/
theorem ite {p : Arith → Prop} [∀ A, Decidable (p A)] (h : ConvV F u a) (h' : ConvV F v a) :
    ConvV F (fun A => if p A then u A else v A) a := by
  have e : ∀ A, (if p A then u A else v A) = ⟨if p A then (u A).x else (v A).x, if p A then (u A).y else (v A).y,
      if p A then (u A).z else (v A).z⟩ := by intro A; split <;> rfl
  simp only [e]
  exact ⟨h.x.ite h'.x, h.y.ite h'.y, h.z.ite h'.z⟩

theorem congr (h : ConvV F u a) (hv : ∀ᶠ A in F, v A = u A) : ConvV F v a :=
  ⟨h.x.congr (hv.mono fun _ h => by rw [h]), h.y.congr (hv.mono fun _ h => by rw [h]),
    h.z.congr (hv.mono fun _ h => by rw [h])⟩

theorem ite_true {p : Arith → Prop} [∀ A, Decidable (p A)] (h : ConvV F u a) (hp : ∀ᶠ A in F, p A) :
    ConvV F (fun A => if p A then u A else v A) a := h.congr (hp.mono fun _ h => if_pos h)
theorem ite_false {p : Arith → Prop} [∀ A, Decidable (p A)] (h : ConvV F v a) (hp : ∀ᶠ A in F, ¬ p A) :
    ConvV F (fun A => if p A then u A else v A) a := h.congr (hp.mono fun _ h => if_neg h)

/-- normalisation of a vector that is not zero -/
theorem normalized (h : ConvV F u a) (ha : 0 < V3.sqNorm a) : ConvV F (fun A => V3.normalized (u A)) (V3.normalized a) := by
  unfold V3.normalized
  rw [if_pos ha]
  refine ite_true ?_ (Conv.zero.lt h.sqNorm ha)
  exact h.sdiv (h.sqNorm.sqrt (sound_fine.mono fun _ hA => V3.sqNorm_nn hA _)) (Real.sqrt_pos.mpr ha).ne'

/-- no NaN -/
theorem noNaN (h : ConvV F u a) : ∀ᶠ A in F, (u A).hasNaN = false := by
  obtain ⟨⟨r1, h1, -⟩, ⟨r2, h2, -⟩, ⟨r3, h3, -⟩⟩ := h
  filter_upwards [h1, h2, h3] with A k1 k2 k3
  show (CMath.isNaN (u A).x.v || CMath.isNaN (u A).y.v || CMath.isNaN (u A).z.v) = false
  rw [k1, k2, k3]; rfl

end ConvV

/-! ### vectors with two components; bounded values -/

/-- finite and bounded -/
def Bdd (F : Filter Arith) (x : Fam) (K : ℝ) : Prop := ∀ᶠ A in F, ∃ r, (x A).v = .fin r ∧ |r| ≤ K

theorem Conv.bdd {x : Fam} {a : ℝ} (h : Conv F x a) : Bdd F x (|a| + 1) := by
  obtain ⟨r, h1, h2⟩ := h
  filter_upwards [h1, (h2.abs).eventually_lt tendsto_const_nhds (show |a| < |a| + 1 by linarith)] with A h3 h4
  exact ⟨r A, h3, h4.le⟩

theorem Bdd.mul_null {x y : Fam} {K : ℝ} (hx : Bdd F x K) (hy : Conv F y 0) : Conv F (fun A => x A * y A) 0 := by
  obtain ⟨s, h1, h2⟩ := hy
  refine .of_round (r := fun A => (x A).v.toReal * s A) ?_ ?_
  · rw [Metric.tendsto_nhds] at *
    intro ε he
    filter_upwards [hx, h2 (ε / (|K| + 1)) (by positivity)] with A ⟨r, h3, h4⟩ h5
    simp only [h3, Dbl.toReal, Real.dist_eq, sub_zero] at h5 ⊢
    rw [abs_mul]
    have h6 : |r| ≤ |K| := le_trans h4 (le_abs_self K)
    have h7 : |r| * |s A| ≤ |K| * |s A| := mul_le_mul_of_nonneg_right h6 (abs_nonneg _)
    rw [lt_div_iff₀ (by positivity)] at h5
    nlinarith [abs_nonneg (s A)]
  · filter_upwards [h1, hx] with A h3 ⟨r, h4, _⟩
    show A.round ((x A).v * (y A).v) = _
    rw [h3, h4]; rfl

namespace ConvV2
variable {u v : ∀ A, V2 (Fp A)} {a b : V2 ℝ} {s : Fam} {t : ℝ}

theorem zero : ConvV2 F (fun _ => V2.zero) V2.zero := ⟨.zero, .zero⟩
theorem add (h : ConvV2 F u a) (h' : ConvV2 F v b) : ConvV2 F (fun A => (u A).add (v A)) (a.add b) :=
  ⟨h.x.add h'.x, h.y.add h'.y⟩
theorem scale (h : ConvV2 F u a) (hs : Conv F s t) : ConvV2 F (fun A => (u A).scale (s A)) (a.scale t) :=
  ⟨h.x.mul hs, h.y.mul hs⟩
theorem sqNorm (h : ConvV2 F u a) : Conv F (fun A => (u A).sqNorm) a.sqNorm := (h.x.mul h.x).add (h.y.mul h.y)
theorem norm (h : ConvV2 F u a) : Conv F (fun A => (u A).norm) a.norm :=
  h.sqNorm.sqrt (sound_fine.mono fun _ hA => V2.sqNorm_nn hA _)

theorem congr (h : ConvV2 F u a) (hv : ∀ᶠ A in F, v A = u A) : ConvV2 F v a :=
  ⟨h.x.congr (hv.mono fun _ h => by rw [h]), h.y.congr (hv.mono fun _ h => by rw [h])⟩

theorem normalized (h : ConvV2 F u a) (ha : 0 < a.sqNorm) : ConvV2 F (fun A => (u A).normalized) a.normalized := by
  have hs := h.sqNorm.sqrt (sound_fine.mono fun _ hA => V2.sqNorm_nn hA _)
  have hne : Real.sqrt a.sqNorm ≠ 0 := (Real.sqrt_pos.mpr ha).ne'
  have h1 : ConvV2 F (fun A => ⟨(u A).x / CMath.sqrt (u A).sqNorm, (u A).y / CMath.sqrt (u A).sqNorm⟩)
      ⟨a.x / Real.sqrt a.sqNorm, a.y / Real.sqrt a.sqNorm⟩ := ⟨h.x.div hs hne, h.y.div hs hne⟩
  unfold V2.normalized
  rw [if_pos ha]
  exact h1.congr ((Conv.zero.lt h.sqNorm ha).mono fun _ h => if_pos h)

end ConvV2

theorem Arith.Sound.zero {A : Arith} (hA : A.Sound) : A.rnd 0 = .fin 0 := by simpa using hA.int 0 (by norm_num)

theorem Arith.Sound.mono_fin {A : Arith} (hA : A.Sound) {x y r s : ℝ} (h : x ≤ y) (hx : A.rnd x = .fin r)
    (hy : A.rnd y = .fin s) : r ≤ s := by
  have := hA.mono x y h
  rw [hx, hy] at this
  exact this

theorem Arith.Sound.nonneg {A : Arith} (hA : A.Sound) {x r : ℝ} (h : 0 ≤ x) (hx : A.rnd x = .fin r) : 0 ≤ r :=
  hA.mono_fin h hA.zero hx

/-- Rounding between two doubles. -/
theorem Arith.Sound.between {A : Arith} (hA : A.Sound) {a b x : ℝ} (ha : A.rnd a = .fin a) (hb : A.rnd b = .fin b)
    (h1 : a ≤ x) (h2 : x ≤ b) : ∃ r, A.rnd x = .fin r ∧ a ≤ r ∧ r ≤ b := by
  have k1 := hA.mono a x h1
  have k2 := hA.mono x b h2
  rw [ha] at k1
  rw [hb] at k2
  cases hx : A.rnd x with
  | fin r => rw [hx] at k1 k2; exact ⟨r, rfl, k1, k2⟩
  | pinf => rw [hx] at k2; exact k2.elim
  | ninf => rw [hx] at k1; exact k1.elim
  | nan => rw [hx] at k1; exact k1.elim

/-- Computed normalisation does not blow up, however small the vector is: numbers. -/
theorem normalized_bound {A : Arith} (hA : A.Sound) {r s p q S σ : ℝ} (hp : A.rnd (r * r) = .fin p)
    (hq : A.rnd (s * s) = .fin q) (hS : A.rnd (p + q) = .fin S) (h0 : 0 < S) (h1 : S ≤ 1) (hσ : A.rnd (Real.sqrt S) = .fin σ) :
    0 < σ ∧ (∃ t, A.rnd (r / σ) = .fin t ∧ |t| ≤ 4) ∧ ∃ t, A.rnd (s / σ) = .fin t ∧ |t| ≤ 4 := by
  have hSS : A.rnd S = .fin S := hA.idem _ _ hS
  have hs1 : S ≤ Real.sqrt S := Real.le_sqrt_of_sq_le (by nlinarith)
  have hσ0 : 0 < σ := lt_of_lt_of_le h0 (hA.mono_fin hs1 hSS hσ)
  have hσ2 : Real.sqrt S / 2 ≤ σ := by
    rcases hA.half (Real.sqrt S) (Real.sqrt_pos.mpr h0) with h | h
    · rw [hσ] at h; cases h; exact absurd hσ0 (lt_irrefl _)
    · rw [hσ] at h; exact h
  have hp0 : 0 ≤ p := hA.nonneg (mul_self_nonneg r) hp
  have hq0 : 0 ≤ q := hA.nonneg (mul_self_nonneg s) hq
  have hpq : 0 < p + q := by
    rcases (add_nonneg hp0 hq0).lt_or_eq with h | h
    · exact h
    · rw [← h, hA.zero] at hS; cases hS; exact absurd h0 (lt_irrefl _)
  have hS2 : (p + q) / 2 ≤ S := by
    rcases hA.half (p + q) hpq with h | h
    · rw [hS] at h; cases h; exact absurd h0 (lt_irrefl _)
    · rw [hS] at h; exact h
  have key : ∀ {a b : ℝ} {α β : ℝ}, A.rnd (a * a) = .fin α → A.rnd (b * b) = .fin β → 0 ≤ α → 0 ≤ β → 0 < α + β →
      (α + β) / 2 ≤ S → b * b ≤ a * a → a * a ≤ 4 * S := by
    intro a b α β ha hb hα hβ hab hle hba
    have h2 : β ≤ α := hA.mono_fin hba hb ha
    have h3 : 0 < α := by linarith
    have h4 : a * a / 2 ≤ α := by
      rcases (mul_self_nonneg a).lt_or_eq with h | h
      · rcases hA.half (a * a) h with h | h
        · rw [ha] at h; cases h; exact absurd h3 (lt_irrefl _)
        · rw [ha] at h; exact h
      · rw [← h]; linarith
    linarith
  have hmax : r * r ≤ 4 * S ∧ s * s ≤ 4 * S := by
    rcases le_total (s * s) (r * r) with h | h
    · have := key hp hq hp0 hq0 hpq hS2 h
      exact ⟨this, le_trans h this⟩
    · have := key hq hp hq0 hp0 (by linarith) (by linarith) h
      exact ⟨le_trans h this, this⟩
  have fin4 : ∀ {a : ℝ}, a * a ≤ 4 * S → ∃ t, A.rnd (a / σ) = .fin t ∧ |t| ≤ 4 := by
    intro a ha
    have h2 : |a| ≤ 4 * σ := by
      apply abs_le_of_sq_le_sq _ (by linarith)
      have h3 := Real.sq_sqrt h0.le
      nlinarith [Real.sqrt_nonneg S]
    have h3 : |a / σ| ≤ 4 := by rw [abs_div, abs_of_pos hσ0, div_le_iff₀ hσ0]; exact h2
    rw [abs_le] at h3
    obtain ⟨t, ht, h4, h5⟩ := hA.between (a := -4) (b := 4) (by simpa using hA.int (-4) (by norm_num))
      (by simpa using hA.int 4 (by norm_num)) h3.1 h3.2
    exact ⟨t, ht, abs_le.mpr ⟨h4, h5⟩⟩
  exact ⟨hσ0, fin4 hmax.1, fin4 hmax.2⟩

/-- The normalised vector of a vector tending to zero stays bounded. -/
theorem ConvV2.normalized_bdd {u : ∀ A, V2 (Fp A)} (h : ConvV2 F u V2.zero) :
    Bdd F (fun A => (u A).normalized.x) 4 ∧ Bdd F (fun A => (u A).normalized.y) 4 := by
  obtain ⟨⟨r, r1, r2⟩, ⟨s, s1, s2⟩⟩ := h
  have hp : Conv F (fun A => ⟨A.rnd (r A * r A)⟩) (0 * 0) := conv_rnd (r2.mul r2)
  have hq : Conv F (fun A => ⟨A.rnd (s A * s A)⟩) (0 * 0) := conv_rnd (s2.mul s2)
  obtain ⟨p, p1, p2⟩ := hp
  obtain ⟨q, q1, q2⟩ := hq
  have hS : Conv F (fun A => ⟨A.rnd (p A + q A)⟩) (0 * 0 + 0 * 0) := conv_rnd (p2.add q2)
  obtain ⟨S, S1, S2⟩ := hS
  have hσ : Conv F (fun A => ⟨A.rnd (Real.sqrt (S A))⟩) (Real.sqrt (0 * 0 + 0 * 0)) :=
    conv_rnd ((Real.continuous_sqrt.tendsto _).comp S2)
  obtain ⟨σ, σ1, -⟩ := hσ
  have hS1 : ∀ᶠ A in F, S A < 1 := S2.eventually_lt_const (by norm_num)
  have hr4 : ∀ᶠ A in F, |r A| < 4 := r2.abs.eventually_lt_const (by norm_num [V2.zero])
  have hs4 : ∀ᶠ A in F, |s A| < 4 := s2.abs.eventually_lt_const (by norm_num [V2.zero])
  have key : ∀ᶠ A in F, (∃ t, (u A).normalized.x.v = .fin t ∧ |t| ≤ 4) ∧ ∃ t, (u A).normalized.y.v = .fin t ∧ |t| ≤ 4 := by
    filter_upwards [sound_fine, r1, s1, p1, q1, S1, σ1, hS1, hr4, hs4] with A hA r1 s1 p1 q1 S1 σ1 h1 h2 h3
    have hsq : (V2.sqNorm (u A)).v = .fin (S A) := by
      show A.round (A.round ((u A).x.v * (u A).x.v) + A.round ((u A).y.v * (u A).y.v)) = _
      rw [r1, s1]
      show A.round (A.rnd _ + A.rnd _) = _
      rw [p1, q1]
      exact S1
    by_cases h0 : 0 < S A
    · obtain ⟨k0, ⟨t, k1, k2⟩, ⟨t', k3, k4⟩⟩ := normalized_bound hA p1 q1 S1 h0 h1.le σ1
      have hlt : (0 : Fp A) < V2.sqNorm (u A) := by
        show Dbl.fin 0 < (V2.sqNorm (u A)).v
        rw [hsq]; exact h0
      have hsr : (CMath.sqrt (V2.sqNorm (u A))).v = .fin (σ A) := by
        show A.round (CMath.sqrt (V2.sqNorm (u A)).v) = _
        rw [hsq, Dbl.fin_sqrt h0.le]; exact σ1
      unfold V2.normalized
      rw [if_pos hlt]
      constructor
      · refine ⟨t, ?_, k2⟩
        show A.round ((u A).x.v / (CMath.sqrt (V2.sqNorm (u A))).v) = _
        rw [hsr, r1, Dbl.fin_div k0.ne']; exact k1
      · refine ⟨t', ?_, k4⟩
        show A.round ((u A).y.v / (CMath.sqrt (V2.sqNorm (u A))).v) = _
        rw [hsr, s1, Dbl.fin_div k0.ne']; exact k3
    · have hlt : ¬ (0 : Fp A) < V2.sqNorm (u A) := by
        show ¬ Dbl.fin 0 < (V2.sqNorm (u A)).v
        rw [hsq]; exact h0
      unfold V2.normalized
      rw [if_neg hlt]
      exact ⟨⟨_, r1, h2.le⟩, ⟨_, s1, h3.le⟩⟩
  exact ⟨key.mono fun _ h => h.1, key.mono fun _ h => h.2⟩

/-! ### matrices -/

namespace ConvM
variable {m n : ∀ A, M3 (Fp A)} {a b : M3 ℝ} {v : ∀ A, V3 (Fp A)} {w : V3 ℝ}

theorem mulVec (h : ConvM F m a) (hv : ConvV F v w) : ConvV F (fun A => (m A).mulVec (v A)) (a.mulVec w) :=
  ⟨((h.c0.x.mul hv.x).add (h.c1.x.mul hv.y)).add (h.c2.x.mul hv.z),
   ((h.c0.y.mul hv.x).add (h.c1.y.mul hv.y)).add (h.c2.y.mul hv.z),
   ((h.c0.z.mul hv.x).add (h.c1.z.mul hv.y)).add (h.c2.z.mul hv.z)⟩
theorem mul (h : ConvM F m a) (h' : ConvM F n b) : ConvM F (fun A => (m A).mul (n A)) (a.mul b) :=
  ⟨h.mulVec h'.c0, h.mulVec h'.c1, h.mulVec h'.c2⟩
theorem transpose (h : ConvM F m a) : ConvM F (fun A => (m A).transpose) a.transpose :=
  ⟨⟨h.c0.x, h.c1.x, h.c2.x⟩, ⟨h.c0.y, h.c1.y, h.c2.y⟩, ⟨h.c0.z, h.c1.z, h.c2.z⟩⟩
theorem mulDiag (h : ConvM F m a) (hv : ConvV F v w) : ConvM F (fun A => (m A).mulDiag (v A)) (a.mulDiag w) :=
  ⟨⟨h.c0.x.mul hv.x, h.c0.y.mul hv.x, h.c0.z.mul hv.x⟩, ⟨h.c1.x.mul hv.y, h.c1.y.mul hv.y, h.c1.z.mul hv.y⟩,
    ⟨h.c2.x.mul hv.z, h.c2.y.mul hv.z, h.c2.z.mul hv.z⟩⟩
theorem minor {x1 x2 x3 x4 : Fam} {a1 a2 a3 a4 : ℝ} (h1 : Conv F x1 a1) (h2 : Conv F x2 a2) (h3 : Conv F x3 a3)
    (h4 : Conv F x4 a4) : Conv F (fun A => x1 A * x2 A - x3 A * x4 A) (a1 * a2 - a3 * a4) := (h1.mul h2).sub (h3.mul h4)
theorem det (h : ConvM F m a) : Conv F (fun A => (m A).det) a.det :=
  (((minor h.c1.y h.c2.z h.c2.y h.c1.z).mul h.c0.x).add ((minor h.c2.x h.c1.z h.c1.x h.c2.z).mul h.c0.y)).add
    ((minor h.c1.x h.c2.y h.c2.x h.c1.y).mul h.c0.z)
theorem inverse (h : ConvM F m a) (hd : a.det ≠ 0) : ConvM F (fun A => (m A).inverse) a.inverse := by
  have hi : Conv F (fun A => 1 / (m A).det) (1 / a.det) := Conv.one.div h.det hd
  exact ⟨⟨(minor h.c1.y h.c2.z h.c2.y h.c1.z).mul hi, (minor h.c2.y h.c0.z h.c0.y h.c2.z).mul hi,
      (minor h.c0.y h.c1.z h.c1.y h.c0.z).mul hi⟩,
    ⟨(minor h.c2.x h.c1.z h.c1.x h.c2.z).mul hi, (minor h.c0.x h.c2.z h.c2.x h.c0.z).mul hi,
      (minor h.c1.x h.c0.z h.c0.x h.c1.z).mul hi⟩,
    ⟨(minor h.c1.x h.c2.y h.c2.x h.c1.y).mul hi, (minor h.c2.x h.c0.y h.c0.x h.c2.y).mul hi,
      (minor h.c0.x h.c1.y h.c1.x h.c0.y).mul hi⟩⟩

end ConvM

/-! ### quaternions, poses -/

namespace ConvQ
variable {q : ∀ A, Quat (Fp A)} {a : Quat ℝ} {v : ∀ A, V3 (Fp A)} {w : V3 ℝ}

theorem vec (h : ConvQ F q a) : ConvV F (fun A => (q A).vec) a.vec := ⟨h.x, h.y, h.z⟩
theorem conjugate (h : ConvQ F q a) : ConvQ F (fun A => (q A).conjugate) a.conjugate := ⟨h.w, h.x.neg, h.y.neg, h.z.neg⟩
theorem rotate (h : ConvQ F q a) (hv : ConvV F v w) : ConvV F (fun A => (q A).rotate (v A)) (a.rotate w) := by
  have h1 := h.vec.cross hv
  have h2 := h1.add h1
  exact (hv.add (.smul h.w h2)).add (h.vec.cross h2)
theorem sqNorm (h : ConvQ F q a) : Conv F (fun A => (q A).sqNorm) a.sqNorm :=
  (((h.x.mul h.x).add (h.y.mul h.y)).add (h.z.mul h.z)).add (h.w.mul h.w)
theorem toM3 (h : ConvQ F q a) : ConvM F (fun A => (q A).toM3) a.toM3 := by
  have tx := (Conv.lit 2 1).mul h.x
  have ty := (Conv.lit 2 1).mul h.y
  have tz := (Conv.lit 2 1).mul h.z
  exact ⟨⟨Conv.one.sub ((ty.mul h.y).add (tz.mul h.z)), (ty.mul h.x).add (tz.mul h.w), (tz.mul h.x).sub (ty.mul h.w)⟩,
    ⟨(ty.mul h.x).sub (tz.mul h.w), Conv.one.sub ((tx.mul h.x).add (tz.mul h.z)), (tz.mul h.y).add (tx.mul h.w)⟩,
    ⟨(tz.mul h.x).add (ty.mul h.w), (tz.mul h.y).sub (tx.mul h.w), Conv.one.sub ((tx.mul h.x).add (ty.mul h.y))⟩⟩
theorem inverse (h : ConvQ F q a) (ha : 0 < a.sqNorm) : ConvQ F (fun A => (q A).inverse) a.inverse := by
  have hs := h.sqNorm
  have h1 : ConvQ F (fun A => ⟨(q A).w / (q A).sqNorm, -(q A).x / (q A).sqNorm, -(q A).y / (q A).sqNorm,
      -(q A).z / (q A).sqNorm⟩) ⟨a.w / a.sqNorm, -a.x / a.sqNorm, -a.y / a.sqNorm, -a.z / a.sqNorm⟩ :=
    ⟨h.w.div hs ha.ne', h.x.neg.div hs ha.ne', h.y.neg.div hs ha.ne', h.z.neg.div hs ha.ne'⟩
  have hp := Conv.zero.lt hs ha
  unfold Quat.inverse
  rw [if_pos ha]
  exact ⟨h1.w.congr (hp.mono fun _ h => by rw [if_pos h]), h1.x.congr (hp.mono fun _ h => by rw [if_pos h]),
    h1.y.congr (hp.mono fun _ h => by rw [if_pos h]), h1.z.congr (hp.mono fun _ h => by rw [if_pos h])⟩

end ConvQ

namespace ConvP
variable {p : ∀ A, Pose (Fp A)} {a : Pose ℝ} {v : ∀ A, V3 (Fp A)} {w : V3 ℝ}

theorem inverse (h : ConvP F p a) : ConvP F (fun A => (p A).inverse) a.inverse :=
  ⟨h.orientation.conjugate.rotate h.position.neg, h.orientation.conjugate⟩
theorem apply (h : ConvP F p a) (hv : ConvV F v w) : ConvV F (fun A => (p A).apply (v A)) (a.apply w) :=
  (h.orientation.rotate hv).add h.position

end ConvP
end DOA
