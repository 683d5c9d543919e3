import Mathlib.Order.Filter.Basic
import Mathlib.Topology.Order.Basic
import Mathlib.Analysis.SpecialFunctions.Pow.Continuity
import Verif.Model.Fp
import Verif.Model.Modulation

/-!
# Convergence of finite precision arithmetic

`Conv x a`: the value `x A` computed with the arithmetic `A` is finite for every sufficiently precise `A` and tends to `a` as
the precision increases.
-/

set_option linter.unusedSectionVars false
set_option linter.unusedSimpArgs false

namespace DOA
open Filter Topology

/-- Sufficiently precise arithmetics. -/
def fine : Filter Arith := ⨅ δ : {δ : ℝ // 0 < δ}, 𝓟 {A | Arith.Within δ.1 A}

theorem Arith.Near.mono {δ δ' x : ℝ} {d : Dbl} (h : δ ≤ δ') (hd : Arith.Near δ x d) : Arith.Near δ' x d := by
  obtain ⟨r, h1, h2⟩ := hd
  exact ⟨r, h1, le_trans h2 (mul_le_mul_of_nonneg_right h (by positivity))⟩

theorem Arith.Within.weaken {δ δ' : ℝ} (h0 : 0 < δ) (h : δ ≤ δ') {A : Arith} (hA : A.Within δ) : A.Within δ' := by
  have h1 : 1 / δ' ≤ 1 / δ := one_div_le_one_div_of_le h0 h
  exact ⟨hA.toSound, fun x hx => (hA.near x (le_trans hx h1)).mono h, fun x hx => (hA.near_sin x (le_trans hx h1)).mono h,
    fun x hx => (hA.near_cos x (le_trans hx h1)).mono h, fun x hx => (hA.near_acos x hx).mono h,
    fun x hx hy => (hA.near_exp x (le_trans hx h1) (le_trans hy h1)).mono h,
    fun x y hx hy => (hA.near_atan2 x y (le_trans hx h1) (le_trans hy h1)).mono h,
    fun x y h0 hx hy hz => (hA.near_pow x y h0 (le_trans hx h1) (le_trans hy h1) (le_trans hz h1)).mono h⟩

theorem eventually_fine {p : Arith → Prop} : (∀ᶠ A in fine, p A) ↔ ∃ δ > 0, ∀ A : Arith, A.Within δ → p A := by
  have hd : Directed (· ≥ ·) fun δ : {δ : ℝ // 0 < δ} => 𝓟 {A | Arith.Within δ.1 A} := by
    intro a b
    refine ⟨⟨min a.1 b.1, lt_min a.2 b.2⟩, ?_, ?_⟩
    · exact principal_mono.mpr fun A hA => hA.weaken (lt_min a.2 b.2) (min_le_left _ _)
    · exact principal_mono.mpr fun A hA => hA.weaken (lt_min a.2 b.2) (min_le_right _ _)
  have : Nonempty {δ : ℝ // 0 < δ} := ⟨⟨1, one_pos⟩⟩
  rw [fine, Filter.Eventually, mem_iInf_of_directed hd]
  constructor
  · rintro ⟨⟨δ, h0⟩, h⟩; exact ⟨δ, h0, fun A hA => h hA⟩
  · rintro ⟨δ, h0, h⟩; exact ⟨⟨δ, h0⟩, fun A hA => h A hA⟩

/-- A filter along which the precision grows. -/
class Fine (F : Filter Arith) : Prop where
  le : F ≤ fine

instance : Fine fine := ⟨le_refl _⟩

variable {F : Filter Arith} [Fine F]

theorem within_fine {δ : ℝ} (h : 0 < δ) : ∀ᶠ A in F, A.Within δ :=
  Fine.le (eventually_fine.mpr ⟨δ, h, fun _ h => h⟩)

theorem sound_fine : ∀ᶠ A in F, A.Sound := (within_fine one_pos).mono fun _ h => h.toSound

/-- the value of a finite double -/
def Dbl.toReal : Dbl → ℝ
  | .fin r => r
  | _ => 0

/-- a value for every arithmetic -/
abbrev Fam := ∀ A : Arith, Fp A

/-- The computed values tend to `a`. -/
def Conv (F : Filter Arith) (x : Fam) (a : ℝ) : Prop := ∃ r : Arith → ℝ, (∀ᶠ A in F, (x A).v = .fin (r A)) ∧ Tendsto r F (𝓝 a)

theorem conv_iff {x : Fam} {a : ℝ} : Conv fine x a ↔
    ∀ ε > 0, ∃ δ > 0, ∀ A : Arith, A.Within δ → ∃ r, (x A).v = .fin r ∧ |r - a| < ε := by
  constructor
  · rintro ⟨r, h1, h2⟩ ε he
    have h3 := (Metric.tendsto_nhds.mp h2) ε he
    obtain ⟨δ, h0, h⟩ := eventually_fine.mp (h1.and h3)
    exact ⟨δ, h0, fun A hA => ⟨r A, (h A hA).1, (h A hA).2⟩⟩
  · intro h
    refine ⟨fun A => (x A).v.toReal, ?_, ?_⟩
    · obtain ⟨δ, h0, h1⟩ := h 1 one_pos
      refine eventually_fine.mpr ⟨δ, h0, fun A hA => ?_⟩
      obtain ⟨r, h2, -⟩ := h1 A hA
      simp only [h2, Dbl.toReal]
    · refine Metric.tendsto_nhds.mpr fun ε he => ?_
      obtain ⟨δ, h0, h1⟩ := h ε he
      refine eventually_fine.mpr ⟨δ, h0, fun A hA => ?_⟩
      obtain ⟨r, h2, h3⟩ := h1 A hA
      simp only [h2, Dbl.toReal]; exact h3

theorem conv_of_eventually {x : Fam} {a : ℝ} (h : ∀ ε > 0, ∀ᶠ A in F, ∃ r, (x A).v = .fin r ∧ |r - a| < ε) : Conv F x a := by
  refine ⟨fun A => (x A).v.toReal, ?_, ?_⟩
  · filter_upwards [h 1 one_pos] with A ⟨r, h2, _⟩
    simp only [h2, Dbl.toReal]
  · refine Metric.tendsto_nhds.mpr fun ε he => ?_
    filter_upwards [h ε he] with A ⟨r, h2, h3⟩
    simp only [h2, Dbl.toReal]; exact h3

/-- Approximations whose errors are within the precision. -/
theorem conv_near {d : ∀ _ : Arith, Dbl} {r : Arith → ℝ} {a : ℝ} {P : Arith → Prop} (h : Tendsto r F (𝓝 a))
    (hP : ∀ᶠ A in F, P A)
    (hd : ∀ M > 0, ∃ δ0 > 0, ∀ δ > 0, δ ≤ δ0 → ∀ A : Arith, A.Within δ → P A → |r A| ≤ M → Arith.Near δ (r A) (d A)) :
    Conv F (fun A => ⟨d A⟩) a := by
  refine conv_of_eventually fun ε he => ?_
  have hM : (0 : ℝ) < |a| + 1 := by positivity
  obtain ⟨δ0, hδ0, hd⟩ := hd _ hM
  have h1 : ∀ᶠ A in F, |r A - a| < min 1 (ε / 2) := (Metric.tendsto_nhds.mp h) _ (lt_min one_pos (by positivity))
  have hpos : 0 < min δ0 (ε / 2 / (1 + (|a| + 1))) := by positivity
  filter_upwards [h1, hP, within_fine hpos] with A hr hPA hA
  have hrM : |r A| ≤ |a| + 1 := by
    have := abs_sub_abs_le_abs_sub (r A) a
    have := min_le_left 1 (ε / 2)
    linarith
  obtain ⟨s, hs, hn⟩ := hd _ hpos (min_le_left _ _) A hA hPA hrM
  refine ⟨s, hs, ?_⟩
  have h2 : min δ0 (ε / 2 / (1 + (|a| + 1))) * (1 + |r A|) ≤ ε / 2 := by
    calc _ ≤ (ε / 2 / (1 + (|a| + 1))) * (1 + (|a| + 1)) :=
          mul_le_mul (min_le_right _ _) (by linarith) (by positivity) (by positivity)
      _ = ε / 2 := by field_simp
  have h3 : s - a = (s - r A) + (r A - a) := by ring
  rw [h3]
  have h4 := abs_add_le (s - r A) (r A - a)
  have h5 := min_le_right 1 (ε / 2)
  linarith

theorem conv_rnd {r : Arith → ℝ} {a : ℝ} (h : Tendsto r F (𝓝 a)) : Conv F (fun A => ⟨A.rnd (r A)⟩) a := by
  refine conv_near (P := fun _ => True) h (Eventually.of_forall fun _ => trivial) fun M hM =>
    ⟨1 / M, by positivity, fun δ h0 h1 A hA _ hr => hA.near _ (le_trans hr ?_)⟩
  rw [le_div_iff₀ h0]
  rw [le_div_iff₀ hM] at h1
  linarith [mul_comm δ M]

/-- Only the values matter, and only eventually. -/
theorem Conv.congr {x y : Fam} {a : ℝ} (h : Conv F x a) (hxy : ∀ᶠ A in F, (y A).v = (x A).v) : Conv F y a := by
  obtain ⟨r, h1, h2⟩ := h
  exact ⟨r, by filter_upwards [h1, hxy] with A h3 h4; rw [h4, h3], h2⟩

theorem Conv.of_round {x : Fam} {r : Arith → ℝ} {a : ℝ} (h : Tendsto r F (𝓝 a))
    (hx : ∀ᶠ A in F, (x A).v = A.rnd (r A)) : Conv F x a := (conv_rnd h).congr hx

namespace Conv
variable {x y : Fam} {a b : ℝ}

theorem zero : Conv F (fun _ => 0) 0 := ⟨fun _ => 0, Eventually.of_forall fun _ => rfl, tendsto_const_nhds⟩
theorem one : Conv F (fun _ => 1) 1 := ⟨fun _ => 1, Eventually.of_forall fun _ => rfl, tendsto_const_nhds⟩
theorem rnd (c : ℝ) : Conv F (fun A => ⟨A.rnd c⟩) c := conv_rnd tendsto_const_nhds
theorem lit (m : Int) (n : Nat) : Conv F (fun _ => DOA.lit m n) (DOA.lit m n) := rnd _
theorem pi : Conv F (fun _ => CMath.pi) Real.pi := rnd _

theorem neg (h : Conv F x a) : Conv F (fun A => -x A) (-a) := by
  obtain ⟨r, h1, h2⟩ := h
  exact ⟨fun A => -r A, by filter_upwards [h1] with A h3; show -(x A).v = _; rw [h3]; rfl, h2.neg⟩

theorem add (h : Conv F x a) (h' : Conv F y b) : Conv F (fun A => x A + y A) (a + b) := by
  obtain ⟨r, h1, h2⟩ := h
  obtain ⟨s, h3, h4⟩ := h'
  refine .of_round (h2.add h4) ?_
  filter_upwards [h1, h3] with A h5 h6
  show A.round ((x A).v + (y A).v) = _
  rw [h5, h6]; rfl

theorem sub (h : Conv F x a) (h' : Conv F y b) : Conv F (fun A => x A - y A) (a - b) := by
  obtain ⟨r, h1, h2⟩ := h
  obtain ⟨s, h3, h4⟩ := h'
  refine .of_round (h2.sub h4) ?_
  filter_upwards [h1, h3] with A h5 h6
  show A.round ((x A).v - (y A).v) = _
  rw [h5, h6, Dbl.fin_sub]; rfl

theorem mul (h : Conv F x a) (h' : Conv F y b) : Conv F (fun A => x A * y A) (a * b) := by
  obtain ⟨r, h1, h2⟩ := h
  obtain ⟨s, h3, h4⟩ := h'
  refine .of_round (h2.mul h4) ?_
  filter_upwards [h1, h3] with A h5 h6
  show A.round ((x A).v * (y A).v) = _
  rw [h5, h6]; rfl

theorem div (h : Conv F x a) (h' : Conv F y b) (hb : b ≠ 0) : Conv F (fun A => x A / y A) (a / b) := by
  obtain ⟨r, h1, h2⟩ := h
  obtain ⟨s, h3, h4⟩ := h'
  refine .of_round (h2.div h4 hb) ?_
  filter_upwards [h1, h3, h4.eventually_ne hb] with A h5 h6 h7
  show A.round ((x A).v / (y A).v) = _
  rw [h5, h6, Dbl.fin_div h7]; rfl

/-- Comparisons are decided correctly unless the exact values are equal. -/
theorem lt (h : Conv F x a) (h' : Conv F y b) (hab : a < b) : ∀ᶠ A in F, x A < y A := by
  obtain ⟨r, h1, h2⟩ := h
  obtain ⟨s, h3, h4⟩ := h'
  filter_upwards [h1, h3, h2.eventually_lt h4 hab] with A h5 h6 h7
  show (x A).v < (y A).v
  rw [h5, h6]; exact h7

theorem le (h : Conv F x a) (h' : Conv F y b) (hab : a < b) : ∀ᶠ A in F, x A ≤ y A := by
  obtain ⟨r, h1, h2⟩ := h
  obtain ⟨s, h3, h4⟩ := h'
  filter_upwards [h1, h3, h2.eventually_lt h4 hab] with A h5 h6 h7
  show (x A).v ≤ (y A).v
  rw [h5, h6]; exact h7.le

theorem not_lt (h : Conv F x a) (h' : Conv F y b) (hab : b < a) : ∀ᶠ A in F, ¬ x A < y A := by
  obtain ⟨r, h1, h2⟩ := h
  obtain ⟨s, h3, h4⟩ := h'
  filter_upwards [h1, h3, h4.eventually_lt h2 hab] with A h5 h6 h7
  show ¬ (x A).v < (y A).v
  rw [h5, h6]; exact h7.not_gt

theorem not_le (h : Conv F x a) (h' : Conv F y b) (hab : b < a) : ∀ᶠ A in F, ¬ x A ≤ y A := by
  obtain ⟨r, h1, h2⟩ := h
  obtain ⟨s, h3, h4⟩ := h'
  filter_upwards [h1, h3, h4.eventually_lt h2 hab] with A h5 h6 h7
  show ¬ (x A).v ≤ (y A).v
  rw [h5, h6]; exact h7.not_ge

/-- Either branch, if both have the same limit. -/
theorem ite {p : Arith → Prop} [∀ A, Decidable (p A)] (h : Conv F x a) (h' : Conv F y a) :
    Conv F (fun A => if p A then x A else y A) a := by
  obtain ⟨r, h1, h2⟩ := h
  obtain ⟨s, h3, h4⟩ := h'
  refine ⟨fun A => if p A then r A else s A, ?_, ?_⟩
  · filter_upwards [h1, h3] with A h5 h6
    split <;> assumption
  · rw [Metric.tendsto_nhds] at *
    intro ε he
    filter_upwards [h2 ε he, h4 ε he] with A h5 h6
    split <;> assumption

theorem ite_true {p : Arith → Prop} [∀ A, Decidable (p A)] (h : Conv F x a) (hp : ∀ᶠ A in F, p A) :
    Conv F (fun A => if p A then x A else y A) a :=
  h.congr (by filter_upwards [hp] with A h1; rw [if_pos h1])

theorem ite_false {p : Arith → Prop} [∀ A, Decidable (p A)] (h : Conv F y a) (hp : ∀ᶠ A in F, ¬ p A) :
    Conv F (fun A => if p A then x A else y A) a :=
  h.congr (by filter_upwards [hp] with A h1; rw [if_neg h1])

/-- The root of a value that is never negative. -/
theorem sqrt (h : Conv F x a) (hx : ∀ᶠ A in F, ¬ x A < 0) : Conv F (fun A => CMath.sqrt (x A)) (Real.sqrt a) := by
  obtain ⟨r, h1, h2⟩ := h
  refine .of_round (Real.continuous_sqrt.continuousAt.tendsto.comp h2) ?_
  filter_upwards [h1, hx] with A h3 h4
  show A.round (CMath.sqrt (x A).v) = _
  have h5 : ¬ r A < 0 := by
    intro h6; apply h4
    show (x A).v < .fin 0
    rw [h3]; exact h6
  rw [h3, Dbl.fin_sqrt (_root_.not_lt.mp h5)]; rfl

theorem exp (h : Conv F x a) : Conv F (fun A => CMath.exp (x A)) (Real.exp a) := by
  obtain ⟨r, h1, h2⟩ := h
  have h3 : Conv F (fun A => ⟨A.exp (r A)⟩) (Real.exp a) := by
    have hb : ∀ᶠ A in F, |r A| < |a| + 1 := (h2.abs).eventually_lt tendsto_const_nhds (by linarith)
    refine conv_near (Real.continuous_exp.continuousAt.tendsto.comp h2) hb fun M hM => ⟨min (1 / M) (1 / (|a| + 1)),
      by positivity, fun δ h0 h1 A hA k3 hr => ?_⟩
    have k1 : δ ≤ 1 / M := le_trans h1 (min_le_left _ _)
    have k2 : δ ≤ 1 / (|a| + 1) := le_trans h1 (min_le_right _ _)
    have k4 : |a| + 1 ≤ 1 / δ := by
      have := one_div_le_one_div_of_le h0 k2; rwa [one_div_one_div] at this
    have k5 : M ≤ 1 / δ := by
      have := one_div_le_one_div_of_le h0 k1; rwa [one_div_one_div] at this
    refine hA.near_exp _ (by linarith) (le_trans (le_trans (le_abs_self _) hr) k5)
  refine h3.congr ?_
  filter_upwards [h1] with A h4
  show (Fp.libm1 CMath.exp A.exp (x A)).v = _
  simp only [Fp.libm1, h4, Dbl.fin_exp]

end Conv

theorem recip_ge {δ M : ℝ} (h0 : 0 < δ) (h : δ ≤ 1 / M) : M ≤ 1 / δ := by
  have := one_div_le_one_div_of_le h0 h; rwa [one_div_one_div] at this

/-- Functions of libm with one argument. -/
theorem conv_libm {f : ℝ → ℝ} (hf : Continuous f) {g : Arith → ℝ → Dbl}
    (hg : ∀ δ > 0, ∀ A : Arith, A.Within δ → ∀ x, |x| ≤ 1 / δ → Arith.Near δ (f x) (g A x)) {r : Arith → ℝ} {a : ℝ}
    (h : Tendsto r F (𝓝 a)) : Conv F (fun A => ⟨g A (r A)⟩) (f a) := by
  have hb : ∀ᶠ A in F, |r A| < |a| + 1 := (h.abs).eventually_lt tendsto_const_nhds (by linarith)
  refine conv_near ((hf.tendsto a).comp h) hb fun _ _ => ⟨1 / (|a| + 1), by positivity, fun δ h0 h1 A hA k3 _ => ?_⟩
  exact hg δ h0 A hA _ (le_trans k3.le (recip_ge h0 h1))

namespace Conv
variable {x y : Fam} {a b : ℝ}

theorem sin (h : Conv F x a) : Conv F (fun A => CMath.sin (x A)) (Real.sin a) := by
  obtain ⟨r, h1, h2⟩ := h
  refine (conv_libm Real.continuous_sin (fun δ _ A hA x hx => hA.near_sin x hx) h2).congr ?_
  filter_upwards [h1] with A h4
  show (Fp.libm1 CMath.sin A.sin (x A)).v = _
  simp only [Fp.libm1, h4, Dbl.fin_sin]

theorem cos (h : Conv F x a) : Conv F (fun A => CMath.cos (x A)) (Real.cos a) := by
  obtain ⟨r, h1, h2⟩ := h
  refine (conv_libm Real.continuous_cos (fun δ _ A hA x hx => hA.near_cos x hx) h2).congr ?_
  filter_upwards [h1] with A h4
  show (Fp.libm1 CMath.cos A.cos (x A)).v = _
  simp only [Fp.libm1, h4, Dbl.fin_cos]

/-- `acos` of a value that never leaves [-1,1]. -/
theorem acos (h : Conv F x a) (h1 : ∀ᶠ A in F, ¬ x A < -1) (h2 : ∀ᶠ A in F, ¬ 1 < x A) :
    Conv F (fun A => CMath.acos (x A)) (Real.arccos a) := by
  obtain ⟨r, h3, h4⟩ := h
  have hr : ∀ᶠ A in F, |r A| ≤ 1 := by
    filter_upwards [h1, h2, h3] with A k1 k2 k3
    rw [abs_le]
    constructor
    · by_contra hc
      apply k1
      show (x A).v < .fin (-1)
      rw [k3]; exact _root_.not_le.mp hc
    · by_contra hc
      apply k2
      show Dbl.fin 1 < (x A).v
      rw [k3]; exact _root_.not_le.mp hc
  have h5 : Conv F (fun A => ⟨A.acos (r A)⟩) (Real.arccos a) :=
    conv_near ((Real.continuous_arccos.tendsto a).comp h4) hr fun _ _ => ⟨1, one_pos, fun δ _ _ A hA hb _ => hA.near_acos _ hb⟩
  refine h5.congr ?_
  filter_upwards [h3, hr] with A k1 k2
  rw [abs_le] at k2
  show (Fp.libm1 CMath.acos A.acos (x A)).v = _
  simp only [Fp.libm1, k1, Dbl.fin_acos k2.1 k2.2]

theorem _root_.DOA.conv_pow {r s : Arith → ℝ} {a b : ℝ} (hr : Tendsto r F (𝓝 a)) (hs : Tendsto s F (𝓝 b))
    (hd : ∀ᶠ A in F, 0 < r A ∨ ∃ n : ℕ, s A = n) (hp : Tendsto (fun A => r A ^ s A) F (𝓝 (a ^ b))) :
    Conv F (fun A => ⟨A.pow (r A) (s A)⟩) (a ^ b) := by
  have hb : ∀ᶠ A in F, (0 < r A ∨ ∃ n : ℕ, s A = n) ∧ |r A| < |a| + 1 ∧ |s A| < |b| + 1 :=
    hd.and (((hr.abs).eventually_lt tendsto_const_nhds (by linarith)).and
      ((hs.abs).eventually_lt tendsto_const_nhds (by linarith)))
  refine conv_near hp hb fun M hM => ⟨min (1 / M) (min (1 / (|a| + 1)) (1 / (|b| + 1))), by positivity,
    fun δ h0 h1 A hA hbA hv => ?_⟩
  have k2 : δ ≤ 1 / M := le_trans h1 (min_le_left _ _)
  have k3 : δ ≤ 1 / (|a| + 1) := le_trans h1 (le_trans (min_le_right _ _) (min_le_left _ _))
  have k4 : δ ≤ 1 / (|b| + 1) := le_trans h1 (le_trans (min_le_right _ _) (min_le_right _ _))
  obtain ⟨b1, b2, b3⟩ := hbA
  exact hA.near_pow _ _ b1 (le_trans b2.le (recip_ge h0 k3))
    (le_trans b3.le (recip_ge h0 k4)) (le_trans hv (recip_ge h0 k2))

/-- Powers of a positive base. -/
theorem pow (h : Conv F x a) (h' : Conv F y b) (ha : 0 < a) : Conv F (fun A => CMath.pow (x A) (y A)) (a ^ b) := by
  obtain ⟨r, h1, h2⟩ := h
  obtain ⟨s, h3, h4⟩ := h'
  have hpos : ∀ᶠ A in F, 0 < r A := h2.eventually_const_lt ha
  have h5 : Conv F (fun A => ⟨A.pow (r A) (s A)⟩) (a ^ b) :=
    conv_pow h2 h4 (hpos.mono fun _ h => Or.inl h) (h2.rpow h4 (Or.inl ha.ne'))
  refine h5.congr ?_
  filter_upwards [h1, h3, hpos] with A k1 k2 k3
  show (Fp.libm2 CMath.pow A.pow (x A) (y A)).v = _
  simp only [Fp.libm2, k1, k2, Dbl.fin_pow_pos k3]

/-- Powers with a natural exponent, which must be exact. -/
theorem pow_nat (h : Conv F x a) {n : ℕ} (hy : ∀ᶠ A in F, (y A).v = .fin n) :
    Conv F (fun A => CMath.pow (x A) (y A)) (a ^ n) := by
  obtain ⟨r, h1, h2⟩ := h
  have h5 : Conv F (fun A => ⟨A.pow (r A) ((n : ℕ) : ℝ)⟩) (a ^ ((n : ℕ) : ℝ)) :=
    conv_pow (s := fun _ => (n : ℝ)) h2 tendsto_const_nhds (Eventually.of_forall fun _ => Or.inr ⟨n, rfl⟩)
      (by simp only [Real.rpow_natCast]; exact h2.pow n)
  rw [Real.rpow_natCast] at h5
  refine h5.congr ?_
  filter_upwards [h1, hy] with A k1 k2
  show (Fp.libm2 CMath.pow A.pow (x A) (y A)).v = _
  simp only [Fp.libm2, k1, k2, Dbl.fin_pow_nat]

theorem maxS (h : Conv F x a) (h' : Conv F y b) : Conv F (fun A => DOA.maxS (x A) (y A)) (DOA.maxS a b) := by
  unfold DOA.maxS
  rcases lt_trichotomy a b with hab | hab | hab
  · rw [if_pos hab]; exact ite_true h' (h.lt h' hab)
  · subst hab
    rw [if_neg (lt_irrefl _)]; exact ite h' h
  · rw [if_neg hab.not_gt]; exact ite_false h (h.not_lt h' hab)

end Conv
end DOA
