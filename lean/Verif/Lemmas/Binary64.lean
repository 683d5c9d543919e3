import Verif.Model.Binary64
import Verif.Lemmas.Fp

/-!
# IEEE 754 arithmetic is sound and precise
-/

set_option linter.unusedSectionVars false
set_option linter.unusedSimpArgs false

namespace DOA
open Filter Topology

/-! ### nearest integer -/

theorem rne_near (t : ℝ) : |(rne t : ℝ) - t| ≤ 1 / 2 := by
  have h1 := Int.floor_le t
  have h2 := Int.lt_floor_add_one t
  unfold rne
  split
  · rw [abs_le]; constructor <;> linarith
  · split
    · push_cast; rw [abs_le]; constructor <;> linarith
    · split
      · rw [abs_le]; constructor <;> linarith
      · push_cast; rw [abs_le]; constructor <;> linarith

theorem rne_int (n : ℤ) : rne (n : ℝ) = n := by
  unfold rne
  simp

theorem rne_mono {s t : ℝ} (h : s ≤ t) : rne s ≤ rne t := by
  have hs := Int.floor_le s
  have hs' := Int.lt_floor_add_one s
  have ht := Int.floor_le t
  have ht' := Int.lt_floor_add_one t
  have hf := Int.floor_mono h
  rcases hf.lt_or_eq with hlt | heq
  · -- `rne s ≤ ⌊s⌋ + 1 ≤ ⌊t⌋ ≤ rne t`
    have h1 : rne s ≤ ⌊s⌋ + 1 := by unfold rne; split_ifs <;> omega
    have h2 : ⌊t⌋ ≤ rne t := by unfold rne; split_ifs <;> omega
    omega
  · unfold rne
    rw [heq] at *
    split_ifs <;> first | omega | (exfalso; linarith)

theorem rne_nonneg {t : ℝ} (h : 0 ≤ t) : 0 ≤ rne t := by
  have := rne_mono h
  have h0 := rne_int 0
  simp only [Int.cast_zero] at h0
  rwa [h0] at this

namespace Format
variable {f : Format}

theorem q_pos (e : ℤ) : (0 : ℝ) < 2 ^ e := zpow_pos (by norm_num) e

theorem le_expo_emin (x : ℝ) : f.emin ≤ f.expo x := le_max_right _ _
theorem le_expo_log (x : ℝ) : Int.log 2 x + 1 - f.p ≤ f.expo x := le_max_left _ _

theorem lt_scale {x : ℝ} (_hx : 0 < x) : x < 2 ^ (f.p : ℤ) * 2 ^ f.expo x := by
  have h1 := Int.lt_zpow_succ_log_self (b := 2) (by norm_num) x
  have h2 : ((2 : ℕ) : ℝ) ^ (Int.log 2 x + 1) ≤ 2 ^ ((f.p : ℤ) + f.expo x) := by
    push_cast
    apply zpow_le_zpow_right₀ (by norm_num)
    have := le_expo_log (f := f) x
    omega
  rw [← zpow_add₀ (by norm_num)]
  linarith

theorem expo_mono {x y : ℝ} (hx : 0 < x) (h : x ≤ y) : f.expo x ≤ f.expo y := by
  have := Int.log_mono_right (b := 2) hx h
  unfold expo
  omega

/-- A number with few bits is not rounded. -/
theorem nearest_rep {m : ℕ} {e : ℤ} (hm : m ≤ 2 ^ f.p) (he : f.emin ≤ e) (hp : 1 ≤ f.p) :
    f.nearest (m * 2 ^ e) = m * 2 ^ e := by
  have key : ∀ (n : ℕ) (e : ℤ), n < 2 ^ f.p → f.emin ≤ e → f.nearest (n * 2 ^ e) = n * 2 ^ e := by
    intro n e hn he
    rcases Nat.eq_zero_or_pos n with h0 | h0
    · subst h0
      unfold nearest
      simp only [Nat.cast_zero, zero_mul, zero_div]
      have := rne_int 0
      simp only [Int.cast_zero] at this
      rw [this]; simp
    have hx : (0 : ℝ) < n * 2 ^ e := mul_pos (by exact_mod_cast h0) (q_pos e)
    have hlog : Int.log 2 ((n : ℝ) * 2 ^ e) < e + f.p := by
      apply (Int.lt_zpow_iff_log_lt (b := 2) (by norm_num) hx).mp
      push_cast
      rw [zpow_add₀ (by norm_num), mul_comm]
      apply mul_lt_mul_of_pos_left _ (q_pos e)
      rw [zpow_natCast]
      exact_mod_cast hn
    have hle : f.expo (n * 2 ^ e) ≤ e := by unfold expo; omega
    obtain ⟨d, hd⟩ : ∃ d : ℕ, e = f.expo (n * 2 ^ e) + d := ⟨(e - f.expo (n * 2 ^ e)).toNat, by omega⟩
    unfold nearest
    generalize f.expo (n * 2 ^ e) = k at hd
    have hq := q_pos k
    have e1 : (n : ℝ) * 2 ^ e / 2 ^ k = ((n * 2 ^ d : ℕ) : ℤ) := by
      rw [hd, zpow_add₀ (by norm_num), zpow_natCast]
      push_cast
      field_simp
    rw [e1, rne_int, hd, zpow_add₀ (by norm_num), zpow_natCast]
    push_cast
    ring
  rcases hm.lt_or_eq with h | h
  · exact key m e h he
  · have h1 := key (2 ^ (f.p - 1)) (e + 1) (Nat.pow_lt_pow_right (by norm_num) (by omega)) (by omega)
    have e1 : ((2 ^ (f.p - 1) : ℕ) : ℝ) * 2 ^ (e + 1) = m * 2 ^ e := by
      rw [h, zpow_add₀ (by norm_num), zpow_one]
      push_cast
      have : (2 : ℝ) ^ f.p = 2 ^ (f.p - 1) * 2 := by
        rw [← pow_succ]; congr 1; omega
      rw [this]; ring
    rwa [e1] at h1

/-- The rounded value has few bits. -/
theorem nearest_bits {x : ℝ} (hx : 0 ≤ x) : ∃ (m : ℕ) (e : ℤ), m ≤ 2 ^ f.p ∧ f.emin ≤ e ∧ f.nearest x = m * 2 ^ e := by
  have hq := q_pos (f.expo x)
  have h0 := rne_nonneg (t := x / 2 ^ f.expo x) (by positivity)
  refine ⟨(rne (x / 2 ^ f.expo x)).toNat, f.expo x, ?_, le_expo_emin x, ?_⟩
  · rcases hx.lt_or_eq with h | h
    · have h1 : x / 2 ^ f.expo x ≤ ((2 ^ f.p : ℕ) : ℤ) := by
        rw [div_le_iff₀ hq]
        have := lt_scale (f := f) h
        rw [zpow_natCast] at this
        push_cast
        exact this.le
      have h2 := rne_mono h1
      rw [rne_int] at h2
      omega
    · rw [← h, zero_div]
      have := rne_int 0
      simp only [Int.cast_zero] at this
      rw [this]; simp
  · unfold nearest
    have : ((rne (x / 2 ^ f.expo x)).toNat : ℤ) = rne (x / 2 ^ f.expo x) := Int.toNat_of_nonneg h0
    have h2 : (((rne (x / 2 ^ f.expo x)).toNat : ℤ) : ℝ) = (rne (x / 2 ^ f.expo x) : ℝ) := by rw [this]
    rw [← h2]; push_cast; ring

theorem nearest_nonneg {x : ℝ} (hx : 0 ≤ x) : 0 ≤ f.nearest x := by
  obtain ⟨m, e, -, -, h⟩ := nearest_bits (f := f) hx
  rw [h]
  exact mul_nonneg (by positivity) (q_pos e).le

theorem nearest_err {x : ℝ} (_hx : 0 ≤ x) : |f.nearest x - x| ≤ 2 ^ f.expo x / 2 := by
  have hq := q_pos (f.expo x)
  have h := rne_near (x / 2 ^ f.expo x)
  have e1 : f.nearest x - x = (rne (x / 2 ^ f.expo x) - x / 2 ^ f.expo x) * 2 ^ f.expo x := by
    unfold nearest; field_simp
  rw [e1, abs_mul, abs_of_pos hq]
  calc _ ≤ 1 / 2 * 2 ^ f.expo x := mul_le_mul_of_nonneg_right h hq.le
    _ = _ := by ring

theorem nearest_mono (hp : 1 ≤ f.p) {x y : ℝ} (hx : 0 ≤ x) (h : x ≤ y) : f.nearest x ≤ f.nearest y := by
  rcases hx.lt_or_eq with hx | hx
  swap
  · rw [← hx] at h ⊢
    have : f.nearest 0 = 0 := by
      have := nearest_rep (f := f) (m := 0) (e := f.emin) (by positivity) (le_refl _) hp
      simpa using this
    rw [this]; exact nearest_nonneg h
  have hy : 0 < y := lt_of_lt_of_le hx h
  rcases (expo_mono (f := f) hx h).lt_or_eq with hlt | heq
  · -- a power of two in between
    have hlog : f.expo y = Int.log 2 y + 1 - f.p := by
      have := le_expo_emin (f := f) x
      have h2 := le_expo_emin (f := f) y
      unfold expo at hlt ⊢
      unfold expo at this
      omega
    have hpow : (2 : ℝ) ^ (f.expo y + f.p - 1) ≤ y := by
      have := Int.zpow_log_le_self (b := 2) (by norm_num) hy
      push_cast at this
      have e1 : f.expo y + f.p - 1 = Int.log 2 y := by omega
      rw [e1]; exact this
    have h1 : f.nearest x ≤ 2 ^ (f.expo y + f.p - 1) := by
      have hb : f.nearest x ≤ 2 ^ (f.p : ℤ) * 2 ^ f.expo x := by
        have hq := q_pos (f.expo x)
        have h1 : x / 2 ^ f.expo x ≤ ((2 ^ f.p : ℕ) : ℤ) := by
          rw [div_le_iff₀ hq]
          have := lt_scale (f := f) hx
          rw [zpow_natCast] at this
          push_cast
          exact this.le
        have h2 := rne_mono h1
        rw [rne_int] at h2
        have h3 : (rne (x / 2 ^ f.expo x) : ℝ) ≤ 2 ^ (f.p : ℤ) := by
          rw [zpow_natCast]
          exact_mod_cast h2
        exact mul_le_mul_of_nonneg_right h3 hq.le
      refine le_trans hb ?_
      rw [← zpow_add₀ (by norm_num)]
      apply zpow_le_zpow_right₀ (by norm_num)
      omega
    have h2 : (2 : ℝ) ^ (f.expo y + f.p - 1) ≤ f.nearest y := by
      have hq := q_pos (f.expo y)
      have h1 : (((2 ^ (f.p - 1) : ℕ) : ℤ) : ℝ) ≤ y / 2 ^ f.expo y := by
        rw [le_div_iff₀ hq]
        refine le_trans (le_of_eq ?_) hpow
        have : f.expo y + f.p - 1 = ((f.p - 1 : ℕ) : ℤ) + f.expo y := by omega
        rw [this, zpow_add₀ (by norm_num), zpow_natCast]
        push_cast; rfl
      have h2 := rne_mono h1
      rw [rne_int] at h2
      have h3 : ((2 : ℝ) ^ (f.p - 1)) ≤ (rne (y / 2 ^ f.expo y) : ℝ) := by exact_mod_cast h2
      have h4 := mul_le_mul_of_nonneg_right h3 hq.le
      refine le_trans (le_of_eq ?_) h4
      have : f.expo y + f.p - 1 = ((f.p - 1 : ℕ) : ℤ) + f.expo y := by omega
      rw [this, zpow_add₀ (by norm_num), zpow_natCast]
    linarith
  · unfold nearest
    rw [heq]
    have hq := q_pos (f.expo y)
    have := rne_mono (div_le_div_of_nonneg_right h hq.le)
    exact mul_le_mul_of_nonneg_right (by exact_mod_cast this) hq.le

/-! ### with overflow and sign -/

theorem rndPos_mono (hp : 1 ≤ f.p) {x y : ℝ} (hx : 0 ≤ x) (h : x ≤ y) : f.rndPos x ≤ f.rndPos y := by
  have h1 := nearest_mono hp hx h
  unfold rndPos
  split
  · split
    · exact h1
    · exact trivial
  · rename_i h2
    rw [if_neg (by linarith)]
    exact trivial

theorem rndPos_nonneg {x : ℝ} (hx : 0 ≤ x) : (0 : Dbl) ≤ f.rndPos x := by
  unfold rndPos
  split
  · exact nearest_nonneg hx
  · exact trivial

theorem dbl_neg_le {a b : Dbl} (h : a ≤ b) : -b ≤ -a := by
  match a, b, h with
  | .fin r, .fin s, h => exact neg_le_neg (show r ≤ s from h)
  | .fin _, .pinf, _ => exact trivial
  | .ninf, .fin _, _ => exact trivial
  | .ninf, .pinf, _ => exact trivial
  | .ninf, .ninf, _ => exact trivial
  | .pinf, .pinf, _ => exact trivial

theorem dbl_le_trans {a b c : Dbl} (h : a ≤ b) (h' : b ≤ c) : a ≤ c := by
  match a, b, c, h, h' with
  | .fin r, .fin s, .fin t, h, h' => exact le_trans (show r ≤ s from h) (show s ≤ t from h')
  | .fin _, .fin _, .pinf, _, _ => exact trivial
  | .fin _, .pinf, .pinf, _, _ => exact trivial
  | .ninf, .ninf, .ninf, _, _ => exact trivial
  | .ninf, _, .pinf, _, _ => exact trivial
  | .ninf, _, .fin _, _, _ => exact trivial
  | .pinf, .pinf, .pinf, _, _ => exact trivial

theorem nearest_zero (hp : 1 ≤ f.p) : f.nearest 0 = 0 := by
  have := nearest_rep (f := f) (m := 0) (e := f.emin) (by positivity) (le_refl _) hp
  simpa using this

theorem rnd_nonneg {x : ℝ} (hx : 0 ≤ x) : f.rnd x = f.rndPos x := if_neg (not_lt.mpr hx)

theorem rnd_nonpos (hp : 1 ≤ f.p) {x : ℝ} (hx : x ≤ 0) : f.rnd x = -f.rndPos (-x) := by
  rcases hx.lt_or_eq with h | h
  · exact if_pos h
  · subst h
    have h0 : (0 : ℝ) < 2 ^ f.emax := q_pos _
    rw [rnd_nonneg (le_refl _), neg_zero]
    unfold rndPos
    rw [nearest_zero hp, if_pos h0]
    show Dbl.fin 0 = Dbl.fin (-0)
    rw [neg_zero]

theorem rnd_mono (hp : 1 ≤ f.p) {x y : ℝ} (h : x ≤ y) : f.rnd x ≤ f.rnd y := by
  rcases le_total 0 x with hx | hx
  · rw [rnd_nonneg hx, rnd_nonneg (le_trans hx h)]
    exact rndPos_mono hp hx h
  · rcases le_total y 0 with hy | hy
    · rw [rnd_nonpos hp hx, rnd_nonpos hp hy]
      exact dbl_neg_le (rndPos_mono hp (by linarith) (by linarith))
    · rw [rnd_nonpos hp hx, rnd_nonneg hy]
      have h1 := dbl_neg_le (rndPos_nonneg (f := f) (x := -x) (by linarith))
      have h2 := rndPos_nonneg (f := f) hy
      refine dbl_le_trans h1 ?_
      have : -(0 : Dbl) = 0 := by show Dbl.fin (-0) = Dbl.fin 0; rw [neg_zero]
      rw [this]; exact h2

theorem rnd_neg (hp : 1 ≤ f.p) (x : ℝ) : f.rnd (-x) = -f.rnd x := by
  rcases le_total 0 x with h | h
  · rw [rnd_nonneg h, rnd_nonpos hp (by linarith), neg_neg]
  · rw [rnd_nonpos hp h, rnd_nonneg (by linarith)]
    generalize f.rndPos (-x) = d
    cases d with
    | fin r => show Dbl.fin r = Dbl.fin (- -r); rw [neg_neg]
    | _ => rfl

theorem rndPos_rep {m : ℕ} {e : ℤ} (hm : m ≤ 2 ^ f.p) (he : f.emin ≤ e) (hp : 1 ≤ f.p) (hlt : (m : ℝ) * 2 ^ e < 2 ^ f.emax) :
    f.rndPos (m * 2 ^ e) = .fin (m * 2 ^ e) := by
  unfold rndPos
  rw [nearest_rep hm he hp, if_pos hlt]

/-- Finite values are not rounded again. -/
theorem rnd_idem (hp : 1 ≤ f.p) {x r : ℝ} (h : f.rnd x = .fin r) : f.rnd r = .fin r := by
  have key : ∀ {x r : ℝ}, 0 ≤ x → f.rndPos x = .fin r → f.rnd r = .fin r := by
    intro x r hx h
    unfold rndPos at h
    split at h
    · rename_i hlt
      cases h
      obtain ⟨m, e, h1, h2, h3⟩ := nearest_bits (f := f) hx
      rw [rnd_nonneg (nearest_nonneg hx), h3, rndPos_rep h1 h2 hp (by rw [← h3]; exact hlt)]
    · cases h
  rcases le_total 0 x with hx | hx
  · rw [rnd_nonneg hx] at h; exact key hx h
  · rw [rnd_nonpos hp hx] at h
    have h1 : f.rndPos (-x) = .fin (-r) := by
      cases hd : f.rndPos (-x) with
      | fin s =>
        rw [hd] at h
        have h2 : -s = r := Dbl.fin.inj h
        rw [← h2, neg_neg]
      | pinf => rw [hd] at h; cases h
      | ninf => rw [hd] at h; cases h
      | nan => rw [hd] at h; cases h
    have h2 := key (by linarith : (0:ℝ) ≤ -x) h1
    rw [rnd_neg hp] at h2
    cases hd : f.rnd r with
    | fin s => rw [hd] at h2; have h3 : -s = -r := Dbl.fin.inj h2; rw [neg_inj.mp h3]
    | pinf => rw [hd] at h2; cases h2
    | ninf => rw [hd] at h2; cases h2
    | nan => rw [hd] at h2; cases h2

theorem arith_sound (hw : f.Wide) : f.arith.Sound := by
  have hp : 1 ≤ f.p := by have := hw.p; omega
  have hnat : ∀ n : ℕ, n ≤ 2 ^ 53 → f.rnd n = .fin n := by
    intro n hn
    have h1 : n ≤ 2 ^ f.p := le_trans hn (Nat.pow_le_pow_right (by norm_num) hw.p)
    have h2 := rndPos_rep (f := f) (m := n) (e := 0) h1 (by have := hw.emin; omega) hp (by
      rw [zpow_zero, mul_one]
      have h3 : (n : ℝ) ≤ 2 ^ (f.p : ℤ) := by rw [zpow_natCast]; exact_mod_cast h1
      exact lt_of_le_of_lt h3 (zpow_lt_zpow_right₀ (by norm_num) hw.emax))
    rw [zpow_zero, mul_one] at h2
    rw [rnd_nonneg (by positivity), h2]
  refine ⟨fun x y h => rnd_mono hp h, ?_, fun x r h => rnd_idem hp h, ?_, ?_⟩
  · intro n hn
    show f.rnd n = _
    obtain ⟨m, rfl | rfl⟩ := n.eq_nat_or_neg
    · have := hnat m (by rw [abs_of_nonneg (by positivity)] at hn; exact_mod_cast hn)
      exact_mod_cast this
    · have := hnat m (by rw [abs_neg, abs_of_nonneg (by positivity)] at hn; exact_mod_cast hn)
      push_cast
      rw [rnd_neg hp, this]; rfl
  · intro x r h
    have h1 := rnd_idem hp h
    show f.rnd (-r) = _
    rw [rnd_neg hp, h1]; rfl
  · intro x hx
    show f.rnd x = _ ∨ _ ≤ f.rnd x
    rw [rnd_nonneg hx.le]
    unfold rndPos
    split
    · have hq := q_pos (f.expo x)
      have hn := rne_near (x / 2 ^ f.expo x)
      have h0 := rne_nonneg (t := x / 2 ^ f.expo x) (by positivity)
      rcases h0.lt_or_eq with h1 | h1
      · right
        show x / 2 ≤ f.nearest x
        unfold nearest
        have h2 : (1 : ℝ) ≤ rne (x / 2 ^ f.expo x) := by exact_mod_cast h1
        have h3 := (abs_le.mp hn).1
        have h4 : x / 2 ^ f.expo x / 2 ≤ rne (x / 2 ^ f.expo x) := by linarith
        have h5 := mul_le_mul_of_nonneg_right h4 hq.le
        refine le_trans (le_of_eq ?_) h5
        field_simp
      · left
        unfold nearest
        rw [← h1]; simp
    · right; exact trivial

theorem rnd_near (hw : f.Wide) {δ x : ℝ} (hδ : 2 ^ (-(f.p : ℤ)) ≤ δ) (hx : |x| ≤ 1 / δ) : Arith.Near δ x (f.rnd x) := by
  have hp : 1 ≤ f.p := by have := hw.p; omega
  have hq0 := q_pos (-(f.p : ℤ))
  have h0 : 0 < δ := lt_of_lt_of_le hq0 hδ
  have key : ∀ y : ℝ, 0 ≤ y → y ≤ 1 / δ → ∃ r, f.rndPos y = .fin r ∧ |r - y| ≤ δ * (1 + y) := by
    intro y hy hyδ
    have hy2 : y ≤ 2 ^ (f.p : ℤ) := by
      refine le_trans hyδ ?_
      rw [div_le_iff₀ h0]
      calc (1 : ℝ) = 2 ^ (f.p : ℤ) * 2 ^ (-(f.p : ℤ)) := by rw [← zpow_add₀ (by norm_num)]; simp
        _ ≤ _ := mul_le_mul_of_nonneg_left hδ (q_pos _).le
    have herr := nearest_err (f := f) hy
    have hlt : f.nearest y < 2 ^ f.emax := by
      have h1 := nearest_mono (f := f) hp hy hy2
      have h2 := nearest_rep (f := f) (m := 2 ^ f.p) (e := 0) (le_refl _) (by have := hw.emin; omega) hp
      rw [zpow_zero, mul_one] at h2
      push_cast at h2
      rw [zpow_natCast, h2] at h1
      have h3 := zpow_lt_zpow_right₀ (a := (2 : ℝ)) (by norm_num) hw.emax
      rw [zpow_natCast] at h3
      linarith
    refine ⟨f.nearest y, if_pos hlt, ?_⟩
    refine le_trans herr ?_
    -- the last bit is small compared with `y`, or absolutely
    have hexp : (2 : ℝ) ^ f.expo y / 2 ≤ 2 ^ (-(f.p : ℤ)) * (1 + y) := by
      have hhalf : (2 : ℝ) ^ f.expo y / 2 = 2 ^ (f.expo y - 1) := by
        rw [zpow_sub₀ (by norm_num), zpow_one]
      rw [hhalf]
      rcases le_total (Int.log 2 y + 1 - f.p) f.emin with hc | hc
      · have : f.expo y = f.emin := max_eq_right hc
        rw [this]
        have h1 : (2 : ℝ) ^ (f.emin - 1) ≤ 2 ^ (-(f.p : ℤ)) :=
          zpow_le_zpow_right₀ (by norm_num) (by have := hw.emin; omega)
        nlinarith
      · have he : f.expo y = Int.log 2 y + 1 - f.p := max_eq_left hc
        rw [he]
        rcases hy.lt_or_eq with hy0 | hy0
        · have h1 := Int.zpow_log_le_self (b := 2) (R := ℝ) (by norm_num) hy0
          push_cast at h1
          have e1 : (2 : ℝ) ^ (Int.log 2 y + 1 - f.p - 1) = 2 ^ (-(f.p : ℤ)) * 2 ^ Int.log 2 y := by
            rw [← zpow_add₀ (by norm_num)]; congr 1; omega
          rw [e1]
          exact mul_le_mul_of_nonneg_left (by linarith) hq0.le
        · rw [← hy0]
          have e1 : (2 : ℝ) ^ (Int.log 2 (0 : ℝ) + 1 - f.p - 1) = 2 ^ (-(f.p : ℤ)) := by
            rw [Int.log_of_right_le_zero 2 (le_refl _)]; congr 1; omega
          rw [e1]; simp
    refine le_trans hexp (mul_le_mul_of_nonneg_right hδ (by linarith))
  rcases le_total 0 x with h | h
  · rw [abs_of_nonneg h] at hx
    obtain ⟨r, h1, h2⟩ := key x h hx
    exact ⟨r, by rw [rnd_nonneg h, h1], by rw [abs_of_nonneg h]; exact h2⟩
  · rw [abs_of_nonpos h] at hx
    obtain ⟨r, h1, h2⟩ := key (-x) (by linarith) hx
    refine ⟨-r, by rw [rnd_nonpos hp h, h1]; rfl, ?_⟩
    rw [abs_of_nonpos h, ← abs_neg]
    have : -(-r - x) = r - -x := by ring
    rw [this]; exact h2

theorem arith_within (hw : f.Wide) : f.arith.Within (2 ^ (-(f.p : ℤ))) := by
  have hbig : (1 : ℝ) / 2 ^ (-(f.p : ℤ)) = 2 ^ (f.p : ℤ) := by rw [zpow_neg, one_div, inv_inv]
  have h4 : (4 : ℝ) ≤ 1 / 2 ^ (-(f.p : ℤ)) := by
    rw [hbig, zpow_natCast]
    calc (4 : ℝ) = 2 ^ 2 := by norm_num
      _ ≤ 2 ^ f.p := pow_le_pow_right₀ (by norm_num) (by have := hw.p; omega)
  have near : ∀ {x : ℝ}, |x| ≤ 1 / 2 ^ (-(f.p : ℤ)) → Arith.Near (2 ^ (-(f.p : ℤ))) x (f.rnd x) :=
    fun h => rnd_near hw (le_refl _) h
  have hpi := Real.pi_le_four
  refine ⟨arith_sound hw, fun x hx => near hx, ?_, ?_, ?_, ?_, ?_, ?_⟩
  · intro x _; exact near (le_trans (Real.abs_sin_le_one x) (by linarith))
  · intro x _; exact near (le_trans (Real.abs_cos_le_one x) (by linarith))
  · intro x _
    refine near ?_
    rw [abs_of_nonneg (Real.arccos_nonneg x)]
    have := Real.arccos_le_pi x
    linarith
  · intro x _ h
    refine near ?_
    rw [abs_of_pos (Real.exp_pos x)]; exact h
  · intro y x _ _
    refine near ?_
    have := Complex.abs_arg_le_pi ⟨x, y⟩
    linarith
  · intro x y _ _ _ h; exact near h

theorem binary64_wide : binary64.Wide := ⟨by norm_num [binary64], by norm_num [binary64], by norm_num [binary64]⟩

end Format
end DOA
