import Verif.Model.Digits
import Verif.Spec.Digits
import Mathlib.Tactic.Linarith
import Mathlib.Tactic.FieldSimp
import Mathlib.Tactic.Ring
import Mathlib.Tactic.Positivity
import Mathlib.Tactic.NormNum
import Mathlib.Tactic.IntervalCases

/-!
# Digits of numbers
-/

namespace DOA.Digits

open DOA.Spec

set_option linter.unusedSectionVars false
set_option linter.unusedSimpArgs false

section chars

theorem digitChar_isDigit {n : Nat} (h : n < 10) : (Nat.digitChar n).isDigit = true := by
  interval_cases n <;> decide

theorem digitChar_val {n : Nat} (h : n < 10) : (Nat.digitChar n).toNat - 48 = n := by
  interval_cases n <;> decide

theorem natVal_append (l : List Char) (c : Char) : natVal (l ++ [c]) = 10 * natVal l + (c.toNat - 48) := by
  simp [natVal]

theorem natVal_foldl (l : List Char) (a : Nat) : l.foldl (fun n c => 10 * n + (c.toNat - 48)) a = a * 10 ^ l.length + natVal l := by
  induction l generalizing a with
  | nil => simp [natVal]
  | cons c l ih =>
    rw [natVal, List.foldl_cons, List.foldl_cons, ih, ih]
    simp only [List.length_cons]
    ring

theorem natVal_cons (c : Char) (l : List Char) : natVal (c :: l) = (c.toNat - 48) * 10 ^ l.length + natVal l := by
  rw [natVal, List.foldl_cons, natVal_foldl]; simp

theorem natVal_append' (l l' : List Char) : natVal (l ++ l') = natVal l * 10 ^ l'.length + natVal l' := by
  rw [natVal, List.foldl_append, natVal_foldl]; rfl

theorem natAux_ne (fuel n : Nat) : natAux (fuel + 1) n ≠ [] := by
  rw [natAux]; split <;> simp

theorem nat_ne (n : Nat) : nat n ≠ [] := natAux_ne _ _

theorem natAux_digit : ∀ (fuel n : Nat), ∀ c ∈ natAux fuel n, c.isDigit = true
  | 0, _ => by simp [natAux]
  | fuel + 1, n => by
    rw [natAux]
    split
    · intro c hc
      rw [List.mem_singleton] at hc
      rw [hc]; exact digitChar_isDigit ‹_›
    · intro c hc
      rw [List.mem_append, List.mem_singleton] at hc
      rcases hc with hc | hc
      · exact natAux_digit fuel _ c hc
      · rw [hc]; exact digitChar_isDigit (Nat.mod_lt _ (by norm_num))

theorem nat_digit (n : Nat) : ∀ c ∈ nat n, c.isDigit = true := natAux_digit _ _

theorem natAux_val : ∀ (fuel n : Nat), n < fuel → natVal (natAux fuel n) = n
  | 0, _, h => absurd h (by simp)
  | fuel + 1, n, h => by
    rw [natAux]
    split
    · rename_i h1
      simp [natVal, digitChar_val h1]
    · rename_i h1
      rw [natVal_append, natAux_val fuel (n / 10) (by omega), digitChar_val (Nat.mod_lt _ (by norm_num))]
      omega

theorem nat_val (n : Nat) : natVal (nat n) = n := natAux_val _ _ (Nat.lt_succ_self n)

theorem natAux_length : ∀ (fuel n k : Nat), n < 10 ^ (k + 1) → (natAux fuel n).length ≤ k + 1
  | 0, _, _, _ => by simp [natAux]
  | fuel + 1, n, k, h => by
    rw [natAux]
    split
    · simp
    · rename_i h1
      cases k with
      | zero => simp at h; omega
      | succ k =>
        have := natAux_length fuel (n / 10) k (by rw [pow_succ] at h; omega)
        simp; omega

theorem padded_length : ∀ k n, (padded k n).length = k
  | 0, _ => rfl
  | k + 1, n => by simp [padded, padded_length k]

theorem padded_digit : ∀ (k n : Nat), ∀ c ∈ padded k n, c.isDigit = true
  | 0, _ => by simp [padded]
  | k + 1, n => by
    intro c hc
    rw [padded, List.mem_append, List.mem_singleton] at hc
    rcases hc with hc | hc
    · exact padded_digit k _ c hc
    · rw [hc]; exact digitChar_isDigit (Nat.mod_lt _ (by norm_num))

theorem padded_val : ∀ (k n : Nat), n < 10 ^ k → natVal (padded k n) = n
  | 0, n, h => by simp at h; simp [padded, natVal, h]
  | k + 1, n, h => by
    rw [padded, natVal_append, padded_val k (n / 10) (by rw [pow_succ] at h; omega),
      digitChar_val (Nat.mod_lt _ (by norm_num))]
    omega

/-- The zeros removed at the end. -/
theorem strip_spec (l : List Char) : ∃ z, l = strip l ++ List.replicate z '0' := by
  have key : ∀ m : List Char, ∃ z, m = List.replicate z '0' ++ m.dropWhile (· == '0') := by
    intro m
    induction m with
    | nil => exact ⟨0, rfl⟩
    | cons c m ih =>
      obtain ⟨z, hz⟩ := ih
      by_cases hc : c = '0'
      · subst hc
        refine ⟨z + 1, ?_⟩
        simp only [List.dropWhile_cons, beq_self_eq_true, if_true, List.replicate_succ, List.cons_append]
        rw [← hz]
      · exact ⟨0, by simp [List.dropWhile_cons, hc]⟩
  obtain ⟨z, hz⟩ := key l.reverse
  refine ⟨z, ?_⟩
  have := congrArg List.reverse hz
  rw [List.reverse_reverse, List.reverse_append, List.reverse_replicate] at this
  exact this

theorem natVal_zeros (z : Nat) : natVal (List.replicate z '0') = 0 := by
  induction z with
  | zero => rfl
  | succ z ih => rw [List.replicate_succ, natVal_cons, ih]; simp

theorem strip_mem {l : List Char} {c : Char} (h : c ∈ strip l) : c ∈ l := by
  obtain ⟨z, hz⟩ := strip_spec l
  rw [hz]; exact List.mem_append_left _ h

theorem strip_length (l : List Char) : (strip l).length ≤ l.length := by
  obtain ⟨z, hz⟩ := strip_spec l
  have := congrArg List.length hz
  rw [List.length_append] at this
  omega

variable {K : Type} [Field K] [LinearOrder K] [IsStrictOrderedRing K]

/-- Removing zeros does not change the value of the fraction. -/
theorem strip_val (l : List Char) :
    (natVal (strip l) : K) / 10 ^ (strip l).length = (natVal l : K) / 10 ^ l.length := by
  obtain ⟨z, hz⟩ := strip_spec l
  generalize strip l = s at hz
  subst hz
  rw [natVal_append', natVal_zeros, List.length_append, List.length_replicate, pow_add]
  push_cast
  rw [add_zero, mul_div_mul_right _ _ (pow_ne_zero _ (by norm_num))]

theorem takeWhile_digits {i : List Char} (hi : ∀ c ∈ i, c.isDigit = true) (r : List Char)
    (hr : ∀ c ∈ r.head?, c.isDigit = false) :
    (i ++ r).takeWhile Char.isDigit = i ∧ (i ++ r).dropWhile Char.isDigit = r := by
  induction i with
  | nil =>
    cases r with
    | nil => simp
    | cons c r =>
      have := hr c (by simp)
      simp [List.takeWhile_cons, List.dropWhile_cons, this]
  | cons c i ih =>
    have h1 := ih (fun d hd => hi d (List.mem_cons_of_mem _ hd))
    have h2 := hi c (by simp)
    simp [List.takeWhile_cons, List.dropWhile_cons, h2, h1.1, h1.2]

theorem fraction_head (l r : List Char) (hr : ∀ c ∈ r.head?, c.isDigit = false) :
    ∀ c ∈ (fraction l ++ r).head?, c.isDigit = false := by
  rw [fraction]
  split
  · simpa using hr
  · intro c hc
    simp at hc
    subst hc; decide

/-- Reading digits, a fraction and the rest. -/
theorem readAbs_fraction (n : Nat) (l r : List Char) (hl : ∀ c ∈ l, c.isDigit = true)
    (hr : ∀ c ∈ r.head?, c.isDigit = false) (hp : r.head? ≠ some '.') :
    (readAbs (nat n ++ (fraction l ++ r)) : Option K) = readExp ((n : K) + (natVal l : K) / 10 ^ l.length) r := by
  have h1 := takeWhile_digits (nat_digit n) (fraction l ++ r) (fraction_head l r hr)
  rw [readAbs]
  simp only [h1.1, h1.2, if_neg (nat_ne n), nat_val]
  rw [fraction]
  split
  · rename_i hs
    have hv := strip_val (K := K) l
    rw [hs] at hv
    simp only [natVal, List.foldl_nil, Nat.cast_zero, zero_div] at hv
    rw [List.nil_append, show (natVal l : K) / 10 ^ l.length = 0 from hv.symm, add_zero]
    rw [readFrac]
    intro r' hr'
    exact hp (by rw [hr']; rfl)
  · rename_i hs
    have h2 := takeWhile_digits (i := strip l) (fun c hc => hl c (strip_mem hc)) r hr
    rw [List.cons_append, readFrac]
    simp only [h2.1, h2.2, if_neg hs, strip_val]

theorem split_val (m p : Nat) : ((m / 10 ^ p : Nat) : K) + ((m % 10 ^ p : Nat) : K) / 10 ^ p = (m : K) / 10 ^ p := by
  have h1 : ((m / 10 ^ p : Nat) : K) * 10 ^ p + ((m % 10 ^ p : Nat) : K) = m := by
    have := Nat.div_add_mod m (10 ^ p)
    have h : ((10 ^ p * (m / 10 ^ p) + m % 10 ^ p : Nat) : K) = m := by rw [this]
    push_cast at h ⊢
    rw [mul_comm]
    exact_mod_cast h
  have h2 : (10 : K) ^ p ≠ 0 := pow_ne_zero _ (by norm_num)
  rw [← h1, add_div, mul_div_cancel_right₀ _ h2]

theorem mod_lt' (m p : Nat) : m % 10 ^ p < 10 ^ p := Nat.mod_lt _ (by positivity)

/-- Reading the notation without exponent. -/
theorem read_fixed (m : Nat) (X : Int) (hX : X ≤ 5) : (readAbs (fixed m X) : Option K) = some ((m : K) * 10 ^ (X - 5)) := by
  have h1 := readAbs_fraction (K := K) (m / 10 ^ (5 - X).toNat) (padded (5 - X).toNat (m % 10 ^ (5 - X).toNat)) []
    (padded_digit _ _) (by simp) (by simp)
  rw [List.append_nil, padded_val _ _ (mod_lt' _ _), padded_length, split_val] at h1
  simp only [fixed, h1, readExp]
  congr 1
  rw [div_eq_mul_inv]
  congr 1
  rw [← zpow_natCast, ← zpow_neg]
  congr 1
  omega

theorem exponent_head (X : Int) : ∀ c ∈ (exponent X).head?, c.isDigit = false := by
  intro c hc
  simp [exponent] at hc
  subst hc; decide

theorem readExp_exponent (v : K) (X : Int) : readExp v (exponent X) = some (v * 10 ^ X) := by
  have h1 : ∀ e : List Char, e = (if X.natAbs < 10 then '0' :: nat X.natAbs else nat X.natAbs) →
      (e ≠ [] ∧ e.all Char.isDigit = true) ∧ natVal e = X.natAbs := by
    intro e he
    subst he
    have h2 : (nat X.natAbs).all Char.isDigit = true := List.all_eq_true.mpr (fun c hc => nat_digit _ c hc)
    split
    · refine ⟨⟨by simp, ?_⟩, ?_⟩
      · rw [List.all_cons, h2]; decide
      · rw [natVal_cons, nat_val]; simp
    · exact ⟨⟨nat_ne _, h2⟩, nat_val _⟩
  have h3 := h1 _ rfl
  rw [exponent]
  split
  · rename_i hX
    rw [readExp]
    rw [if_pos h3.1, h3.2]
    congr 1
    rw [div_eq_mul_inv]
    congr 1
    rw [← zpow_natCast, ← zpow_neg]
    congr 1
    omega
  · rename_i hX
    rw [readExp]
    rw [if_pos h3.1, h3.2]
    congr 1
    congr 1
    rw [← zpow_natCast]
    congr 1
    omega

/-- Reading the notation with exponent. -/
theorem read_scientific (m : Nat) (X : Int) : (readAbs (scientific m X) : Option K) = some ((m : K) * 10 ^ (X - 5)) := by
  have h1 := readAbs_fraction (K := K) (m / 10 ^ 5) (padded 5 (m % 10 ^ 5)) (exponent X)
    (padded_digit _ _) (exponent_head X) (by simp [exponent])
  rw [padded_val _ _ (mod_lt' _ _), padded_length, split_val, readExp_exponent] at h1
  rw [scientific, List.append_assoc, h1]
  congr 1
  rw [zpow_sub₀ (by norm_num : (10 : K) ≠ 0), div_eq_mul_inv, mul_assoc, mul_comm ((10 : K) ^ 5)⁻¹, div_eq_mul_inv]
  norm_num

end chars

section rounding

variable {K : Type} [Field K] [LinearOrder K] [IsStrictOrderedRing K] [FloorRing K]

theorem roundEven_near {a : K} (ha : 0 ≤ a) : |(roundEven a : K) - a| ≤ 1 / 2 := by
  have h1 := Nat.floor_le ha
  have h2 := Nat.lt_floor_add_one a
  rw [roundEven]
  rw [abs_le]
  split
  · constructor <;> linarith
  · split
    · push_cast; constructor <;> linarith
    · split
      · constructor <;> linarith
      · push_cast; constructor <;> linarith

/-- The nearest integer. -/
theorem roundEven_nearest {a : K} (ha : 0 ≤ a) (k : ℤ) : |(roundEven a : K) - a| ≤ |(k : K) - a| := by
  have h1 := roundEven_near ha
  by_cases hk : k = roundEven a
  · subst hk; rw [Int.cast_natCast]
  · have h2 : (1 : K) ≤ |(k : K) - (roundEven a : K)| := by
      have : (1 : ℤ) ≤ |k - (roundEven a : ℤ)| := Int.one_le_abs (sub_ne_zero.mpr hk)
      have h3 : ((1 : ℤ) : K) ≤ ((|k - (roundEven a : ℤ)| : ℤ) : K) := Int.cast_le.mpr this
      rw [Int.cast_abs] at h3
      push_cast at h3
      exact h3
    have h4 : |(k : K) - (roundEven a : K)| ≤ |(k : K) - a| + |(roundEven a : K) - a| := by
      rw [abs_sub_comm (roundEven a : K) a]
      exact abs_sub_le _ _ _
    linarith

/-- In the middle the even number. -/
theorem roundEven_even {a : K} (ha : 0 ≤ a) (h : |(roundEven a : K) - a| = 1 / 2) : roundEven a % 2 = 0 := by
  have h1 := Nat.floor_le ha
  have h2 := Nat.lt_floor_add_one a
  rw [roundEven] at h ⊢
  split
  · rename_i h3
    rw [if_pos h3, abs_of_nonpos (by linarith)] at h
    linarith
  · rename_i h3
    rw [if_neg h3] at h
    split
    · rename_i h4
      rw [if_pos h4] at h
      push_cast at h
      rw [abs_of_nonneg (by linarith)] at h
      linarith
    · split
      · assumption
      · omega

/-- Another integer is as near only in the middle. -/
theorem roundEven_tie {a : K} (ha : 0 ≤ a) (k : ℤ) (h : |(k : K) - a| = |(roundEven a : K) - a|) (hk : k ≠ roundEven a) :
    roundEven a % 2 = 0 := by
  refine roundEven_even ha (le_antisymm (roundEven_near ha) ?_)
  have h2 : (1 : K) ≤ |(k : K) - (roundEven a : K)| := by
    have : (1 : ℤ) ≤ |k - (roundEven a : ℤ)| := Int.one_le_abs (sub_ne_zero.mpr hk)
    have h3 : ((1 : ℤ) : K) ≤ ((|k - (roundEven a : ℤ)| : ℤ) : K) := Int.cast_le.mpr this
    rw [Int.cast_abs] at h3
    push_cast at h3
    exact h3
  have h4 : |(k : K) - (roundEven a : K)| ≤ |(k : K) - a| + |(roundEven a : K) - a| := by
    rw [abs_sub_comm (roundEven a : K) a]
    exact abs_sub_le _ _ _
  linarith

theorem roundEven_le {a : K} (ha : 0 ≤ a) {n : Nat} (h : a ≤ n) : roundEven a ≤ n := by
  have h1 := roundEven_nearest ha (n : ℤ)
  rw [Int.cast_natCast, abs_of_nonneg (by linarith : (0 : K) ≤ n - a)] at h1
  have h2 := (abs_le.mp h1).2
  exact_mod_cast (by linarith : (roundEven a : K) ≤ n)

theorem le_roundEven {a : K} {n : Nat} (h : (n : K) ≤ a) : n ≤ roundEven a := by
  have ha : 0 ≤ a := le_trans (Nat.cast_nonneg n) h
  have h1 := roundEven_nearest ha (n : ℤ)
  rw [Int.cast_natCast, abs_of_nonpos (by linarith : (n : K) - a ≤ 0)] at h1
  have h2 := (abs_le.mp h1).1
  exact_mod_cast (by linarith : (n : K) ≤ roundEven a)

/-- The rounded number. -/
noncomputable def rounded (a : K) : K := (decimal a).1 * 10 ^ ((decimal a).2 - 5)

theorem scaled_bounds {a : K} (ha : 0 < a) :
    (100000 : K) ≤ a / 10 ^ (Int.log 10 a - 5) ∧ a / 10 ^ (Int.log 10 a - 5) < 1000000 := by
  have h1 : ((10 : ℕ) : K) ^ Int.log 10 a ≤ a := Int.zpow_log_le_self (by norm_num) ha
  have h2 : a < ((10 : ℕ) : K) ^ (Int.log 10 a + 1) := Int.lt_zpow_succ_log_self (by norm_num) a
  push_cast at h1 h2
  have h3 : (0 : K) < 10 ^ (Int.log 10 a - 5) := zpow_pos (by norm_num) _
  rw [le_div_iff₀ h3, div_lt_iff₀ h3]
  have h4 : (10 : K) ^ Int.log 10 a = 100000 * 10 ^ (Int.log 10 a - 5) := by
    rw [zpow_sub₀ (by norm_num : (10 : K) ≠ 0)]; norm_num; ring
  have h5 : (10 : K) ^ (Int.log 10 a + 1) = 1000000 * 10 ^ (Int.log 10 a - 5) := by
    rw [zpow_add₀ (by norm_num : (10 : K) ≠ 0), h4]; norm_num; ring
  rw [← h4, ← h5]
  exact ⟨h1, h2⟩

theorem decimal_bounds {a : K} (ha : 0 < a) : 100000 ≤ (decimal a).1 ∧ (decimal a).1 < 1000000 := by
  obtain ⟨h1, h2⟩ := scaled_bounds ha
  have h3 : 100000 ≤ roundEven (a / (10 : K) ^ (Int.log 10 a - 5)) := le_roundEven (by push_cast; exact h1)
  have h4 : roundEven (a / (10 : K) ^ (Int.log 10 a - 5)) ≤ 1000000 :=
    roundEven_le (le_trans (by norm_num) h1) (by push_cast; exact h2.le)
  rw [decimal]
  split
  · exact ⟨le_refl _, by norm_num⟩
  · exact ⟨h3, by simp only; omega⟩

theorem decimal_exp (a : K) : (decimal a).2 = Int.log 10 a ∨ (decimal a).2 = Int.log 10 a + 1 := by
  rw [decimal]
  split
  · right; rfl
  · left; rfl

theorem rounded_eq (a : K) :
    rounded a = roundEven (a / (10 : K) ^ (Int.log 10 a - 5)) * 10 ^ (Int.log 10 a - 5) := by
  rw [rounded, decimal]
  split
  · rename_i h
    rw [h, show Int.log 10 a + 1 - 5 = Int.log 10 a - 5 + 1 by ring, zpow_add_one₀ (by norm_num : (10 : K) ≠ 0)]
    push_cast; ring
  · rfl

theorem rounded_unit {a : K} (ha : 0 < a) (k : ℤ) : |rounded a - a| ≤ |(k : K) * 10 ^ (Int.log 10 a - 5) - a| := by
  have h3 : (0 : K) < 10 ^ (Int.log 10 a - 5) := zpow_pos (by norm_num) _
  have h1 := roundEven_nearest (div_pos ha h3).le k
  have h2 : ∀ y : K, |y * 10 ^ (Int.log 10 a - 5) - a| = |y - a / 10 ^ (Int.log 10 a - 5)| * 10 ^ (Int.log 10 a - 5) := by
    intro y
    rw [← abs_of_pos h3, ← abs_mul, abs_of_pos h3, sub_mul, div_mul_cancel₀ _ h3.ne']
  rw [rounded_eq, h2, h2]
  exact mul_le_mul_of_nonneg_right h1 h3.le

/-- Half a unit of the sixth digit. -/
theorem rounded_near {a : K} (ha : 0 < a) : |rounded a - a| ≤ 1 / 2 * 10 ^ (Int.log 10 a - 5) := by
  have h3 : (0 : K) < 10 ^ (Int.log 10 a - 5) := zpow_pos (by norm_num) _
  have h1 := roundEven_near (div_pos ha h3).le
  have h2 : ∀ y : K, |y * 10 ^ (Int.log 10 a - 5) - a| = |y - a / 10 ^ (Int.log 10 a - 5)| * 10 ^ (Int.log 10 a - 5) := by
    intro y
    rw [← abs_of_pos h3, ← abs_mul, abs_of_pos h3, sub_mul, div_mul_cancel₀ _ h3.ne']
  rw [rounded_eq, h2]
  exact mul_le_mul_of_nonneg_right h1 h3.le

theorem rounded_pos {a : K} (ha : 0 < a) : 0 < rounded a := by
  have h := (decimal_bounds ha).1
  rw [rounded]
  exact mul_pos (Nat.cast_pos.mpr (by omega)) (zpow_pos (by norm_num) _)

/-- No decimal number with six digits is nearer. -/
theorem rounded_nearest {a : K} (ha : 0 < a) {w : K} (hw : Short w) : |rounded a - a| ≤ |w - a| := by
  obtain ⟨k, j, hk, rfl⟩ := hw
  have h10 : (10 : K) ≠ 0 := by norm_num
  by_cases hj : Int.log 10 a - 5 ≤ j
  · have h1 := rounded_unit ha (k * 10 ^ (j - (Int.log 10 a - 5)).toNat)
    have h2 : ((k * 10 ^ (j - (Int.log 10 a - 5)).toNat : ℤ) : K) * 10 ^ (Int.log 10 a - 5) = k * 10 ^ j := by
      push_cast
      rw [mul_assoc, ← zpow_natCast, ← zpow_add₀ h10]
      congr 2
      omega
    rwa [h2] at h1
  · have h1 := rounded_unit ha 100000
    have h4 : ((100000 : ℤ) : K) * 10 ^ (Int.log 10 a - 5) = 10 ^ Int.log 10 a := by
      rw [zpow_sub₀ h10]; norm_num; ring
    rw [h4] at h1
    have h5 : ((10 : ℕ) : K) ^ Int.log 10 a ≤ a := Int.zpow_log_le_self (by norm_num) ha
    push_cast at h5
    have h6 : (k : K) * 10 ^ j ≤ 10 ^ Int.log 10 a := by
      have h7 : (k : K) ≤ 1000000 := by exact_mod_cast (le_trans (le_abs_self k) hk.le)
      have h8 : (10 : K) ^ j ≤ 10 ^ (Int.log 10 a - 6) := zpow_le_zpow_right₀ (by norm_num) (by omega)
      have h9 : (0 : K) < 10 ^ j := zpow_pos (by norm_num) _
      have h10' : (10 : K) ^ Int.log 10 a = 1000000 * 10 ^ (Int.log 10 a - 6) := by
        rw [zpow_sub₀ h10]; norm_num; ring
      rw [h10']
      nlinarith
    rw [abs_of_nonpos (by linarith : (10 : K) ^ Int.log 10 a - a ≤ 0)] at h1
    rw [abs_of_nonpos (by linarith : (k : K) * 10 ^ j - a ≤ 0)]
    linarith

theorem rounded_tie {a : K} (ha : 0 < a) {w : K} (hw : Short w) (h : |w - a| = |rounded a - a|) (hne : w ≠ rounded a) :
    ∃ (k : ℕ) (j : ℤ), rounded a = (2 * k : ℕ) * 10 ^ j ∧ 100000 ≤ 2 * k ∧ 2 * k ≤ 1000000 := by
  obtain ⟨k, j, hk, rfl⟩ := hw
  have h10 : (10 : K) ≠ 0 := by norm_num
  have h3 : (0 : K) < 10 ^ (Int.log 10 a - 5) := zpow_pos (by norm_num) _
  have hs : ∀ y : K, |y * 10 ^ (Int.log 10 a - 5) - a| = |y - a / 10 ^ (Int.log 10 a - 5)| * 10 ^ (Int.log 10 a - 5) := by
    intro y
    rw [← abs_of_pos h3, ← abs_mul, abs_of_pos h3, sub_mul, div_mul_cancel₀ _ h3.ne']
  obtain ⟨b1, b2⟩ := scaled_bounds ha
  have hb0 := (div_pos ha h3).le
  have c1 : 100000 ≤ roundEven (a / (10 : K) ^ (Int.log 10 a - 5)) := le_roundEven (by push_cast; exact b1)
  have c2 : roundEven (a / (10 : K) ^ (Int.log 10 a - 5)) ≤ 1000000 := roundEven_le hb0 (by push_cast; exact b2.le)
  have key : ∀ i : ℤ, (i : K) * 10 ^ (Int.log 10 a - 5) = k * 10 ^ j →
      ∃ (k : ℕ) (j : ℤ), rounded a = (2 * k : ℕ) * 10 ^ j ∧ 100000 ≤ 2 * k ∧ 2 * k ≤ 1000000 := by
    intro i hi
    rw [← hi] at h hne
    rw [rounded_eq, hs, hs] at h
    rw [rounded_eq] at hne ⊢
    have h5 := roundEven_tie hb0 i (mul_right_cancel₀ h3.ne' h) (fun e => hne (by rw [e, Int.cast_natCast]))
    refine ⟨roundEven (a / (10 : K) ^ (Int.log 10 a - 5)) / 2, Int.log 10 a - 5, ?_, by omega, by omega⟩
    congr 2
    omega
  by_cases hj : Int.log 10 a - 5 ≤ j
  · refine key (k * 10 ^ (j - (Int.log 10 a - 5)).toNat) ?_
    push_cast
    rw [mul_assoc, ← zpow_natCast, ← zpow_add₀ h10]
    congr 2
    omega
  · have h1 := rounded_unit ha 100000
    have h4 : ((100000 : ℤ) : K) * 10 ^ (Int.log 10 a - 5) = 10 ^ Int.log 10 a := by
      rw [zpow_sub₀ h10]; norm_num; ring
    have h5 : ((10 : ℕ) : K) ^ Int.log 10 a ≤ a := Int.zpow_log_le_self (by norm_num) ha
    push_cast at h5
    have h6 : (k : K) * 10 ^ j ≤ 10 ^ Int.log 10 a := by
      have h7 : (k : K) ≤ 1000000 := by exact_mod_cast (le_trans (le_abs_self k) hk.le)
      have h8 : (10 : K) ^ j ≤ 10 ^ (Int.log 10 a - 6) := zpow_le_zpow_right₀ (by norm_num) (by omega)
      have h9 : (0 : K) < 10 ^ j := zpow_pos (by norm_num) _
      have h10' : (10 : K) ^ Int.log 10 a = 1000000 * 10 ^ (Int.log 10 a - 6) := by
        rw [zpow_sub₀ h10]; norm_num; ring
      rw [h10']
      nlinarith
    refine key 100000 ?_
    rw [h4] at h1 ⊢
    rw [← h, abs_of_nonpos (by linarith : (10 : K) ^ Int.log 10 a - a ≤ 0),
      abs_of_nonpos (by linarith : (k : K) * 10 ^ j - a ≤ 0)] at h1
    linarith

theorem rounded_short {a : K} (ha : 0 < a) : Short (rounded a) := by
  have h := (decimal_bounds ha).2
  exact ⟨(decimal a).1, (decimal a).2 - 5, by rw [abs_of_nonneg (by omega)]; omega, by rw [rounded]; push_cast; rfl⟩

end rounding

section format

variable {K : Type} [Field K] [LinearOrder K] [IsStrictOrderedRing K] [FloorRing K]

theorem read_positive (a : K) : (readAbs (positive a) : Option K) = some (rounded a) := by
  rw [positive]
  split
  · rename_i h; rw [read_fixed _ _ (by omega)]; rfl
  · rw [read_scientific]; rfl

/-- The characters of numerals. -/
def numeric : List Char := "0123456789.e+-".toList

theorem isDigit_numeric {c : Char} (h : c.isDigit = true) : c ∈ "0123456789".toList := by
  simp only [Char.isDigit, Bool.and_eq_true, decide_eq_true_eq] at h
  have h1 : c = Char.ofNat c.toNat := (Char.ofNat_toNat c).symm
  have h2 : 48 ≤ c.toNat := h.1
  have h3 : c.toNat ≤ 57 := h.2
  rw [h1]
  generalize c.toNat = n at h2 h3
  interval_cases n <;> decide

theorem fraction_chars (l : List Char) (hl : ∀ c ∈ l, c.isDigit = true) : ∀ c ∈ fraction l, c.isDigit = true ∨ c = '.' := by
  intro c hc
  rw [fraction] at hc
  split at hc
  · simp at hc
  · rw [List.mem_cons] at hc
    rcases hc with hc | hc
    · exact Or.inr hc
    · exact Or.inl (hl c (strip_mem hc))

theorem fraction_length (l : List Char) : (fraction l).length ≤ l.length + 1 := by
  rw [fraction]
  split
  · simp
  · have := strip_length l; simp; exact this

theorem exponent_chars (X : Int) : ∀ c ∈ exponent X, c.isDigit = true ∨ c = 'e' ∨ c = '-' ∨ c = '+' := by
  intro c hc
  rw [exponent, List.mem_cons, List.mem_cons] at hc
  rcases hc with hc | hc | hc
  · exact Or.inr (Or.inl hc)
  · split at hc
    · exact Or.inr (Or.inr (Or.inl hc))
    · exact Or.inr (Or.inr (Or.inr hc))
  · left
    split at hc
    · rw [List.mem_cons] at hc
      rcases hc with hc | hc
      · rw [hc]; decide
      · exact nat_digit _ c hc
    · exact nat_digit _ c hc

theorem positive_chars (a : K) : ∀ c ∈ positive a, c.isDigit = true ∨ c = '.' ∨ c = 'e' ∨ c = '-' ∨ c = '+' := by
  intro c hc
  rw [positive] at hc
  split at hc
  · rw [fixed] at hc
    rw [List.mem_append] at hc
    rcases hc with hc | hc
    · exact Or.inl (nat_digit _ c hc)
    · rcases fraction_chars _ (padded_digit _ _) c hc with h | h
      · exact Or.inl h
      · exact Or.inr (Or.inl h)
  · rw [scientific, List.mem_append, List.mem_append] at hc
    rcases hc with (hc | hc) | hc
    · exact Or.inl (nat_digit _ c hc)
    · rcases fraction_chars _ (padded_digit _ _) c hc with h | h
      · exact Or.inl h
      · exact Or.inr (Or.inl h)
    · rcases exponent_chars _ c hc with h | h
      · exact Or.inl h
      · exact Or.inr (Or.inr h)

theorem positive_head (a : K) : ∃ c r, positive a = c :: r ∧ c.isDigit = true := by
  have h1 : ∀ n r, ∃ c r', nat n ++ r = c :: r' ∧ c.isDigit = true := by
    intro n r
    cases hn : nat n with
    | nil => exact absurd hn (nat_ne n)
    | cons c l => exact ⟨c, l ++ r, rfl, nat_digit n c (by rw [hn]; simp)⟩
  rw [positive]
  split
  · exact h1 _ _
  · rw [scientific, List.append_assoc]; exact h1 _ _

theorem nat_length {n k : Nat} (h : n < 10 ^ (k + 1)) : (nat n).length ≤ k + 1 := natAux_length _ _ _ h

theorem fixed_length {m : Nat} {X : Int} (hm : m < 1000000) (h1 : -4 ≤ X) (h2 : X < 6) : (fixed m X).length ≤ 11 := by
  have hf := fraction_length (padded (5 - X).toNat (m % 10 ^ (5 - X).toNat))
  rw [padded_length] at hf
  have hn : (nat (m / 10 ^ (5 - X).toNat)).length ≤ X.toNat + 1 := by
    apply nat_length
    obtain ⟨p, hp⟩ : ∃ p : Nat, (5 - X).toNat = p := ⟨_, rfl⟩
    obtain ⟨q, hq⟩ : ∃ q : Nat, X.toNat = q := ⟨_, rfl⟩
    rw [hp, hq]
    have h3 : p ≤ 9 := by omega
    have h4 : q = 5 - p := by omega
    subst h4
    interval_cases p <;> norm_num <;> omega
  rw [fixed, List.length_append]
  omega

theorem scientific_length {m : Nat} {X : Int} (hm : m < 1000000) (hX : X.natAbs < 1000) : (scientific m X).length ≤ 12 := by
  have hf := fraction_length (padded 5 (m % 10 ^ 5))
  rw [padded_length] at hf
  have hn : (nat (m / 10 ^ 5)).length ≤ 0 + 1 := nat_length (by norm_num; omega)
  have he : (exponent X).length ≤ 5 := by
    rw [exponent, List.length_cons, List.length_cons]
    split_ifs
    all_goals
      try
        have := nat_length (n := X.natAbs) (k := 0) (by simpa using ‹X.natAbs < 10›)
        simp only [List.length_cons]
        omega
      try
        have := nat_length (n := X.natAbs) (k := 2) (by simpa using hX)
        omega
  rw [scientific, List.length_append, List.length_append]
  omega

/-- The decimal exponent of numbers of moderate size. -/
theorem log_bound {a : K} (ha : 0 < a) {n : Nat} (h1 : (10 : K) ^ (-(n : ℤ)) ≤ a) (h2 : a < 10 ^ (n : ℤ)) :
    -(n : ℤ) ≤ Int.log 10 a ∧ Int.log 10 a < n := by
  constructor
  · rw [← Int.zpow_le_iff_le_log (by norm_num) ha]; exact_mod_cast h1
  · rw [← Int.lt_zpow_iff_log_lt (by norm_num) ha]; exact_mod_cast h2

theorem positive_length {a : K} (ha : 0 < a) (h1 : (10 : K) ^ (-999 : ℤ) ≤ a) (h2 : a < 10 ^ (999 : ℤ)) :
    (positive a).length ≤ 12 := by
  have hb := (decimal_bounds ha).2
  have hl := log_bound ha (n := 999) (by exact_mod_cast h1) (by exact_mod_cast h2)
  have he := decimal_exp a
  rw [positive]
  split
  · rename_i h
    have := fixed_length hb h.1 h.2
    omega
  · exact scientific_length hb (by omega)

/-- No leading zero. -/
theorem natAux_lead : ∀ (fuel n : Nat), n < fuel → 0 < n → (natAux fuel n).head? ≠ some '0'
  | 0, _, h, _ => absurd h (by simp)
  | fuel + 1, n, h, hn => by
    rw [natAux]
    split
    · rename_i h1
      interval_cases n <;> decide
    · rename_i h1
      have := natAux_lead fuel (n / 10) (by omega) (by omega)
      cases hq : natAux fuel (n / 10) with
      | nil => cases fuel with
        | zero => omega
        | succ f => exact absurd hq (natAux_ne _ _)
      | cons c r => rw [hq] at this; simpa using this

theorem nat_lead (n : Nat) : nat n = ['0'] ∨ (nat n).head? ≠ some '0' := by
  rcases Nat.eq_zero_or_pos n with rfl | h
  · left; rfl
  · right; exact natAux_lead _ _ (Nat.lt_succ_self n) h

theorem strip_last (l : List Char) : (strip l).getLast? ≠ some '0' := by
  rw [strip, List.getLast?_reverse]
  cases h : l.reverse.dropWhile (· == '0') with
  | nil => simp
  | cons c r =>
    intro hc
    have hc' : c = '0' := by simpa using hc
    have key : ∀ m : List Char, (m.dropWhile (· == '0')).head? ≠ some '0' := by
      intro m
      induction m with
      | nil => simp
      | cons d m ih =>
        rw [List.dropWhile_cons]
        split
        · exact ih
        · rename_i hd
          intro hh
          exact hd (by simpa using hh)
    exact key l.reverse (by rw [h, hc']; rfl)

theorem zpow_iff {m : Nat} {X : Int} (h1 : 100000 ≤ m) (h2 : m < 1000000) (k : Int) :
    (10 : K) ^ k ≤ (m : K) * 10 ^ (X - 5) ↔ k ≤ X := by
  have h10 : (10 : K) ≠ 0 := by norm_num
  have e1 : (10 : K) ^ X = 100000 * 10 ^ (X - 5) := by rw [zpow_sub₀ h10]; norm_num; ring
  have e2 : (10 : K) ^ (X + 1) = 1000000 * 10 ^ (X - 5) := by rw [zpow_add₀ h10, e1]; norm_num; ring
  have hp : (0 : K) < 10 ^ (X - 5) := zpow_pos (by norm_num) _
  have l1 : (10 : K) ^ X ≤ (m : K) * 10 ^ (X - 5) := by
    rw [e1]; exact mul_le_mul_of_nonneg_right (by exact_mod_cast h1) hp.le
  have l2 : (m : K) * 10 ^ (X - 5) < 10 ^ (X + 1) := by
    rw [e2]; exact mul_lt_mul_of_pos_right (by exact_mod_cast h2) hp
  constructor
  · intro h
    have := lt_of_le_of_lt h l2
    have := (zpow_lt_zpow_iff_right₀ (by norm_num : (1 : K) < 10)).mp this
    omega
  · intro h
    exact le_trans (zpow_le_zpow_right₀ (by norm_num) h) l1

end format

end DOA.Digits
