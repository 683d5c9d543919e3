import Verif.Lemmas.Digits
import Verif.Lemmas.Print
import Verif.Model.RealInst

/-!
# C89: printed numbers are correct to six digits
-/

namespace DOA.Props

open DOA DOA.Spec DOA.Print DOA.Digits

set_option linter.unusedSectionVars false
set_option linter.unusedSimpArgs false

section
variable {K : Type} [Field K] [LinearOrder K] [IsStrictOrderedRing K] [FloorRing K]

theorem read_plain {l : List Char} {c : Char} {r : List Char} (h : l = c :: r) (hc : c.isDigit = true) :
    (readNumber l : Option K) = readAbs l := by
  subst h
  rw [readNumber]
  intro l' hl'
  have : c = '-' := (List.cons.inj hl').1
  subst this
  exact absurd hc (by decide)

/-- The three cases of `format`. -/
theorem format_cases (x : K) : (x = 0 ∧ (readNumber (format x) : Option K) = some 0) ∨
    (0 < x ∧ (readNumber (format x) : Option K) = some (rounded x)) ∨
    (x < 0 ∧ (readNumber (format x) : Option K) = some (-rounded (-x))) := by
  rcases lt_trichotomy x 0 with h | h | h
  · right; right
    refine ⟨h, ?_⟩
    rw [format, if_neg h.ne, if_pos h, readNumber, read_positive]
    rfl
  · left
    refine ⟨h, ?_⟩
    rw [format, if_pos h]
    simp [readNumber, readAbs, readFrac, readExp, natVal, List.takeWhile_cons, List.dropWhile_cons,
      show Char.isDigit '0' = true from rfl]
  · right; left
    refine ⟨h, ?_⟩
    obtain ⟨c, r, h1, h2⟩ := positive_head x
    rw [format, if_neg h.ne', if_neg h.le.not_gt, read_plain h1 h2, read_positive]

theorem short_neg {w : K} (hw : Short w) : Short (-w) := by
  obtain ⟨k, j, hk, rfl⟩ := hw
  exact ⟨-k, j, by rwa [abs_neg], by push_cast; ring⟩

/-- C89: what is printed is a decimal numeral with at most six significant digits, and no such numeral is nearer to the
number. -/
theorem C89_nearest (x : K) : ∃ v, readNumber (format x) = some v ∧ Short v ∧ ∀ w, Short w → |v - x| ≤ |w - x| := by
  rcases format_cases x with ⟨h, e⟩ | ⟨h, e⟩ | ⟨h, e⟩
  · exact ⟨0, e, ⟨0, 0, by norm_num, by simp⟩, fun w _ => by rw [h]; simp⟩
  · exact ⟨_, e, rounded_short h, fun w hw => rounded_nearest h hw⟩
  · have h' : 0 < -x := by linarith
    refine ⟨_, e, short_neg (rounded_short h'), fun w hw => ?_⟩
    have := rounded_nearest h' (short_neg hw)
    rwa [show -rounded (-x) - x = -(rounded (-x) - -x) by ring, show w - x = -(-w - -x) by ring, abs_neg, abs_neg]

/-- C89: in the middle between two such numerals the sixth digit becomes even. -/
theorem C89_ties (x v w : K) (hv : readNumber (format x) = some v) (hw : Short w) (h : |w - x| = |v - x|) (hne : w ≠ v) :
    ∃ (k : ℕ) (j : ℤ), |v| = (2 * k : ℕ) * 10 ^ j ∧ 100000 ≤ 2 * k ∧ 2 * k ≤ 1000000 := by
  rcases format_cases x with ⟨h0, e⟩ | ⟨h0, e⟩ | ⟨h0, e⟩ <;> rw [e] at hv <;> cases hv
  · rw [h0, sub_zero, sub_zero, abs_zero] at h
    exact absurd (abs_eq_zero.mp h) hne
  · rw [abs_of_pos (rounded_pos h0)]
    exact rounded_tie h0 hw h hne
  · have h' : 0 < -x := by linarith
    rw [abs_neg, abs_of_pos (rounded_pos h')]
    refine rounded_tie h' (short_neg hw) ?_ (fun e => hne (by rw [← e, neg_neg]))
    rwa [show -rounded (-x) - x = -(rounded (-x) - -x) by ring, show w - x = -(-w - -x) by ring, abs_neg, abs_neg] at h

theorem rounded_accuracy {a : K} (ha : 0 < a) : |rounded a - a| ≤ 5 / 1000000 * a := by
  have h1 := rounded_near ha
  have h2 : ((10 : ℕ) : K) ^ Int.log 10 a ≤ a := Int.zpow_log_le_self (by norm_num) ha
  push_cast at h2
  rw [zpow_sub₀ (by norm_num : (10 : K) ≠ 0)] at h1
  have h3 : (1 / 2 : K) * (10 ^ Int.log 10 a / 10 ^ (5 : ℤ)) = 5 / 1000000 * 10 ^ Int.log 10 a := by norm_num; ring
  rw [h3] at h1
  linarith

/-- C89: the relative error is at most `5e-6`. -/
theorem C89_accuracy (x v : K) (hv : readNumber (format x) = some v) : |v - x| ≤ 5 / 1000000 * |x| := by
  rcases format_cases x with ⟨h, e⟩ | ⟨h, e⟩ | ⟨h, e⟩ <;> rw [e] at hv <;> cases hv
  · rw [h]; simp
  · rw [abs_of_pos h]; exact rounded_accuracy h
  · have h' : 0 < -x := by linarith
    have := rounded_accuracy h'
    rwa [show -rounded (-x) - x = -(rounded (-x) - -x) by ring, abs_neg, abs_of_neg h]

/-- C89: zero, positive and negative numbers are recognised as such. -/
theorem C89_sign (x v : K) (hv : readNumber (format x) = some v) : (v = 0 ↔ x = 0) ∧ (0 < v ↔ 0 < x) := by
  rcases format_cases x with ⟨h, e⟩ | ⟨h, e⟩ | ⟨h, e⟩ <;> rw [e] at hv <;> cases hv
  · simp [h]
  · have := rounded_pos h
    exact ⟨⟨fun e => absurd e this.ne', fun e => absurd e h.ne'⟩, fun _ => h, fun _ => this⟩
  · have := rounded_pos (a := -x) (by linarith)
    exact ⟨⟨fun e => by linarith, fun e => by linarith⟩, fun e => by linarith, fun e => by linarith⟩

/-- C89: numbers with at most six significant digits (all integers below a million, ...) are printed exactly. -/
theorem C89_exact (x : K) (hx : Short x) : readNumber (format x) = some x := by
  obtain ⟨v, h1, _, h3⟩ := C89_nearest x
  have := h3 x hx
  rw [sub_self, abs_zero] at this
  rw [h1, sub_eq_zero.mp (abs_eq_zero.mp (le_antisymm this (abs_nonneg _)))]

theorem short_apart {v w : K} (hv : Short v) (hw : Short w) (hne : v ≠ w) : |w| ≤ 1000001 * |v - w| := by
  obtain ⟨k, i, hk, rfl⟩ := hv
  obtain ⟨l, j, hl, rfl⟩ := hw
  have h10 : (10 : K) ≠ 0 := by norm_num
  have key : ∀ (k l i j : ℤ), i ≤ j → (k : K) * 10 ^ i ≠ l * 10 ^ j → (10 : K) ^ i ≤ |(k : K) * 10 ^ i - l * 10 ^ j| := by
    intro k l i j hij hne
    have h1 : (k : K) * 10 ^ i - l * 10 ^ j = ((k - l * 10 ^ (j - i).toNat : ℤ) : K) * 10 ^ i := by
      push_cast
      rw [sub_mul, mul_assoc (l : K), ← zpow_natCast, ← zpow_add₀ h10]
      congr 3
      omega
    have h2 : (k - l * 10 ^ (j - i).toNat : ℤ) ≠ 0 := by
      intro h
      rw [h] at h1
      exact hne (sub_eq_zero.mp (by rw [h1]; simp))
    have h3 : ((1 : ℤ) : K) ≤ ((|k - l * 10 ^ (j - i).toNat| : ℤ) : K) := Int.cast_le.mpr (Int.one_le_abs h2)
    have h4 : (0 : K) < 10 ^ i := zpow_pos (by norm_num) _
    rw [h1, abs_mul, abs_of_pos h4, ← Int.cast_abs]
    rw [Int.cast_one] at h3
    nlinarith
  have size : ∀ (k i : ℤ), |k| < 1000000 → |(k : K) * 10 ^ i| ≤ 1000000 * 10 ^ i := by
    intro k i hk
    have h4 : (0 : K) < 10 ^ i := zpow_pos (by norm_num) _
    rw [abs_mul, abs_of_pos h4, ← Int.cast_abs]
    have : ((|k| : ℤ) : K) ≤ 1000000 := by exact_mod_cast hk.le
    nlinarith
  have hsk := size k i hk
  have hsl := size l j hl
  have tri : |(l : K) * 10 ^ j| ≤ |(k : K) * 10 ^ i| + |(k : K) * 10 ^ i - l * 10 ^ j| := by
    have := abs_sub_abs_le_abs_sub ((l : K) * 10 ^ j) ((k : K) * 10 ^ i)
    rw [abs_sub_comm ((k : K) * 10 ^ i)]
    linarith
  rcases le_total i j with hij | hij
  · have := key k l i j hij hne
    linarith
  · have := key l k j i hij hne.symm
    rw [abs_sub_comm] at this
    have h0 := abs_nonneg ((k : K) * 10 ^ i - l * 10 ^ j)
    linarith

/-- C89: a `double` (or `float`) that stands for a decimal number of at most six digits is printed as that number: the
relative error of the conversion is far below `1e-7`. -/
theorem C89_literal (x w : K) (hw : Short w) (h : |x - w| ≤ |w| / 10000000) : readNumber (format x) = some w := by
  obtain ⟨v, h1, h2, h3⟩ := C89_nearest x
  rw [h1]
  congr 1
  by_contra hne
  have h4 := short_apart h2 hw hne
  have h5 := h3 w hw
  rw [abs_sub_comm w x] at h5
  have h6 : |v - w| ≤ |v - x| + |x - w| := abs_sub_le _ _ _
  have h7 := abs_nonneg w
  have h8 : |w| = 0 := by nlinarith
  have h9 : |v - w| ≤ 0 := by rw [h8] at h; linarith
  exact hne (sub_eq_zero.mp (abs_eq_zero.mp (le_antisymm h9 (abs_nonneg _))))

/-- C89: the order is preserved. -/
theorem C89_monotone (x y v w : K) (h : x ≤ y) (hv : readNumber (format x) = some v)
    (hw : readNumber (format y) = some w) : v ≤ w := by
  obtain ⟨v', h1, h2, h3⟩ := C89_nearest x
  obtain ⟨w', h4, h5, h6⟩ := C89_nearest y
  rw [h1] at hv; cases hv
  rw [h4] at hw; cases hw
  by_contra hlt
  rw [not_le] at hlt
  rcases h.eq_or_lt with rfl | hxy
  · rw [h1] at h4; cases h4; exact lt_irrefl _ hlt
  have a := abs_le.mp (h3 w h5)
  have b := abs_le.mp (h6 v h2)
  rcases abs_cases (w - x) with c | c <;> rcases abs_cases (v - y) with d | d <;>
    rw [c.1] at a <;> rw [d.1] at b <;> linarith

/-- C89: the same text means the same number up to the sixth digit. -/
theorem C89_same (x y : K) (h : format x = format y) : |x - y| ≤ 5 / 1000000 * (|x| + |y|) := by
  obtain ⟨v, h1, _⟩ := C89_nearest x
  have h2 := C89_accuracy x v h1
  rw [h] at h1
  have h3 := C89_accuracy y v h1
  have h4 : |x - y| ≤ |x - v| + |v - y| := abs_sub_le _ _ _
  rw [abs_sub_comm x v] at h4
  linarith

/-- C89: only characters of numbers are written, and at least one. -/
theorem C89_chars (x : K) : format x ≠ [] ∧ ∀ c ∈ format x, c ∈ "0123456789.e+-".toList := by
  have hp : ∀ (a : K), ∀ c ∈ positive a, c ∈ "0123456789.e+-".toList := by
    intro a c hc
    rcases positive_chars a c hc with h | h | h | h | h
    · have h1 : "0123456789.e+-".toList = "0123456789".toList ++ ".e+-".toList := by decide
      rw [h1]
      exact List.mem_append_left _ (isDigit_numeric h)
    all_goals subst h; decide
  have hn : ∀ (a : K), positive a ≠ [] := by
    intro a
    obtain ⟨c, r, h, _⟩ := positive_head a
    rw [h]; simp
  rw [format]
  split_ifs
  · exact ⟨by simp, by decide⟩
  · refine ⟨by simp, fun c hc => ?_⟩
    rw [List.mem_cons] at hc
    rcases hc with rfl | hc
    · decide
    · exact hp _ c hc
  · exact ⟨hn _, hp _⟩

/-- C89: at most 13 characters. -/
theorem C89_length (x : K) (h : x ≠ 0 → (10 : K) ^ (-999 : ℤ) ≤ |x| ∧ |x| < 10 ^ (999 : ℤ)) : (format x).length ≤ 13 := by
  rw [format]
  split_ifs with h0 h1
  · simp
  · rw [abs_of_neg h1] at h
    have := positive_length (a := -x) (by linarith) (h h0).1 (h h0).2
    simp; omega
  · have hx : 0 < x := lt_of_le_of_ne (not_lt.mp h1) (Ne.symm h0)
    rw [abs_of_pos hx] at h
    have := positive_length hx (h h0).1 (h h0).2
    omega

theorem fixed_e (m : Nat) (X : Int) : 'e' ∉ fixed m X := by
  intro h
  rw [fixed, List.mem_append] at h
  rcases h with h | h
  · exact absurd (nat_digit _ _ h) (by decide)
  · rcases fraction_chars _ (padded_digit _ _) _ h with h | h
    · exact absurd h (by decide)
    · exact absurd h (by decide)

theorem positive_e {a : K} (ha : 0 < a) : 'e' ∈ positive a ↔ rounded a < 1 / 10000 ∨ 1000000 ≤ rounded a := by
  obtain ⟨h1, h2⟩ := decimal_bounds ha
  have k1 := zpow_iff (K := K) (X := (decimal a).2) h1 h2 (-4)
  have k2 := zpow_iff (K := K) (X := (decimal a).2) h1 h2 6
  rw [← rounded] at k1 k2
  have e1 : (10 : K) ^ (-4 : ℤ) = 1 / 10000 := by norm_num
  have e2 : (10 : K) ^ (6 : ℤ) = 1000000 := by norm_num
  rw [e1] at k1
  rw [e2] at k2
  rw [k2, ← not_le, k1, positive]
  split
  · rename_i h
    refine ⟨fun h' => absurd h' (fixed_e _ _), fun h' => ?_⟩
    rcases h' with h' | h'
    · exact absurd h.1 h'
    · omega
  · rename_i h
    refine ⟨fun _ => ?_, fun _ => by simp [scientific, exponent]⟩
    omega

/-- C89: the exponent is used for numbers below `0.0001` and from a million on. -/
theorem C89_notation (x v : K) (hv : readNumber (format x) = some v) :
    'e' ∈ format x ↔ v ≠ 0 ∧ (|v| < 1 / 10000 ∨ 1000000 ≤ |v|) := by
  rcases format_cases x with ⟨h, e⟩ | ⟨h, e⟩ | ⟨h, e⟩ <;> rw [e] at hv <;> cases hv
  · rw [format, if_pos h]; simp
  · have hp := rounded_pos h
    rw [format, if_neg h.ne', if_neg h.le.not_gt, positive_e h, abs_of_pos hp]
    simp [hp.ne']
  · have h' : 0 < -x := by linarith
    have hp := rounded_pos h'
    rw [format, if_neg h.ne, if_pos h, List.mem_cons, positive_e h', abs_neg, abs_of_pos hp]
    simp [hp.ne']

/-- C89: sign, digits without leading zeros, the fraction without zeros at its end, the exponent with at least
two digits, and no more than necessary. -/
theorem C89_shape (x : K) : ∃ i f e, format x = (if x < 0 then ['-'] else []) ++ (i ++ (f ++ e)) ∧
    (i ≠ [] ∧ (∀ c ∈ i, c.isDigit = true) ∧ (i = ['0'] ∨ i.head? ≠ some '0')) ∧
    (f = [] ∨ ∃ d, f = '.' :: d ∧ d ≠ [] ∧ (∀ c ∈ d, c.isDigit = true) ∧ d.getLast? ≠ some '0') ∧
    (e = [] ∨ ∃ s d, e = 'e' :: s :: d ∧ (s = '+' ∨ s = '-') ∧ 2 ≤ d.length ∧ (d.length = 2 ∨ d.head? ≠ some '0') ∧
      ∀ c ∈ d, c.isDigit = true) := by
  have frac : ∀ l : List Char, (∀ c ∈ l, c.isDigit = true) → (fraction l = [] ∨ ∃ d, fraction l = '.' :: d ∧ d ≠ [] ∧
      (∀ c ∈ d, c.isDigit = true) ∧ d.getLast? ≠ some '0') := by
    intro l hl
    rw [fraction]
    split
    · left; rfl
    · rename_i h; exact Or.inr ⟨_, rfl, h, fun c hc => hl c (strip_mem hc), strip_last l⟩
  have expo : ∀ X : Int, (∃ s d, exponent X = 'e' :: s :: d ∧ (s = '+' ∨ s = '-') ∧ 2 ≤ d.length ∧
      (d.length = 2 ∨ d.head? ≠ some '0') ∧ ∀ c ∈ d, c.isDigit = true) := by
    intro X
    refine ⟨_, _, rfl, by split <;> simp, ?_, ?_, ?_⟩
    · split
      · have := List.length_pos_iff.mpr (nat_ne X.natAbs); simp; omega
      · rename_i h
        rw [nat, natAux, if_neg h, List.length_append, List.length_singleton]
        obtain ⟨k, hk⟩ : ∃ k, X.natAbs = k + 1 := ⟨X.natAbs - 1, by omega⟩
        rw [hk]
        have := List.length_pos_iff.mpr (natAux_ne k ((k + 1) / 10))
        omega
    · split
      · rename_i h; rw [nat, natAux, if_pos h]; left; rfl
      · rename_i h; right
        rcases nat_lead X.natAbs with h1 | h1
        · have h2 := nat_val X.natAbs
          rw [h1] at h2
          have : natVal ['0'] = 0 := by decide
          omega
        · exact h1
    · intro c hc
      split at hc
      · rw [List.mem_cons] at hc
        rcases hc with rfl | hc
        · decide
        · exact nat_digit _ c hc
      · exact nat_digit _ c hc
  have pos : ∀ a : K, ∃ i f e, positive a = i ++ (f ++ e) ∧
      (i ≠ [] ∧ (∀ c ∈ i, c.isDigit = true) ∧ (i = ['0'] ∨ i.head? ≠ some '0')) ∧
      (f = [] ∨ ∃ d, f = '.' :: d ∧ d ≠ [] ∧ (∀ c ∈ d, c.isDigit = true) ∧ d.getLast? ≠ some '0') ∧
      (e = [] ∨ ∃ s d, e = 'e' :: s :: d ∧ (s = '+' ∨ s = '-') ∧ 2 ≤ d.length ∧ (d.length = 2 ∨ d.head? ≠ some '0') ∧
      ∀ c ∈ d, c.isDigit = true) := by
    intro a
    rw [positive]
    split
    · exact ⟨_, _, [], by rw [fixed, List.append_nil], ⟨nat_ne _, nat_digit _, nat_lead _⟩, frac _ (padded_digit _ _),
        Or.inl rfl⟩
    · exact ⟨_, _, _, by rw [scientific, List.append_assoc], ⟨nat_ne _, nat_digit _, nat_lead _⟩,
        frac _ (padded_digit _ _), Or.inr (expo _)⟩
  rw [format]
  split_ifs with h0 h1 h1
  · exact absurd h0 h1.ne
  · exact ⟨['0'], [], [], rfl, ⟨by simp, by decide, Or.inl rfl⟩, Or.inl rfl, Or.inl rfl⟩
  · obtain ⟨i, f, e, h, hr⟩ := pos (-x)
    exact ⟨i, f, e, by rw [h]; rfl, hr⟩
  · obtain ⟨i, f, e, h, hr⟩ := pos x
    exact ⟨i, f, e, by rw [h]; rfl, hr⟩

/-! ### Whole texts -/

/-- Two numbers that agree to six digits. -/
def Agree (x y : K) : Prop := |x - y| ≤ 5 / 1000000 * (|x| + |y|)

/-- Two vectors that agree to six digits. -/
def AgreeV (v w : V3 K) : Prop := Agree v.x w.x ∧ Agree v.y w.y ∧ Agree v.z w.z

theorem render_append {α : Type} (f : α → List Char) (s t : Text α) : render f (s ++ t) = render f s ++ render f t := by
  simp [render]

theorem render_str {α : Type} (f : α → List Char) (s : String) : render f (str s) = s.toList := by
  simp only [render, str, List.flatMap_map]
  induction s.toList with
  | nil => rfl
  | cons c l ih => simp [ih]

theorem render_num {α : Type} (f : α → List Char) (a : α) : render f (num a) = f a := by
  simp [render, num]

theorem render_endl {α : Type} (f : α → List Char) : render f endl = ['\n'] := rfl

/-- A text ends at the first occurrence of a character that it does not contain. -/
theorem cut_char {c : Char} {l l' : List Char} : ∀ a b : List Char, c ∉ a → c ∉ b → a ++ c :: l = b ++ c :: l' →
    a = b ∧ l = l' := by
  intro a
  induction a with
  | nil =>
    intro b _ hb h
    cases b with
    | nil => exact ⟨rfl, (List.cons.inj h).2⟩
    | cons d b => exact absurd (List.cons.inj h).1 (fun e => hb (by simp [e]))
  | cons d a ih =>
    intro b ha hb h
    cases b with
    | nil => exact absurd (List.cons.inj h).1 (fun e => ha (by simp [e]))
    | cons d' b =>
      have h1 := List.cons.inj h
      have h2 := ih b (fun e => ha (by simp [e])) (fun e => hb (by simp [e])) h1.2
      exact ⟨by rw [h1.1, h2.1], h2.2⟩

/-- A number ends where a character follows that is not part of numbers. -/
theorem cut {x y : K} {c : Char} (hc : c ∉ "0123456789.e+-".toList) {l l' : List Char}
    (h : format x ++ c :: l = format y ++ c :: l') : format x = format y ∧ l = l' :=
  cut_char _ _ (fun e => hc ((C89_chars x).2 c e)) (fun e => hc ((C89_chars y).2 c e)) h

theorem triple_cut {v w : V3 K} {l l' : List Char}
    (h : render format (triple v) ++ l = render format (triple w) ++ l') : AgreeV v w ∧ l = l' := by
  simp only [triple, render_append, render_str, render_num, List.append_assoc] at h
  have h0 := List.append_cancel_left h
  obtain ⟨a, h1⟩ := cut (c := ',') (by decide) h0
  obtain ⟨b, h2⟩ := cut (c := ',') (by decide) (List.cons.inj h1).2
  obtain ⟨c, h3⟩ := cut (c := ')') (by decide) (List.cons.inj h2).2
  exact ⟨⟨C89_same _ _ a, C89_same _ _ b, C89_same _ _ c⟩, h3⟩

end

/-- Two states that agree to six digits. -/
def AgreeState (s t : State ℝ) : Prop :=
  AgreeV s.pose.position t.pose.position ∧ AgreeV s.linearVelocity t.linearVelocity ∧
    AgreeV s.angularVelocity t.angularVelocity ∧ Agree s.pose.orientation.w t.pose.orientation.w ∧
    Agree s.pose.orientation.x t.pose.orientation.x ∧ Agree s.pose.orientation.y t.pose.orientation.y ∧
    Agree s.pose.orientation.z t.pose.orientation.z

theorem state_cut {s t : State ℝ} {l l' : List Char}
    (h : render format (state s) ++ l = render format (state t) ++ l') : AgreeState s t ∧ l = l' := by
  simp only [state, pose, render_append, render_str, render_num, render_endl, List.append_assoc] at h
  have h0 := List.append_cancel_left h
  obtain ⟨a, h1⟩ := triple_cut h0
  obtain ⟨b, h2⟩ := cut (c := ',') (by decide) (List.append_cancel_left (List.append_cancel_left h1))
  obtain ⟨c, h3⟩ := cut (c := ',') (by decide) (List.cons.inj h2).2
  obtain ⟨d, h4⟩ := cut (c := ',') (by decide) (List.cons.inj h3).2
  obtain ⟨e, h5⟩ := cut (c := ')') (by decide) (List.cons.inj h4).2
  obtain ⟨_, h6⟩ := cut (c := ',') (by decide) (List.append_cancel_left h5)
  obtain ⟨_, h7⟩ := triple_cut (List.append_cancel_left (List.cons.inj h6).2)
  obtain ⟨f, h8⟩ := triple_cut (List.append_cancel_left (List.append_cancel_left h7))
  obtain ⟨g, h9⟩ := triple_cut (List.append_cancel_left (List.append_cancel_left h8))
  exact ⟨⟨a, f, g, C89_same _ _ b, C89_same _ _ c, C89_same _ _ d, C89_same _ _ e⟩, h9⟩

/-- C89: the characters written for a state determine it to six digits. -/
theorem C89_state (s t : State ℝ) (h : render format (state s) = render format (state t)) : AgreeState s t :=
  (state_cut (l := []) (l' := []) (by rw [h])).1

/-- C89: the characters written for an agent determine it to six digits. -/
theorem C89_agent (a b : Agent ℝ) (h : render format (agent a) = render format (agent b)) :
    AgreeState a.state b.state ∧ Agree a.margin b.margin := by
  simp only [agent, render_append, render_str, render_num, render_endl, List.append_assoc] at h
  obtain ⟨h1, h2⟩ := state_cut (List.append_cancel_left (List.append_cancel_left h))
  have h3 := List.append_cancel_left (List.append_cancel_left h2)
  exact ⟨h1, C89_same _ _ h3⟩

theorem row_cut {v w : V3 ℝ} {l l' : List Char}
    (h : render format (row v) ++ '\n' :: l = render format (row w) ++ '\n' :: l') : AgreeV v w ∧ l = l' := by
  simp only [row, render_append, render_str, render_num, List.append_assoc] at h
  obtain ⟨a1, h7⟩ := cut (c := ' ') (by decide) h
  obtain ⟨a2, h8⟩ := cut (c := ' ') (by decide) h7
  obtain ⟨a3, h9⟩ := cut (c := '\n') (by decide) h8
  exact ⟨⟨C89_same _ _ a1, C89_same _ _ a2, C89_same _ _ a3⟩, h9⟩

/-- What the characters written for an obstacle determine. -/
def AgreeBase (b b' : Base ℝ) : Prop :=
  b.name = b'.name ∧ AgreeState b.state b'.state ∧
    (∃ r r', b.refPos = some r ∧ b'.refPos = some r' ∧ AgreeV r r') ∧ AgreeV b.margin b'.margin

/-- The characters of `base`, the fixed texts being arbitrary. -/
theorem base_cut {T S A B : List Char} {b b' : Base ℝ} {r r' : V3 ℝ} (hn : '\n' ∉ b.name.toList)
    (hn' : '\n' ∉ b'.name.toList) (hr : b.refPos = some r) (hr' : b'.refPos = some r') {l l' : List Char}
    (h : T ++ (S ++ (b.name.toList ++ '\n' :: (render format (state b.state) ++ '\n' :: (A ++ (render format (triple r) ++
        '\n' :: (B ++ (render format (row b.margin) ++ '\n' :: l)))))))
      = T ++ (S ++ (b'.name.toList ++ '\n' :: (render format (state b'.state) ++ '\n' :: (A ++ (render format (triple r') ++
        '\n' :: (B ++ (render format (row b'.margin) ++ '\n' :: l')))))))) : AgreeBase b b' ∧ l = l' := by
  obtain ⟨h1, h2⟩ := cut_char _ _ hn hn' (List.append_cancel_left (List.append_cancel_left h))
  obtain ⟨h3, h4⟩ := state_cut h2
  obtain ⟨h5, h6⟩ := triple_cut (List.append_cancel_left (List.cons.inj h4).2)
  obtain ⟨h7, h8⟩ := row_cut (List.append_cancel_left (List.cons.inj h6).2)
  exact ⟨⟨String.toList_inj.mp h1, h3, ⟨r, r', hr, hr', h5⟩, h7⟩, h8⟩

theorem axes_cut {A B : List Char} {v v' w w' : V3 ℝ} (h : A ++ (render format (triple v) ++ '\n' :: (B ++ render format (triple w)))
    = A ++ (render format (triple v') ++ '\n' :: (B ++ render format (triple w')))) : AgreeV v v' ∧ AgreeV w w' := by
  obtain ⟨h1, h2⟩ := triple_cut (List.append_cancel_left h)
  obtain ⟨h3, _⟩ := triple_cut (v := w) (w := w') (l := []) (l' := [])
    (by rw [List.append_nil, List.append_nil]; exact List.append_cancel_left (List.cons.inj h2).2)
  exact ⟨h1, h3⟩

theorem render_line {t : Text ℝ} : render format (endl ++ t) = '\n' :: render format t := rfl

/-- The characters of an ellipsoid. -/
theorem render_ellipsoid {e : Ellipsoid ℝ} {t : Text ℝ} (ht : ellipsoid e = .ok t) : ∃ r, e.base.refPos = some r ∧
    render format t = "Ellipsoid".toList ++ (" ".toList ++ (e.base.name.toList ++ '\n' :: (render format (state e.base.state) ++
      '\n' :: ("reference position: ".toList ++ (render format (triple r) ++ '\n' :: ("safety margin: ".toList ++
      (render format (row e.base.margin) ++ '\n' :: ("axis lengths: ".toList ++ (render format (triple e.axis) ++ '\n' ::
      ("curvature factor: ".toList ++ render format (triple e.curv))))))))))) := by
  rw [ellipsoid] at ht
  obtain ⟨b, hb, ht⟩ := Res.bind_eq_ok.mp ht
  obtain ⟨r, hr, rfl⟩ := base_ok.mp hb
  cases ht
  refine ⟨r, hr, ?_⟩
  simp only [List.append_assoc, render_append, render_str, render_line, render_endl, List.cons_append, List.nil_append]

/-- C89: the characters written for an ellipsoid determine its name and, to six digits, its numbers. -/
theorem C89_ellipsoid (h h' : Heap ℝ) (e e' : Ellipsoid ℝ) (hn : '\n' ∉ e.base.name.toList) (hn' : '\n' ∉ e'.base.name.toList)
    (t t' : Text ℝ) (ht : obj h (.ellipsoid e) = .ok t) (ht' : obj h' (.ellipsoid e') = .ok t')
    (hr : render format t = render format t') :
    AgreeBase e.base e'.base ∧ AgreeV e.axis e'.axis ∧ AgreeV e.curv e'.curv := by
  obtain ⟨r, hr1, h1⟩ := render_ellipsoid (e := e) ht
  obtain ⟨r', hr1', h2⟩ := render_ellipsoid (e := e') ht'
  rw [h1, h2] at hr
  obtain ⟨h3, h4⟩ := base_cut hn hn' hr1 hr1' hr
  exact ⟨h3, axes_cut h4⟩

/-- C89: infinite values and NaN cannot be taken for numbers. -/
theorem C89_special (x : ℝ) : formatDbl (.fin x) ≠ formatDbl .pinf ∧ formatDbl (.fin x) ≠ formatDbl .ninf ∧
    formatDbl (.fin x) ≠ formatDbl .nan ∧ (readNumber (formatDbl .pinf) : Option ℝ) = none ∧
    (readNumber (formatDbl .ninf) : Option ℝ) = none ∧ (readNumber (formatDbl .nan) : Option ℝ) = none := by
  have key : ∀ l : List Char, 'n' ∈ l → format x ≠ l := by
    intro l hl h
    have := (C89_chars x).2 'n' (by rw [h]; exact hl)
    revert this; decide
  have hi : Char.isDigit 'i' = false := by decide
  have hn : Char.isDigit 'n' = false := by decide
  have e1 : "inf".toList = ['i', 'n', 'f'] := by decide
  have e2 : "-inf".toList = ['-', 'i', 'n', 'f'] := by decide
  have e3 : "nan".toList = ['n', 'a', 'n'] := by decide
  refine ⟨key _ (by decide), key _ (by decide), key _ (by decide), ?_, ?_, ?_⟩
  · rw [formatDbl, e1]
    simp [readNumber, readAbs, List.takeWhile_cons, hi]
  · rw [formatDbl, e2]
    simp [readNumber, readAbs, List.takeWhile_cons, hi]
  · rw [formatDbl, e3]
    simp [readNumber, readAbs, List.takeWhile_cons, hn]

/-! ### Concrete cases -/

/-- Both notations, rounding, ties, trailing zeros. -/
example : [0, -1, 1 / 3, 2 / 3, 123456789, 1 / 10000, 1 / 100000, 1999999 / 2, 246913 / 2, 246915 / 2, 3 / 2, 100].map
      (fun x : ℚ => String.ofList (format x)) =
    ["0", "-1", "0.333333", "0.666667", "1.23457e+08", "0.0001", "1e-05", "1e+06", "123456", "123458", "1.5", "100"] := by
  decide +kernel

/-- A tie: `123456.5` is as near to `123457`. -/
example : ∃ (k : ℕ) (j : ℤ), |(123456 : ℚ)| = (2 * k : ℕ) * 10 ^ j ∧ 100000 ≤ 2 * k ∧ 2 * k ≤ 1000000 :=
  C89_ties (246913 / 2) 123456 123457 (by decide +kernel) ⟨123457, 0, by norm_num, by norm_num⟩
    (by norm_num [abs_of_pos, abs_of_neg]) (by norm_num)

/-- The `double` for `0.1` is not `0.1`, but is printed as such. -/
example : readNumber (format (3602879701896397 / 36028797018963968 : ℚ)) = some (1 / 10 : ℚ) :=
  C89_literal _ _ ⟨1, -1, by norm_num, by norm_num⟩ (by norm_num [abs_of_pos])

/-- Different numbers may have the same text. -/
example : format (1000001 / 1000000 : ℚ) = format (1 : ℚ) := by decide +kernel

/-- A text of a state, as characters. -/
example : render (fun n : Nat => [Nat.digitChar n]) (triple ⟨1, 2, 3⟩) = "(1, 2, 3)".toList := by decide

end DOA.Props
