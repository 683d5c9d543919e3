import Verif.Model.RealInst

/-!
# Ideal doubles

`double` without rounding and without a largest value, but with infinities and NaN: `fin r` for a real number `r`, `pinf`,
`ninf`, `nan`.  Arithmetic, comparisons and `<cmath>` follow IEEE 754 / C (Annex F), except that there is only one zero:
`x / 0` has the sign of `x`, as for `+0` in C.

With this instance of the generic model, theorems about exceptional values (division by zero, `0/0`, infinities) are
about what the C++ program does, not about the totalised functions of `ℝ`.
-/

namespace DOA

inductive Dbl where
  | fin (r : ℝ)
  | pinf
  | ninf
  | nan

namespace Dbl

instance : Inhabited Dbl := ⟨nan⟩

noncomputable section
open Classical

def neg : Dbl → Dbl
  | fin r => fin (-r)
  | pinf => ninf
  | ninf => pinf
  | nan => nan

def add : Dbl → Dbl → Dbl
  | fin a, fin b => fin (a + b)
  | nan, _ => nan
  | _, nan => nan
  | pinf, ninf => nan
  | ninf, pinf => nan
  | pinf, _ => pinf
  | ninf, _ => ninf
  | fin _, pinf => pinf
  | fin _, ninf => ninf

/-- an infinity with the sign of `r`; NaN for zero (used for `∞ * r`). -/
def signed (r : ℝ) : Dbl := if 0 < r then pinf else if r < 0 then ninf else nan

def mul : Dbl → Dbl → Dbl
  | fin a, fin b => fin (a * b)
  | nan, _ => nan
  | _, nan => nan
  | pinf, fin b => signed b
  | ninf, fin b => signed (-b)
  | fin a, pinf => signed a
  | fin a, ninf => signed (-a)
  | pinf, pinf => pinf
  | pinf, ninf => ninf
  | ninf, pinf => ninf
  | ninf, ninf => pinf

def div : Dbl → Dbl → Dbl
  | fin a, fin b => if b = 0 then signed a else fin (a / b)
  | nan, _ => nan
  | _, nan => nan
  | pinf, fin b => if b = 0 then pinf else signed b
  | ninf, fin b => if b = 0 then ninf else signed (-b)
  | fin _, pinf => fin 0
  | fin _, ninf => fin 0
  | _, _ => nan

def lt : Dbl → Dbl → Prop
  | fin a, fin b => a < b
  | fin _, pinf => True
  | ninf, fin _ => True
  | ninf, pinf => True
  | _, _ => False

def le : Dbl → Dbl → Prop
  | fin a, fin b => a ≤ b
  | fin _, pinf => True
  | ninf, fin _ => True
  | ninf, pinf => True
  | pinf, pinf => True
  | ninf, ninf => True
  | _, _ => False

instance : Zero Dbl := ⟨fin 0⟩
instance : One Dbl := ⟨fin 1⟩
instance : Neg Dbl := ⟨neg⟩
instance : Add Dbl := ⟨add⟩
instance : Sub Dbl := ⟨fun a b => add a (neg b)⟩
instance : Mul Dbl := ⟨mul⟩
instance : Div Dbl := ⟨div⟩
instance : LT Dbl := ⟨lt⟩
instance : LE Dbl := ⟨le⟩
instance : DecidableLT Dbl := fun a b => propDecidable (a < b)
instance : DecidableLE Dbl := fun a b => propDecidable (a ≤ b)

/-- `sqrt` -/
def sqrt : Dbl → Dbl
  | fin r => if r < 0 then nan else fin (Real.sqrt r)
  | pinf => pinf
  | ninf => nan
  | nan => nan

/-- lift of a function defined on all reals, NaN at the infinities (`sin`, `cos`) -/
def lift (f : ℝ → ℝ) : Dbl → Dbl
  | fin r => fin (f r)
  | _ => nan

def acos : Dbl → Dbl
  | fin r => if -1 ≤ r ∧ r ≤ 1 then fin (Real.arccos r) else nan
  | _ => nan

def exp : Dbl → Dbl
  | fin r => fin (Real.exp r)
  | pinf => pinf
  | ninf => fin 0
  | nan => nan

/-- `atan2 y x` -/
def atan2 : Dbl → Dbl → Dbl
  | fin y, fin x => fin (Complex.arg ⟨x, y⟩)
  | nan, _ => nan
  | _, nan => nan
  | fin _, pinf => fin 0
  | fin y, ninf => if y < 0 then fin (-Real.pi) else fin Real.pi
  | pinf, fin _ => fin (Real.pi / 2)
  | ninf, fin _ => fin (-(Real.pi / 2))
  | pinf, pinf => fin (Real.pi / 4)
  | pinf, ninf => fin (3 * Real.pi / 4)
  | ninf, pinf => fin (-(Real.pi / 4))
  | ninf, ninf => fin (-(3 * Real.pi / 4))

/-- `r` is an odd integer -/
def oddInt (r : ℝ) : Prop := ∃ k : ℤ, r = 2 * k + 1

/-- `pow x y` (C17, F.10.4.4) -/
def pow (x y : Dbl) : Dbl :=
  match y with
  | fin b =>
    if b = 0 then fin 1
    else match x with
      | fin a =>
        if a = 1 then fin 1
        else if a = 0 then (if 0 < b then fin 0 else pinf)
        else if 0 < a then fin (a ^ b)
        else if ∃ n : ℤ, b = n then fin (a ^ b)
        else nan
      | pinf => if 0 < b then pinf else fin 0
      | ninf => if 0 < b then (if oddInt b then ninf else pinf) else fin 0
      | nan => nan
  | pinf => match x with
    | fin a => if |a| = 1 then fin 1 else if 1 < |a| then pinf else fin 0
    | pinf => pinf
    | ninf => pinf
    | nan => nan
  | ninf => match x with
    | fin a => if |a| = 1 then fin 1 else if 1 < |a| then fin 0 else pinf
    | pinf => fin 0
    | ninf => fin 0
    | nan => nan
  | nan => if x = fin 1 then fin 1 else nan

instance : CMath Dbl where
  sqrt := sqrt
  sin := lift Real.sin
  cos := lift Real.cos
  acos := acos
  exp := exp
  atan2 := atan2
  pow := pow
  pi := fin Real.pi
  lit m n := fin ((m : ℝ) / (n : ℝ))
  isNaN
    | nan => true
    | _ => false

end

/-! ### finite values behave like reals -/

@[simp] theorem zero_def : (0 : Dbl) = fin 0 := rfl
@[simp] theorem one_def : (1 : Dbl) = fin 1 := rfl
@[simp] theorem fin_add (a b : ℝ) : fin a + fin b = fin (a + b) := rfl
@[simp] theorem fin_sub (a b : ℝ) : fin a - fin b = fin (a - b) := by
  show fin (a + -b) = _; rw [sub_eq_add_neg]
@[simp] theorem fin_mul (a b : ℝ) : fin a * fin b = fin (a * b) := rfl
@[simp] theorem fin_neg (a : ℝ) : -fin a = fin (-a) := rfl
theorem fin_div {a b : ℝ} (h : b ≠ 0) : fin a / fin b = fin (a / b) := if_neg h
theorem fin_div_zero (a : ℝ) : fin a / fin 0 = signed a := if_pos rfl
@[simp] theorem fin_lt (a b : ℝ) : fin a < fin b ↔ a < b := Iff.rfl
@[simp] theorem fin_le (a b : ℝ) : fin a ≤ fin b ↔ a ≤ b := Iff.rfl
theorem fin_sqrt {a : ℝ} (h : 0 ≤ a) : CMath.sqrt (fin a) = fin (Real.sqrt a) := if_neg (not_lt.mpr h)
@[simp] theorem fin_sin (a : ℝ) : CMath.sin (fin a) = fin (Real.sin a) := rfl
@[simp] theorem fin_cos (a : ℝ) : CMath.cos (fin a) = fin (Real.cos a) := rfl
@[simp] theorem fin_exp (a : ℝ) : CMath.exp (fin a) = fin (Real.exp a) := rfl
theorem fin_acos {a : ℝ} (h1 : -1 ≤ a) (h2 : a ≤ 1) : CMath.acos (fin a) = fin (Real.arccos a) := if_pos ⟨h1, h2⟩
@[simp] theorem fin_atan2 (a b : ℝ) : CMath.atan2 (fin a) (fin b) = fin (Complex.arg ⟨b, a⟩) := rfl
@[simp] theorem pi_def : (CMath.pi : Dbl) = fin Real.pi := rfl
@[simp] theorem lit_def (m : Int) (n : Nat) : (lit m n : Dbl) = fin ((m : ℝ) / (n : ℝ)) := rfl
@[simp] theorem isNaN_fin (a : ℝ) : CMath.isNaN (fin a) = false := rfl
@[simp] theorem isNaN_nan : CMath.isNaN nan = true := rfl
@[simp] theorem isNaN_pinf : CMath.isNaN pinf = false := rfl
@[simp] theorem isNaN_ninf : CMath.isNaN ninf = false := rfl

/-- powers with a natural exponent -/
theorem fin_pow_nat (a : ℝ) (n : ℕ) : CMath.pow (fin a) (fin n) = fin (a ^ n) := by
  show pow (fin a) (fin n) = _
  unfold pow
  simp only
  split
  · rename_i h
    have : n = 0 := by exact_mod_cast h
    subst this; simp
  · rename_i h
    have hn : n ≠ 0 := by intro hh; exact h (by rw [hh]; simp)
    split
    · rename_i h1; rw [h1]; simp
    · split
      · rename_i h0
        rw [if_pos (by exact_mod_cast Nat.pos_of_ne_zero hn), h0, zero_pow hn]
      · split
        · rw [Real.rpow_natCast]
        · rw [if_pos ⟨(n : ℤ), by simp⟩, Real.rpow_natCast]

/-- powers of a positive base -/
theorem fin_pow_pos {a : ℝ} (ha : 0 < a) (b : ℝ) : CMath.pow (fin a) (fin b) = fin (a ^ b) := by
  show pow (fin a) (fin b) = _
  unfold pow
  simp only
  split
  · rename_i h; rw [h]; simp
  · split
    · rename_i h1; rw [h1]; simp
    · simp [ha.ne']

end Dbl
end DOA
