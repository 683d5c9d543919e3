import Verif.Spec.Library
import Verif.Lemmas.Dbl
import Verif.Lemmas.Hull

/-!
# Lemmas for the contracts of the standard algorithms

Strict weak orders given by a key; the intersection points over the ideal doubles, including lines for which the slope is
infinite or NaN.
-/

set_option linter.unusedSectionVars false
set_option linter.unusedSimpArgs false

namespace DOA
open Spec Dbl

/-- a comparison of keys that lie in a linear order -/
theorem strictWeakOn_key {β γ : Type} [LinearOrder γ] {comp : β → β → Bool} {l : List β} (key : β → γ)
    (h : ∀ a ∈ l, ∀ b ∈ l, (comp a b = true ↔ key a < key b)) : StrictWeakOn comp l := by
  have h' : ∀ a ∈ l, ∀ b ∈ l, (comp a b = false ↔ key b ≤ key a) := by
    intro a ha b hb
    rw [← Bool.not_eq_true, h a ha b hb, not_lt]
  refine ⟨fun a ha => (h' a ha a ha).mpr le_rfl, ?_, ?_⟩
  · intro a ha b hb c hc h1 h2
    exact (h a ha c hc).mpr (((h a ha b hb).mp h1).trans ((h b hb c hc).mp h2))
  · intro a ha b hb c hc h1 h2 h3 h4
    exact ⟨(h' a ha c hc).mpr (((h' b hb c hc).mp h3).trans ((h' a ha b hb).mp h1)),
      (h' c hc a ha).mpr (((h' b hb a ha).mp h2).trans ((h' c hc b hb).mp h4))⟩

namespace Dbl

theorem lt_irrefl' (a : Dbl) : ¬ a < a := by
  cases a
  · rename_i r; exact fun h => lt_irrefl r ((fin_lt r r).mp h)
  all_goals exact id

theorem lt_trans' {a b c : Dbl} (h : a < b) (h' : b < c) : a < c := by
  cases a <;> cases b <;> cases c <;> first | exact h.elim | exact h'.elim | trivial | skip
  exact (fin_lt _ _).mpr (lt_trans ((fin_lt _ _).mp h) ((fin_lt _ _).mp h'))

theorem not_lt_nan (a : Dbl) : ¬ a < nan := by cases a <;> exact id

theorem not_nan_lt (a : Dbl) : ¬ nan < a := by cases a <;> exact id

/-- the numbers other than NaN are linearly ordered -/
theorem lt_total {a b : Dbl} (ha : a ≠ nan) (hb : b ≠ nan) : a < b ∨ a = b ∨ b < a := by
  cases a <;> cases b <;> first | exact absurd rfl ha | exact absurd rfl hb | skip
  · rename_i a b
    rcases lt_trichotomy a b with h | h | h
    · exact Or.inl h
    · exact Or.inr (Or.inl (by rw [h]))
    · exact Or.inr (Or.inr h)
  · exact Or.inl trivial
  · exact Or.inr (Or.inr trivial)
  · exact Or.inr (Or.inr trivial)
  · exact Or.inr (Or.inl rfl)
  · exact Or.inr (Or.inr trivial)
  · exact Or.inl trivial
  · exact Or.inl trivial
  · exact Or.inr (Or.inl rfl)

/-- an infinity or NaN -/
def NotFin (a : Dbl) : Prop := a = pinf ∨ a = ninf ∨ a = nan

theorem signed_notFin (r : ℝ) : NotFin (signed r) := by
  unfold signed NotFin
  split_ifs <;> simp

theorem notFin_mul_fin {a : Dbl} (h : NotFin a) (r : ℝ) : NotFin (a * fin r) := by
  rcases h with rfl | rfl | rfl
  · exact signed_notFin r
  · exact signed_notFin (-r)
  · exact Or.inr (Or.inr rfl)

theorem fin_sub_notFin {a : Dbl} (h : NotFin a) (r : ℝ) : NotFin (fin r - a) := by
  rcases h with rfl | rfl | rfl
  · exact Or.inr (Or.inl rfl)
  · exact Or.inl rfl
  · exact Or.inr (Or.inr rfl)

/-- the discriminant of a line with infinite or NaN coefficients is NaN -/
theorem discriminant_nan {a b : Dbl} (ha : NotFin a) (hb : NotFin b) {lx ly : ℝ} (hy : 0 < ly) :
    (fin 2 * a * b / fin ly) * (fin 2 * a * b / fin ly) -
      fin 4 * (fin lx + a * a / fin ly) * (b * b / fin ly - fin 1) = nan := by
  have h2 : signed 2 = pinf := if_pos (by norm_num)
  have h2' : signed (-2) = ninf := by simp [signed]
  have h4 : signed 4 = pinf := if_pos (by norm_num)
  have hl : signed ly = pinf := if_pos hy
  have hl' : signed (-ly) = ninf := by
    unfold signed
    rw [if_neg (by linarith), if_pos (by linarith)]
  have m1 : fin 2 * pinf = pinf := h2
  have m2 : fin 2 * ninf = ninf := h2'
  have m3 : fin 2 * nan = nan := rfl
  have m4 : fin 4 * pinf = pinf := h4
  have d1 : pinf / fin ly = pinf := (if_neg hy.ne').trans hl
  have d2 : ninf / fin ly = ninf := (if_neg hy.ne').trans hl'
  have d3 : nan / fin ly = nan := rfl
  have pp : pinf * pinf = pinf := rfl
  have pn : pinf * ninf = ninf := rfl
  have np : ninf * pinf = ninf := rfl
  have nn : ninf * ninf = pinf := rfl
  have s1 : pinf - fin 1 = pinf := rfl
  have s2 : pinf - pinf = nan := rfl
  have s3 : nan - fin 1 = nan := rfl
  have a1 : fin lx + pinf = pinf := rfl
  have a2 : fin lx + nan = nan := rfl
  have x1 : pinf * nan = nan := rfl
  have x2 : ninf * nan = nan := rfl
  have x3 : nan * nan = nan := rfl
  have x4 : nan * pinf = nan := rfl
  have x5 : nan * ninf = nan := rfl
  have x6 : fin 4 * nan = nan := rfl
  have x7 : ∀ c : Dbl, nan - c = nan := fun c => by cases c <;> rfl
  rcases ha with rfl | rfl | rfl <;> rcases hb with rfl | rfl | rfl <;>
    simp only [m1, m2, m3, m4, d1, d2, d3, pp, pn, np, nn, s1, s2, s3, a1, a2, x1, x2, x3, x4, x5, x6, x7]

end Dbl

/-- A line along the y axis of the ellipsoid (infinite or NaN slope) has no intersection points. -/
theorem Ellipsoid.toD_intersection_vertical {e : Ellipsoid ℝ} (hx : (e.axis + e.base.margin).x ≠ 0)
    (hy : (e.axis + e.base.margin).y ≠ 0) {x1 x2 : V3 ℝ}
    (hv : (e.base.pose.inverse.apply x1).x = (e.base.pose.inverse.apply x2).x) :
    (e.toD.intersectionPoints x1.toD x2.toD).1 = false := by
  have hx2 := mul_ne_zero hx hx
  have hy2 := mul_ne_zero hy hy
  have px2 : 0 < (e.axis + e.base.margin).x * (e.axis + e.base.margin).x := mul_self_pos.mpr hx
  have py2 : 0 < (e.axis + e.base.margin).y * (e.axis + e.base.margin).y := mul_self_pos.mpr hy
  simp only [Ellipsoid.intersectionPoints, toD_base, toD_axis, Base.toD_pose, Base.toD_margin,
    Pose.toD_inverse, Pose.toD_apply, V3.toD_add, V3.toD_x, V3.toD_y, fin_mul, fin_sub, one_def,
    fin_div hx2, fin_add, lit_def, zero_def, hv, sub_self]
  set lx := (e.axis + e.base.margin).x
  set ly := (e.axis + e.base.margin).y
  rw [fin_div_zero]
  generalize (e.base.pose.inverse.apply x2).x = u
  have ha := signed_notFin ((e.base.pose.inverse.apply x2).y - (e.base.pose.inverse.apply x1).y)
  generalize signed ((e.base.pose.inverse.apply x2).y - (e.base.pose.inverse.apply x1).y) = a at ha ⊢
  generalize (e.base.pose.inverse.apply x1).y = w
  have hb := fin_sub_notFin (notFin_mul_fin ha u) w
  generalize fin w - a * fin u = b at hb ⊢
  have h := discriminant_nan ha hb (lx := 1 / (lx * lx)) py2
  have e2 : ((2 : Int) : ℝ) / ((1 : Nat) : ℝ) = 2 := by norm_num
  have e4 : ((4 : Int) : ℝ) / ((1 : Nat) : ℝ) = 4 := by norm_num
  simp only [e2, e4, h]
  rw [if_neg (show ¬ fin 0 ≤ nan from id)]

end DOA
