import Verif.Model.MathTools
import Mathlib.Data.List.Perm.Basic
import Mathlib.Order.Defs.LinearOrder

/-! Facts about the insertion sort that models `std::sort`. -/

namespace DOA.MathTools

theorem insertBy_perm {β : Type} (lt : β → β → Bool) (b : β) (l : List β) :
    (insertBy lt b l).Perm (b :: l) := by
  induction l with
  | nil => exact List.Perm.refl _
  | cons c l ih =>
    unfold insertBy
    split
    · exact (List.Perm.cons c ih).trans (List.Perm.swap b c l)
    · exact List.Perm.refl _

theorem sortBy_perm {β : Type} (lt : β → β → Bool) (l : List β) : (sortBy lt l).Perm l := by
  induction l with
  | nil => exact List.Perm.refl _
  | cons b l ih => exact (insertBy_perm lt b _).trans (List.Perm.cons b ih)

@[simp] theorem mem_sortBy {β : Type} (lt : β → β → Bool) (l : List β) (b : β) :
    b ∈ sortBy lt l ↔ b ∈ l := (sortBy_perm lt l).mem_iff

@[simp] theorem length_sortBy {β : Type} (lt : β → β → Bool) (l : List β) :
    (sortBy lt l).length = l.length := (sortBy_perm lt l).length_eq

/-- The result is sorted whenever the comparison is the strict part of a total preorder. -/
theorem insertBy_sorted {β : Type} (lt : β → β → Bool) (le : β → β → Prop)
    (h1 : ∀ a b, lt a b = true → le a b) (h2 : ∀ a b, lt a b = false → le b a)
    (tr : ∀ a b c, le a b → le b c → le a c) (b : β) (l : List β) (hl : l.Pairwise le) :
    (insertBy lt b l).Pairwise le := by
  induction l with
  | nil => simp [insertBy]
  | cons c l ih =>
    rw [List.pairwise_cons] at hl
    unfold insertBy
    split
    · rename_i hc
      rw [List.pairwise_cons]
      refine ⟨fun x hx => ?_, ih hl.2⟩
      rw [(insertBy_perm lt b l).mem_iff, List.mem_cons] at hx
      rcases hx with rfl | hx
      · exact h1 _ _ hc
      · exact hl.1 x hx
    · rename_i hc
      have hbc : le b c := h2 c b (by simpa using hc)
      rw [List.pairwise_cons]
      refine ⟨fun x hx => ?_, List.pairwise_cons.mpr hl⟩
      rw [List.mem_cons] at hx
      rcases hx with rfl | hx
      · exact hbc
      · exact tr _ _ _ hbc (hl.1 x hx)

theorem sortBy_sorted {β : Type} (lt : β → β → Bool) (le : β → β → Prop)
    (h1 : ∀ a b, lt a b = true → le a b) (h2 : ∀ a b, lt a b = false → le b a)
    (tr : ∀ a b c, le a b → le b c → le a c) (l : List β) :
    (sortBy lt l).Pairwise le := by
  induction l with
  | nil => simp [sortBy]
  | cons b l ih => exact insertBy_sorted lt le h1 h2 tr b _ ih

/-- Sorting by a key in a linear order. -/
theorem sortBy_key_sorted {β κ : Type} [LinearOrder κ] (key : β → κ) (l : List β) :
    (sortBy (fun a b => decide (key a < key b)) l).Pairwise (fun a b => key a ≤ key b) := by
  apply sortBy_sorted
  · intro a b h; simp only [decide_eq_true_eq] at h; exact le_of_lt h
  · intro a b h; simp only [decide_eq_false_iff_not, not_lt] at h; exact h
  · intro a b c; exact le_trans

/-- Descending sort by a key. -/
theorem sortBy_key_sorted_desc {β κ : Type} [LinearOrder κ] (key : β → κ) (l : List β) :
    (sortBy (fun a b => decide (key b < key a)) l).Pairwise (fun a b => key b ≤ key a) := by
  apply sortBy_sorted
  · intro a b h; simp only [decide_eq_true_eq] at h; exact le_of_lt h
  · intro a b h; simp only [decide_eq_false_iff_not, not_lt] at h; exact h
  · intro a b c h1 h2; exact le_trans h2 h1

end DOA.MathTools
