import Mathlib.Data.String.Basic
import Verif.Spec.Env

/-! # Lemmas about the sorted association list that models `std::map` -/

namespace DOA.Env

/-- Strictly increasing keys. -/
def SortedKeys (m : List (String × Ptr)) : Prop := m.Pairwise (fun a b => a.1 < b.1)

theorem find_none_of_lt {m : List (String × Ptr)} {k : String} (h : ∀ e ∈ m, k < e.1) :
    find m k = none := by
  induction m with
  | nil => rfl
  | cons e m ih =>
    have he : e.1 ≠ k := fun hk => absurd (h e (by simp)) (by rw [hk]; exact lt_irrefl _)
    simp only [find, if_neg he]
    exact ih fun x hx => h x (by simp [hx])

theorem find_eq_some_iff {m : List (String × Ptr)} (hm : SortedKeys m) {k : String} {p : Ptr} :
    find m k = some p ↔ (k, p) ∈ m := by
  induction m with
  | nil => simp [find]
  | cons e m ih =>
    obtain ⟨hlt, hm'⟩ := List.pairwise_cons.mp hm
    obtain ⟨k', p'⟩ := e
    by_cases hk : k' = k
    · subst hk
      simp only [find, if_true, List.mem_cons, Prod.mk.injEq, Option.some.injEq]
      constructor
      · rintro rfl; simp
      · rintro (⟨-, rfl⟩ | hmem)
        · rfl
        · exact absurd (hlt _ hmem) (lt_irrefl _)
    · simp only [find, if_neg hk, List.mem_cons, Prod.mk.injEq, ih hm']
      constructor
      · intro h; exact Or.inr h
      · rintro (⟨rfl, -⟩ | h)
        · exact absurd rfl hk
        · exact h

theorem mem_insert_iff {m : List (String × Ptr)} {k : String} {p : Ptr} {e : String × Ptr} :
    e ∈ insert m k p ↔ e = (k, p) ∨ e ∈ m := by
  induction m with
  | nil => simp [insert]
  | cons x m ih =>
    obtain ⟨k', p'⟩ := x
    by_cases hk : k < k'
    · simp [insert, hk]
    · simp only [insert, if_neg hk, List.mem_cons, ih]; tauto

theorem insert_sorted {m : List (String × Ptr)} (hm : SortedKeys m) {k : String} {p : Ptr}
    (hk : find m k = none) : SortedKeys (insert m k p) := by
  induction m with
  | nil => simp [insert, SortedKeys]
  | cons x m ih =>
    obtain ⟨hlt, hm'⟩ := List.pairwise_cons.mp hm
    obtain ⟨k', p'⟩ := x
    by_cases hkk : k < k'
    · simp only [insert, if_pos hkk]
      refine List.pairwise_cons.mpr ⟨?_, hm⟩
      intro e he
      rcases List.mem_cons.mp he with rfl | he
      · exact hkk
      · exact lt_trans hkk (hlt _ he)
    · have hne : k' ≠ k := by
        rintro rfl; simp [find] at hk
      simp only [find, if_neg hne] at hk
      simp only [insert, if_neg hkk]
      refine List.pairwise_cons.mpr ⟨?_, ih hm' hk⟩
      intro e he
      rcases mem_insert_iff.mp he with rfl | he
      · exact lt_of_le_of_ne (not_lt.mp hkk) hne
      · exact hlt _ he

theorem find_insert {m : List (String × Ptr)} (hm : SortedKeys m) {k : String} {p : Ptr}
    (hk : find m k = none) (k' : String) :
    find (insert m k p) k' = if k' = k then some p else find m k' := by
  have hs := insert_sorted hm (p := p) hk
  ext q
  rw [find_eq_some_iff hs, mem_insert_iff]
  by_cases h : k' = k
  · subst h
    simp only [Prod.mk.injEq, true_and, if_true, Option.some.injEq]
    rw [← find_eq_some_iff hm, hk]
    simp [eq_comm]
  · simp [h, find_eq_some_iff hm]

theorem erase_sublist (m : List (String × Ptr)) (k : String) : (erase m k).Sublist m := by
  induction m with
  | nil => simp [erase]
  | cons x m ih =>
    obtain ⟨k', p'⟩ := x
    by_cases hk : k' = k
    · simp [erase, hk]
    · simp only [erase, if_neg hk]; exact ih.cons_cons _

theorem erase_sorted {m : List (String × Ptr)} (hm : SortedKeys m) (k : String) :
    SortedKeys (erase m k) := List.Pairwise.sublist (erase_sublist m k) hm

theorem find_erase {m : List (String × Ptr)} (hm : SortedKeys m) (k k' : String) :
    find (erase m k) k' = if k' = k then none else find m k' := by
  induction m with
  | nil => simp [erase, find]
  | cons x m ih =>
    obtain ⟨hlt, hm'⟩ := List.pairwise_cons.mp hm
    obtain ⟨k₀, p'⟩ := x
    by_cases hk : k₀ = k
    · subst hk
      simp only [erase, if_true]
      by_cases h : k' = k₀
      · subst h
        simp only [if_true]
        exact find_none_of_lt hlt
      · simp only [if_neg h, find, if_neg (Ne.symm h)]
    · simp only [erase, if_neg hk, find]
      by_cases h : k₀ = k'
      · subst h; simp [hk]
      · simp only [if_neg h]; exact ih hm'

theorem replace_sorted {m : List (String × Ptr)} (hm : SortedKeys m) (k : String) (p : Ptr) :
    SortedKeys (replace m k p) := by
  unfold SortedKeys replace
  rw [List.pairwise_map]
  refine hm.imp ?_
  intro a b hab
  split <;> split <;> exact hab

theorem find_replace (m : List (String × Ptr)) (k : String) (p : Ptr) (k' : String) :
    find (replace m k p) k' = if k' = k ∧ (find m k').isSome then some p else find m k' := by
  induction m with
  | nil => simp [replace, find]
  | cons x m ih =>
    obtain ⟨k₀, p'⟩ := x
    simp only [replace, List.map_cons] at ih ⊢
    by_cases hk : k₀ = k
    · subst hk
      simp only [if_true, find]
      by_cases h : k₀ = k'
      · subst h; simp
      · simp only [if_neg h]; exact ih
    · simp only [if_neg hk, find]
      by_cases h : k₀ = k'
      · subst h; simp [hk]
      · simp only [if_neg h]; exact ih

end DOA.Env
