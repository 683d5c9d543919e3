/-!
# What the standard library requires of its callers

`std::sort(begin, end, comp)`: `comp` is a strict weak ordering on the elements of the range ([alg.sorting.general] 3-4);
`std::lower_bound(begin, end, v)`: the range is partitioned with respect to `e < v` ([lower.bound]).  Without these the
behaviour is undefined.
-/

namespace DOA.Spec

/-- `comp` is a strict weak ordering on the elements of `l`: irreflexive and transitive, and "neither before the other" is
transitive. -/
structure StrictWeakOn {β : Type} (comp : β → β → Bool) (l : List β) : Prop where
  irrefl : ∀ a ∈ l, comp a a = false
  trans : ∀ a ∈ l, ∀ b ∈ l, ∀ c ∈ l, comp a b = true → comp b c = true → comp a c = true
  incomp : ∀ a ∈ l, ∀ b ∈ l, ∀ c ∈ l, comp a b = false → comp b a = false → comp b c = false → comp c b = false →
    comp a c = false ∧ comp c a = false

/-- the elements `< v` come first -/
def PartitionedAt {α : Type} [LT α] (l : List α) (v : α) : Prop :=
  ∃ k : Nat, (∀ i a, i < k → l[i]? = some a → a < v) ∧ (∀ i a, k ≤ i → l[i]? = some a → ¬ a < v)

end DOA.Spec
