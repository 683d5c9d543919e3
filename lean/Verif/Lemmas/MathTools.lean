import Verif.Lemmas.Sort
import Verif.Model.RealInst

/-! Helper lemmas about the MathTools model. -/

namespace DOA.MathTools

section generic
variable {α : Type} [Add α] [Sub α] [Mul α] [Div α] [CMath α]

/-- The list `linspace` returns. -/
theorem linspace_ok (a b : α) (n : Int) (hn : 2 ≤ n) :
    ∃ l, linspace a b n = .ok l ∧ l.length = n.toNat ∧ l[0]? = some a ∧
      l[n.toNat - 1]? = some b ∧
      ∀ i : Nat, 0 < i → i + 1 < n.toNat →
        l[i]? = some (a + ofInt (i : Int) * ((b - a) / ofInt (n - 1))) := by
  unfold linspace
  rw [if_neg (by omega)]
  obtain ⟨m, rfl⟩ : ∃ m : Nat, n = (m : Int) + 2 := ⟨(n - 2).toNat, by omega⟩
  have h1 : ((m : Int) + 2).toNat = m + 2 := by omega
  have h2 : ((m : Int) + 2 - 2).toNat = m := by omega
  refine ⟨_, rfl, ?_, ?_, ?_, ?_⟩
  · simp [h1]
  · simp
  · rw [h1]; simp
  · intro i hi0 hi
    rw [h1] at hi
    obtain ⟨k, rfl⟩ : ∃ k, i = k + 1 := ⟨i - 1, by omega⟩
    have hk : k < m := by omega
    simp [List.getElem?_append, hk]

theorem linspace_throw (a b : α) (n : Int) (hn : n < 2) : linspace a b n = .throw .linspacePtr := by
  unfold linspace
  rw [if_pos hn]

omit [Add α] [Sub α] [Mul α] [Div α] [CMath α] in
theorem gridRow_ok (x : α) (ys : List α) (pre rest : List (V2 α)) (h : ys.length ≤ rest.length) :
    gridRow x ys (pre ++ rest, pre.length) =
      .ok (pre ++ ys.map (fun y => ⟨x, y⟩) ++ rest.drop ys.length, pre.length + ys.length) := by
  induction ys generalizing pre rest with
  | nil => simp [gridRow]
  | cons y ys ih =>
    cases rest with
    | nil => simp at h
    | cons r rest =>
      have h' : ys.length ≤ rest.length := by simpa using h
      unfold gridRow
      rw [if_pos (by simp)]
      have e : (pre ++ r :: rest).set pre.length (⟨x, y⟩ : V2 α) = (pre ++ [⟨x, y⟩]) ++ rest := by
        simp
      rw [e]
      have := ih (pre ++ [⟨x, y⟩]) rest h'
      simp only [List.length_append, List.length_cons, List.length_nil, Nat.zero_add] at this
      rw [this]
      simp [Nat.add_comm, Nat.add_left_comm]

omit [Add α] [Sub α] [Mul α] [Div α] [CMath α] in
theorem gridLoop_ok (ys : List α) (xs : List α) (pre rest : List (V2 α))
    (h : xs.length * ys.length ≤ rest.length) :
    gridLoop ys xs (pre ++ rest, pre.length) =
      .ok (pre ++ xs.flatMap (fun x => ys.map (fun y => ⟨x, y⟩)) ++ rest.drop (xs.length * ys.length),
        pre.length + xs.length * ys.length) := by
  induction xs generalizing pre rest with
  | nil => simp [gridLoop]
  | cons x xs ih =>
    have h1 : ys.length ≤ rest.length := by
      simp only [List.length_cons, Nat.add_mul, Nat.one_mul] at h; omega
    unfold gridLoop
    rw [gridRow_ok x ys pre rest h1, Res.ok_bind]
    have h2 : xs.length * ys.length ≤ (rest.drop ys.length).length := by
      simp only [List.length_cons, Nat.add_mul, Nat.one_mul] at h
      rw [List.length_drop]; omega
    have := ih (pre ++ ys.map (fun y => ⟨x, y⟩)) (rest.drop ys.length) h2
    simp only [List.length_append, List.length_map] at this
    rw [this]
    simp only [List.flatMap_cons, List.append_assoc, List.drop_drop, List.length_cons, Nat.add_mul,
      Nat.one_mul, Nat.add_assoc, Nat.add_comm (xs.length * ys.length)]

omit [Add α] [Sub α] [Mul α] [Div α] [CMath α] in
theorem getElem?_flatMap_const {β γ : Type} (f : β → List γ) (m : Nat) (l : List β)
    (hf : ∀ b ∈ l, (f b).length = m) (i j : Nat) (hj : j < m) :
    (l.flatMap f)[i * m + j]? = (l[i]?).bind (fun b => (f b)[j]?) := by
  induction l generalizing i with
  | nil => simp
  | cons b l ih =>
    have hb : (f b).length = m := hf b (by simp)
    rw [List.flatMap_cons, List.getElem?_append]
    cases i with
    | zero => simp [hb, hj]
    | succ i =>
      have hle : ¬ ((i + 1) * m + j < m) := by
        rw [Nat.add_mul]; omega
      rw [hb, if_neg hle]
      have e : (i + 1) * m + j - m = i * m + j := by rw [Nat.add_mul]; omega
      rw [e, ih (fun b hb => hf b (by simp [hb]))]
      simp

end generic

/-- Binary search is correct on sorted lists. -/
theorem lowerBoundLoop_spec (l : List ℝ) (v : ℝ) (hs : l.Pairwise (· ≤ ·)) :
    ∀ (fuel first count : Nat), count < fuel → first + count ≤ l.length →
      (∀ k (hk : k < l.length), k < first → l[k] < v) →
      (∀ k (hk : k < l.length), first + count ≤ k → v ≤ l[k]) →
      (lowerBoundLoop l v fuel first count ≤ l.length ∧
       (∀ k (hk : k < l.length), k < lowerBoundLoop l v fuel first count → l[k] < v) ∧
       (∀ k (hk : k < l.length), lowerBoundLoop l v fuel first count ≤ k → v ≤ l[k])) := by
  intro fuel
  induction fuel with
  | zero => intro first count h; omega
  | succ fuel ih =>
    intro first count hf hb hlow hhigh
    unfold lowerBoundLoop
    split
    · rename_i h0
      subst h0
      exact ⟨by omega, hlow, by simpa using hhigh⟩
    · rename_i h0
      have hm : first + count / 2 < l.length := by omega
      have hget : l[first + count / 2]? = some l[first + count / 2] := List.getElem?_eq_getElem hm
      simp only [hget]
      have mono : ∀ i j (hi : i < l.length) (hj : j < l.length), i ≤ j → l[i] ≤ l[j] := by
        intro i j hi hj hij
        rcases Nat.lt_or_ge i j with h | h
        · exact List.pairwise_iff_getElem.mp hs i j hi hj h
        · have : i = j := by omega
          subst this; exact le_refl _
      split
      · rename_i hlt
        apply ih
        · omega
        · omega
        · intro k hk hk2
          have : k ≤ first + count / 2 := by omega
          exact lt_of_le_of_lt (mono _ _ hk hm this) hlt
        · intro k hk hk2
          exact hhigh k hk (by omega)
      · rename_i hge
        apply ih
        · omega
        · omega
        · exact hlow
        · intro k hk hk2
          exact le_trans (not_lt.mp hge) (mono _ _ hm hk hk2)

theorem lowerBound_spec (l : List ℝ) (v : ℝ) (hs : l.Pairwise (· ≤ ·)) :
    lowerBound l v ≤ l.length ∧
       (∀ k (hk : k < l.length), k < lowerBound l v → l[k] < v) ∧
       (∀ k (hk : k < l.length), lowerBound l v ≤ k → v ≤ l[k]) :=
  lowerBoundLoop_spec l v hs _ 0 l.length (by omega) (by omega) (by intros; omega)
    (by intros; omega)

section
variable {α : Type}

theorem mapM_coord2 (A : List (V3 α)) :
    A.mapM (fun c => coord c 2) = (.ok (A.map (·.z)) : Res (List α)) := by
  induction A with
  | nil => rfl
  | cons a A ih => rw [List.mapM_cons, ih]; rfl

end

/-- `find_closest_points` on row 2 of a non-empty matrix. -/
theorem findClosest_eq {α : Type} [LT α] [DecidableLT α] (A : List (V3 α)) (p : V3 α) (hA : A ≠ []) :
    findClosestPoints A p 2 =
      .ok (lowerBound (A.map (·.z)) p.z, (lowerBound (A.map (·.z)) p.z + 1) % A.length) := by
  unfold findClosestPoints
  rw [mapM_coord2]
  have hl : A.length ≠ 0 := by simpa [List.length_eq_zero_iff] using hA
  simp only [Res.ok_bind, coord, List.length_map]
  rw [if_neg hl]

end DOA.MathTools
