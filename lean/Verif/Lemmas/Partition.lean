import Mathlib.Logic.Relation
import Mathlib.Data.List.Perm.Basic
import Mathlib.Tactic.Tauto
import Verif.Model.Environment

/-! # The index vector of `aggregate_obstacles` as a partition -/

namespace DOA.Aggregation

/-- The obstacles with index `n`. -/
def members (obs : List Ptr) (idx : List Int) (n : Int) : List Ptr :=
  ((obs.zip idx).filter (fun x => decide (x.2 = n))).map (·.1)

/-- `aggregate_indexes[k]`, `-1` outside. -/
def gi (idx : List Int) (k : Nat) : Int := (idx[k]?).getD (-1)

/-- Same aggregate. -/
def Same (g : Nat → Int) (x y : Nat) : Prop := x = y ∨ (g x = g y ∧ g x ≠ -1)

theorem Same.refl (g : Nat → Int) (x : Nat) : Same g x x := Or.inl rfl
theorem Same.symm {g : Nat → Int} {x y : Nat} (h : Same g x y) : Same g y x := by
  rcases h with rfl | ⟨h1, h2⟩
  · exact .inl rfl
  · exact .inr ⟨h1.symm, h1 ▸ h2⟩
theorem Same.trans {g : Nat → Int} {x y z : Nat} (h : Same g x y) (h' : Same g y z) : Same g x z := by
  rcases h with rfl | ⟨h1, h2⟩
  · exact h'
  · rcases h' with rfl | ⟨h3, h4⟩
    · exact .inr ⟨h1, h2⟩
    · exact .inr ⟨h1.trans h3, h2⟩

/-- Adding one pair to a relation joins two classes. -/
theorem eqvGen_join {β : Type} {E E' : β → β → Prop} {i j : β}
    (hE : ∀ x y, E' x y ↔ E x y ∨ (x = i ∧ y = j)) (x y : β) :
    Relation.EqvGen E' x y ↔ Relation.EqvGen E x y ∨
      (Relation.EqvGen E x i ∧ Relation.EqvGen E j y) ∨
      (Relation.EqvGen E x j ∧ Relation.EqvGen E i y) := by
  have mono : ∀ {a b}, Relation.EqvGen E a b → Relation.EqvGen E' a b := by
    intro a b h
    induction h with
    | rel a b h => exact .rel a b ((hE a b).mpr (.inl h))
    | refl a => exact .refl a
    | symm a b _ ih => exact .symm a b ih
    | trans a b c _ _ ih1 ih2 => exact .trans a b c ih1 ih2
  have hij : Relation.EqvGen E' i j := .rel i j ((hE i j).mpr (.inr ⟨rfl, rfl⟩))
  constructor
  · intro h
    induction h with
    | rel a b h =>
      rcases (hE a b).mp h with h | ⟨rfl, rfl⟩
      · exact .inl (.rel a b h)
      · exact .inr (.inl ⟨.refl _, .refl _⟩)
    | refl a => exact .inl (.refl a)
    | symm a b _ ih =>
      rcases ih with h | ⟨h1, h2⟩ | ⟨h1, h2⟩
      · exact .inl (.symm _ _ h)
      · exact .inr (.inr ⟨.symm _ _ h2, .symm _ _ h1⟩)
      · exact .inr (.inl ⟨.symm _ _ h2, .symm _ _ h1⟩)
    | trans a b c _ _ ih1 ih2 =>
      rcases ih1 with h | ⟨h1, h2⟩ | ⟨h1, h2⟩ <;> rcases ih2 with k | ⟨k1, k2⟩ | ⟨k1, k2⟩
      · exact .inl (.trans _ _ _ h k)
      · exact .inr (.inl ⟨.trans _ _ _ h k1, k2⟩)
      · exact .inr (.inr ⟨.trans _ _ _ h k1, k2⟩)
      · exact .inr (.inl ⟨h1, .trans _ _ _ h2 k⟩)
      · exact .inr (.inl ⟨h1, k2⟩)
      · exact .inl (.trans _ _ _ h1 k2)
      · exact .inr (.inr ⟨h1, .trans _ _ _ h2 k⟩)
      · exact .inl (.trans _ _ _ h1 k2)
      · exact .inr (.inr ⟨h1, k2⟩)
  · rintro (h | ⟨h1, h2⟩ | ⟨h1, h2⟩)
    · exact mono h
    · exact .trans _ _ _ (mono h1) (.trans _ _ _ hij (mono h2))
    · exact .trans _ _ _ (mono h1) (.trans _ _ _ (.symm _ _ hij) (mono h2))

/-- The effect on `Same` of joining the classes of `i` and `j`. -/
def Joins (g g' : Nat → Int) (i j : Nat) : Prop :=
  ∀ x y, Same g' x y ↔ Same g x y ∨ (Same g x i ∧ Same g j y) ∨ (Same g x j ∧ Same g i y)

theorem joins_id {g : Nat → Int} {i j : Nat} (h : Same g i j) : Joins g g i j := by
  intro x y
  constructor
  · exact .inl
  · rintro (h1 | ⟨h1, h2⟩ | ⟨h1, h2⟩)
    · exact h1
    · exact h1.trans (h.trans h2)
    · exact h1.trans (h.symm.trans h2)

theorem joins_extend {g : Nat → Int} {i j : Nat} (hi : g i ≠ -1) (hj : g j = -1) :
    Joins g (fun k => if k = j then g i else g k) i j := by
  intro x y
  unfold Same
  by_cases hx : x = j <;> by_cases hy : y = j <;> simp only [hx, hy, if_true, if_false]
  · simp
  · subst hx
    simp only [hj]
    constructor
    · rintro (h | ⟨h1, h2⟩)
      · exact absurd h.symm hy
      · exact .inr (.inr ⟨.inl trivial, .inr ⟨h1, h2⟩⟩)
    · rintro ((h | h) | ⟨h1, h2 | h2⟩ | ⟨-, h2 | h2⟩)
      · exact absurd h.symm hy
      · exact absurd rfl h.2
      · exact absurd h2.symm hy
      · exact absurd rfl h2.2
      · exact .inr ⟨congrArg g h2, hi⟩
      · exact .inr h2
  · subst hy
    constructor
    · rintro (h | ⟨h1, h2⟩)
      · exact absurd h (by tauto)
      · exact .inr (.inl ⟨.inr ⟨h1, h2⟩, .inl trivial⟩)
    · rintro ((h | h) | ⟨h1 | h1, -⟩ | ⟨h1 | h1, -⟩)
      · exact absurd h (by tauto)
      · exact absurd (h.1.trans hj) h.2
      · subst h1; exact .inr ⟨rfl, hi⟩
      · exact .inr h1
      · exact absurd h1 (by tauto)
      · exact absurd (h1.1.trans hj) h1.2
  · constructor
    · exact .inl
    · rintro (h | ⟨h1, h2 | h2⟩ | ⟨h1 | h1, h2⟩)
      · exact h
      · exact absurd h2.symm hy
      · exact absurd hj h2.2
      · exact absurd h1 (by tauto)
      · exact absurd (h1.1.trans hj) h1.2

theorem Joins.swap {g g' : Nat → Int} {i j : Nat} (h : Joins g g' i j) : Joins g g' j i := by
  intro x y; rw [h x y]; tauto

theorem joins_new {g : Nat → Int} {i j : Nat} (hi : g i = -1) (hj : g j = -1) {c : Int}
    (hc : c ≠ -1) (hnew : ∀ k, g k ≠ c) :
    Joins g (fun k => if k = j then c else if k = i then c else g k) i j := by
  intro x y
  have hs : ∀ z, Same g i z ↔ z = i := fun z => by
    constructor
    · rintro (h | h)
      · exact h.symm
      · exact absurd hi h.2
    · rintro rfl; exact .inl rfl
  have hs' : ∀ z, Same g j z ↔ z = j := fun z => by
    constructor
    · rintro (h | h)
      · exact h.symm
      · exact absurd hj h.2
    · rintro rfl; exact .inl rfl
  have e1 : ∀ z, Same g z i ↔ z = i := fun z => ⟨fun h => (hs z).mp h.symm, fun h => ((hs z).mpr h).symm⟩
  have e2 : ∀ z, Same g z j ↔ z = j := fun z => ⟨fun h => (hs' z).mp h.symm, fun h => ((hs' z).mpr h).symm⟩
  rw [e1, e2, hs, hs']
  by_cases hxi : x = i
  · subst hxi
    rw [hs]
    by_cases hyi : y = x
    · subst hyi; simp [Same]
    · by_cases hyj : y = j
      · subst hyj; simp [Same, Ne.symm hyi, hc]
      · have := (hnew y).symm
        by_cases hxj : x = j
        · subst hxj; simp [Same, hyi, Ne.symm hyi, this]
        · simp [Same, hyi, Ne.symm hyi, hyj, this]
  · by_cases hxj : x = j
    · subst hxj
      rw [hs']
      by_cases hyj : y = x
      · subst hyj; simp [Same]
      · by_cases hyi : y = i
        · subst hyi; simp [Same, Ne.symm hyj, hc]
        · have := (hnew y).symm
          simp [Same, hyi, hyj, Ne.symm hyj, this]
    · by_cases hyi : y = i
      · subst hyi
        rw [e1]
        simp [Same, hxi, hxj, hnew x]
      · by_cases hyj : y = j
        · subst hyj
          rw [e2]
          simp [Same, hxi, hxj, hnew x]
        · simp [Same, hxi, hxj, hyi, hyj]

/-- Renumbering of the merge loop. -/
def renum (oldI newI x : Int) : Int := if x = oldI then newI else if oldI < x then x - 1 else x

theorem renum_neg {oldI newI : Int} (h0 : -1 < newI) (h1 : newI < oldI) (x : Int) :
    renum oldI newI x = -1 ↔ x = -1 := by
  unfold renum; split <;> [skip; split] <;> omega

theorem renum_eq {oldI newI : Int} (h1 : newI < oldI) (x y : Int) :
    renum oldI newI x = renum oldI newI y ↔
      x = y ∨ (x = oldI ∧ y = newI) ∨ (x = newI ∧ y = oldI) := by
  unfold renum; split <;> split <;> try split
  all_goals try split
  all_goals omega

theorem joins_merge {g : Nat → Int} {i j : Nat} {oldI newI : Int} (h0 : -1 < newI) (h1 : newI < oldI)
    (hg : ∀ k, -1 ≤ g k) (hij : (g i = oldI ∧ g j = newI) ∨ (g i = newI ∧ g j = oldI)) :
    Joins g (fun k => renum oldI newI (g k)) i j := by
  intro x y
  have hx := hg x
  have hy := hg y
  unfold Same
  simp only [renum_eq h1, ne_eq, renum_neg h0 h1]
  constructor
  · rintro (rfl | ⟨h | ⟨ha, hb⟩ | ⟨ha, hb⟩, h'⟩)
    · exact .inl (.inl rfl)
    · exact .inl (.inr ⟨h, h'⟩)
    · rcases hij with ⟨hi, hj⟩ | ⟨hi, hj⟩
      · exact .inr (.inl ⟨.inr ⟨by omega, by omega⟩, .inr ⟨by omega, by omega⟩⟩)
      · exact .inr (.inr ⟨.inr ⟨by omega, by omega⟩, .inr ⟨by omega, by omega⟩⟩)
    · rcases hij with ⟨hi, hj⟩ | ⟨hi, hj⟩
      · exact .inr (.inr ⟨.inr ⟨by omega, by omega⟩, .inr ⟨by omega, by omega⟩⟩)
      · exact .inr (.inl ⟨.inr ⟨by omega, by omega⟩, .inr ⟨by omega, by omega⟩⟩)
  · have hgi : g i ≠ -1 := by omega
    have hgj : g j ≠ -1 := by omega
    rintro ((h | h) | ⟨ha, hb⟩ | ⟨ha, hb⟩)
    · exact .inl h
    · exact .inr ⟨.inl h.1, h.2⟩
    · have ha' : g x = g i := by
        rcases ha with rfl | ha
        · rfl
        · exact ha.1
      have hb' : g j = g y := by
        rcases hb with rfl | hb
        · rfl
        · exact hb.1
      exact .inr ⟨by omega, by omega⟩
    · have ha' : g x = g j := by
        rcases ha with rfl | ha
        · rfl
        · exact ha.1
      have hb' : g i = g y := by
        rcases hb with rfl | hb
        · rfl
        · exact hb.1
      exact .inr ⟨by omega, by omega⟩

theorem gi_set {idx : List Int} {j : Nat} (hj : j < idx.length) (x : Int) :
    gi (idx.set j x) = fun k => if k = j then x else gi idx k := by
  funext k
  unfold gi
  by_cases hk : k = j
  · subst hk; simp [hj]
  · simp [hk, Ne.symm hk]

theorem gi_map {idx : List Int} (f : Int → Int) (hf : f (-1) = -1) :
    gi (idx.map f) = fun k => f (gi idx k) := by
  funext k
  unfold gi
  rw [List.getElem?_map]
  cases idx[k]? with
  | none => simp [hf]
  | some x => rfl

theorem gi_eq {idx : List Int} {k : Nat} {x : Int} (h : idx[k]? = some x) : gi idx k = x := by
  simp [gi, h]

/-! ### Members -/

theorem members_cons (p : Ptr) (obs : List Ptr) (x : Int) (idx : List Int) (n : Int) :
    members (p :: obs) (x :: idx) n = if x = n then p :: members obs idx n else members obs idx n := by
  unfold members
  by_cases h : x = n <;> simp [h]

@[simp] theorem members_nil (idx : List Int) (n : Int) : members [] idx n = [] := by simp [members]
@[simp] theorem members_nil' (obs : List Ptr) (n : Int) : members obs [] n = [] := by simp [members]

theorem mem_members {obs : List Ptr} {idx : List Int} {n : Int} {p : Ptr} :
    p ∈ members obs idx n ↔ ∃ k : Nat, obs[k]? = some p ∧ idx[k]? = some n := by
  induction obs generalizing idx with
  | nil => simp
  | cons q obs ih =>
    cases idx with
    | nil => simp
    | cons x idx =>
      rw [members_cons]
      have : (∃ k : Nat, (q :: obs)[k]? = some p ∧ (x :: idx)[k]? = some n) ↔
          (q = p ∧ x = n) ∨ ∃ k : Nat, obs[k]? = some p ∧ idx[k]? = some n := by
        constructor
        · rintro ⟨k, h1, h2⟩
          cases k with
          | zero => simp at h1 h2; exact .inl ⟨h1, h2⟩
          | succ k => simp at h1 h2; exact .inr ⟨k, h1, h2⟩
        · rintro (⟨rfl, rfl⟩ | ⟨k, h1, h2⟩)
          · exact ⟨0, by simp, by simp⟩
          · exact ⟨k + 1, by simpa using h1, by simpa using h2⟩
      rw [this]
      by_cases h : x = n
      · simp [h, ih, eq_comm]
      · simp [h, ih]

theorem members_set_same {obs : List Ptr} {idx : List Int} {j : Nat} {p : Ptr} {y x : Int}
    (hp : obs[j]? = some p) (hy : idx[j]? = some y) (hne : y ≠ x) :
    (members obs (idx.set j x) x).Perm (p :: members obs idx x) := by
  induction obs generalizing idx j with
  | nil => simp at hp
  | cons q obs ih =>
    cases idx with
    | nil => simp at hy
    | cons z idx =>
      cases j with
      | zero =>
        simp at hp hy; subst hp hy
        simp [members_cons, hne]
      | succ j =>
        simp at hp hy
        rw [List.set_cons_succ, members_cons, members_cons]
        split
        · exact ((ih hp hy).cons q).trans (List.Perm.swap p q _)
        · exact ih hp hy

theorem members_set_other {obs : List Ptr} {idx : List Int} {j : Nat} {y x n : Int}
    (hy : idx[j]? = some y) (hne : y ≠ n) (hx : x ≠ n) :
    members obs (idx.set j x) n = members obs idx n := by
  induction obs generalizing idx j with
  | nil => simp
  | cons q obs ih =>
    cases idx with
    | nil => simp
    | cons z idx =>
      cases j with
      | zero =>
        simp at hy; subst hy
        simp [members_cons, hne, hx]
      | succ j =>
        simp at hy
        rw [List.set_cons_succ, members_cons, members_cons, ih hy]

theorem members_map_one {obs : List Ptr} {idx : List Int} {f : Int → Int} {n m : Int}
    (hf : ∀ x ∈ idx, (f x = n ↔ x = m)) : members obs (idx.map f) n = members obs idx m := by
  induction obs generalizing idx with
  | nil => simp
  | cons q obs ih =>
    cases idx with
    | nil => simp
    | cons z idx =>
      rw [List.map_cons, members_cons, members_cons, ih (fun x hx => hf x (by simp [hx]))]
      simp only [hf z (by simp)]

theorem members_map_two {obs : List Ptr} {idx : List Int} {f : Int → Int} {n m m' : Int}
    (hne : m ≠ m') (hf : ∀ x ∈ idx, (f x = n ↔ x = m ∨ x = m')) :
    (members obs (idx.map f) n).Perm (members obs idx m ++ members obs idx m') := by
  induction obs generalizing idx with
  | nil => simp
  | cons q obs ih =>
    cases idx with
    | nil => simp
    | cons z idx =>
      rw [List.map_cons, members_cons, members_cons, members_cons]
      have ih := ih (idx := idx) (fun x hx => hf x (by simp [hx]))
      have hz := hf z (by simp)
      by_cases h1 : z = m
      · have h2 : z ≠ m' := fun h => hne (h1.symm.trans h)
        rw [if_pos (hz.mpr (.inl h1)), if_pos h1, if_neg h2]
        exact ih.cons q
      · by_cases h2 : z = m'
        · rw [if_pos (hz.mpr (.inr h2)), if_neg h1, if_pos h2]
          exact (ih.cons q).trans List.perm_middle.symm
        · rw [if_neg (by rw [hz]; tauto), if_neg h1, if_neg h2]
          exact ih

theorem remaining_eq (obs : List Ptr) (idx : List Int) : remaining obs idx = members obs idx (-1) := rfl

end DOA.Aggregation
