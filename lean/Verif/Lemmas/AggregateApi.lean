import Verif.Lemmas.Aggregation
import Mathlib.Data.List.Sort
import Mathlib.Algebra.BigOperators.Group.List.Basic
import Mathlib.Data.String.Basic

/-! # `add_primitive`, the constructor from a list and `set_reference_position` for a client -/

set_option linter.unusedSectionVars false

namespace DOA
open DOA.Spec

variable {α : Type} [Add α] [Sub α] [Mul α] [Div α] [Neg α] [Zero α] [One α]
  [LE α] [LT α] [DecidableLE α] [DecidableLT α] [CMath α]

theorem canHold_of_mayAdd {h : Heap α} (ha : Acyclic h) {p : Ptr} {a : Aggregate α}
    (hp : h[p]? = some (.aggregate a)) {ps : List Ptr} (hps : ∀ q ∈ ps, MayAdd h p q) :
    ∃ rank, CanHold rank h p ps := by
  classical
  obtain ⟨rank, hr⟩ := exists_ranked ha
  have hpl : p < h.length := (List.getElem?_eq_some_iff.mp hp).1
  obtain ⟨rank', h1, h2⟩ := compress_rank (h := h)
    (rank := fun r => if Within h r p then rank r + (h.length + 1) else rank r) (by
      intro r q hc
      obtain ⟨hq, hlt⟩ := hr.child r q hc
      refine ⟨hq, ?_⟩
      by_cases hwq : Within h q p
      · have hwr : Within h r p := Relation.ReflTransGen.head hc hwq
        simp only [hwq, hwr, if_true]; omega
      · by_cases hwr : Within h r p <;> simp only [hwq, hwr, if_true, if_false] <;> omega)
  refine ⟨rank', h1, hpl, fun q hq => ?_⟩
  obtain ⟨hql, hqw⟩ := hps q hq
  refine ⟨hql, h2 p q hql ?_⟩
  have hpp : Within h p p := .refl
  have := hr.bound q hql
  simp only [hqw, hpp, if_true, if_false]; omega

/-- The effect of installing a list of primitives. -/
theorem installPrims_spec {h : Heap α} (ha : Acyclic h) {p : Ptr} {a : Aggregate α}
    (hp : h[p]? = some (.aggregate a)) {ps : List Ptr} (hps : ∀ q ∈ ps, MayAdd h p q) (upd : Bool)
    (hull : upd = true → AggHullsOK a) :
    ∃ h' a', h.installPrims p ps upd = .ok h' ∧ h'.length = h.length ∧ Acyclic h' ∧
      h'[p]? = some (.aggregate a') ∧ a'.prims = (canonAgg h ps a).prims ∧
      a'.base = (canonAgg h ps a).base ∧ (AggHullsOK a → AggHullsOK a') ∧
      (∀ r, r ≠ p → (∃ q ∈ ps, Within h q r) →
        h'[r]? = (h[r]?).map (·.mapBase (·.setRef (canonPos h ps)))) ∧
      (∀ r, r ≠ p → (¬ ∃ q ∈ ps, Within h q r) → h'[r]? = h[r]?) ∧
      (∀ r, Within h' p r ↔ r = p ∨ ∃ q ∈ ps, Within h q r) := by
  obtain ⟨rank, hc⟩ := canHold_of_mayAdd ha hp hps
  have hf := installPrims_false hc hp
  have hpsl : ∀ q ∈ ps, q < h.length := fun q hq => (hps q hq).1
  -- facts about any heap that agrees with `install` up to the hulls of `p`
  have gen : ∀ (h' : Heap α) (a' : Aggregate α), h'[p]? = some (.aggregate a') →
      a'.prims = (canonAgg h ps a).prims → (∀ r, r ≠ p → h'[r]? = (install h p ps a)[r]?) →
      h'.length = h.length →
      Acyclic h' ∧
      (∀ r, r ≠ p → (∃ q ∈ ps, Within h q r) →
        h'[r]? = (h[r]?).map (·.mapBase (·.setRef (canonPos h ps)))) ∧
      (∀ r, r ≠ p → (¬ ∃ q ∈ ps, Within h q r) → h'[r]? = h[r]?) ∧
      (∀ r, Within h' p r ↔ r = p ∨ ∃ q ∈ ps, Within h q r) := by
    intro h' a' hp' hpr hoth hlen
    have h1 : ∀ r, r ≠ p → (∃ q ∈ ps, Within h q r) →
        h'[r]? = (h[r]?).map (·.mapBase (·.setRef (canonPos h ps))) := by
      intro r hr hw
      rw [hoth r hr]
      unfold install
      rw [List.getElem?_set_ne (Ne.symm hr), markRef_pos (D := fun r => ∃ q ∈ ps, Within h q r) hw]
    have h2 : ∀ r, r ≠ p → (¬ ∃ q ∈ ps, Within h q r) → h'[r]? = h[r]? := by
      intro r hr hw
      rw [hoth r hr]
      unfold install
      rw [List.getElem?_set_ne (Ne.symm hr), markRef_neg (D := fun r => ∃ q ∈ ps, Within h q r) hw]
    have hchild_ne : ∀ r q, r ≠ p → (Child h' r q ↔ Child h r q) := by
      intro r q hr
      by_cases hw : ∃ q ∈ ps, Within h q r
      · unfold Child
        rw [h1 r hr hw]
        cases ho : h[r]? with
        | none => simp
        | some o => cases o <;> simp [Obj.mapBase]
      · unfold Child; rw [h2 r hr hw]
    have hchild_p : ∀ q, Child h' p q ↔ q ∈ ps := by
      intro q
      constructor
      · rintro ⟨b, hb, hq⟩
        rw [hp'] at hb; cases hb
        rw [hpr] at hq
        exact (prims_perm hpsl).mem_iff.mp hq
      · intro hq
        exact ⟨a', hp', by rw [hpr]; exact (prims_perm hpsl).mem_iff.mpr hq⟩
    have hr1 : Ranked rank h' := by
      refine ⟨?_, fun r hr => by rw [hlen] at hr ⊢; exact hc.ranked.bound r hr⟩
      intro r q hcq
      rw [hlen]
      by_cases hr : r = p
      · subst hr; exact hc.prims q ((hchild_p q).mp hcq)
      · exact hc.ranked.child r q ((hchild_ne r q hr).mp hcq)
    refine ⟨⟨rank, hr1.child⟩, h1, h2, ?_⟩
    have hwq : ∀ q, rank q < rank p → ∀ r, Within h' q r ↔ Within h q r := by
      intro q hq r
      constructor
      · intro hw
        induction hw with
        | refl => exact .refl
        | @tail b c hw1 hcc ih =>
          have hb := within_rank hr1 hw1
          exact ih.tail ((hchild_ne b c (by rintro rfl; omega)).mp hcc)
      · intro hw
        induction hw with
        | refl => exact .refl
        | @tail b c hw1 hcc ih =>
          have hb := within_rank hc.ranked hw1
          exact ih.tail ((hchild_ne b c (by rintro rfl; omega)).mpr hcc)
    intro r
    constructor
    · intro hw
      rcases Relation.ReflTransGen.cases_head hw with rfl | ⟨q, hcq, hw'⟩
      · exact Or.inl rfl
      · have hq := (hchild_p q).mp hcq
        exact Or.inr ⟨q, hq, (hwq q (hc.prims q hq).2 r).mp hw'⟩
    · rintro (rfl | ⟨q, hq, hw⟩)
      · exact .refl
      · exact Relation.ReflTransGen.head ((hchild_p q).mpr hq) ((hwq q (hc.prims q hq).2 r).mpr hw)
  have hlen0 : (install h p ps a).length = h.length := by simp [install]
  have hself : (install h p ps a)[p]? = some (.aggregate (canonAgg h ps a)) := by
    simp [install, hc.lt]
  cases upd with
  | false =>
    obtain ⟨g1, g2, g3, g4⟩ := gen _ _ hself rfl (fun _ _ => rfl) hlen0
    exact ⟨_, _, hf, hlen0, g1, hself, rfl, rfl, fun hh => hh, g2, g3, g4⟩
  | true =>
    obtain ⟨i, o, -, -, hi, ho, hup⟩ := updateHull_ok (h := install h p ps a) hself
      (fun q hq => by rw [hlen0]; exact hpsl q ((prims_perm hpsl).mem_iff.mp hq))
      (show (canonAgg h ps a).base.refPos = some (canonPos h ps) from rfl) (hull rfl)
    have htrue : h.installPrims p ps true = (install h p ps a).updateHull p := by
      unfold Heap.installPrims at hf ⊢
      simp only [Heap.deref, hp, Res.ok_bind] at hf ⊢
      cases hs : h.sortByName ps with
      | throw e => rw [hs] at hf; simp at hf
      | ub u => rw [hs] at hf; simp at hf
      | ok L =>
        rw [hs] at hf
        simp only [Res.ok_bind, Bool.false_eq_true, if_false, if_true] at hf ⊢
        obtain ⟨h2, hx, hy⟩ := Res.bind_eq_ok.mp hf
        cases hy
        rw [hx]; rfl
    refine ⟨_, { canonAgg h ps a with inside := i, outside := o }, by rw [htrue]; exact hup, by simpa using hlen0, ?_⟩
    have hself' : ((install h p ps a).set p (.aggregate { canonAgg h ps a with inside := i, outside := o }))[p]? =
        some (.aggregate { canonAgg h ps a with inside := i, outside := o }) := by
      rw [List.getElem?_set_self (by rw [hlen0]; exact hc.lt)]
    obtain ⟨g1, g2, g3, g4⟩ := gen _ _ hself' rfl
      (fun r hr => by rw [List.getElem?_set_ne (Ne.symm hr)]) (by simpa using hlen0)
    exact ⟨g1, hself', rfl, rfl, fun _ => ⟨hi, ho⟩, g2, g3, g4⟩

/-! ### Names -/

theorem aggregateName_eq (names : List String) : Heap.aggregateName names = canonicalName names := by
  have key : ∀ (l : List String) (acc : String),
      l.foldl (fun acc n => acc ++ ("_" ++ n)) acc = acc ++ String.join (l.map ("_" ++ ·)) := by
    intro l
    induction l with
    | nil => intro acc; simp [String.join]
    | cons n l ih =>
      intro acc
      rw [List.foldl_cons, ih, List.map_cons]
      have hj : ∀ (l : List String) (a : String), l.foldl (· ++ ·) a = a ++ String.join l := by
        intro l
        induction l with
        | nil => intro a; simp [String.join]
        | cons b l ih => intro a; rw [List.foldl_cons, ih]; unfold String.join; rw [List.foldl_cons, ih, ih]; simp [String.append_assoc, String.join]
      unfold String.join
      rw [List.foldl_cons, hj, hj]
      simp [String.append_assoc]
  exact key names "aggregate"

theorem info_spec {h : Heap α} {ps : List Ptr} : ∀ x ∈ info h ps,
    ∃ o, h[x.1]? = some o ∧ x.2.1 = o.name ∧ x.2.2 = o.position ∧ x.1 ∈ ps := by
  intro x hx
  unfold info at hx
  obtain ⟨q, hq, hx⟩ := List.mem_filterMap.mp hx
  cases ho : h[q]? with
  | none => rw [ho] at hx; simp at hx
  | some o => rw [ho] at hx; simp at hx; subst hx; exact ⟨o, ho, rfl, rfl, hq⟩

theorem sortedInfo_names {h : Heap α} {ps : List Ptr} :
    (sortedInfo h ps).map (·.2.1) = ((sortedInfo h ps).map (·.1)).map (nameOf h) := by
  rw [List.map_map]
  apply List.map_congr_left
  intro x hx
  obtain ⟨o, ho, h1, -, -⟩ := info_spec x ((MathTools.mem_sortBy _ _ _).mp hx)
  simp [nameOf, ho, h1]

theorem sortedInfo_sorted {h : Heap α} {ps : List Ptr} :
    ((sortedInfo h ps).map (·.1)).Pairwise fun a b => nameOf h a ≤ nameOf h b := by
  rw [List.pairwise_map]
  have := MathTools.sortBy_key_sorted (fun x : Ptr × String × V3 α => x.2.1) (info h ps)
  refine List.Pairwise.imp_of_mem ?_ this
  intro x y hx hy hxy
  obtain ⟨o, ho, h1, -, -⟩ := info_spec x ((MathTools.mem_sortBy _ _ _).mp hx)
  obtain ⟨o', ho', h1', -, -⟩ := info_spec y ((MathTools.mem_sortBy _ _ _).mp hy)
  simp only [nameOf, ho, ho', Option.map_some, Option.getD_some]
  rw [← h1, ← h1']; exact hxy

/-- The canonical aggregate does not depend on the order of the primitives if their names differ. -/
theorem sortedInfo_perm {h : Heap α} {ps qs : List Ptr} (hp : ps.Perm qs)
    (hinj : ∀ p ∈ ps, ∀ q ∈ ps, nameOf h p = nameOf h q → p = q) :
    sortedInfo h ps = sortedInfo h qs := by
  have hperm : (sortedInfo h ps).Perm (sortedInfo h qs) := by
    unfold sortedInfo
    refine (MathTools.sortBy_perm _ _).trans (List.Perm.trans ?_ (MathTools.sortBy_perm _ _).symm)
    exact hp.filterMap _
  have hs : ∀ rs : List Ptr, (sortedInfo h rs).Pairwise fun a b => a.2.1 ≤ b.2.1 := fun rs =>
    MathTools.sortBy_key_sorted (fun x : Ptr × String × V3 α => x.2.1) (info h rs)
  refine List.Perm.eq_of_pairwise ?_ (hs ps) (hs qs) hperm
  intro x y hx hy h1 h2
  have hy' := hperm.mem_iff.mpr hy
  obtain ⟨o, ho, e1, e2, e3⟩ := info_spec x ((MathTools.mem_sortBy _ _ _).mp hx)
  obtain ⟨o', ho', e1', e2', e3'⟩ := info_spec y ((MathTools.mem_sortBy _ _ _).mp hy')
  have hn : x.2.1 = y.2.1 := le_antisymm h1 h2
  have hptr : x.1 = y.1 := by
    apply hinj x.1 e3 y.1 e3'
    simp only [nameOf, ho, ho', Option.map_some, Option.getD_some]
    rw [← e1, ← e1', hn]
  have ho2 : o = o' := by
    rw [hptr] at ho; rw [ho] at ho'; exact Option.some.inj ho'
  ext1
  · exact hptr
  · ext1
    · exact hn
    · rw [e2, e2', ho2]

/-! ### Centre -/

theorem info_positions {h : Heap α} (ps : List Ptr) : (info h ps).map (·.2.2) = positions h ps := by
  unfold info positions
  rw [List.map_filterMap]
  congr 1
  funext p
  cases h[p]? <;> rfl

theorem mean_perm {l l' : List (V3 ℝ)} (hp : l.Perm l') : mean l = mean l' := by
  unfold mean
  rw [(hp.map (·.x)).sum_eq, (hp.map (·.y)).sum_eq, (hp.map (·.z)).sum_eq, hp.length_eq]

theorem foldl_add_real (l : List (V3 ℝ)) : l.foldl (fun acc v => acc + v) V3.zero =
    ⟨(l.map (·.x)).sum, (l.map (·.y)).sum, (l.map (·.z)).sum⟩ := by
  have key : ∀ (l : List (V3 ℝ)) (acc : V3 ℝ), l.foldl (fun acc v => acc + v) acc =
      ⟨acc.x + (l.map (·.x)).sum, acc.y + (l.map (·.y)).sum, acc.z + (l.map (·.z)).sum⟩ := by
    intro l
    induction l with
    | nil => intro acc; simp
    | cons v l ih =>
      intro acc
      rw [List.foldl_cons, ih]
      simp [add_assoc]
  rw [key]
  simp [V3.zero]

theorem canonPos_real (h : Heap ℝ) (ps : List Ptr) : canonPos h ps = mean (positions h ps) := by
  unfold canonPos
  rw [foldl_add_real]
  have hperm : ((sortedInfo h ps).map (·.2.2)).Perm (positions h ps) := by
    rw [← info_positions]
    exact (MathTools.sortBy_perm _ _).map _
  rw [← mean_perm hperm]
  simp [mean, V3.sdiv, MathTools.ofInt]

/-! ### Partition -/

namespace Aggregation

/-- All indices `0..m-1` and `-1` together give back all inputs. -/
theorem members_partition (obs : List Ptr) (idx : List Int) (m : Nat)
    (hlen : idx.length = obs.length) (hr : ∀ x ∈ idx, -1 ≤ x ∧ x < (m : Int)) :
    ((List.range m).flatMap (fun n : Nat => members obs idx (n : Int)) ++ members obs idx (-1)).Perm obs := by
  induction obs generalizing idx with
  | nil => simp
  | cons p obs ih =>
    cases idx with
    | nil => simp at hlen
    | cons x idx =>
      have ih' := ih idx (by simpa using hlen) (fun y hy => hr y (by simp [hy]))
      have hx := hr x (by simp)
      by_cases hx1 : x = -1
      · subst hx1
        have e : ∀ n : Nat, members (p :: obs) (-1 :: idx) (n : Int) = members obs idx n := by
          intro n; rw [members_cons, if_neg (by omega)]
        rw [show (fun n : Nat => members (p :: obs) (-1 :: idx) (n : Int)) = fun n : Nat => members obs idx (n : Int) from funext e]
        rw [members_cons, if_pos rfl]
        exact List.perm_middle.trans (ih'.cons p)
      · obtain ⟨k, rfl⟩ : ∃ k : Nat, x = k := ⟨x.toNat, by omega⟩
        have hk : k < m := by omega
        rw [members_cons, if_neg hx1]
        have key : ((List.range m).flatMap (fun n : Nat => members (p :: obs) ((k : Int) :: idx) (n : Int))).Perm
            (p :: (List.range m).flatMap (fun n : Nat => members obs idx (n : Int))) := by
          have hsplit : List.range m = List.range k ++ (k :: List.range' (k + 1) (m - k - 1)) := by
            rw [List.range_eq_range', List.range_eq_range', ← List.range'_succ]
            have := List.range'_append (s := 0) (m := k) (n := m - k - 1 + 1) (step := 1)
            simp only [one_mul, zero_add] at this
            rw [this]; congr 1; omega
          rw [hsplit]
          simp only [List.flatMap_append, List.flatMap_cons]
          have e1 : (List.range k).flatMap (fun n : Nat => members (p :: obs) ((k : Int) :: idx) (n : Int)) =
              (List.range k).flatMap (fun n : Nat => members obs idx (n : Int)) := by
            apply List.flatMap_congr
            intro n hn
            rw [members_cons, if_neg]
            simp at hn; omega
          have e2 : (List.range' (k + 1) (m - k - 1)).flatMap (fun n : Nat => members (p :: obs) ((k : Int) :: idx) (n : Int)) =
              (List.range' (k + 1) (m - k - 1)).flatMap (fun n : Nat => members obs idx (n : Int)) := by
            apply List.flatMap_congr
            intro n hn
            rw [members_cons, if_neg]
            simp [List.mem_range'] at hn; omega
          rw [e1, e2, members_cons, if_pos rfl, List.cons_append]
          exact List.perm_middle
        exact (key.append_right _).trans (ih'.cons p)

end Aggregation

end DOA
