import Verif.Model.Ownership
import Verif.Lemmas.Heap
import Verif.Lemmas.EnvMap
import Verif.Lemmas.Combine
import Verif.Props.Aggregation

/-! # Lemmas about ownership -/

set_option linter.unusedSectionVars false

namespace DOA
open DOA.Spec

variable {α : Type}

theorem child_iff_owned (h : Heap α) (p q : Ptr) : Child h p q ↔ q ∈ h.owned p := by
  unfold Child Heap.owned
  cases ho : h[p]? with
  | none => simp
  | some o => cases o <;> simp [Obj.owned]

theorem child_congr {h h' : Heap α} (ho : ∀ p, h'.owned p = h.owned p) : Child h' = Child h := by
  funext p q
  rw [child_iff_owned, child_iff_owned, ho]

theorem owned_eq_nil {h : Heap α} {p : Ptr} (hp : h.length ≤ p) : h.owned p = [] := by
  simp [Heap.owned, List.getElem?_eq_none hp]

theorem owned_append_lt (h l : Heap α) {p : Ptr} (hp : p < h.length) : (h ++ l : Heap α).owned p = h.owned p := by
  simp only [Heap.owned]
  rw [List.getElem?_append_left hp]

theorem owned_append_self (h : Heap α) (o : Obj α) : (h ++ [o] : Heap α).owned h.length = o.owned := by
  simp [Heap.owned]

theorem owned_set_same {h : Heap α} {p : Ptr} {o : Obj α} (ho : o.owned = h.owned p) (r : Ptr) :
    Heap.owned (h.set p o) r = h.owned r := by
  unfold Heap.owned
  by_cases hr : p = r
  · subst hr
    by_cases hp : p < h.length
    · rw [List.getElem?_set_self hp]
      simpa [Heap.owned] using ho
    · rw [List.getElem?_eq_none (by simpa using hp), List.getElem?_eq_none (by simpa using hp)]
  · rw [List.getElem?_set_ne hr]

theorem owned_set_ne {h : Heap α} {p r : Ptr} {o : Obj α} (hr : r ≠ p) :
    Heap.owned (h.set p o) r = h.owned r := by
  unfold Heap.owned
  rw [List.getElem?_set_ne (Ne.symm hr)]

theorem owned_set_self {h : Heap α} {p : Ptr} {o : Obj α} (hp : p < h.length) :
    Heap.owned (h.set p o) p = o.owned := by
  unfold Heap.owned
  rw [List.getElem?_set_self hp]

theorem owned_mapBase (o : Obj α) (f : Base α → Base α) : (o.mapBase f).owned = o.owned := by
  cases o <;> rfl

theorem deref_ok {h : Heap α} {p : Ptr} {o : Obj α} : h.deref p = .ok o ↔ h[p]? = some o := by
  unfold Heap.deref
  cases h[p]? <;> simp

/-- A path of `n` steps down from `p`. -/
def Chain (h : Heap α) : Nat → Ptr → Prop
  | 0, _ => True
  | n + 1, p => ∃ q ∈ h.owned p, Chain h n q

theorem chain_congr {h h' : Heap α} (ho : ∀ p, h'.owned p = h.owned p) (n : Nat) :
    ∀ p, Chain h' n p ↔ Chain h n p := by
  induction n with
  | zero => intro p; simp [Chain]
  | succ n ih => intro p; simp only [Chain, ho, ih]

/-- A cycle through `p` gives paths of all lengths. -/
theorem chain_of_within {h : Heap α} {p q : Ptr} (hw : Within h p q) :
    ∀ n, Chain h n q → Chain h n p := by
  intro n hn
  have key : ∀ n, ∀ {r : Ptr}, Chain h (n + 1) r → Chain h n r := by
    intro n
    induction n with
    | zero => intro r _; trivial
    | succ n ih => rintro r ⟨s, hs, hc⟩; exact ⟨s, hs, ih hc⟩
  induction hw using Relation.ReflTransGen.head_induction_on with
  | refl => exact hn
  | head hc _ ih =>
    rename_i a b _
    exact key n ⟨b, (child_iff_owned h a b).mp hc, ih⟩

theorem chain_of_cycle {h : Heap α} {p q : Ptr} (hc : q ∈ h.owned p) (hw : Within h q p) :
    ∀ n, Chain h n p := by
  intro n
  induction n with
  | zero => trivial
  | succ n ih => exact ⟨q, hc, chain_of_within hw n ih⟩

section
variable [Add α] [Sub α] [Mul α] [Div α] [Neg α] [Zero α] [One α]
  [LE α] [LT α] [DecidableLE α] [DecidableLT α] [CMath α]

/-- A recursion over primitives that comes to its end has not run around a cycle; it moves no
pointer. -/
theorem setRefAux_inv (v : V3 α) (fuel : Nat) : ∀ (h h' : Heap α) (p : Ptr),
    Heap.setRefAux fuel h p v = .ok h' →
      h'.length = h.length ∧ (∀ r, h'.owned r = h.owned r) ∧ ¬ Chain h fuel p := by
  induction fuel with
  | zero => intro h h' p hrun; simp [Heap.setRefAux] at hrun
  | succ fuel ih =>
    intro h h' p hrun
    have loop : ∀ (qs : List Ptr) (h1 h2 : Heap α),
        qs.foldlM (fun h q => Heap.setRefAux fuel h q v) h1 = .ok h2 →
        h2.length = h1.length ∧ (∀ r, h2.owned r = h1.owned r) ∧ ∀ q ∈ qs, ¬ Chain h1 fuel q := by
      intro qs
      induction qs with
      | nil => intro h1 h2 he; simp at he; subst he; simp
      | cons q qs ihq =>
        intro h1 h2 he
        rw [List.foldlM_cons, Res.bind_eq_ok] at he
        obtain ⟨h3, h31, h32⟩ := he
        obtain ⟨a1, a2, a3⟩ := ih _ _ _ h31
        obtain ⟨b1, b2, b3⟩ := ihq _ _ h32
        refine ⟨b1.trans a1, fun r => (b2 r).trans (a2 r), ?_⟩
        intro q' hq'
        rcases List.mem_cons.mp hq' with rfl | hq'
        · exact a3
        · rw [← chain_congr a2]; exact b3 q' hq'
    simp only [Heap.setRefAux] at hrun
    rw [Res.bind_eq_ok] at hrun
    obtain ⟨o, ho, hrun⟩ := hrun
    rw [deref_ok] at ho
    have hset : ∀ r, Heap.owned (h.set p (o.mapBase (·.setRef v))) r = h.owned r :=
      owned_set_same (by rw [owned_mapBase]; simp [Heap.owned, ho])
    have hown : h.owned p = o.owned := by simp [Heap.owned, ho]
    cases o with
    | aggregate a =>
      obtain ⟨a1, a2, a3⟩ := loop _ _ _ hrun
      refine ⟨by simpa using a1, fun r => (a2 r).trans (hset r), ?_⟩
      rintro ⟨q, hq, hc⟩
      rw [hown] at hq
      exact a3 q hq ((chain_congr hset fuel q).mpr hc)
    | plain b => cases hrun; exact ⟨by simp, hset, by simp [Chain, hown, Obj.owned]⟩
    | ellipsoid b => cases hrun; exact ⟨by simp, hset, by simp [Chain, hown, Obj.owned]⟩
    | hull b => cases hrun; exact ⟨by simp, hset, by simp [Chain, hown, Obj.owned]⟩

/-- When no pointer dangles, the recursion ends or runs forever. -/
theorem setRefAux_cases (v : V3 α) (fuel : Nat) : ∀ (h : Heap α) (p : Ptr), p < h.length →
    (∀ r s, s ∈ h.owned r → s < h.length) →
    (∃ h', Heap.setRefAux fuel h p v = .ok h') ∨ Heap.setRefAux fuel h p v = .ub .recursion := by
  induction fuel with
  | zero => intro h p _ _; right; rfl
  | succ fuel ih =>
    intro h p hp hcl
    have loop : ∀ (qs : List Ptr) (h1 : Heap α), (∀ q ∈ qs, q < h1.length) →
        (∀ r s, s ∈ h1.owned r → s < h1.length) →
        (∃ h2, qs.foldlM (fun h q => Heap.setRefAux fuel h q v) h1 = .ok h2) ∨
        qs.foldlM (fun h q => Heap.setRefAux fuel h q v) h1 = .ub .recursion := by
      intro qs
      induction qs with
      | nil => intro h1 _ _; left; exact ⟨h1, rfl⟩
      | cons q qs ihq =>
        intro h1 hq hc
        rw [List.foldlM_cons]
        rcases ih h1 q (hq q (by simp)) hc with ⟨h2, h2e⟩ | hu
        · obtain ⟨a1, a2, -⟩ := setRefAux_inv v fuel _ _ _ h2e
          rw [h2e, Res.ok_bind]
          exact ihq h2 (fun x hx => a1 ▸ hq x (by simp [hx])) fun r s hs => by
            rw [a2] at hs; exact a1 ▸ hc r s hs
        · right; rw [hu]; rfl
    have ho : h[p]? = some h[p] := List.getElem?_eq_getElem hp
    have hd : h.deref p = .ok h[p] := deref_ok.mpr ho
    have hown : h.owned p = (h[p]).owned := by simp [Heap.owned, ho]
    have hset : ∀ r, Heap.owned (h.set p ((h[p]).mapBase (·.setRef v))) r = h.owned r :=
      owned_set_same (by rw [owned_mapBase, hown])
    simp only [Heap.setRefAux, hd, Res.ok_bind]
    generalize h[p] = o at *
    cases o with
    | aggregate a =>
      exact loop _ _ (fun q hq => by simpa using hcl p q (by rw [hown]; exact hq))
        fun r s hs => by rw [hset] at hs; simpa using hcl r s hs
    | plain b => left; exact ⟨_, rfl⟩
    | ellipsoid b => left; exact ⟨_, rfl⟩
    | hull b => left; exact ⟨_, rfl⟩

theorem updateHull_inv {h h' : Heap α} {p : Ptr} (hrun : h.updateHull p = .ok h') :
    h'.length = h.length ∧ ∀ r, h'.owned r = h.owned r := by
  unfold Heap.updateHull at hrun
  rw [Res.bind_eq_ok] at hrun
  obtain ⟨o, ho, hrun⟩ := hrun
  rw [deref_ok] at ho
  cases o with
  | aggregate a =>
    simp only [Res.bind_eq_ok] at hrun
    obtain ⟨_, _, _, _, i, _, u, _, hrun⟩ := hrun
    cases hrun
    exact ⟨by simp, owned_set_same (by simp [Heap.owned, ho, Obj.owned])⟩
  | plain b => cases hrun
  | ellipsoid b => cases hrun
  | hull b => cases hrun

theorem mapM_exists {β γ : Type} (f : β → Res γ) (l : List β) (h : ∀ x ∈ l, ∃ c, f x = .ok c) :
    ∃ r, l.mapM f = .ok r := by
  induction l with
  | nil => exact ⟨[], rfl⟩
  | cons x l ih =>
    obtain ⟨c, hc⟩ := h x (by simp)
    obtain ⟨r, hr⟩ := ih fun y hy => h y (by simp [hy])
    exact ⟨c :: r, by rw [List.mapM_cons, hc, Res.ok_bind, hr]; rfl⟩

theorem sortByName_inv {h : Heap α} {ps : List Ptr} {s : List (Ptr × Obj α)}
    (hrun : h.sortByName ps = .ok s) : (s.map (·.1)).Perm ps ∧ ∀ q ∈ ps, q < h.length := by
  unfold Heap.sortByName at hrun
  rw [Res.bind_eq_ok] at hrun
  obtain ⟨os, hos, hrun⟩ := hrun
  cases hrun
  rw [Modulation.mapM_ok] at hos
  have h1 : os.map (·.1) = ps ∧ ∀ q ∈ ps, q < h.length := by
    induction hos with
    | nil => simp
    | cons hab _ ih =>
      rw [Res.bind_eq_ok] at hab
      obtain ⟨o, ho, hab⟩ := hab
      cases hab
      rw [deref_ok] at ho
      have := (List.getElem?_eq_some_iff.mp ho).1
      simp [ih.1, this]
      exact ih.2
  refine ⟨?_, h1.2⟩
  rw [← h1.1]
  exact (MathTools.sortBy_perm _ _).map _

/-- What `add_primitive` does to pointers, whenever it returns. -/
theorem addPrimitive_inv {h h' : Heap α} {p q : Ptr} {u : Bool} (hrun : h.addPrimitive p q u = .ok h') :
    h'.length = h.length ∧ p < h.length ∧ q < h.length ∧ (h'.owned p).Perm (h.owned p ++ [q]) ∧
      (∀ r, r ≠ p → h'.owned r = h.owned r) ∧ ∃ n, ¬ Chain h' n p := by
  unfold Heap.addPrimitive at hrun
  rw [Res.bind_eq_ok] at hrun
  obtain ⟨o, ho, hrun⟩ := hrun
  have hp' := deref_ok.mp ho
  have hp := (List.getElem?_eq_some_iff.mp hp').1
  cases o with
  | aggregate a =>
    simp only [Heap.installPrims] at hrun
    rw [ho, Res.ok_bind, Res.bind_eq_ok] at hrun
    obtain ⟨s, hs, hrun⟩ := hrun
    obtain ⟨s1, s2⟩ := sortByName_inv hs
    rw [Res.bind_eq_ok] at hrun
    obtain ⟨h2, hh2, hrun⟩ := hrun
    obtain ⟨a1, a2, a3⟩ := setRefAux_inv _ _ _ _ _ hh2
    have hfin : h'.length = h2.length ∧ ∀ r, h'.owned r = h2.owned r := by
      cases u with
      | true => exact updateHull_inv hrun
      | false => cases hrun; exact ⟨rfl, fun _ => rfl⟩
    obtain ⟨b1, b2⟩ := hfin
    have hop : h.owned p = a.prims := by simp [Heap.owned, hp', Obj.owned]
    refine ⟨by rw [b1, a1]; simp, hp, s2 q (by simp), ?_, ?_, ⟨_, fun hc => a3 ((chain_congr a2 _ _).mp ((chain_congr b2 _ _).mp hc))⟩⟩
    · rw [b2, a2, owned_set_self hp, hop]
      exact s1
    · intro r hr
      rw [b2, a2, owned_set_ne hr]
  | plain b => cases hrun
  | ellipsoid b => cases hrun
  | hull b => cases hrun

/-- An aggregate cannot be put into itself: whenever `add_primitive` returns, no aggregate contains
itself. -/
theorem addPrimitive_acyclic {h h' : Heap α} {p q : Ptr} {u : Bool} (ha : Acyclic h)
    (hrun : h.addPrimitive p q u = .ok h') : Acyclic h' := by
  classical
  obtain ⟨hl, hp, hq, hperm, hother, n, hn⟩ := addPrimitive_inv hrun
  obtain ⟨rk, hrk⟩ := ha
  have hrk' : ∀ {r s : Ptr}, Within h r s → rk s ≤ rk r := by
    intro r s hw
    induction hw with
    | refl => exact le_refl _
    | tail _ hc ih => exact ((hrk _ _ hc).2.le).trans ih
  have hno : ¬ Within h q p := by
    intro hw
    refine hn (chain_of_cycle (q := q) (hperm.mem_iff.mpr (by simp)) ?_ n)
    have : ∀ {r s : Ptr}, Child h r s → Child h' r s := by
      intro r s hc
      rw [child_iff_owned] at hc ⊢
      by_cases hr : r = p
      · subst hr; exact hperm.mem_iff.mpr (List.mem_append_left _ hc)
      · rwa [hother r hr]
    exact Relation.ReflTransGen.mono (fun _ _ => this) _ _ hw
  refine ⟨fun r => if Within h r p then rk r + rk q + 1 else rk r, ?_⟩
  intro r s hc
  rw [child_iff_owned] at hc
  by_cases hr : r = p
  · subst hr
    have hm := hperm.mem_iff.mp hc
    rcases List.mem_append.mp hm with hm | hm
    · obtain ⟨h1, h2⟩ := hrk r s ((child_iff_owned _ _ _).mpr hm)
      have : ¬ Within h s r := fun hw => by have := hrk' hw; omega
      refine ⟨hl ▸ h1, ?_⟩
      beta_reduce
      rw [if_neg this, if_pos (show Within h r r from .refl)]; omega
    · rw [List.mem_singleton] at hm
      subst hm
      refine ⟨hl ▸ hq, ?_⟩
      beta_reduce
      rw [if_neg hno, if_pos (show Within h r r from .refl)]; omega
  · rw [hother r hr] at hc
    have hc' := (child_iff_owned _ _ _).mpr hc
    obtain ⟨h1, h2⟩ := hrk r s hc'
    refine ⟨hl ▸ h1, ?_⟩
    beta_reduce
    by_cases hs : Within h s p
    · rw [if_pos hs, if_pos (show Within h r p from .head hc' hs)]; omega
    · rw [if_neg hs]; split_ifs <;> omega

/-! ### Aggregation -/

open Aggregation

/-- The pointers during `aggregate_obstacles(obs)` on the heap `h0`: old objects keep theirs, and the
new aggregates (those merged into others as well) hold inputs only. -/
structure GrowInv (h0 : Heap α) (obs : List Ptr) (h : Heap α) (aggs : List Ptr) : Prop where
  len : h0.length ≤ h.length
  old : ∀ p, p < h0.length → h.owned p = h0.owned p
  new : ∀ p, h0.length ≤ p → ∀ q ∈ h.owned p, q ∈ obs
  aggs : ∀ a ∈ aggs, h0.length ≤ a

theorem GrowInv.same {h0 h h' : Heap α} {obs aggs : List Ptr} (hi : GrowInv h0 obs h aggs)
    (hl : h'.length = h.length) (ho : ∀ r, h'.owned r = h.owned r) : GrowInv h0 obs h' aggs :=
  ⟨hl ▸ hi.len, fun p hp => (ho p).trans (hi.old p hp), fun p hp q hq => hi.new p hp q (ho p ▸ hq), hi.aggs⟩

theorem GrowInv.add {h0 h h' : Heap α} {obs aggs : List Ptr} (hi : GrowInv h0 obs h aggs) {a q : Ptr}
    {u : Bool} (ha : h0.length ≤ a) (hq : q ∈ obs) (hrun : h.addPrimitive a q u = .ok h') :
    GrowInv h0 obs h' aggs := by
  obtain ⟨hl, -, -, hperm, hother, -⟩ := addPrimitive_inv hrun
  refine ⟨hl ▸ hi.len, fun p hp => ?_, fun p hp r hr => ?_, hi.aggs⟩
  · rw [hother p (lt_of_lt_of_le hp ha).ne]; exact hi.old p hp
  · by_cases hpa : p = a
    · subst hpa
      rcases List.mem_append.mp (hperm.mem_iff.mp hr) with h1 | h1
      · exact hi.new p hp r h1
      · rw [List.mem_singleton] at h1; exact h1 ▸ hq
    · rw [hother p hpa] at hr; exact hi.new p hp r hr

theorem GrowInv.fresh {h0 h : Heap α} {obs aggs : List Ptr} (hi : GrowInv h0 obs h aggs) :
    GrowInv h0 obs h.newAggregate.1 (aggs ++ [h.newAggregate.2]) := by
  refine ⟨?_, fun p hp => ?_, fun p hp r hr => ?_, fun a ha => ?_⟩
  · have := hi.len; simp [Heap.newAggregate]; omega
  · rw [Heap.newAggregate, owned_append_lt _ _ (lt_of_lt_of_le hp hi.len)]; exact hi.old p hp
  · simp only [Heap.newAggregate] at hr
    rcases lt_trichotomy p h.length with h1 | h1 | h1
    · rw [owned_append_lt _ _ h1] at hr; exact hi.new p hp r hr
    · subst h1; rw [owned_append_self] at hr; simp [Obj.owned, Aggregate.default] at hr
    · rw [owned_eq_nil (by simp; omega)] at hr; simp at hr
  · rcases List.mem_append.mp ha with h1 | h1
    · exact hi.aggs a h1
    · rw [List.mem_singleton] at h1; subst h1; exact hi.len

theorem aggAt_mem {aggs : List Ptr} {i : Int} {a : Ptr} (h : aggAt aggs i = .ok a) : a ∈ aggs := by
  unfold aggAt at h
  cases i with
  | ofNat n =>
    simp only [Res.index] at h
    cases hn : aggs[n]? with
    | none => simp [hn] at h
    | some b => simp [hn] at h; exact h ▸ List.mem_of_getElem? hn
  | negSucc n => cases h

theorem mergeLoop_inv {h0 : Heap α} {obs : List Ptr} {oldI newI : Int} :
    ∀ (L : List (Nat × Ptr)) (s s' : St α), (∀ x ∈ L, x.2 ∈ obs) → GrowInv h0 obs s.heap s.aggs →
      mergeLoop oldI newI L s = .ok s' → GrowInv h0 obs s'.heap s'.aggs := by
  intro L
  induction L with
  | nil => intro s s' _ hi hrun; cases hrun; exact hi
  | cons x L ih =>
    intro s s' hL hi hrun
    obtain ⟨k, p⟩ := x
    rw [mergeLoop, Res.bind_eq_ok] at hrun
    obtain ⟨ik, -, hrun⟩ := hrun
    have hL' : ∀ x ∈ L, x.2 ∈ obs := fun x hx => hL x (by simp [hx])
    split_ifs at hrun
    · simp only [Res.bind_eq_ok] at hrun
      obtain ⟨a, ha, h', hh', hrun⟩ := hrun
      refine ih _ _ hL' ?_ hrun
      exact hi.add (hi.aggs a (aggAt_mem ha)) (hL (k, p) (by simp)) hh'
    · refine ih _ _ hL' ?_ hrun
      exact hi
    · exact ih _ _ hL' hi hrun

theorem indexed_mem {obs : List Ptr} : ∀ x ∈ indexed obs, x.2 ∈ obs := by
  intro x hx
  exact (List.of_mem_zip hx).2

theorem link_inv {h0 : Heap α} {obs : List Ptr} {i j : Nat} {pi pj : Ptr} {s s' : St α} (hpi : pi ∈ obs)
    (hpj : pj ∈ obs) (hi : GrowInv h0 obs s.heap s.aggs) (hrun : link obs i j pi pj s = .ok s') :
    GrowInv h0 obs s'.heap s'.aggs := by
  unfold link at hrun
  simp only [Res.bind_eq_ok] at hrun
  obtain ⟨ii, -, ij, -, hrun⟩ := hrun
  split_ifs at hrun
  · simp only [Res.bind_eq_ok] at hrun
    obtain ⟨a, ha, h', hh', hrun⟩ := hrun
    cases hrun
    exact hi.add (hi.aggs a (aggAt_mem ha)) hpj hh'
  · simp only [Res.bind_eq_ok] at hrun
    obtain ⟨a, ha, h', hh', hrun⟩ := hrun
    cases hrun
    exact hi.add (hi.aggs a (aggAt_mem ha)) hpi hh'
  · simp only [Res.bind_eq_ok] at hrun
    obtain ⟨h1, hh1, h2, hh2, hrun⟩ := hrun
    cases hrun
    have hn : h0.length ≤ s.heap.newAggregate.2 := hi.len
    exact (hi.fresh.add hn hpi hh1).add hn hpj hh2
  all_goals
    first
    | (cases hrun; exact hi)
    | (rw [Res.bind_eq_ok] at hrun
       obtain ⟨s1, hs1, hrun⟩ := hrun
       have h1 := mergeLoop_inv _ _ _ indexed_mem hi hs1
       split at hrun
       · split_ifs at hrun
         cases hrun
         exact ⟨h1.len, h1.old, h1.new, fun a ha => h1.aggs a (List.mem_of_mem_eraseIdx ha)⟩
       · cases hrun)

theorem innerLoop_inv {h0 : Heap α} {obs : List Ptr} {i : Nat} {pi : Ptr} (hpi : pi ∈ obs) :
    ∀ (L : List (Nat × Ptr)) (s s' : St α), (∀ x ∈ L, x.2 ∈ obs) → GrowInv h0 obs s.heap s.aggs →
      innerLoop obs i pi L s = .ok s' → GrowInv h0 obs s'.heap s'.aggs := by
  intro L
  induction L with
  | nil => intro s s' _ hi hrun; cases hrun; exact hi
  | cons x L ih =>
    intro s s' hL hi hrun
    obtain ⟨j, pj⟩ := x
    rw [innerLoop, Res.bind_eq_ok] at hrun
    obtain ⟨s1, hs1, hrun⟩ := hrun
    refine ih s1 s' (fun x hx => hL x (by simp [hx])) ?_ hrun
    unfold pairStep at hs1
    simp only [Res.bind_eq_ok] at hs1
    obtain ⟨oi, -, oj, -, b, -, hs1⟩ := hs1
    cases b with
    | true => exact link_inv hpi (hL (j, pj) (by simp)) hi hs1
    | false => cases hs1; exact hi

theorem outerLoop_inv {h0 : Heap α} {obs : List Ptr} :
    ∀ (L : List (Nat × Ptr)) (s s' : St α), (∀ x ∈ L, x.2 ∈ obs) → GrowInv h0 obs s.heap s.aggs →
      outerLoop obs L s = .ok s' → GrowInv h0 obs s'.heap s'.aggs := by
  intro L
  induction L with
  | nil => intro s s' _ hi hrun; cases hrun; exact hi
  | cons x L ih =>
    intro s s' hL hi hrun
    obtain ⟨i, pi⟩ := x
    rw [outerLoop, Res.bind_eq_ok] at hrun
    obtain ⟨s1, hs1, hrun⟩ := hrun
    have hL' : ∀ x ∈ L, x.2 ∈ obs := fun x hx => hL x (by simp [hx])
    exact ih s1 s' hL' (innerLoop_inv (hL (i, pi) (by simp)) L s s1 hL' hi hs1) hrun

theorem updateHulls_inv {h0 : Heap α} {obs aggs : List Ptr} : ∀ (L : List Ptr) (h h' : Heap α),
    GrowInv h0 obs h aggs → updateHulls L h = .ok h' → GrowInv h0 obs h' aggs := by
  intro L
  induction L with
  | nil => intro h h' hi hrun; simp [updateHulls] at hrun; exact hrun ▸ hi
  | cons p L ih =>
    intro h h' hi hrun
    rw [updateHulls, List.foldlM_cons, Res.bind_eq_ok] at hrun
    obtain ⟨h1, hh1, hrun⟩ := hrun
    obtain ⟨a1, a2⟩ := updateHull_inv hh1
    exact ih h1 h' (hi.same a1 a2) hrun

theorem aggregate_grow {h h' : Heap α} {obs l : List Ptr} (hrun : aggregateObstacles h obs = .ok (h', l)) :
    ∃ aggs, GrowInv h obs h' aggs := by
  unfold aggregateObstacles at hrun
  simp only [Res.bind_eq_ok] at hrun
  obtain ⟨s, hs, h1, hh1, hrun⟩ := hrun
  cases hrun
  have h0 : GrowInv h obs h [] :=
    ⟨le_refl _, fun _ _ => rfl, fun p hp q hq => by rw [owned_eq_nil hp] at hq; simp at hq, by simp⟩
  have h2 := outerLoop_inv _ _ _ indexed_mem h0 hs
  exact ⟨s.aggs, updateHulls_inv _ _ _ h2 hh1⟩

end

namespace Mem

variable [Add α] [Sub α] [Mul α] [Div α] [Neg α] [Zero α] [One α]
  [LE α] [LT α] [DecidableLE α] [DecidableLT α] [CMath α]

/-! ### The invariant -/

/-- Pointers outside obstacles and pointers in live obstacles lead to live obstacles; no aggregate
contains itself. -/
structure Inv (m : Mem α) : Prop where
  roots : ∀ p ∈ m.roots, p ∈ m.live
  prim : ∀ p ∈ m.live, ∀ q ∈ m.heap.owned p, q ∈ m.live
  bound : ∀ p ∈ m.live, p < m.heap.length
  acyclic : Acyclic m.heap

theorem Inv.reach {m : Mem α} (hi : Inv m) {p : Ptr} (hp : m.Reach p) : p ∈ m.live := by
  induction hp with
  | root h => exact hi.roots _ h
  | prim _ h ih => exact hi.prim _ ih _ h

theorem acyclic_append {h : Heap α} (ha : Acyclic h) {o : Obj α} (ho : ∀ q ∈ o.owned, q < h.length) :
    Acyclic (h ++ [o]) := by
  obtain ⟨rank, hr⟩ := exists_ranked ha
  refine ⟨fun p => if p < h.length then rank p else h.length + 1, fun p q hc => ?_⟩
  rw [child_iff_owned] at hc
  beta_reduce
  rcases lt_trichotomy p h.length with h1 | h1 | h1
  · rw [owned_append_lt _ _ h1] at hc
    obtain ⟨h2, h3⟩ := hr.child p q ((child_iff_owned _ _ _).mpr hc)
    rw [if_pos h1, if_pos h2]
    exact ⟨by rw [List.length_append]; exact Nat.lt_succ_of_lt h2, h3⟩
  · subst h1
    rw [owned_append_self] at hc
    have h2 := ho q hc
    have h3 := hr.bound q h2
    rw [if_pos h2, if_neg (lt_irrefl _)]
    exact ⟨by rw [List.length_append]; exact Nat.lt_succ_of_lt h2, by omega⟩
  · rw [owned_eq_nil (by simp; omega)] at hc; simp at hc

theorem mem_set {l : List Ptr} {i : Nat} {p x : Ptr} (h : x ∈ l.set i p) : x ∈ l ∨ x = p := by
  rcases List.mem_or_eq_of_mem_set h with h | h
  · exact .inl h
  · exact .inr h

theorem Inv.env {m : Mem α} (hi : Inv m) {e : Env}
    (he : ∀ p ∈ e.map.map (·.2) ++ e.list, p ∈ m.live) : Inv { m with env := e } := by
  refine ⟨fun p hp => ?_, hi.prim, hi.bound, hi.acyclic⟩
  rcases List.mem_append.mp hp with hp | hp
  · exact hi.roots p (List.mem_append_left _ hp)
  · exact he p hp

theorem update_cases {h h' : Heap α} {e e' : Env} (hrun : e.update h = .ok (h', e')) :
    (h' = h ∧ e' = { e with list := e.map.map (·.2) }) ∨
      ∃ l, Aggregation.aggregateObstacles h (e.map.map (·.2)) = .ok (h', l) ∧ e' = { e with list := l } := by
  unfold Env.update at hrun
  cases hb : e.aggregated with
  | false =>
    simp only [hb, Bool.false_eq_true, if_false] at hrun
    cases hrun
    left; exact ⟨rfl, by simp⟩
  | true =>
    simp only [hb, if_true, Res.bind_eq_ok] at hrun
    obtain ⟨⟨h1, l⟩, hl, hrun⟩ := hrun
    cases hrun
    right; exact ⟨l, hl, by simp⟩

theorem Inv.call {m m' : Mem α} (hi : Inv m) (hc : Mem.Call m m') : Inv m' := by
  have hmap : ∀ x ∈ m.env.map, x.2 ∈ m.live := fun x hx =>
    hi.roots _ (by simp only [Mem.roots, List.mem_append]; right; left; exact List.mem_map_of_mem hx)
  have hlist : ∀ p ∈ m.env.list, p ∈ m.live := fun p hp => hi.roots _ (by simp [Mem.roots, hp])
  have hheld : ∀ p ∈ m.held, p ∈ m.live := fun p hp => hi.roots _ (by simp [Mem.roots, hp])
  cases hc with
  | create o ho =>
    refine ⟨fun p hp => ?_, fun p hp q hq => ?_, fun p hp => ?_, acyclic_append hi.acyclic fun q hq =>
      hi.bound q (hi.reach (ho q hq))⟩
    · simp only [Mem.roots, List.cons_append, List.mem_cons] at hp
      rcases hp with rfl | hp
      · exact Finset.mem_insert_self _ _
      · exact Finset.mem_insert_of_mem (hi.roots p hp)
    · rcases Finset.mem_insert.mp hp with rfl | hp
      · simp only [owned_append_self] at hq
        exact Finset.mem_insert_of_mem (hi.reach (ho q hq))
      · simp only [owned_append_lt _ _ (hi.bound p hp)] at hq
        exact Finset.mem_insert_of_mem (hi.prim p hp q hq)
    · simp only [List.length_append, List.length_singleton]
      rcases Finset.mem_insert.mp hp with rfl | hp
      · exact Nat.lt_succ_self _
      · exact Nat.lt_succ_of_lt (hi.bound p hp)
  | hold p hp =>
    refine ⟨fun q hq => ?_, hi.prim, hi.bound, hi.acyclic⟩
    simp only [Mem.roots, List.cons_append, List.mem_cons] at hq
    rcases hq with rfl | hq
    · exact hi.reach hp
    · exact hi.roots q hq
  | drop p hp =>
    refine ⟨fun q hq => ?_, hi.prim, hi.bound, hi.acyclic⟩
    rcases List.mem_append.mp hq with hq | hq
    · exact hheld q (List.mem_of_mem_erase hq)
    · exact hi.roots q (List.mem_append_right _ hq)
  | addPrimitive p q u hp hq hrun =>
    obtain ⟨hl, -, -, hperm, hother, -⟩ := addPrimitive_inv hrun
    refine ⟨hi.roots, fun r hr s hs => ?_, fun r hr => hl ▸ hi.bound r hr, addPrimitive_acyclic hi.acyclic hrun⟩
    by_cases hrp : r = p
    · subst hrp
      rcases List.mem_append.mp (hperm.mem_iff.mp hs) with h1 | h1
      · exact hi.prim r hr s h1
      · rw [List.mem_singleton] at h1; exact h1 ▸ hi.reach hq
    · simp only [hother r hrp] at hs
      exact hi.prim r hr s hs
  | other h hl ho =>
    refine ⟨hi.roots, fun r hr s hs => hi.prim r hr s (ho r ▸ hs), fun r hr => hl ▸ hi.bound r hr, ?_⟩
    obtain ⟨rank, hr⟩ := hi.acyclic
    exact ⟨rank, fun p q hc => by
      rw [child_congr ho] at hc; exact ⟨hl ▸ (hr p q hc).1, (hr p q hc).2⟩⟩
  | @add p e hp hrun =>
    unfold Env.addObstacle at hrun
    rw [Res.bind_eq_ok] at hrun
    obtain ⟨o, -, hrun⟩ := hrun
    split at hrun
    · cases hrun
    · cases hrun
      refine hi.env fun x hx => ?_
      rcases List.mem_append.mp hx with hx | hx
      · obtain ⟨y, hy, rfl⟩ := List.mem_map.mp hx
        rcases Env.mem_insert_iff.mp hy with rfl | hy
        · exact hi.reach hp
        · exact hmap y hy
      · exact hlist x hx
  | remove k hrun =>
    unfold Env.removeObstacle at hrun
    split at hrun
    · cases hrun
    · cases hrun
      refine hi.env fun x hx => ?_
      rcases List.mem_append.mp hx with hx | hx
      · obtain ⟨y, hy, rfl⟩ := List.mem_map.mp hx
        exact hmap y ((Env.erase_sublist _ _).subset hy)
      · exact hlist x hx
  | assign k p hp hrun =>
    unfold Env.assign at hrun
    rw [Res.bind_eq_ok] at hrun
    obtain ⟨s, -, hrun⟩ := hrun
    cases s with
    | entry k' =>
      cases hrun
      refine hi.env fun x hx => ?_
      rcases List.mem_append.mp hx with hx | hx
      · obtain ⟨y, hy, rfl⟩ := List.mem_map.mp hx
        obtain ⟨z, hz, rfl⟩ := List.mem_map.mp hy
        split_ifs
        · exact hi.reach hp
        · exact hmap z hz
      · exact hlist x hx
    | listPos i =>
      cases hrun
      refine hi.env fun x hx => ?_
      rcases List.mem_append.mp hx with hx | hx
      · obtain ⟨y, hy, rfl⟩ := List.mem_map.mp hx
        exact hmap y hy
      · rcases mem_set hx with h1 | rfl
        · exact hlist x h1
        · exact hi.reach hp
  | setAggregated b =>
    refine hi.env fun x hx => ?_
    rcases List.mem_append.mp hx with hx | hx
    · obtain ⟨y, hy, rfl⟩ := List.mem_map.mp hx
      exact hmap y hy
    · exact hlist x hx
  | @update h e hrun =>
    have hobs : ∀ p ∈ m.env.map.map (·.2), p ∈ m.live := by
      intro p hp
      obtain ⟨x, hx, rfl⟩ := List.mem_map.mp hp
      exact hmap x hx
    rcases update_cases hrun with ⟨rfl, rfl⟩ | ⟨l, hl, rfl⟩
    · have : m.live ∪ Finset.Ico m.heap.length m.heap.length = m.live := by simp
      rw [this]
      refine hi.env fun x hx => ?_
      rcases List.mem_append.mp hx with hx | hx <;> exact hobs x hx
    · have hobs' : ∀ p ∈ m.env.map.map (·.2), p < m.heap.length := fun p hp => hi.bound p (hobs p hp)
      obtain ⟨c1, -, c3⟩ := Props.C07_closed hi.acyclic hobs' hl
      obtain ⟨aggs', hg⟩ := aggregate_grow hl
      obtain ⟨aggs, rest, rfl, -, ha, hrest, -⟩ := Props.C05_partition hi.acyclic hobs' hl
      refine ⟨fun p hp => ?_, fun p hp q hq => ?_, fun p hp => ?_, c1⟩
      · rcases List.mem_append.mp hp with hp | hp
        · exact Finset.mem_union_left _ (hheld p hp)
        · rcases List.mem_append.mp hp with hp | hp
          · exact Finset.mem_union_left _ (hobs p hp)
          · rcases List.mem_append.mp hp with hp' | hp'
            · refine Finset.mem_union_right _ (Finset.mem_Ico.mpr ⟨(ha p hp').1, c3 p hp⟩)
            · exact Finset.mem_union_left _ (hobs p (hrest.subset hp'))
      · rcases Finset.mem_union.mp hp with hp | hp
        · have h1 : q ∈ h.owned p := hq
          rw [hg.old p (hi.bound p hp)] at h1
          exact Finset.mem_union_left _ (hi.prim p hp q h1)
        · exact Finset.mem_union_left _ (hobs q (hg.new p (Finset.mem_Ico.mp hp).1 q hq))
      · rcases Finset.mem_union.mp hp with hp | hp
        · exact lt_of_lt_of_le (hi.bound p hp) hg.len
        · exact (Finset.mem_Ico.mp hp).2

theorem useCount_eq_zero {m : Mem α} {p : Ptr} :
    m.useCount p = 0 ↔ p ∉ m.roots ∧ ∀ q ∈ m.live, p ∉ m.heap.owned q := by
  simp [Mem.useCount, List.count_eq_zero]

theorem Inv.destroy {m m' : Mem α} (hi : Inv m) (hd : Destroy m m') : Inv m' := by
  obtain ⟨p, hp, h0⟩ := hd
  obtain ⟨h1, h2⟩ := useCount_eq_zero.mp h0
  refine ⟨fun q hq => Finset.mem_erase.mpr ⟨?_, hi.roots q hq⟩, fun q hq r hr => ?_,
    fun q hq => hi.bound q (Finset.mem_of_mem_erase hq), hi.acyclic⟩
  · rintro rfl; exact h1 hq
  · have hql := Finset.mem_of_mem_erase hq
    refine Finset.mem_erase.mpr ⟨?_, hi.prim q hql r hr⟩
    rintro rfl; exact h2 q hql hr

theorem Run.inv {b : Bool} {m : Mem α} (hr : Run b m) : Inv m := by
  induction hr with
  | start =>
    refine ⟨by simp [Mem.roots, Env.mk'], by simp, by simp, ⟨fun _ => 0, fun p q hc => ?_⟩⟩
    obtain ⟨a, ha, -⟩ := hc; simp at ha
  | call _ hc ih => exact ih.call hc
  | destroy _ hd ih => exact ih.destroy hd

end Mem
end DOA
