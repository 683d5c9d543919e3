import Verif.Lemmas.Heap

/-! # Lemmas about virtual functions, hulls and `add_primitive` -/

set_option linter.unusedSectionVars false

namespace DOA
open DOA.Spec

variable {α : Type} [Add α] [Sub α] [Mul α] [Div α] [Neg α] [Zero α] [One α]
  [LE α] [LT α] [DecidableLE α] [DecidableLT α] [CMath α]

/-! ### Intersection tests -/

theorem isIntersectingEllipsoid_ok (e o : Ellipsoid α) : ∃ b, e.isIntersectingEllipsoid o = .ok b := by
  unfold Ellipsoid.isIntersectingEllipsoid
  split
  · exact ⟨_, rfl⟩
  · split
    · exact ⟨_, rfl⟩
    · obtain ⟨l, hl, -⟩ := MathTools.linspace_ok (0 : α) (lit 2 1 * CMath.pi) 100 (by omega)
      simp only [Ellipsoid.samples]
      have : ((100 : Nat) : Int) = 100 := rfl
      rw [this, hl]
      exact ⟨_, rfl⟩

theorem isIntersectingEllipsoid_shape {o o' : Obj α} {e e' : Ellipsoid α} (h1 : shape o = shape o')
    (h2 : shape (.ellipsoid e) = shape (.ellipsoid e')) :
    Heap.isIntersectingEllipsoid o e = Heap.isIntersectingEllipsoid o' e' := by
  have key : ∀ (o : Obj α) (e : Ellipsoid α), Heap.isIntersectingEllipsoid o e =
      Heap.isIntersectingEllipsoid (shape o)
        (match shape (.ellipsoid e) with | .ellipsoid e => e | _ => e) := by
    intro o e; cases o <;> rfl
  rw [key o e, key o' e', h1, h2]
  rfl

/-- The primitives of an object, if it is an aggregate. -/
def primsOf : Obj α → List Ptr
  | .aggregate a => a.prims
  | _ => []

theorem isIntersectingAux_ok {rank : Ptr → Nat} {h h' : Heap α} (hr : Ranked rank h)
    (e : ShapeExt h h') : ∀ (fuel fuel' R : Nat) (o o' other other' : Obj α),
      shape o = shape o' → shape other = shape other' →
      (∀ q ∈ primsOf other, q < h.length ∧ rank q < R) → R < fuel → R < fuel' →
      ∃ b, Heap.isIntersectingAux fuel h o other = .ok b ∧
        Heap.isIntersectingAux fuel' h' o' other' = .ok b := by
  intro fuel
  induction fuel with
  | zero => intro fuel' R _ _ _ _ _ _ _ hf; omega
  | succ fuel ih =>
    intro fuel' R o o' other other' ho hother hp hf hf'
    obtain ⟨fuel', rfl⟩ : ∃ n, fuel' = n + 1 := ⟨fuel' - 1, by omega⟩
    cases other with
    | plain b =>
      cases other' with
      | plain b' => exact ⟨false, rfl, rfl⟩
      | _ => simp [shape, Obj.mapBase] at hother
    | hull b =>
      cases other' with
      | hull b' => exact ⟨false, rfl, rfl⟩
      | _ => simp [shape, Obj.mapBase] at hother
    | ellipsoid el =>
      cases other' with
      | ellipsoid el' =>
        simp only [Heap.isIntersectingAux]
        rw [← isIntersectingEllipsoid_shape ho hother]
        cases o with
        | ellipsoid e1 =>
          obtain ⟨b, hb⟩ := isIntersectingEllipsoid_ok e1 el
          exact ⟨b, hb, hb⟩
        | _ => exact ⟨false, rfl, rfl⟩
      | _ => simp [shape, Obj.mapBase] at hother
    | aggregate a =>
      obtain ⟨a', rfl, ha'⟩ := prims_of_shape hother.symm
      simp only [Heap.isIntersectingAux, ha']
      have loop : ∀ (qs : List Ptr) (acc : Bool), (∀ q ∈ qs, q < h.length ∧ rank q < R) →
          ∃ b, qs.foldlM (fun acc q => if acc = true then Res.ok true else do
              let oq ← h.deref q
              Heap.isIntersectingAux fuel h o oq) acc = .ok b ∧
            qs.foldlM (fun acc q => if acc = true then Res.ok true else do
              let oq ← h'.deref q
              Heap.isIntersectingAux fuel' h' o' oq) acc = .ok b := by
        intro qs
        induction qs with
        | nil => intro acc _; exact ⟨acc, rfl, rfl⟩
        | cons q qs ihq =>
          intro acc hq
          have hrest : ∀ x ∈ qs, x < h.length ∧ rank x < R := fun x hx => hq x (by simp [hx])
          simp only [List.foldlM_cons]
          by_cases hacc : acc = true
          · simp only [hacc, if_true, Res.ok_bind]
            exact ihq true hrest
          · simp only [hacc, Bool.false_eq_true, if_false]
            have hqlt := (hq q (by simp)).1
            have hoq : h[q]? = some h[q] := List.getElem?_eq_getElem hqlt
            obtain ⟨oq', hoq', hs⟩ := e.get hoq
            have hprims : ∀ r ∈ primsOf h[q], r < h.length ∧ rank r < rank q := by
              intro r hr'
              cases hobj : h[q] with
              | aggregate aq =>
                rw [hobj] at hr'
                exact hr.child q r ⟨aq, by rw [hoq, hobj], hr'⟩
              | _ => rw [hobj] at hr'; simp [primsOf] at hr'
            have hRq := (hq q (by simp)).2
            obtain ⟨b, hb1, hb2⟩ := ih fuel' (rank q) o o' h[q] oq' ho hs.symm hprims
              (by omega) (by omega)
            simp only [Heap.deref, hoq, hoq', Res.ok_bind, hb1, hb2]
            exact ihq b hrest
      exact loop a.prims false hp

/-- The intersection test is defined, and depends only on the shapes. -/
theorem isIntersecting_ok {rank : Ptr → Nat} {h h' : Heap α} (hr : Ranked rank h) (e : ShapeExt h h')
    {p q : Ptr} {op op' oq oq' : Obj α} (hp : h[p]? = some op) (hp' : h'[p]? = some op')
    (hq : h[q]? = some oq) (hq' : h'[q]? = some oq') :
    ∃ b, h.isIntersecting op oq = .ok b ∧ h'.isIntersecting op' oq' = .ok b := by
  have hpl := (List.getElem?_eq_some_iff.mp hp).1
  have hql := (List.getElem?_eq_some_iff.mp hq).1
  obtain ⟨o1, h1, h2⟩ := e.get hp
  obtain ⟨o3, h3, h4⟩ := e.get hq
  rw [hp'] at h1; cases h1
  rw [hq'] at h3; cases h3
  have hb := hr.bound q hql
  have he := e.1
  refine isIntersectingAux_ok hr e _ _ (rank q) _ _ _ _ h2.symm h4.symm ?_ ?_ ?_
  · intro r hr'
    cases oq with
    | aggregate aq => exact hr.child q r ⟨aq, hq, hr'⟩
    | _ => simp [primsOf] at hr'
  · simp only [Heap.fuel]; omega
  · simp only [Heap.fuel]; omega

/-! ### Hulls -/

/-- The invariant of class `StarShapeHull` for a usable resolution. -/
def HullOK (h : Hull α) : Prop :=
  2 ≤ h.resolution ∧ h.polar.length = h.resolution ∧ h.cart.length = h.resolution

omit [Neg α] [Zero α] [One α] [LE α] [LT α] [DecidableLE α] [DecidableLT α] [Sub α] [Div α] in
theorem smoothCol_ok (polar : List (V3 α)) {i j k : Nat} (hi : i < polar.length)
    (hj : j < polar.length) (hk : k < polar.length) :
    Hull.smoothCol polar i j k = .ok (polar.set i { polar[i] with
      x := lit 9 10 * polar[i].x + lit 5 100 * polar[j].x + lit 5 100 * polar[k].x }) := by
  simp [Hull.smoothCol, Res.index, List.getElem?_eq_getElem hi, List.getElem?_eq_getElem hj,
    List.getElem?_eq_getElem hk]

omit [Neg α] [Zero α] [One α] [LE α] [LT α] [DecidableLE α] [DecidableLT α] [Sub α] [Div α] in
theorem computeStep_ok {polar : List (V3 α)} {i : Nat} (sp : V3 α) (hi : i < polar.length) :
    ∃ polar', Hull.computeStep i sp polar = .ok polar' ∧ polar'.length = polar.length := by
  unfold Hull.computeStep
  by_cases h1 : 1 < i
  · rw [if_pos h1, smoothCol_ok polar (i := i - 1) (j := i - 2) (k := i) (by omega) (by omega) hi]
    simp [hi]
  · rw [if_neg h1]
    simp [hi]

omit [Neg α] [Zero α] [One α] [LE α] [LT α] [DecidableLE α] [DecidableLT α] [Sub α] [Div α] in
theorem computeLoop_ok (sps : List (V3 α)) : ∀ (i : Nat) (polar : List (V3 α)),
    i + sps.length ≤ polar.length →
    ∃ polar', Hull.computeLoop i sps polar = .ok polar' ∧ polar'.length = polar.length := by
  induction sps with
  | nil => intro i polar _; exact ⟨polar, rfl, rfl⟩
  | cons sp sps ih =>
    intro i polar h
    simp only [List.length_cons] at h
    obtain ⟨p1, h1, h2⟩ := computeStep_ok sp (show i < polar.length by omega)
    obtain ⟨p2, h3, h4⟩ := ih (i + 1) p1 (by omega)
    exact ⟨p2, by simp [Hull.computeLoop, h1, h3], h4.trans h2⟩

omit [LE α] [DecidableLE α] in
theorem compute_ok {k : Hull α} (hk : HullOK k) (prims : List (Oracle α)) (ref : V3 α) :
    ∃ k', k.compute prims ref = .ok k' ∧ HullOK k' ∧ k'.resolution = k.resolution ∧
      k'.isInside = k.isInside ∧ k'.minRadius = k.minRadius ∧ k'.base.refPos = some ref ∧
      k'.base.position = ref ∧ k'.base.margin = k.base.margin := by
  obtain ⟨h1, h2, h3⟩ := hk
  obtain ⟨l, hl, hlen, -⟩ := MathTools.linspace_ok (-CMath.pi : α) (CMath.pi - lit 1 10000)
    (k.resolution : Int) (by omega)
  simp only [Int.toNat_natCast] at hlen
  unfold Hull.compute
  simp only [hl, Res.ok_bind]
  obtain ⟨p1, hp1, hp1l⟩ := computeLoop_ok (l.map fun p => Hull.surfacePoint k.isInside k.minRadius
    ((k.base.setRef ref).setPosition ref).margin.x p
    (Hull.rayPoints ((k.base.setRef ref).setPosition ref).pose ref prims p)) 0 k.polar
    (by simp; omega)
  rw [hp1]
  simp only [Res.ok_bind]
  rw [smoothCol_ok p1 (i := 0) (j := k.resolution - 1) (k := 1) (by omega) (by omega) (by omega)]
  simp only [Res.ok_bind]
  rw [smoothCol_ok _ (i := k.resolution - 1) (j := k.resolution - 2) (k := 0) (by simp; omega)
    (by simp; omega) (by simp; omega)]
  simp only [Res.ok_bind]
  refine ⟨_, rfl, ⟨h1, ?_, ?_⟩, rfl, rfl, rfl, rfl, rfl, rfl⟩
  · simp; omega
  · simp; omega

/-- Both hulls of an aggregate are usable. -/
def AggHullsOK (a : Aggregate α) : Prop := HullOK a.inside ∧ HullOK a.outside

omit [Add α] [Sub α] [Mul α] [Div α] [Neg α] [LE α] [LT α] [DecidableLE α] [DecidableLT α]
  [CMath α] in
theorem hullOK_mk' (b : Bool) {n : Nat} (hn : 2 ≤ n) (r : α) : HullOK (Hull.mk' b n r) :=
  ⟨hn, List.length_replicate, List.length_replicate⟩

theorem default_hulls : AggHullsOK (Aggregate.default : Aggregate α) :=
  ⟨hullOK_mk' true (by norm_num) _, hullOK_mk' false (by norm_num) _⟩

/-! ### `add_primitive` -/

/-- Name and position of the obstacles in a list. -/
def info (h : Heap α) (ps : List Ptr) : List (Ptr × String × V3 α) :=
  ps.filterMap fun p => (h[p]?).map fun o => (p, o.name, o.position)

/-- The same, sorted by name as `add_primitive` does. -/
def sortedInfo (h : Heap α) (ps : List Ptr) : List (Ptr × String × V3 α) :=
  MathTools.sortBy (fun l r => decide (l.2.1 < r.2.1)) (info h ps)

/-- The position `add_primitive` computes. -/
def canonPos (h : Heap α) (ps : List Ptr) : V3 α :=
  (((sortedInfo h ps).map (·.2.2)).foldl (fun acc v => acc + v) V3.zero).sdiv
    (MathTools.ofInt (sortedInfo h ps).length)

/-- The aggregate after `add_primitive`, hulls aside. -/
def canonAgg (h : Heap α) (ps : List Ptr) (a : Aggregate α) : Aggregate α :=
  { a with
    prims := (sortedInfo h ps).map (·.1)
    base := ((a.base.setName (Heap.aggregateName ((sortedInfo h ps).map (·.2.1)))).setPosition
      (canonPos h ps)).setRef (canonPos h ps) }

theorem _root_.DOA.MathTools.insertBy_map {β γ : Type} (f : β → γ) (lt : β → β → Bool)
    (lt' : γ → γ → Bool) (hlt : ∀ a b, lt' (f a) (f b) = lt a b) (b : β) (l : List β) :
    MathTools.insertBy lt' (f b) (l.map f) = (MathTools.insertBy lt b l).map f := by
  induction l with
  | nil => rfl
  | cons c l ih =>
    simp only [List.map_cons, MathTools.insertBy, hlt]
    split
    · simp [ih]
    · simp

theorem _root_.DOA.MathTools.sortBy_map {β γ : Type} (f : β → γ) (lt : β → β → Bool)
    (lt' : γ → γ → Bool) (hlt : ∀ a b, lt' (f a) (f b) = lt a b) (l : List β) :
    MathTools.sortBy lt' (l.map f) = (MathTools.sortBy lt l).map f := by
  induction l with
  | nil => rfl
  | cons c l ih =>
    simp only [List.map_cons, MathTools.sortBy, ih]
    exact MathTools.insertBy_map f lt lt' hlt c _

theorem info_congr {h h' : Heap α} {ps : List Ptr}
    (hs : ∀ p ∈ ps, (h'[p]?).map shape = (h[p]?).map shape) : info h' ps = info h ps := by
  induction ps with
  | nil => rfl
  | cons p ps ih =>
    have h1 := hs p (by simp)
    have ih := ih fun q hq => hs q (by simp [hq])
    unfold info at ih ⊢
    simp only [List.filterMap_cons, ih]
    have : (h'[p]?).map (fun o => (p, o.name, o.position)) =
        (h[p]?).map (fun o => (p, o.name, o.position)) := by
      have key : ∀ x : Option (Obj α), x.map (fun o => (p, o.name, o.position)) =
          (x.map shape).map (fun o => (p, o.name, o.position)) := by
        intro x; cases x with
        | none => rfl
        | some o => simp [shape_name, shape_position]
      rw [key, h1, ← key]
    rw [this]

theorem sortedInfo_congr {h h' : Heap α} {ps : List Ptr}
    (hs : ∀ p ∈ ps, (h'[p]?).map shape = (h[p]?).map shape) : sortedInfo h' ps = sortedInfo h ps := by
  unfold sortedInfo; rw [info_congr hs]

theorem canonAgg_congr {h h' : Heap α} {ps : List Ptr} (a : Aggregate α)
    (hs : ∀ p ∈ ps, (h'[p]?).map shape = (h[p]?).map shape) : canonAgg h' ps a = canonAgg h ps a := by
  unfold canonAgg canonPos; rw [sortedInfo_congr hs]

theorem map_fst_info {h : Heap α} {ps : List Ptr} (hp : ∀ p ∈ ps, p < h.length) :
    (info h ps).map (·.1) = ps := by
  induction ps with
  | nil => rfl
  | cons p ps ih =>
    have hpl : p < h.length := hp p (by simp)
    have h1 : h[p]? = some h[p] := List.getElem?_eq_getElem hpl
    have ih := ih fun q hq => hp q (by simp [hq])
    unfold info at ih ⊢
    simp [h1, ih]

theorem prims_perm {h : Heap α} {ps : List Ptr} (hp : ∀ p ∈ ps, p < h.length) :
    ((sortedInfo h ps).map (·.1)).Perm ps := by
  have := (MathTools.sortBy_perm (fun l r : Ptr × String × V3 α => decide (l.2.1 < r.2.1))
    (info h ps)).map (·.1)
  rw [map_fst_info hp] at this
  exact this

theorem sortByName_ok {h : Heap α} {ps : List Ptr} (hp : ∀ p ∈ ps, p < h.length) :
    ∃ L, h.sortByName ps = .ok L ∧
      L.map (fun x => (x.1, x.2.name, x.2.position)) = sortedInfo h ps := by
  have hm : ∃ M : List (Ptr × Obj α), (ps.mapM fun p => do
        let o ← h.deref p
        Res.ok (p, o)) = .ok M ∧ M.map (fun x => (x.1, x.2.name, x.2.position)) = info h ps := by
    induction ps with
    | nil => exact ⟨[], rfl, rfl⟩
    | cons p ps ih =>
      have hpl : p < h.length := hp p (by simp)
      have h1 : h[p]? = some h[p] := List.getElem?_eq_getElem hpl
      obtain ⟨M, hM1, hM2⟩ := ih fun q hq => hp q (by simp [hq])
      refine ⟨(p, h[p]) :: M, ?_, ?_⟩
      · rw [List.mapM_cons, hM1]; simp [Heap.deref, h1]
      · unfold info at hM2 ⊢
        simp [h1, hM2]
  obtain ⟨M, hM1, hM2⟩ := hm
  refine ⟨MathTools.sortBy (fun l r => decide (l.2.name < r.2.name)) M, ?_, ?_⟩
  · unfold Heap.sortByName; rw [hM1]; rfl
  · unfold sortedInfo
    rw [← hM2]
    exact (MathTools.sortBy_map (fun x : Ptr × Obj α => (x.1, x.2.name, x.2.position))
      (fun l r => decide (l.2.name < r.2.name)) (fun l r => decide (l.2.1 < r.2.1))
      (fun a b => rfl) M).symm

/-- What `add_primitive`/the constructor from a list does to the heap, without the hulls. -/
noncomputable def install (h : Heap α) (p : Ptr) (ps : List Ptr) (a : Aggregate α) : Heap α :=
  (markRef h (fun r => ∃ q ∈ ps, Within h q r) (canonPos h ps)).set p (.aggregate (canonAgg h ps a))

/-- Conditions under which an aggregate can receive the primitives `ps`. -/
structure CanHold (rank : Ptr → Nat) (h : Heap α) (p : Ptr) (ps : List Ptr) : Prop where
  ranked : Ranked rank h
  lt : p < h.length
  prims : ∀ q ∈ ps, q < h.length ∧ rank q < rank p

theorem installPrims_false {rank : Ptr → Nat} {h : Heap α} {p : Ptr} {ps : List Ptr} {a : Aggregate α}
    (hc : CanHold rank h p ps) (ha : h[p]? = some (.aggregate a)) :
    h.installPrims p ps false = .ok (install h p ps a) := by
  have hps : ∀ q ∈ ps, q < h.length := fun q hq => (hc.prims q hq).1
  obtain ⟨L, hL1, hL2⟩ := sortByName_ok hps
  have e1 : L.map (fun x => x.2.position) = (sortedInfo h ps).map (·.2.2) := by
    rw [← hL2]; simp
  have e2 : L.map (fun x => x.2.name) = (sortedInfo h ps).map (·.2.1) := by
    rw [← hL2]; simp
  have e3 : L.map (·.1) = (sortedInfo h ps).map (·.1) := by
    rw [← hL2]; simp
  have e4 : L.length = (sortedInfo h ps).length := by
    rw [← hL2]; simp
  unfold Heap.installPrims
  simp only [Heap.deref, ha, Res.ok_bind, hL1, e1, e2, e3, e4, Bool.false_eq_true, if_false]
  set a' : Aggregate α := { a with
    prims := (sortedInfo h ps).map (·.1)
    base := (a.base.setName (Heap.aggregateName ((sortedInfo h ps).map (·.2.1)))).setPosition
      (canonPos h ps) } with ha'
  have hcan : (((sortedInfo h ps).map (·.2.2)).foldl (fun acc v => acc + v) V3.zero).sdiv
    (MathTools.ofInt (sortedInfo h ps).length) = canonPos h ps := rfl
  rw [hcan]
  set h1 : Heap α := h.set p (.aggregate a') with hh1
  have hlen : h1.length = h.length := by simp [hh1]
  have hget : h1[p]? = some (.aggregate a') := by simp [hh1, hc.lt]
  have hgetne : ∀ r, r ≠ p → h1[r]? = h[r]? := fun r hr => by simp [hh1, Ne.symm hr]
  have hchild_p : ∀ q, Child h1 p q ↔ q ∈ ps := by
    intro q
    constructor
    · rintro ⟨b, hb, hq⟩
      rw [hget] at hb; cases hb
      exact (prims_perm hps).mem_iff.mp hq
    · intro hq
      exact ⟨a', hget, (prims_perm hps).mem_iff.mpr hq⟩
  have hchild_ne : ∀ r q, r ≠ p → (Child h1 r q ↔ Child h r q) := by
    intro r q hr; unfold Child; rw [hgetne r hr]
  have hr1 : Ranked rank h1 := by
    refine ⟨?_, fun r hr => by rw [hlen] at hr ⊢; exact hc.ranked.bound r hr⟩
    intro r q hcq
    rw [hlen]
    by_cases hr : r = p
    · subst hr; exact hc.prims q ((hchild_p q).mp hcq)
    · exact hc.ranked.child r q ((hchild_ne r q hr).mp hcq)
  rw [setRef_eq hr1 (by rw [hlen]; exact hc.lt)]
  have hwq : ∀ q, rank q < rank p → ∀ r, Within h1 q r ↔ Within h q r := by
    intro q hq r
    constructor
    · intro hw
      induction hw with
      | refl => exact .refl
      | @tail b c hw1 hcc ih =>
        have hb := within_rank hr1 hw1
        exact ih.tail ((hchild_ne b c (by rintro rfl; omega)).mp hcc)
    · intro hw
      induction hw with
      | refl => exact .refl
      | @tail b c hw1 hcc ih =>
        have hb := within_rank hc.ranked hw1
        exact ih.tail ((hchild_ne b c (by rintro rfl; omega)).mpr hcc)
  have hwp : ∀ r, Within h1 p r ↔ r = p ∨ ∃ q ∈ ps, Within h q r := by
    intro r
    constructor
    · intro hw
      rcases Relation.ReflTransGen.cases_head hw with rfl | ⟨q, hcq, hw'⟩
      · exact Or.inl rfl
      · have hq := (hchild_p q).mp hcq
        exact Or.inr ⟨q, hq, (hwq q (hc.prims q hq).2 r).mp hw'⟩
    · rintro (rfl | ⟨q, hq, hw⟩)
      · exact .refl
      · exact Relation.ReflTransGen.head ((hchild_p q).mpr hq) ((hwq q (hc.prims q hq).2 r).mpr hw)
  simp only [Res.ok_bind]
  congr 1
  apply List.ext_getElem?
  intro r
  unfold install
  by_cases hr : r = p
  · subst hr
    rw [markRef_pos ((hwp r).mpr (Or.inl rfl)), hget]
    simp [hc.lt, canonAgg, Obj.mapBase, ha']
  · have hset : (((markRef h (fun r => ∃ q ∈ ps, Within h q r) (canonPos h ps)).set p
        (.aggregate (canonAgg h ps a)))[r]? : Option (Obj α)) =
        (markRef h (fun r => ∃ q ∈ ps, Within h q r) (canonPos h ps))[r]? := by
      simp [Ne.symm hr]
    rw [hset]
    by_cases hw : ∃ q ∈ ps, Within h q r
    · rw [markRef_pos ((hwp r).mpr (Or.inr hw)),
        markRef_pos (D := fun r => ∃ q ∈ ps, Within h q r) hw, hgetne r hr]
    · rw [markRef_neg (fun h' => by rcases (hwp r).mp h' with h' | h' <;> contradiction),
        markRef_neg (D := fun r => ∃ q ∈ ps, Within h q r) hw, hgetne r hr]

/-- The virtual calls made on the primitives when a hull is computed. -/
def oracles (h : Heap α) (ps : List Ptr) : List (Oracle α) :=
  ps.filterMap fun p => (h[p]?).map Obj.intersectionPoints

theorem intersectionPoints_shape (o : Obj α) : (shape o).intersectionPoints = o.intersectionPoints := by
  cases o <;> rfl

theorem oracles_congr {h h' : Heap α} {ps : List Ptr}
    (hs : ∀ p ∈ ps, (h'[p]?).map shape = (h[p]?).map shape) : oracles h' ps = oracles h ps := by
  induction ps with
  | nil => rfl
  | cons p ps ih =>
    have h1 := hs p (by simp)
    have ih := ih fun q hq => hs q (by simp [hq])
    unfold oracles at ih ⊢
    simp only [List.filterMap_cons, ih]
    have : (h'[p]?).map Obj.intersectionPoints = (h[p]?).map Obj.intersectionPoints := by
      have key : ∀ x : Option (Obj α), x.map Obj.intersectionPoints =
          (x.map shape).map Obj.intersectionPoints := by
        intro x; cases x with
        | none => rfl
        | some o => simp [intersectionPoints_shape]
      rw [key, h1, ← key]
    rw [this]

/-- `update_hull` recomputes both hulls and nothing else. -/
theorem updateHull_ok {h : Heap α} {p : Ptr} {a : Aggregate α} {v : V3 α}
    (ha : h[p]? = some (.aggregate a)) (hps : ∀ q ∈ a.prims, q < h.length)
    (hv : a.base.refPos = some v) (hh : AggHullsOK a) :
    ∃ i o, a.inside.compute (oracles h a.prims) v = .ok i ∧
      a.outside.compute (oracles h a.prims) v = .ok o ∧ HullOK i ∧ HullOK o ∧
      h.updateHull p = .ok (h.set p (.aggregate { a with inside := i, outside := o })) := by
  obtain ⟨i, hi, hi', -⟩ := compute_ok hh.1 (oracles h a.prims) v
  obtain ⟨o, ho, ho', -⟩ := compute_ok hh.2 (oracles h a.prims) v
  refine ⟨i, o, hi, ho, hi', ho', ?_⟩
  have hm : ∀ ps : List Ptr, (∀ q ∈ ps, q < h.length) →
      ∃ M, ps.mapM h.deref = .ok M ∧ M.map Obj.intersectionPoints = oracles h ps := by
    intro ps
    induction ps with
    | nil => intro _; exact ⟨[], rfl, rfl⟩
    | cons p ps ih =>
      intro hp
      have hpl : p < h.length := hp p (by simp)
      have h1 : h[p]? = some h[p] := List.getElem?_eq_getElem hpl
      obtain ⟨M, hM1, hM2⟩ := ih fun q hq => hp q (by simp [hq])
      refine ⟨h[p] :: M, ?_, ?_⟩
      · rw [List.mapM_cons, hM1]; simp [Heap.deref, h1]
      · unfold oracles at hM2 ⊢
        simp [h1, hM2]
  obtain ⟨M, hM1, hM2⟩ := hm a.prims hps
  simp [Heap.updateHull, Heap.deref, ha, hM1, hM2, Base.ref, hv, hi, ho]

end DOA
