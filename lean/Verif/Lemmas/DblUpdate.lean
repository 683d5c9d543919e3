import Verif.Lemmas.DblHull
import Verif.Lemmas.OriginUpdate

/-!
# Transfer between ideal doubles and reals: the aggregation
-/

set_option linter.unusedSectionVars false
set_option linter.unusedSimpArgs false

namespace DOA
open Dbl Spec Origin Aggregation

theorem Fit.solids {h : Heap ℝ} (l : Fit h) : Solids h := fun p o ho => (l p o ho).solid

/-- the two heaps hold the same obstacles, one over the reals and one over the ideal doubles -/
def Same (h : Heap ℝ) (h' : Heap Dbl) : Prop := h' = h.toD ∧ Fit h

theorem Fit.set {h : Heap ℝ} (l : Fit h) (p : Ptr) {o : Obj ℝ} (ho : FitO o) : Fit (h.set p o) := by
  intro q r hq
  rw [List.getElem?_set] at hq
  split at hq
  · split at hq
    · injection hq with hq
      exact hq ▸ ho
    · cases hq
  · exact l q r hq

theorem Fit.push {h : Heap ℝ} (l : Fit h) {o : Obj ℝ} (ho : FitO o) : Fit (h ++ [o]) := by
  intro q r hq
  rw [List.getElem?_append] at hq
  split at hq
  · exact l q r hq
  · rw [List.getElem?_singleton] at hq
    split at hq
    · injection hq with hq
      exact hq ▸ ho
    · cases hq

theorem deref_toD (h : Heap ℝ) (p : Ptr) : h.toD.deref p = Obj.toD <$> h.deref p := by
  unfold Heap.deref Heap.toD
  rw [List.getElem?_map]
  cases h[p]? <;> rfl

theorem set_toD (h : Heap ℝ) (p : Ptr) (o : Obj ℝ) : h.toD.set p o.toD = Heap.toD (h.set p o) := by
  simp [Heap.toD, List.map_set]

theorem length_toD (h : Heap ℝ) : h.toD.length = h.length := by simp [Heap.toD]
theorem fuel_toD (h : Heap ℝ) : h.toD.fuel = h.fuel := by simp [Heap.fuel, length_toD]

theorem Same.deref {h : Heap ℝ} {h' : Heap Dbl} (s : Same h h') (p : Ptr) :
    Agree (fun o o' => o' = o.toD ∧ h[p]? = some o ∧ FitO o) (h.deref p) (h'.deref p) := by
  rw [s.1, deref_toD]
  unfold Heap.deref
  cases hp : h[p]? with
  | none => rfl
  | some o => exact ⟨rfl, rfl, s.2 p o hp⟩

theorem Same.length {h : Heap ℝ} {h' : Heap Dbl} (s : Same h h') : h'.length = h.length := by rw [s.1, length_toD]

/-! ## setting reference positions -/

theorem setRef_toD (o : Obj ℝ) (v : V3 ℝ) : o.toD.mapBase (·.setRef v.toD) = (o.mapBase (·.setRef v)).toD := by
  cases o <;> rfl

theorem setRefAux_toD (v : V3 ℝ) : ∀ (n : Nat) (h : Heap ℝ) (p : Ptr),
    Heap.setRefAux n h.toD p v.toD = Heap.toD <$> Heap.setRefAux n h p v := by
  intro n
  induction n with
  | zero => intros; rfl
  | succ n ih =>
    intro h p
    unfold Heap.setRefAux
    rw [deref_toD]
    cases hp : h.deref p with
    | throw x => rfl
    | ub u => rfl
    | ok o =>
      simp only [Res.map_ok, Res.ok_bind, setRef_toD, set_toD]
      have loop : ∀ (l : List Ptr) (k : Heap ℝ), l.foldlM (fun h q => Heap.setRefAux n h q v.toD) k.toD =
          Heap.toD <$> l.foldlM (fun h q => Heap.setRefAux n h q v) k := by
        intro l
        induction l with
        | nil => intro k; rfl
        | cons q l ihl =>
          intro k
          simp only [List.foldlM_cons]
          rw [ih]
          cases Heap.setRefAux n k q v with
          | ok k' => exact ihl k'
          | throw x => rfl
          | ub u => rfl
      cases o with
      | aggregate a => exact loop a.prims _
      | plain b => rfl
      | ellipsoid b => rfl
      | hull b => rfl

theorem FitO.setRef {o : Obj ℝ} (h : FitO o) (v : V3 ℝ) : FitO (o.mapBase (·.setRef v)) := by
  cases o with
  | plain b => trivial
  | hull b => trivial
  | ellipsoid e => exact ⟨h.1, h.2⟩
  | aggregate a => exact h

theorem Fit.setRefAux {v : V3 ℝ} : ∀ (n : Nat) {h k : Heap ℝ} {p : Ptr}, Fit h →
    Heap.setRefAux n h p v = .ok k → Fit k := by
  intro n
  induction n with
  | zero => intro h k p _ hk; cases hk
  | succ n ih =>
    intro h k p l hk
    unfold Heap.setRefAux at hk
    obtain ⟨o, ho, hk⟩ := Res.bind_eq_ok.mp hk
    have l1 : Fit (h.set p (o.mapBase (·.setRef v))) := l.set p ((l p o (get_of_deref ho)).setRef v)
    have loop : ∀ (ps : List Ptr) {k0 k : Heap ℝ}, Fit k0 → ps.foldlM (fun h q => Heap.setRefAux n h q v) k0 = .ok k →
        Fit k := by
      intro ps
      induction ps with
      | nil => intro k0 k l hk; cases hk; exact l
      | cons q ps ihl =>
        intro k0 k l hk
        rw [List.foldlM_cons] at hk
        obtain ⟨k1, h1, h2⟩ := Res.bind_eq_ok.mp hk
        exact ihl (ih l h1) h2
    cases o with
    | aggregate a => exact loop _ l1 hk
    | plain b => cases hk; exact l1
    | ellipsoid b => cases hk; exact l1
    | hull b => cases hk; exact l1

theorem Same.setRef {h : Heap ℝ} {h' : Heap Dbl} (s : Same h h') (p : Ptr) (v : V3 ℝ) :
    Agree Same (h.setRef p v) (h'.setRef p v.toD) := by
  refine agree_map (f := Heap.toD) ?_ fun k hk => ⟨rfl, Fit.setRefAux _ s.2 hk⟩
  rw [s.1]
  unfold Heap.setRef
  rw [fuel_toD, setRefAux_toD]

/-! ## hulls of aggregates -/

theorem mapM_deref_toD (h : Heap ℝ) (ps : List Ptr) :
    ps.mapM h.toD.deref = (fun os => os.map Obj.toD) <$> ps.mapM h.deref := by
  induction ps with
  | nil => rfl
  | cons p ps ih =>
    simp only [List.mapM_cons, deref_toD, ih]
    cases h.deref p with
    | throw x => rfl
    | ub u => rfl
    | ok o =>
      cases ps.mapM h.deref with
      | throw x => rfl
      | ub u => rfl
      | ok os => rfl

theorem mapM_deref_mem {h : Heap ℝ} : ∀ {ps : List Ptr} {os : List (Obj ℝ)}, ps.mapM h.deref = .ok os →
    ∀ o ∈ os, ∃ p ∈ ps, h[p]? = some o := by
  intro ps
  induction ps with
  | nil => intro os h; cases h; intro o ho; cases ho
  | cons p ps ih =>
    intro os hos
    rw [List.mapM_cons] at hos
    obtain ⟨b, hb, hos⟩ := Res.bind_eq_ok.mp hos
    obtain ⟨bs, hbs, hos⟩ := Res.bind_eq_ok.mp hos
    cases hos
    intro o ho
    rcases List.mem_cons.mp ho with rfl | ho
    · exact ⟨p, by simp, get_of_deref hb⟩
    · obtain ⟨q, hq, h1⟩ := ih hbs o ho
      exact ⟨q, by simp [hq], h1⟩

theorem ref_toD (b : Base ℝ) : b.toD.ref = V3.toD <$> b.ref := by
  unfold Base.ref
  rw [Base.toD_refPos]
  cases b.refPos <;> rfl

theorem updateHull_toD {h : Heap ℝ} (l : Fit h) (p : Ptr) : h.toD.updateHull p = Heap.toD <$> h.updateHull p := by
  unfold Heap.updateHull
  rw [deref_toD]
  cases hp : h.deref p with
  | throw x => rfl
  | ub u => rfl
  | ok o =>
    simp only [Res.map_ok, Res.ok_bind]
    cases o with
    | plain b => rfl
    | ellipsoid b => rfl
    | hull b => rfl
    | aggregate a =>
      have ha : FitK a.inside ∧ FitK a.outside := l p _ (get_of_deref hp)
      simp only [Obj.toD, Aggregate.toD, mapM_deref_toD, ref_toD]
      cases hos : a.prims.mapM h.deref with
      | throw x => rfl
      | ub u => rfl
      | ok os =>
        have hfit : ∀ o ∈ os, FitO o := fun o ho => by
          obtain ⟨q, _, hq⟩ := mapM_deref_mem hos o ho
          exact l q o hq
        simp only [Res.map_ok, Res.ok_bind]
        cases a.base.ref with
        | throw x => rfl
        | ub u => rfl
        | ok r =>
          simp only [Res.map_ok, Res.ok_bind, compute_toD ha.1 hfit, compute_toD ha.2 hfit]
          cases a.inside.compute (os.map Obj.intersectionPoints) r with
          | throw x => rfl
          | ub u => rfl
          | ok i =>
            simp only [Res.map_ok, Res.ok_bind]
            cases a.outside.compute (os.map Obj.intersectionPoints) r with
            | throw x => rfl
            | ub u => rfl
            | ok j =>
              simp only [Res.map_ok, Res.ok_bind]
              rw [← set_toD]
              rfl

theorem Fit.updateHull {h k : Heap ℝ} {p : Ptr} (l : Fit h) (hk : h.updateHull p = .ok k) : Fit k := by
  unfold Heap.updateHull at hk
  obtain ⟨o, ho, hk⟩ := Res.bind_eq_ok.mp hk
  cases o with
  | plain b => cases hk
  | ellipsoid b => cases hk
  | hull b => cases hk
  | aggregate a =>
    have ha : FitK a.inside ∧ FitK a.outside := l p _ (get_of_deref ho)
    simp only at hk
    obtain ⟨_, _, hk⟩ := Res.bind_eq_ok.mp hk
    obtain ⟨_, _, hk⟩ := Res.bind_eq_ok.mp hk
    obtain ⟨i, hi, hk⟩ := Res.bind_eq_ok.mp hk
    obtain ⟨j, hj, hk⟩ := Res.bind_eq_ok.mp hk
    cases hk
    exact l.set p (show FitO (.aggregate _) from ⟨ha.1.compute hi, ha.2.compute hj⟩)

theorem Same.updateHull {h : Heap ℝ} {h' : Heap Dbl} (s : Same h h') (p : Ptr) :
    Agree Same (h.updateHull p) (h'.updateHull p) :=
  agree_map (f := Heap.toD) (by rw [s.1, updateHull_toD s.2]) fun _ hk => ⟨rfl, s.2.updateHull hk⟩

/-! ## building aggregates -/

theorem name_toD (o : Obj ℝ) : o.toD.name = o.name := by cases o <;> rfl
theorem position_toD (o : Obj ℝ) : o.toD.position = o.position.toD := by cases o <;> rfl

theorem sortByName_toD (h : Heap ℝ) (ps : List Ptr) :
    h.toD.sortByName ps = (fun l => l.map (fun x => (x.1, x.2.toD))) <$> h.sortByName ps := by
  have key : ∀ ps : List Ptr, (ps.mapM fun p => do
        let o ← h.toD.deref p
        Res.ok (p, o)) = (fun l : List (Ptr × Obj ℝ) => l.map (fun x => (x.1, x.2.toD))) <$> (ps.mapM fun p => do
        let o ← h.deref p
        Res.ok (p, o)) := by
    intro ps
    induction ps with
    | nil => rfl
    | cons p ps ih =>
      rw [List.mapM_cons, List.mapM_cons, ih, deref_toD]
      cases h.deref p with
      | throw x => rfl
      | ub u => rfl
      | ok o =>
        simp only [Res.map_ok, Res.ok_bind]
        generalize (List.mapM (fun p => do
          let o ← h.deref p
          Res.ok (p, o)) ps : Res (List (Ptr × Obj ℝ))) = r
        cases r <;> rfl
  unfold Heap.sortByName
  rw [key]
  cases (ps.mapM fun p => do
        let o ← h.deref p
        Res.ok (p, o) : Res (List (Ptr × Obj ℝ))) with
  | throw x => rfl
  | ub u => rfl
  | ok l =>
    simp only [Res.map_ok, Res.ok_bind]
    congr 1
    exact MathTools.sortBy_map _ _ _ (fun a b => by simp only [Heap.namedBefore, name_toD]) l

theorem sum_toD (l : List (V3 ℝ)) : ∀ acc : V3 ℝ, (l.map V3.toD).foldl (fun acc v => acc + v) acc.toD =
    (l.foldl (fun acc v => acc + v) acc).toD := by
  induction l with
  | nil => intro acc; rfl
  | cons v l ih => intro acc; simp only [List.map_cons, List.foldl_cons, V3.toD_add, ih]

theorem mean_toD (s : V3 ℝ) {n : Nat} (hn : n ≠ 0) : s.toD.sdiv (MathTools.ofInt n) = (s.sdiv (MathTools.ofInt n)).toD := by
  have : (MathTools.ofInt n : Dbl) = fin (MathTools.ofInt n) := rfl
  rw [this, V3.toD_sdiv]
  simp only [MathTools.ofInt, lit_real]
  simpa using hn

theorem installPrims_toD {h : Heap ℝ} {h' : Heap Dbl} (s : Same h h') (p : Ptr) {ps : List Ptr} (hps : ps ≠ []) (u : Bool) :
    Agree Same (h.installPrims p ps u) (h'.installPrims p ps u) := by
  unfold Heap.installPrims
  refine Agree.bind (s.deref p) ?_
  rintro o o' _ - ⟨rfl, ho, hf⟩
  cases o with
  | plain b => rfl
  | ellipsoid b => rfl
  | hull b => rfl
  | aggregate a =>
    simp only [Obj.toD]
    rw [s.1, sortByName_toD]
    cases hs : h.sortByName ps with
    | throw x => rfl
    | ub u => rfl
    | ok l =>
      have hl : l.length ≠ 0 := by
        have := sortByName_length hs
        intro h0
        rw [h0] at this
        exact hps (List.length_eq_zero_iff.mp this.symm)
      simp only [Res.map_ok, Res.ok_bind, List.map_map, List.length_map]
      have e1 : ((fun x : Ptr × Obj Dbl => x.2.position) ∘ fun x : Ptr × Obj ℝ => (x.1, x.2.toD)) =
          (V3.toD ∘ fun x : Ptr × Obj ℝ => x.2.position) := by
        funext x; exact position_toD x.2
      have e2 : ((fun x : Ptr × Obj Dbl => x.2.name) ∘ fun x : Ptr × Obj ℝ => (x.1, x.2.toD)) = fun x : Ptr × Obj ℝ => x.2.name := by
        funext x; exact name_toD x.2
      have e3 : ((fun x : Ptr × Obj Dbl => x.1) ∘ fun x : Ptr × Obj ℝ => (x.1, x.2.toD)) = fun x : Ptr × Obj ℝ => x.1 := rfl
      rw [e1, e2, e3, ← List.map_map, V3.toD_zero, sum_toD, mean_toD _ hl]
      generalize (l.map fun x => x.2.position).foldl (fun acc v => acc + v) V3.zero = sm
      have s1 : Same (h.set p (.aggregate ⟨(a.base.setName (Heap.aggregateName (l.map fun x => x.2.name))).setPosition
          (sm.sdiv (MathTools.ofInt l.length)), a.inside, a.outside, l.map fun x => x.1⟩)) _ :=
        ⟨rfl, s.2.set p (show FitO (.aggregate _) from hf)⟩
      rw [← set_toD] at s1
      refine Agree.bind (R := Same) (s1.setRef p _) ?_
      intro k k' _ _ sk
      cases u with
      | false => exact sk
      | true => exact sk.updateHull p

theorem addPrimitive_toD {h : Heap ℝ} {h' : Heap Dbl} (s : Same h h') (p q : Ptr) (u : Bool) :
    Agree Same (h.addPrimitive p q u) (h'.addPrimitive p q u) := by
  unfold Heap.addPrimitive
  refine Agree.bind (s.deref p) ?_
  rintro o o' _ - ⟨rfl, ho⟩
  cases o with
  | plain b => rfl
  | ellipsoid b => rfl
  | hull b => rfl
  | aggregate a => exact installPrims_toD s p (by simp) u

theorem hull_toD (b : Bool) (n : Nat) : (Hull.mk' b n (lit 1 2) : Hull ℝ).toD = Hull.mk' b n (lit 1 2) := by
  simp only [Hull.mk', Hull.toD, List.map_replicate]
  rfl

theorem default_toD : (Aggregate.default : Aggregate ℝ).toD = Aggregate.default := by
  simp only [Aggregate.default, Aggregate.toD, hull_toD]
  rfl

theorem new_toD {h : Heap ℝ} {h' : Heap Dbl} (s : Same h h') :
    Same h.newAggregate.1 h'.newAggregate.1 := by
  refine ⟨?_, s.2.push (show FitO (.aggregate _) from ⟨⟨rfl, rfl⟩, ⟨rfl, rfl⟩⟩)⟩
  rw [s.1]
  simp [Heap.newAggregate, Heap.toD, Obj.toD, default_toD]

theorem fresh_toD {h : Heap ℝ} {h' : Heap Dbl} (s : Same h h') (q : Ptr) :
    Agree Same (h.newAggregate.1.addPrimitive h.newAggregate.2 q true)
      (h'.newAggregate.1.addPrimitive h'.newAggregate.2 q true) := by
  rw [show h'.newAggregate.2 = h.newAggregate.2 from s.length]
  exact addPrimitive_toD (new_toD s) _ _ _

/-! ## intersections -/

theorem intersecting_toD {h : Heap ℝ} (l : Solids h) {o : Obj ℝ} (ho : SolidO o) :
    ∀ (n : Nat) (other : Obj ℝ), SolidO other →
      Heap.isIntersectingAux n h.toD o.toD other.toD = Heap.isIntersectingAux n h o other := by
  intro n
  induction n with
  | zero => intros; rfl
  | succ n ih =>
    intro other hother
    cases other with
    | plain b => rfl
    | hull b => rfl
    | ellipsoid b =>
      cases o with
      | ellipsoid e => exact Ellipsoid.toD_isIntersectingEllipsoid ho hother
      | plain b => rfl
      | hull b => rfl
      | aggregate b => rfl
    | aggregate a =>
      simp only [Obj.toD, Aggregate.toD, Heap.isIntersectingAux]
      generalize false = acc
      induction a.prims generalizing acc with
      | nil => rfl
      | cons q ps ihl =>
        simp only [List.foldlM_cons, deref_toD]
        have : ∀ x y : Res Bool, x = y → (x >>= fun s => ps.foldlM (fun acc q => if acc then Res.ok true else do
            let oq ← Obj.toD <$> h.deref q
            Heap.isIntersectingAux n h.toD o.toD oq) s) = (y >>= fun s => ps.foldlM (fun acc q =>
              if acc then Res.ok true else do
            let oq ← h.deref q
            Heap.isIntersectingAux n h o oq) s) := by
          intro x y hxy
          subst hxy
          congr 1
          funext s
          have := ihl s
          simp only [deref_toD] at this
          exact this
        apply this
        cases acc with
        | true => rfl
        | false =>
          simp only [Bool.false_eq_true, if_false]
          cases hq : h.deref q with
          | throw x => rfl
          | ub u => rfl
          | ok oq => exact ih oq (l q oq (get_of_deref hq))

theorem isIntersecting_toD {h : Heap ℝ} (l : Solids h) {o other : Obj ℝ} (ho : SolidO o) (hother : SolidO other) :
    h.toD.isIntersecting o.toD other.toD = h.isIntersecting o other := by
  unfold Heap.isIntersecting
  rw [fuel_toD]
  exact intersecting_toD l ho _ other hother

/-! ## `aggregate_obstacles` -/

def SameSt (s : St ℝ) (s' : St Dbl) : Prop := Same s.heap s'.heap ∧ s'.aggs = s.aggs ∧ s'.idx = s.idx

theorem mergeLoop_toD (oldI newI : Int) : ∀ (l : List (Nat × Ptr)) {s : St ℝ} {s' : St Dbl}, SameSt s s' →
    Agree SameSt (mergeLoop oldI newI l s) (mergeLoop oldI newI l s')
  | [], s, s', h => h
  | (k, p) :: rest, s, s', h => by
    unfold mergeLoop
    rw [h.2.2, h.2.1]
    refine Agree.bind agree_same ?_
    rintro ik _ - - rfl
    split
    · refine Agree.bind agree_same ?_
      rintro _ a - - rfl
      refine Agree.bind (addPrimitive_toD h.1 a p false) ?_
      intro k k' _ _ hk
      exact mergeLoop_toD oldI newI rest ⟨hk, by simp only [h.2.1], rfl⟩
    · split
      · exact mergeLoop_toD oldI newI rest ⟨h.1, by simp only [h.2.1], rfl⟩
      · exact mergeLoop_toD oldI newI rest h

theorem link_toD (obs : List Ptr) (i j : Nat) (pi pj : Ptr) {s : St ℝ} {s' : St Dbl} (h : SameSt s s') :
    Agree SameSt (link obs i j pi pj s) (link obs i j pi pj s') := by
  unfold link
  rw [h.2.2, h.2.1]
  refine Agree.bind agree_same ?_
  rintro ii _ - - rfl
  refine Agree.bind agree_same ?_
  rintro ij _ - - rfl
  split
  · refine Agree.bind agree_same ?_
    rintro _ a - - rfl
    refine Agree.bind (addPrimitive_toD h.1 a pj false) ?_
    intro k k' _ _ hk
    exact ⟨hk, by simp only [h.2.1], by simp only [h.2.2]⟩
  split
  · refine Agree.bind agree_same ?_
    rintro _ a - - rfl
    refine Agree.bind (addPrimitive_toD h.1 a pi false) ?_
    intro k k' _ _ hk
    exact ⟨hk, by simp only [h.2.1], by simp only [h.2.2]⟩
  split
  · refine Agree.bind (fresh_toD h.1 pi) ?_
    intro k k' _ _ hk
    rw [show s'.heap.newAggregate.2 = s.heap.newAggregate.2 from h.1.length]
    refine Agree.bind (addPrimitive_toD hk _ pj true) ?_
    intro k k' _ _ hk
    exact ⟨hk, by simp only [h.2.1], by simp only [h.2.1, h.2.2]⟩
  split
  · refine Agree.bind (mergeLoop_toD _ _ _ h) ?_
    intro r r' _ _ hr
    rw [hr.2.1]
    split
    · split
      · exact ⟨hr.1, by simp only [hr.2.1], hr.2.2⟩
      · rfl
    · rfl
  · exact h

theorem pairStep_toD (obs : List Ptr) (i : Nat) (pi : Ptr) (j : Nat) (pj : Ptr) {s : St ℝ} {s' : St Dbl}
    (h : SameSt s s') : Agree SameSt (pairStep obs i pi j pj s) (pairStep obs i pi j pj s') := by
  unfold pairStep
  refine Agree.bind (h.1.deref pi) ?_
  rintro o o' - - ⟨rfl, ho, hf⟩
  refine Agree.bind (h.1.deref pj) ?_
  rintro o2 o2' - - ⟨rfl, ho2, hf2⟩
  rw [h.1.1, isIntersecting_toD h.1.2.solids hf.solid hf2.solid]
  refine Agree.bind agree_same ?_
  rintro b _ - - rfl
  split
  · exact link_toD obs i j pi pj h
  · exact h

theorem innerLoop_toD (obs : List Ptr) (i : Nat) (pi : Ptr) : ∀ (l : List (Nat × Ptr)) {s : St ℝ} {s' : St Dbl},
    SameSt s s' → Agree SameSt (innerLoop obs i pi l s) (innerLoop obs i pi l s')
  | [], _, _, h => h
  | (j, pj) :: rest, _, _, h =>
    Agree.bind (pairStep_toD obs i pi j pj h) fun _ _ _ _ h => innerLoop_toD obs i pi rest h

theorem outerLoop_toD (obs : List Ptr) : ∀ (l : List (Nat × Ptr)) {s : St ℝ} {s' : St Dbl},
    SameSt s s' → Agree SameSt (outerLoop obs l s) (outerLoop obs l s')
  | [], _, _, h => h
  | (i, pi) :: rest, _, _, h =>
    Agree.bind (innerLoop_toD obs i pi rest h) fun _ _ _ _ h => outerLoop_toD obs rest h

theorem updateHulls_toD : ∀ (l : List Ptr) {h : Heap ℝ} {h' : Heap Dbl}, Same h h' →
    Agree Same (updateHulls l h) (updateHulls l h')
  | [], _, _, s => s
  | p :: l, h, h', s => by
    unfold updateHulls
    rw [List.foldlM_cons, List.foldlM_cons]
    exact Agree.bind (s.updateHull p) fun _ _ _ _ s => updateHulls_toD l s

theorem aggregateObstacles_toD {h : Heap ℝ} {h' : Heap Dbl} (s : Same h h') (obs : List Ptr) :
    Agree (fun r r' => Same r.1 r'.1 ∧ r'.2 = r.2) (aggregateObstacles h obs) (aggregateObstacles h' obs) := by
  unfold aggregateObstacles
  refine Agree.bind (outerLoop_toD obs _ ⟨s, rfl, rfl⟩) ?_
  intro r r' _ _ hr
  rw [hr.2.1, hr.2.2]
  refine Agree.bind (updateHulls_toD _ hr.1) ?_
  intro k k' _ _ hk
  exact ⟨hk, rfl⟩

theorem update_toD {h : Heap ℝ} {h' : Heap Dbl} (s : Same h h') (e : Env) :
    Agree (fun r r' => Same r.1 r'.1 ∧ r'.2 = r.2) (e.update h) (e.update h') := by
  unfold Env.update
  simp only
  split
  · refine Agree.bind (aggregateObstacles_toD s _) ?_
    rintro ⟨k, l⟩ ⟨k', l'⟩ _ _ ⟨hk, hl⟩
    simp only at hk hl
    subst hl
    exact ⟨hk, rfl⟩
  · exact ⟨s, rfl⟩

end DOA
