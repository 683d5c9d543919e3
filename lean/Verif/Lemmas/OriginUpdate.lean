import Verif.Lemmas.Origin

/-!
# Helper lemmas for the change of the origin: the aggregation
-/

namespace DOA
open DOA.Spec DOA.Modulation DOA.Ellipsoid DOA.Aggregation
set_option linter.unnecessarySeqFocus false
set_option linter.unusedSectionVars false
set_option linter.unusedSimpArgs false

namespace Origin

/-- Only the hulls of the aggregate at `p` are seen from another origin. -/
def hullsAt (t : V3 ℝ) (p : Nat) (q : Nat) (o : Obj ℝ) : Obj ℝ :=
  match o with
  | .aggregate a => if q = p then .aggregate { a with inside := movedHull t a.inside, outside := movedHull t a.outside }
      else .aggregate a
  | o => o

theorem hullsAt_points (t : V3 ℝ) (p q : Nat) (o : Obj ℝ) : (hullsAt t p q o).intersectionPoints = o.intersectionPoints := by
  cases o <;> simp only [hullsAt]
  split <;> rfl

theorem hullsAt_ne (t : V3 ℝ) {p q : Nat} (h : q ≠ p) (o : Obj ℝ) : hullsAt t p q o = o := by
  cases o <;> simp [hullsAt, h]

theorem updateHull_half (t : V3 ℝ) (k : Heap ℝ) (p : Ptr) : Heap.updateHull (k.mapIdx (hullsAt t p)) p = k.updateHull p := by
  have hd : ∀ q : Ptr, Heap.deref (k.mapIdx (hullsAt t p)) q = hullsAt t p q <$> k.deref q := by
    intro q
    unfold Heap.deref
    rw [List.getElem?_mapIdx]
    cases k[q]? <;> rfl
  have hm : ∀ ps : List Ptr, (List.map Obj.intersectionPoints) <$> ps.mapM (Heap.deref (k.mapIdx (hullsAt t p))) =
      (List.map Obj.intersectionPoints) <$> ps.mapM k.deref := by
    intro ps
    induction ps with
    | nil => rfl
    | cons q ps ih =>
      rw [List.mapM_cons, List.mapM_cons, hd]
      cases k.deref q with
      | throw x => rfl
      | ub u => rfl
      | ok o =>
        simp only [Res.map_ok, Res.ok_bind]
        revert ih
        cases ps.mapM (Heap.deref (k.mapIdx (hullsAt t p))) <;> cases ps.mapM k.deref <;> intro ih <;>
          simp_all [hullsAt_points]
  have hs : ∀ x : Obj ℝ, (k.mapIdx (hullsAt t p)).set p x = k.set p x := by
    intro x
    apply List.ext_getElem?
    intro i
    simp only [List.getElem?_set, List.getElem?_mapIdx, List.length_mapIdx]
    split
    · rfl
    · rename_i hi
      cases k[i]? with
      | none => rfl
      | some o => simp only [Option.map_some, hullsAt_ne t (Ne.symm hi)]
  unfold Heap.updateHull
  rw [hd]
  cases k.deref p with
  | throw x => rfl
  | ub u => rfl
  | ok o =>
    cases o with
    | plain b => rfl
    | ellipsoid b => rfl
    | hull b => rfl
    | aggregate a =>
      simp only [Res.map_ok, Res.ok_bind, hullsAt, if_true]
      have := hm a.prims
      revert this
      cases a.prims.mapM (Heap.deref (k.mapIdx (hullsAt t p))) with
      | throw x => cases a.prims.mapM k.deref <;> intro h <;> first | (cases h; done) | (cases h; rfl)
      | ub x => cases a.prims.mapM k.deref <;> intro h <;> first | (cases h; done) | (cases h; rfl)
      | ok os =>
        cases a.prims.mapM k.deref with
        | throw x => intro h; cases h
        | ub x => intro h; cases h
        | ok os' =>
          intro h
          simp only [Res.map_ok] at h
          injection h with h
          simp only [Res.ok_bind, h, compute_half, hs]

/-- A new aggregate does not depend on the origin: its first part decides where it is. -/
theorem fresh_add (t : V3 ℝ) (h : Heap ℝ) {q : Ptr} (hq : q < h.length) :
    Heap.addPrimitive (h ++ [movedObj t (.aggregate Aggregate.default)]) h.length q true =
      Heap.addPrimitive (h ++ [.aggregate Aggregate.default]) h.length q true := by
  have hg : ∀ o : Obj ℝ, Heap.deref (h ++ [o]) h.length = .ok o := by
    intro o; simp [Heap.deref]
  have hset : ∀ o x : Obj ℝ, (h ++ [o]).set h.length x = h ++ [x] := by
    intro o x; simp
  have hsort : ∀ o : Obj ℝ, Heap.sortByName (h ++ [o]) [q] = .ok [(q, h[q])] := by
    intro o
    simp [Heap.sortByName, Heap.deref, List.getElem?_append_left hq, List.getElem?_eq_getElem hq, MathTools.sortBy,
      MathTools.insertBy]
  unfold Heap.addPrimitive
  rw [hg, hg]
  simp only [Res.ok_bind, movedObj]
  unfold Heap.installPrims
  rw [hg, hg]
  simp only [Res.ok_bind, hset]
  rw [show (Aggregate.default : Aggregate ℝ).prims ++ [q] = [q] from rfl, hsort, hsort]
  simp only [Res.ok_bind]
  generalize hpos : ((([(q, h[q])].map (fun x : Ptr × Obj ℝ => x.2.position)).foldl (fun acc v => acc + v) V3.zero).sdiv
    (MathTools.ofInt (([(q, h[q])] : List (Ptr × Obj ℝ)).length))) = pos
  generalize Heap.aggregateName ([(q, h[q])].map (fun x : Ptr × Obj ℝ => x.2.name)) = nm
  generalize hA : (⟨((Aggregate.default : Aggregate ℝ).base.setName nm).setPosition pos, Aggregate.default.inside,
    Aggregate.default.outside, [(q, h[q])].map (fun x : Ptr × Obj ℝ => x.1)⟩ : Aggregate ℝ) = A
  have e : h ++ [.aggregate ⟨((movedBase t (Aggregate.default : Aggregate ℝ).base).setName nm).setPosition pos,
      movedHull t (Aggregate.default : Aggregate ℝ).inside, movedHull t (Aggregate.default : Aggregate ℝ).outside,
      [(q, h[q])].map (fun x : Ptr × Obj ℝ => x.1)⟩] = (h ++ [Obj.aggregate A]).mapIdx (hullsAt t h.length) := by
    apply List.ext_getElem?
    intro i
    rw [List.getElem?_mapIdx]
    by_cases hi : i < h.length
    · rw [List.getElem?_append_left hi, List.getElem?_append_left hi, List.getElem?_eq_getElem hi]
      simp only [Option.map_some, hullsAt_ne t (Nat.ne_of_lt hi)]
    · by_cases hi' : i = h.length
      · subst hi'
        simp [hullsAt, ← hA]
        rfl
      · rw [List.getElem?_eq_none (by simp; omega), List.getElem?_eq_none (by simp; omega)]
        rfl
  rw [e]
  unfold Heap.setRef
  have hf : Heap.fuel ((h ++ [Obj.aggregate A]).mapIdx (hullsAt t h.length)) = Heap.fuel (h ++ [Obj.aggregate A]) := by
    simp [Heap.fuel]
  rw [hf, setRefAux_mapIdx (F := hullsAt t h.length) (v := pos) (v' := pos)]
  · cases Heap.setRefAux (Heap.fuel (h ++ [Obj.aggregate A])) (h ++ [Obj.aggregate A]) h.length pos with
    | throw x => rfl
    | ub u => rfl
    | ok k => exact updateHull_half t k h.length
  · intro r o
    cases o <;> simp only [hullsAt, Obj.mapBase]
    split <;> rfl
  · intro r a
    simp only [hullsAt]
    split
    · exact ⟨_, rfl, rfl⟩
    · exact ⟨_, rfl, rfl⟩
  · intro r o ho a
    cases o with
    | aggregate b => exact absurd rfl (ho b)
    | plain b => intro h; cases h
    | ellipsoid b => intro h; cases h
    | hull b => intro h; cases h

theorem Seen.length {Z : Prop} {t : V3 ℝ} {h h' : Heap ℝ} (s : Seen Z t h h') : h'.length = h.length := by rw [s.1, length_moved]

theorem fresh_moved {Z : Prop} {t : V3 ℝ} {h h' : Heap ℝ} (s : Seen Z t h h') {q : Ptr} (hq : q < h.length) :
    Agree (Seen Z t) (h.newAggregate.1.addPrimitive h.newAggregate.2 q true)
      (h'.newAggregate.1.addPrimitive h'.newAggregate.2 q true) := by
  unfold Heap.newAggregate
  simp only
  rw [← fresh_add t h' (s.length ▸ hq), s.length]
  refine addPrimitive_moved ⟨?_, s.2.push (fun e he => by cases he)⟩ _ _ _
  rw [s.1]
  simp [movedHeap]

/-! ## intersections -/

theorem intersecting_moved (t : V3 ℝ) {h : Heap ℝ} {o : Obj ℝ} (ho : ∀ e, o = .ellipsoid e → t.z = 0 ∨ ZRotated e) :
    ∀ (n : Nat) (other : Obj ℝ),
      Heap.isIntersectingAux n (movedHeap t h) (movedObj t o) (movedObj t other) = Heap.isIntersectingAux n h o other := by
  intro n
  induction n with
  | zero => intros; rfl
  | succ n ih =>
    intro other
    cases other with
    | plain b => rfl
    | hull b => rfl
    | ellipsoid b =>
      cases o with
      | ellipsoid e => exact intersectE t (ho e rfl) b
      | plain b => rfl
      | hull b => rfl
      | aggregate b => rfl
    | aggregate a =>
      simp only [movedObj, Heap.isIntersectingAux]
      generalize false = acc
      induction a.prims generalizing acc with
      | nil => rfl
      | cons q l ihl =>
        simp only [List.foldlM_cons, deref_moved]
        have : ∀ x y : Res Bool, x = y → (x >>= fun s => l.foldlM (fun acc q => if acc then Res.ok true else do
            let oq ← movedObj t <$> h.deref q
            Heap.isIntersectingAux n (movedHeap t h) (movedObj t o) oq) s) = (y >>= fun s => l.foldlM (fun acc q =>
              if acc then Res.ok true else do
            let oq ← h.deref q
            Heap.isIntersectingAux n h o oq) s) := by
          intro x y hxy
          subst hxy
          congr 1
          funext s
          have := ihl s
          simp only [deref_moved] at this
          exact this
        apply this
        cases acc with
        | true => rfl
        | false =>
          simp only [Bool.false_eq_true, if_false]
          cases h.deref q with
          | throw x => rfl
          | ub u => rfl
          | ok oq => exact ih oq

theorem isIntersecting_moved {t : V3 ℝ} {h h' : Heap ℝ} (s : h' = movedHeap t h) {o : Obj ℝ}
    (ho : ∀ e, o = .ellipsoid e → t.z = 0 ∨ ZRotated e) (other : Obj ℝ) :
    h'.isIntersecting (movedObj t o) (movedObj t other) = h.isIntersecting o other := by
  unfold Heap.isIntersecting
  rw [s, fuel_moved]
  exact intersecting_moved t ho _ other

/-! ## `aggregate_obstacles` -/

/-- The states of the aggregation: the same scene, the same pointers and indices. -/
def SeenSt (Z : Prop) (t : V3 ℝ) (s s' : St ℝ) : Prop := Seen Z t s.heap s'.heap ∧ s'.aggs = s.aggs ∧ s'.idx = s.idx

theorem agree_same {β : Type} {x : Res β} : Agree (fun b c => c = b) x x := by cases x <;> rfl

theorem mergeLoop_moved {Z : Prop} {t : V3 ℝ} (oldI newI : Int) : ∀ (l : List (Nat × Ptr)) {s s' : St ℝ}, SeenSt Z t s s' →
    Agree (SeenSt Z t) (mergeLoop oldI newI l s) (mergeLoop oldI newI l s')
  | [], s, s', h => h
  | (k, p) :: rest, s, s', h => by
    unfold mergeLoop
    rw [h.2.2, h.2.1]
    refine Agree.bind agree_same ?_
    rintro ik _ - - rfl
    split
    · refine Agree.bind agree_same ?_
      rintro _ a - - rfl
      refine Agree.bind (addPrimitive_moved h.1 a p false) ?_
      intro k k' _ _ hk
      exact mergeLoop_moved oldI newI rest ⟨hk, by simp only [h.2.1], rfl⟩
    · split
      · exact mergeLoop_moved oldI newI rest ⟨h.1, by simp only [h.2.1], rfl⟩
      · exact mergeLoop_moved oldI newI rest h

theorem link_moved {Z : Prop} {t : V3 ℝ} (obs : List Ptr) (i j : Nat) (pi pj : Ptr) {s s' : St ℝ} (h : SeenSt Z t s s')
    (hi : pi < s.heap.length) : Agree (SeenSt Z t) (link obs i j pi pj s) (link obs i j pi pj s') := by
  unfold link
  rw [h.2.2, h.2.1]
  refine Agree.bind agree_same ?_
  rintro ii _ - - rfl
  refine Agree.bind agree_same ?_
  rintro ij _ - - rfl
  split
  · refine Agree.bind agree_same ?_
    rintro _ a - - rfl
    refine Agree.bind (addPrimitive_moved h.1 a pj false) ?_
    intro k k' _ _ hk
    exact ⟨hk, by simp only [h.2.1], by simp only [h.2.2]⟩
  split
  · refine Agree.bind agree_same ?_
    rintro _ a - - rfl
    refine Agree.bind (addPrimitive_moved h.1 a pi false) ?_
    intro k k' _ _ hk
    exact ⟨hk, by simp only [h.2.1], by simp only [h.2.2]⟩
  split
  · refine Agree.bind (fresh_moved h.1 hi) ?_
    intro k k' _ _ hk
    rw [show s'.heap.newAggregate.2 = s.heap.newAggregate.2 from h.1.length]
    refine Agree.bind (addPrimitive_moved hk _ pj true) ?_
    intro k k' _ _ hk
    exact ⟨hk, by simp only [h.2.1], by simp only [h.2.1, h.2.2]⟩
  split
  · refine Agree.bind (mergeLoop_moved _ _ _ h) ?_
    intro r r' _ _ hr
    rw [hr.2.1]
    split
    · split
      · exact ⟨hr.1, by simp only [hr.2.1], hr.2.2⟩
      · rfl
    · rfl
  · exact h

theorem get_lt {h : Heap ℝ} {p : Ptr} {o : Obj ℝ} (hp : h[p]? = some o) : p < h.length :=
  (List.getElem?_eq_some_iff.mp hp).1

theorem pairStep_moved {Z : Prop} {t : V3 ℝ} (hZ : Z → t.z = 0) (obs : List Ptr) (i : Nat) (pi : Ptr) (j : Nat) (pj : Ptr) {s s' : St ℝ}
    (h : SeenSt Z t s s') : Agree (SeenSt Z t) (pairStep obs i pi j pj s) (pairStep obs i pi j pj s') := by
  unfold pairStep
  refine Agree.bind (h.1.deref pi) ?_
  rintro o o' - - ⟨rfl, ho⟩
  refine Agree.bind (h.1.deref pj) ?_
  rintro o2 o2' - - ⟨rfl, ho2⟩
  rw [isIntersecting_moved h.1.1 (fun e he => (h.1.2.get (he ▸ ho)).imp hZ id) o2]
  refine Agree.bind agree_same ?_
  rintro b _ - - rfl
  split
  · exact link_moved obs i j pi pj h (get_lt ho)
  · exact h

theorem innerLoop_moved {Z : Prop} {t : V3 ℝ} (hZ : Z → t.z = 0) (obs : List Ptr) (i : Nat) (pi : Ptr) : ∀ (l : List (Nat × Ptr)) {s s' : St ℝ},
    SeenSt Z t s s' → Agree (SeenSt Z t) (innerLoop obs i pi l s) (innerLoop obs i pi l s')
  | [], _, _, h => h
  | (j, pj) :: rest, _, _, h =>
    Agree.bind (pairStep_moved hZ obs i pi j pj h) fun _ _ _ _ h => innerLoop_moved hZ obs i pi rest h

theorem outerLoop_moved {Z : Prop} {t : V3 ℝ} (hZ : Z → t.z = 0) (obs : List Ptr) : ∀ (l : List (Nat × Ptr)) {s s' : St ℝ},
    SeenSt Z t s s' → Agree (SeenSt Z t) (outerLoop obs l s) (outerLoop obs l s')
  | [], _, _, h => h
  | (i, pi) :: rest, _, _, h =>
    Agree.bind (innerLoop_moved hZ obs i pi rest h) fun _ _ _ _ h => outerLoop_moved hZ obs rest h

theorem updateHulls_moved {Z : Prop} {t : V3 ℝ} : ∀ (l : List Ptr) {h h' : Heap ℝ}, Seen Z t h h' →
    Agree (Seen Z t) (updateHulls l h) (updateHulls l h')
  | [], _, _, s => s
  | p :: l, h, h', s => by
    unfold updateHulls
    rw [List.foldlM_cons, List.foldlM_cons]
    exact Agree.bind (s.updateHull p) fun _ _ _ _ s => updateHulls_moved l s

theorem aggregateObstacles_moved {Z : Prop} {t : V3 ℝ} (hZ : Z → t.z = 0) {h h' : Heap ℝ} (s : Seen Z t h h') (obs : List Ptr) :
    Agree (fun r r' => Seen Z t r.1 r'.1 ∧ r'.2 = r.2) (aggregateObstacles h obs) (aggregateObstacles h' obs) := by
  unfold aggregateObstacles
  refine Agree.bind (outerLoop_moved hZ obs _ ⟨s, rfl, rfl⟩) ?_
  intro r r' _ _ hr
  rw [hr.2.1, hr.2.2]
  refine Agree.bind (updateHulls_moved _ hr.1) ?_
  intro k k' _ _ hk
  exact ⟨hk, rfl⟩

theorem update_moved {Z : Prop} {t : V3 ℝ} (hZ : Z → t.z = 0) {h h' : Heap ℝ} (s : Seen Z t h h') (e : Env) :
    Agree (fun r r' => Seen Z t r.1 r'.1 ∧ r'.2 = r.2) (e.update h) (e.update h') := by
  unfold Env.update
  simp only
  split
  · refine Agree.bind (aggregateObstacles_moved hZ s _) ?_
    rintro ⟨k, l⟩ ⟨k', l'⟩ _ _ ⟨hk, hl⟩
    simp only at hk hl
    subst hl
    exact ⟨hk, rfl⟩
  · exact ⟨s, rfl⟩

end Origin
end DOA
