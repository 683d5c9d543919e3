import Verif.Lemmas.Combine
import Verif.Lemmas.Shift

/-! `modulate_velocity` and the order of the obstacles. -/

set_option linter.unusedSectionVars false
set_option linter.unusedSimpArgs false

namespace DOA.Modulation
open DOA.Spec

/-! ### the two loops -/

/-- what is stored for one obstacle -/
noncomputable def itemFor (planar : Bool) (h : Heap ℝ) (a : Agent ℝ) : Ptr → Res (Item ℝ) :=
  if planar then shiftedItem h a else itemOf h a

/-- the obstacles after the loop -/
noncomputable def heapAfter (planar : Bool) (h : Heap ℝ) (a : Agent ℝ) (l : List Ptr) : Heap ℝ :=
  if planar then shiftAll h a.state.position a.state.linearVelocity l else h

theorem collect_eq (planar : Bool) (a : Agent ℝ) (h : Heap ℝ) (l : List Ptr) :
    collect planar a h l = (l.mapM (itemFor planar h a)) >>= fun its => .ok (heapAfter planar h a l, its) := by
  cases planar
  · exact collect_false a h l
  · exact collect_true a l h

theorem itemFor_valid {planar : Bool} {h : Heap ℝ} {a : Agent ℝ} {p : Ptr} {i : Item ℝ}
    (hi : itemFor planar h a p = .ok i) : ∃ o, h[p]? = some o := by
  cases hp : h[p]? with
  | some o => exact ⟨o, rfl⟩
  | none =>
    cases planar <;> simp [itemFor, itemOf, shiftedItem, Heap.deref, hp] at hi

theorem heapAfter_perm {l l' : List Ptr} (hp : l.Perm l') (planar : Bool) (h : Heap ℝ) (a : Agent ℝ) :
    heapAfter planar h a l = heapAfter planar h a l' := by
  unfold heapAfter
  split
  · unfold shiftAll
    congr 1
    funext r o
    simp only [hp.mem_iff]
  · rfl

theorem mapM_perm {β γ : Type} {f : β → Res γ} {l l' : List β} (hp : l.Perm l') : ∀ {r : List γ},
    l.mapM f = .ok r → ∃ r', l'.mapM f = .ok r' ∧ r.Perm r' := by
  induction hp with
  | nil => intro r h; exact ⟨r, h, List.Perm.refl _⟩
  | cons x _ ih =>
    intro r h
    rw [List.mapM_cons] at h
    obtain ⟨c, hc, h⟩ := Res.bind_eq_ok.mp h
    obtain ⟨cs, hcs, h⟩ := Res.bind_eq_ok.mp h
    cases h
    obtain ⟨r', h1, h2⟩ := ih hcs
    exact ⟨c :: r', by rw [List.mapM_cons, hc, h1]; rfl, h2.cons c⟩
  | swap x y l =>
    intro r h
    rw [List.mapM_cons, List.mapM_cons] at h
    obtain ⟨c, hc, h⟩ := Res.bind_eq_ok.mp h
    obtain ⟨cs, hcs, h⟩ := Res.bind_eq_ok.mp h
    obtain ⟨d, hd, hcs⟩ := Res.bind_eq_ok.mp hcs
    obtain ⟨ds, hds, hcs⟩ := Res.bind_eq_ok.mp hcs
    cases h; cases hcs
    exact ⟨d :: c :: ds, by rw [List.mapM_cons, List.mapM_cons, hd, hc, hds]; rfl, List.Perm.swap _ _ _⟩
  | trans _ _ ih1 ih2 =>
    intro r h
    obtain ⟨r1, h1, h2⟩ := ih1 h
    obtain ⟨r2, h3, h4⟩ := ih2 h1
    exact ⟨r2, h3, h2.trans h4⟩

/-! ### the arithmetic -/

theorem weightOf_perm {l l' : List ℝ} (hp : l.Perm l') (c p : ℝ) : Props.weightOf l c p = Props.weightOf l' c p := by
  funext d
  unfold Props.weightOf
  rw [(hp.filter _).length_eq, (hp.map _).sum_eq]

theorem core_perm {l l' : List (M3 ℝ × ℝ)} (hp : l.Perm l') (rv : V3 ℝ) : core rv l = core rv l' := by
  unfold core
  simp only []
  rw [((hp.map _).map _).sum_eq, ((hp.map _).map (fun x : ℝ × V2 ℝ => x.2.x)).sum_eq,
    ((hp.map _).map (fun x : ℝ × V2 ℝ => x.2.y)).sum_eq]

theorem combine_perm {l l' : List (Item ℝ)} (hp : l.Perm l') (x v : V3 ℝ) (c p : ℝ) :
    combine x v l c p = combine x v l' c p := by
  have hw := weightOf_perm (hp.map (·.dist)) c p
  have h1 : obsVel x l c p = obsVel x l' c p := by
    unfold obsVel
    rw [hw]
    exact V3.lsum_perm (hp.map _)
  have h2 : (pairs l c p).Perm (pairs l' c p) := by
    unfold pairs
    rw [hw]
    exact hp.map _
  rw [combine_eq, combine_eq, h1, core_perm h2]

/-- the repulsion of one obstacle -/
noncomputable def repulsionOf (h : Heap ℝ) (a : Agent ℝ) (p : Ptr) : Res (V3 ℝ) := do
  let o ← h.deref p
  h.generateRepulsion o a.state.position a.margin (lit 11 10)

theorem repulsionSum_eq (h : Heap ℝ) (a : Agent ℝ) (l : List Ptr) :
    repulsionSum h a l = l.mapM (repulsionOf h a) >>= fun rs => .ok (V3.lsum rs) := by
  unfold repulsionSum
  have key : ∀ (l : List Ptr) (acc : V3 ℝ), l.foldlM (fun acc p => do
      let o ← h.deref p
      let v ← h.generateRepulsion o a.state.position a.margin (lit 11 10)
      .ok (acc + v)) acc = l.mapM (repulsionOf h a) >>= fun rs => .ok (acc + V3.lsum rs) := by
    intro l
    induction l with
    | nil => intro acc; simp [V3.lsum_nil]
    | cons p l ih =>
      intro acc
      simp only [List.foldlM_cons, List.mapM_cons, ih, repulsionOf, bind_assoc, Res.ok_bind, Res.pure_eq,
        V3.lsum_cons, V3.add_assoc']
  rw [key]
  simp only [V3.zero_add']

theorem repulsionSum_perm {l l' : List Ptr} (hp : l.Perm l') {h : Heap ℝ} {a : Agent ℝ} {v : V3 ℝ}
    (hv : repulsionSum h a l = .ok v) : repulsionSum h a l' = .ok v := by
  rw [repulsionSum_eq] at hv ⊢
  obtain ⟨rs, h1, h2⟩ := Res.bind_eq_ok.mp hv
  cases h2
  obtain ⟨rs', h3, h4⟩ := mapM_perm hp h1
  rw [h3, V3.lsum_perm h4]; rfl

/-! ### sight -/

section
variable {α : Type} [Add α] [Sub α] [Mul α] [Div α] [Neg α] [Zero α] [One α]
  [LE α] [LT α] [DecidableLE α] [DecidableLT α] [CMath α]

theorem sight_true (h : Heap α) (env : Obj α) (l : List Ptr) :
    l.foldlM (fun acc q => if acc then Res.ok true else do
      let oq ← h.deref q
      h.isIntersecting env oq) true = .ok true := by
  induction l with
  | nil => rfl
  | cons p l ih => simp only [List.foldlM_cons, if_true, Res.ok_bind]; exact ih

/-- a negative answer has looked at all of them -/
theorem sight_false {h : Heap α} {env : Obj α} {l : List Ptr} (hs : h.isIntersectingList env l = .ok false) :
    ∀ q ∈ l, ∃ o, h[q]? = some o ∧ h.isIntersecting env o = .ok false := by
  unfold Heap.isIntersectingList at hs
  induction l with
  | nil => intro q hq; cases hq
  | cons p l ih =>
    simp only [List.foldlM_cons, Bool.false_eq_true, if_false] at hs
    obtain ⟨b, hb, hs⟩ := Res.bind_eq_ok.mp hs
    obtain ⟨o, ho, hb'⟩ := Res.bind_eq_ok.mp hb
    cases b with
    | true => rw [sight_true] at hs; simp at hs
    | false =>
      intro q hq
      rcases List.mem_cons.mp hq with rfl | hq
      · refine ⟨o, ?_, hb'⟩
        unfold Heap.deref at ho
        cases hp : h[q]? with
        | none => simp [hp] at ho
        | some o' => simp [hp] at ho; rw [ho]
      · exact ih hs q hq

theorem sight_of_false {h : Heap α} {env : Obj α} {l : List Ptr}
    (hno : ∀ q ∈ l, ∃ o, h[q]? = some o ∧ h.isIntersecting env o = .ok false) :
    h.isIntersectingList env l = .ok false := by
  unfold Heap.isIntersectingList
  induction l with
  | nil => rfl
  | cons p l ih =>
    obtain ⟨o, h1, h2⟩ := hno p List.mem_cons_self
    simp only [List.foldlM_cons, Heap.deref, h1, Bool.false_eq_true, if_false, Res.ok_bind, h2]
    exact ih fun q hq => hno q (List.mem_cons_of_mem _ hq)

/-- a positive answer has found one -/
theorem sight_found {h : Heap α} {env : Obj α} {l : List Ptr} (hs : h.isIntersectingList env l = .ok true) :
    ∃ q ∈ l, ∃ o, h[q]? = some o ∧ h.isIntersecting env o = .ok true := by
  unfold Heap.isIntersectingList at hs
  induction l with
  | nil => simp at hs
  | cons p l ih =>
    simp only [List.foldlM_cons, Bool.false_eq_true, if_false] at hs
    obtain ⟨b, hb, hs⟩ := Res.bind_eq_ok.mp hs
    obtain ⟨o, ho, hb'⟩ := Res.bind_eq_ok.mp hb
    cases b with
    | true =>
      refine ⟨p, List.mem_cons_self, o, ?_, hb'⟩
      unfold Heap.deref at ho
      cases hp : h[p]? with
      | none => simp [hp] at ho
      | some o' => simp [hp] at ho; rw [ho]
    | false =>
      obtain ⟨q, hq, r⟩ := ih hs
      exact ⟨q, List.mem_cons_of_mem _ hq, r⟩

theorem sight_of_true {h : Heap α} {env : Obj α} {l : List Ptr}
    (hok : ∀ q ∈ l, ∃ o b, h[q]? = some o ∧ h.isIntersecting env o = .ok b)
    (hyes : ∃ q ∈ l, ∃ o, h[q]? = some o ∧ h.isIntersecting env o = .ok true) :
    h.isIntersectingList env l = .ok true := by
  unfold Heap.isIntersectingList
  induction l with
  | nil => obtain ⟨q, hq, -⟩ := hyes; cases hq
  | cons p l ih =>
    obtain ⟨o, b, h1, h2⟩ := hok p List.mem_cons_self
    simp only [List.foldlM_cons, Heap.deref, h1, Bool.false_eq_true, if_false, Res.ok_bind, h2]
    cases b with
    | true => exact sight_true h env l
    | false =>
      apply ih fun q hq => hok q (List.mem_cons_of_mem _ hq)
      obtain ⟨q, hq, o', h3, h4⟩ := hyes
      rcases List.mem_cons.mp hq with rfl | hq
      · rw [h1] at h3; cases h3; rw [h2] at h4; cases h4
      · exact ⟨q, hq, o', h3, h4⟩

/-- the sight test of `modulate_velocity` -/
def sightOf (h : Heap α) (a : Agent α) (loc : Bool) (l : List Ptr) : Res Bool :=
  match loc with
  | true => a.getEnvelope h >>= fun env => h.isIntersectingList env l
  | false => .ok true

/-- the optional repulsion -/
def repOf (h : Heap α) (a : Agent α) (rep : Bool) (l : List Ptr) : Res (Option (V3 α)) :=
  match rep with
  | true => repulsionSum h a l >>= fun v => .ok (some v)
  | false => .ok none

theorem modulateVelocity_eq (h : Heap α) (a : Agent α) (e : Env) (loc rep planar : Bool) (critical power : α) :
    modulateVelocity h a e loc rep planar critical power =
      if e.list.isEmpty then .ok (h, a.state.linearVelocity) else
      sightOf h a loc e.list >>= fun sight =>
      if sight then
        collect planar a h e.list >>= fun r => repOf r.1 a rep e.list >>= fun rp =>
          .ok (r.1, finish rp (combine a.state.position a.state.linearVelocity r.2 critical power))
      else .ok (h, a.state.linearVelocity) := by
  unfold modulateVelocity
  generalize e.list = l
  simp only []
  by_cases hl : l.isEmpty = true
  · simp only [if_pos hl]
  · simp only [if_neg hl]
    have hrest : ∀ sight : Bool, (if (!sight) = true then Res.ok (h, a.state.linearVelocity)
        else do
          let r ← collect planar a h l
          if rep = true then do
              let v ← repulsionSum r.1 a l
              let rep ← Res.ok (some v)
              Res.ok (r.1, finish rep (combine a.state.position a.state.linearVelocity r.2 critical power))
            else do
              let rep ← Res.ok none
              Res.ok (r.1, finish rep (combine a.state.position a.state.linearVelocity r.2 critical power))) =
        if sight then
          collect planar a h l >>= fun r => repOf r.1 a rep l >>= fun rp =>
            .ok (r.1, finish rp (combine a.state.position a.state.linearVelocity r.2 critical power))
        else .ok (h, a.state.linearVelocity) := by
      intro sight
      cases sight with
      | false => rfl
      | true =>
        simp only [Bool.not_true, Bool.false_eq_true, if_false, if_true]
        congr 1; funext r
        cases rep
        · simp only [repOf, Bool.false_eq_true, if_false]
        · simp only [repOf, if_true, bind_assoc]
    simp only [hrest]
    cases loc with
    | false => simp only [sightOf, Bool.false_eq_true, if_false]
    | true => simp only [sightOf, if_true, bind_assoc]

end

end DOA.Modulation
