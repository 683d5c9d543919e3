import Verif.Props.Trace
import Verif.Props.Order
import Verif.Props.Kinds
import Verif.Lemmas.Unnamed

/-!
# C111: what the obstacles are called does not matter

Names are how a client finds an obstacle again.  The motion should not depend on them.
-/

set_option linter.unusedSectionVars false
set_option linter.unusedSimpArgs false

namespace DOA.Props
open DOA DOA.Spec DOA.Modulation DOA.Ellipsoid Aggregation

section
variable {α : Type} [Add α] [Sub α] [Mul α] [Div α] [Neg α] [Zero α] [One α]
  [LE α] [LT α] [DecidableLE α] [DecidableLT α] [CMath α]

theorem _root_.DOA.Spec.SameUnnamed.get {h h' : Heap α} (hs : SameUnnamed h h') {p : Ptr} {o : Obj α} (ho : h[p]? = some o) :
    ∃ o', h'[p]? = some o' ∧ unname o = unname o' := by
  have h1 : (unnamed h)[p]? = (unnamed h')[p]? := by rw [show unnamed h = unnamed h' from hs]
  simp only [unnamed, List.getElem?_map, ho, Option.map_some] at h1
  cases h2 : h'[p]? with
  | none => rw [h2] at h1; cases h1
  | some o' => rw [h2] at h1; exact ⟨o', rfl, by simpa using h1⟩

theorem _root_.DOA.Spec.SameUnnamed.symm {h h' : Heap α} (hs : SameUnnamed h h') : SameUnnamed h' h := Eq.symm hs

theorem _root_.DOA.Spec.SameUnnamed.length {h h' : Heap α} (hs : SameUnnamed h h') : h.length = h'.length := by
  have := congrArg List.length (show unnamed h = unnamed h' from hs)
  simpa [unnamed] using this

/-- C111, every question put to obstacles (all scalar types): for the same obstacles under any names the
answer is the same, or the same failure. -/
theorem C111_queries {h h' : Heap α} (hs : SameUnnamed h h') {o o' u u' : Obj α} (ho : unname o = unname o')
    (hu : unname u = unname u') (a : Agent α) (x t v : V3 α) (m r : α) (l : List Ptr) :
    h.pointIsInside o x = h'.pointIsInside o' x ∧
    h.distanceToPoint o x v = h'.distanceToPoint o' x v ∧
    h.normalToAgent o x m = h'.normalToAgent o' x m ∧
    h.repulsionVector o x m = h'.repulsionVector o' x m ∧
    h.generateRepulsion o x m r = h'.generateRepulsion o' x m r ∧
    h.isIntersecting o u = h'.isIntersecting o' u' ∧
    h.isIntersectingList o l = h'.isIntersectingList o' l ∧
    a.inObstacle h o = a.inObstacle h' o' ∧
    a.existPath h t l = a.existPath h' t l := by
  have hs' : unnamed h = unnamed h' := hs
  refine ⟨?_, ?_, ?_, ?_, ?_, ?_, ?_, ?_, ?_⟩
  · rw [← pointIsInside_unnamed, ← pointIsInside_unnamed h', hs', ho]
  · rw [← distanceToPoint_unnamed, ← distanceToPoint_unnamed h', hs', ho]
  · rw [← normalToAgent_unnamed, ← normalToAgent_unnamed h', hs', ho]
  · rw [← repulsionVector_unnamed, ← repulsionVector_unnamed h', hs', ho]
  · rw [← generateRepulsion_unnamed, ← generateRepulsion_unnamed h', hs', ho]
  · rw [← isIntersecting_unnamed, ← isIntersecting_unnamed h', hs', ho, hu]
  · rw [← isIntersectingList_unnamed, ← isIntersectingList_unnamed h', hs', ho]
  · rw [← inObstacle_unnamed, ← inObstacle_unnamed h', hs', ho]
  · rw [← existPath_unnamed, ← existPath_unnamed h', hs']

/-- C111, velocity (all scalar types): for the same obstacles under any names in the same list, the modulated velocity
is the same to the last bit, or both calls fail in the same way; the obstacles afterwards differ at most in
their names. -/
theorem C111_velocity {h h' : Heap α} (hs : SameUnnamed h h') (a : Agent α) (e e' : Env) (he : e.list = e'.list)
    (loc rep planar : Bool) (critical power : α) :
    (modulateVelocity h a e loc rep planar critical power >>= fun r => .ok (unnamed r.1, r.2)) =
      (modulateVelocity h' a e' loc rep planar critical power >>= fun r => .ok (unnamed r.1, r.2)) := by
  have h1 : modulateVelocity h' a e' loc rep planar critical power = modulateVelocity h' a e loc rep planar critical power := by
    unfold modulateVelocity; rw [he]
  rw [h1, ← modulateVelocity_unnamed, ← modulateVelocity_unnamed, show unnamed h = unnamed h' from hs]

/-- C111, motion (all scalar types): every number of iterations of the loops of testKIT.cpp, testConfiguration.cpp and
testWall.cpp takes the agent to the same place. -/
theorem C111_run {h h' : Heap α} (hs : SameUnnamed h h') (c : Loop α) (e : Env) (n : Nat) (a : Agent α) :
    (c.run e n (h, a) >>= fun r => .ok (unnamed r.1, r.2)) = (c.run e n (h', a) >>= fun r => .ok (unnamed r.1, r.2)) ∧
    (c.runWall e n (h, a) >>= fun r => .ok (unnamed r.1, r.2)) =
      (c.runWall e n (h', a) >>= fun r => .ok (unnamed r.1, r.2)) := by
  rw [← run_unnamed, ← run_unnamed, ← runWall_unnamed, ← runWall_unnamed, show unnamed h = unnamed h' from hs]
  exact ⟨rfl, rfl⟩

/-- C111, motion with a moving obstacle (all scalar types): the loop of testMovingObstacle.cpp, if the two clients use
their own name of the same obstacle. -/
theorem C111_run_moving {h h' : Heap α} (hs : SameUnnamed h h') (c : Loop α) {e e' : Env} (he : e.list = e'.list)
    {k k' : String} {p : Ptr} (hk : Env.find e.map k = some p) (hk' : Env.find e'.map k' = some p) (goal : V3 α) (n : Nat)
    (a : Agent α) :
    (c.runMoving e k goal n (h, a) >>= fun r => .ok (unnamed r.1, r.2)) =
      (c.runMoving e' k' goal n (h', a) >>= fun r => .ok (unnamed r.1, r.2)) := by
  rw [← runMoving_unnamed c rfl hk hk, ← runMoving_unnamed c rfl hk' hk', show unnamed h = unnamed h' from hs,
    runMoving_unnamed c he hk hk', runMoving_unnamed c rfl hk hk]

/-- The successive `add_obstacle` of a client that gives the obstacles `ps` to a new environment. -/
def register (h : Heap α) (b : Bool) (ps : List Ptr) : Res (World α) :=
  ps.foldlM (fun w p => w.exec (.add p)) (World.init h b)

theorem insert_perm (m : List (String × Ptr)) (k : String) (p : Ptr) : (Env.insert m k p).Perm ((k, p) :: m) := by
  induction m with
  | nil => exact List.Perm.refl _
  | cons x m ih =>
    obtain ⟨k', p'⟩ := x
    by_cases hk : k < k'
    · simp [Env.insert, hk]
    · simp only [Env.insert, if_neg hk]
      exact (ih.cons _).trans (List.Perm.swap _ _ _)

/-- After the registration the environment holds these obstacles, in the order of their names. -/
theorem register_ok {h : Heap α} {b : Bool} {ps : List Ptr} {w : World α} (hw : register h b ps = .ok w) :
    w.heap = h ∧ w.env.aggregated = b ∧ (w.env.map.map (·.2)).Perm ps ∧ ∀ p ∈ ps, p < h.length := by
  have key : ∀ (ps : List Ptr) (v w : World α), v.heap = h → v.env.aggregated = b →
      ps.foldlM (fun w p => w.exec (.add p)) v = .ok w →
      w.heap = h ∧ w.env.aggregated = b ∧ (w.env.map.map (·.2)).Perm (v.env.map.map (·.2) ++ ps) ∧
        ∀ p ∈ ps, p < h.length := by
    intro ps
    induction ps with
    | nil => intro v w h1 h2 h3; cases h3; exact ⟨h1, h2, by simp, by simp⟩
    | cons p ps ih =>
      intro v w h1 h2 h3
      rw [List.foldlM_cons] at h3
      obtain ⟨v1, h4, h3⟩ := Res.bind_eq_ok.mp h3
      obtain ⟨e, h5, h6⟩ := Res.bind_eq_ok.mp h4
      cases h6
      obtain ⟨o, ho, h5⟩ := Res.bind_eq_ok.mp h5
      have hp : p < h.length := by
        rw [h1] at ho
        simp only [Heap.deref] at ho
        cases h7 : h[p]? with
        | none => simp [h7] at ho
        | some o => exact (List.getElem?_eq_some_iff.mp h7).1
      cases h7 : Env.find v.env.map o.name with
      | some q => simp [h7] at h5
      | none =>
        simp only [h7] at h5
        cases h5
        obtain ⟨i1, i2, i3, i4⟩ := ih { v with env := { v.env with map := Env.insert v.env.map o.name p } } w h1 h2 h3
        refine ⟨i1, i2, i3.trans ?_, ?_⟩
        · have h8 := (insert_perm v.env.map o.name p).map (·.2)
          refine (h8.append_right ps).trans ?_
          simp only [List.map_cons, List.cons_append]
          exact List.perm_middle.symm
        · intro q hq
          rcases List.mem_cons.mp hq with rfl | hq
          · exact hp
          · exact i4 q hq
  obtain ⟨h1, h2, h3, h4⟩ := key ps _ w rfl rfl hw
  exact ⟨h1, h2, by simpa [World.init, Env.mk'] using h3, h4⟩

theorem _root_.DOA.Spec.SameUnnamed.acyclic {h h' : Heap α} (hs : SameUnnamed h h') (ha : Acyclic h) : Acyclic h' := by
  obtain ⟨rank, hr⟩ := ha
  refine ⟨rank, ?_⟩
  rintro p q ⟨a, hp, hq⟩
  obtain ⟨o, ho, hu⟩ := hs.symm.get hp
  rw [← hs.length]
  cases o with
  | plain b => cases hu
  | ellipsoid e => cases hu
  | hull k => cases hu
  | aggregate a' =>
    refine hr p q ⟨a', ho, ?_⟩
    have : a.prims = a'.prims := by
      simp only [unname, Obj.mapBase, Obj.aggregate.injEq, Aggregate.mk.injEq] at hu
      tauto
    exact this ▸ hq

/-- No two of the obstacles `ps` meet. -/
def Apart (h : Heap α) (ps : List Ptr) : Prop :=
  ∀ p ∈ ps, ∀ q ∈ ps, p ≠ q → ∀ op oq, h[p]? = some op → h[q]? = some oq → h.isIntersecting op oq ≠ .ok true

theorem apart_update {h : Heap α} (ha : Acyclic h) {b : Bool} {ps : List Ptr} (hnd : ps.Nodup) (hno : b = true → Apart h ps)
    {w w1 : World α} (hw : register h b ps = .ok w) (hu : w.exec .update = .ok w1) :
    w1.heap = h ∧ w1.env.list.Perm ps := by
  obtain ⟨h1, h2, h3, h4⟩ := register_ok hw
  obtain ⟨r, hr, hu⟩ := Res.bind_eq_ok.mp hu
  cases hu
  cases b with
  | false =>
    simp only [Env.update, h2, Bool.false_eq_true, if_false] at hr
    cases hr
    exact ⟨h1, h3⟩
  | true =>
    have h5 : aggregateObstacles h (w.env.map.map (·.2)) = .ok (h, w.env.map.map (·.2)) := by
      refine C06_no_meets ha (fun p hp => h4 p (h3.mem_iff.mp hp)) ?_
      rintro i j ⟨hij, p, q, op, oq, hp, hq, hop, hoq, hi⟩
      refine hno rfl p (h3.mem_iff.mp (List.mem_of_getElem? hp)) q (h3.mem_iff.mp (List.mem_of_getElem? hq)) ?_ op oq hop hoq hi
      rintro rfl
      have hnd' := h3.nodup_iff.mpr hnd
      have := (List.getElem?_inj (List.getElem?_eq_some_iff.mp hp).1 hnd').mp (hp.trans hq.symm)
      omega
    simp only [Env.update, h2, if_true, h1, h5, Res.ok_bind] at hr
    cases hr
    exact ⟨rfl, h3⟩

/-- Two different obstacles of `ps` meet. -/
def Touch (h : Heap α) (ps : List Ptr) (p q : Ptr) : Prop :=
  p ∈ ps ∧ q ∈ ps ∧ p ≠ q ∧ ∃ op oq, h[p]? = some op ∧ h[q]? = some oq ∧ h.isIntersecting op oq = .ok true

/-- The intersection test is symmetric among the obstacles `ps`. -/
def Mutual (h : Heap α) (ps : List Ptr) : Prop :=
  ∀ p ∈ ps, ∀ q ∈ ps, ∀ op oq, h[p]? = some op → h[q]? = some oq →
    h.isIntersecting op oq = .ok true → h.isIntersecting oq op = .ok true

theorem index_unique {l : List Ptr} (hnd : l.Nodup) {i j : Nat} {p : Ptr} (hi : l[i]? = some p) (hj : l[j]? = some p) : i = j :=
  (List.getElem?_inj (List.getElem?_eq_some_iff.mp hi).1 hnd).mp (hi.trans hj.symm)

theorem linked_iff_touch {h : Heap α} {obs : List Ptr} (hnd : obs.Nodup) (hsym : Mutual h obs) {i j : Nat} {p q : Ptr}
    (hi : obs[i]? = some p) (hj : obs[j]? = some q) : Linked h obs i j ↔ Relation.EqvGen (Touch h obs) p q := by
  constructor
  · intro hl
    have key : ∀ i j, Linked h obs i j → i = j ∨
        ∃ p q, obs[i]? = some p ∧ obs[j]? = some q ∧ Relation.EqvGen (Touch h obs) p q := by
      intro i j hl
      induction hl with
      | rel i j hm =>
        obtain ⟨hij, p, q, op, oq, hp, hq, hop, hoq, ht⟩ := hm
        refine Or.inr ⟨p, q, hp, hq, .rel _ _ ⟨List.mem_of_getElem? hp, List.mem_of_getElem? hq, ?_, op, oq, hop, hoq, ht⟩⟩
        rintro rfl
        exact absurd (index_unique hnd hp hq) (by omega)
      | refl i => exact Or.inl rfl
      | symm i j _ ih =>
        rcases ih with rfl | ⟨p, q, hp, hq, ht⟩
        · exact Or.inl rfl
        · exact Or.inr ⟨q, p, hq, hp, ht.symm⟩
      | trans i j k _ _ ih1 ih2 =>
        rcases ih1 with rfl | ⟨p, q, hp, hq, ht⟩
        · exact ih2
        · rcases ih2 with rfl | ⟨q', r, hq', hr, ht'⟩
          · exact Or.inr ⟨p, q, hp, hq, ht⟩
          · rw [hq] at hq'; cases hq'
            exact Or.inr ⟨p, r, hp, hr, ht.trans _ _ _ ht'⟩
    rcases key i j hl with rfl | ⟨p', q', hp', hq', ht⟩
    · rw [hi] at hj; cases hj; exact .refl _
    · rw [hi] at hp'; rw [hj] at hq'; cases hp'; cases hq'
      exact ht
  · intro ht
    have key : ∀ p q, Relation.EqvGen (Touch h obs) p q → p = q ∨
        ∃ i j, obs[i]? = some p ∧ obs[j]? = some q ∧ Linked h obs i j := by
      intro p q ht
      induction ht with
      | rel p q hm =>
        obtain ⟨hp, hq, hpq, op, oq, hop, hoq, ht⟩ := hm
        obtain ⟨i, hi⟩ := List.mem_iff_getElem?.mp hp
        obtain ⟨j, hj⟩ := List.mem_iff_getElem?.mp hq
        refine Or.inr ⟨i, j, hi, hj, ?_⟩
        rcases Nat.lt_trichotomy i j with hij | rfl | hij
        · exact .rel _ _ ⟨hij, p, q, op, oq, hi, hj, hop, hoq, ht⟩
        · rw [hi] at hj; cases hj; exact absurd rfl hpq
        · exact .symm _ _ (.rel _ _ ⟨hij, q, p, oq, op, hj, hi, hoq, hop, hsym p hp q hq op oq hop hoq ht⟩)
      | refl p => exact Or.inl rfl
      | symm p q _ ih =>
        rcases ih with rfl | ⟨i, j, hi, hj, ht⟩
        · exact Or.inl rfl
        · exact Or.inr ⟨j, i, hj, hi, ht.symm⟩
      | trans p q r _ _ ih1 ih2 =>
        rcases ih1 with rfl | ⟨i, j, hi, hj, ht⟩
        · exact ih2
        · rcases ih2 with rfl | ⟨j', k, hj', hk, ht'⟩
          · exact Or.inr ⟨i, j, hi, hj, ht⟩
          · obtain rfl := index_unique hnd hj hj'
            exact Or.inr ⟨i, k, hi, hk, ht.trans _ _ _ ht'⟩
    rcases key p q ht with rfl | ⟨i', j', hi', hj', hl⟩
    · obtain rfl := index_unique hnd hi hj
      exact .refl _
    · obtain rfl := index_unique hnd hi hi'
      obtain rfl := index_unique hnd hj hj'
      exact hl

theorem touch_same {h h' : Heap α} (hs : SameUnnamed h h') {ps ps' : List Ptr} (hp : ∀ r, r ∈ ps ↔ r ∈ ps') {p q : Ptr}
    (ht : Touch h ps p q) : Touch h' ps' p q := by
  obtain ⟨h1, h2, h3, op, oq, hop, hoq, hi⟩ := ht
  obtain ⟨op', hop', e1⟩ := hs.get hop
  obtain ⟨oq', hoq', e2⟩ := hs.get hoq
  refine ⟨(hp p).mp h1, (hp q).mp h2, h3, op', oq', hop', hoq', ?_⟩
  rw [← isIntersecting_unnamed] at hi ⊢
  rw [← show unnamed h = unnamed h' from hs, ← e1, ← e2]
  exact hi

theorem chain_same {h h' : Heap α} (hs : SameUnnamed h h') {ps ps' : List Ptr} (hp : ∀ r, r ∈ ps ↔ r ∈ ps') {p q : Ptr}
    (ht : Relation.EqvGen (Touch h ps) p q) : Relation.EqvGen (Touch h' ps') p q := by
  induction ht with
  | rel p q hm => exact .rel _ _ (touch_same hs hp hm)
  | refl p => exact .refl _
  | symm p q _ ih => exact ih.symm
  | trans p q r _ _ ih1 ih2 => exact ih1.trans _ _ _ ih2

theorem Mutual.same {h h' : Heap α} (hs : SameUnnamed h h') {ps ps' : List Ptr} (hp : ∀ r, r ∈ ps ↔ r ∈ ps')
    (hm : Mutual h ps) : Mutual h' ps' := by
  intro p hp1 q hq1 op oq hop hoq hi
  obtain ⟨op', hop', e1⟩ := hs.symm.get hop
  obtain ⟨oq', hoq', e2⟩ := hs.symm.get hoq
  have h1 := hm p ((hp p).mpr hp1) q ((hp q).mpr hq1) op' oq' hop' hoq'
  rw [← isIntersecting_unnamed, ← isIntersecting_unnamed h oq', show unnamed h = unnamed h' from hs, ← e1, ← e2] at h1
  rw [← isIntersecting_unnamed] at hi ⊢
  exact h1 hi

/-- What the groups are, in terms of obstacles. -/
theorem groups_touch {h : Heap α} (hac : Acyclic h) {ps : List Ptr} (hnd : ps.Nodup) (hsym : Mutual h ps) {w w1 : World α}
    (hw : register h true ps = .ok w) (hu : w.exec .update = .ok w1) {p q : Ptr} (hp : p ∈ ps) (hq : q ∈ ps) (hpq : p ≠ q) :
    ((∃ g ∈ w1.env.list, h.length ≤ g ∧ p ∈ primitives w1.heap g ∧ q ∈ primitives w1.heap g) ↔
      Relation.EqvGen (Touch h ps) p q) ∧
    (p ∈ w1.env.list ↔ ∀ r ∈ ps, r ≠ p → ¬ Relation.EqvGen (Touch h ps) p r) := by
  obtain ⟨h1, h2, h3, h4⟩ := register_ok hw
  obtain ⟨r, hr, hu⟩ := Res.bind_eq_ok.mp hu
  cases hu
  simp only [Env.update, h2, if_true, h1] at hr
  obtain ⟨r', hr', hr⟩ := Res.bind_eq_ok.mp hr
  obtain ⟨k, l⟩ := r'
  cases hr
  generalize hobs : w.env.map.map (·.2) = obs at hr' h3
  have hnd' := h3.nodup_iff.mpr hnd
  have hsym' : Mutual h obs := hsym.same rfl fun r => h3.mem_iff.symm
  have ht : ∀ p q, Relation.EqvGen (Touch h obs) p q ↔ Relation.EqvGen (Touch h ps) p q := fun p q =>
    ⟨chain_same (rfl : SameUnnamed h h) fun r => h3.mem_iff, chain_same (rfl : SameUnnamed h h) fun r => h3.mem_iff.symm⟩
  obtain ⟨i, hi⟩ := List.mem_iff_getElem?.mp (h3.mem_iff.mpr hp)
  obtain ⟨j, hj⟩ := List.mem_iff_getElem?.mp (h3.mem_iff.mpr hq)
  have hij : i ≠ j := by
    rintro rfl
    rw [hi] at hj; cases hj; exact hpq rfl
  obtain ⟨c1, c2⟩ := C06_components hac (fun r hr => h4 r (h3.mem_iff.mp hr)) hnd' hr' hi hj hij
  refine ⟨c1.trans ((linked_iff_touch hnd' hsym' hi hj).trans (ht p q)), c2.trans ⟨?_, ?_⟩⟩
  · intro hall r hr hrp he
    obtain ⟨k, hk⟩ := List.mem_iff_getElem?.mp (h3.mem_iff.mpr hr)
    refine hall k ?_ ((linked_iff_touch hnd' hsym' hi hk).mpr ((ht p r).mpr he))
    rintro rfl
    rw [hi] at hk; cases hk; exact hrp rfl
  · intro hall k hki hl
    have hk : ∃ r, obs[k]? = some r := by
      have key : ∀ a b, Linked h obs a b → a = b ∨ (∃ r, obs[a]? = some r) ∧ ∃ r, obs[b]? = some r := by
        intro a b hl
        induction hl with
        | rel a b hm => obtain ⟨-, p, q, -, -, hp, hq, -⟩ := hm; exact Or.inr ⟨⟨p, hp⟩, ⟨q, hq⟩⟩
        | refl a => exact Or.inl rfl
        | symm a b _ ih => rcases ih with rfl | ⟨x, y⟩; exacts [Or.inl rfl, Or.inr ⟨y, x⟩]
        | trans a b c _ _ ih1 ih2 =>
          rcases ih1 with rfl | ⟨x, y⟩
          · exact ih2
          · rcases ih2 with rfl | ⟨-, z⟩
            exacts [Or.inr ⟨x, y⟩, Or.inr ⟨x, z⟩]
      rcases key i k hl with rfl | ⟨-, hk⟩
      · exact absurd rfl hki
      · exact hk
    obtain ⟨r, hk⟩ := hk
    refine hall r (h3.mem_iff.mp (List.mem_of_getElem? hk)) ?_ ((ht p r).mp ((linked_iff_touch hnd' hsym' hi hk).mp hl))
    rintro rfl
    exact hki (index_unique hnd' hk hi)

/-- C111, the groups with aggregation (all scalar types): if the intersection test is symmetric among the
obstacles, then under any names and in any order of registration the same obstacles are put into one aggregate, and the
same obstacles stay alone.

Full statement (false, see `C111_negation`): without `hsym`, and with the same velocity for every agent. -/
theorem C111_groups_partial {h h' : Heap α} (hs : SameUnnamed h h') (hac : Acyclic h) {ps ps' : List Ptr} (hp : ps.Perm ps')
    (hnd : ps.Nodup) (hsym : Mutual h ps) {w w' w1 w1' : World α}
    (hw : register h true ps = .ok w) (hw' : register h' true ps' = .ok w')
    (hu : w.exec .update = .ok w1) (hu' : w'.exec .update = .ok w1') {p q : Ptr} (hpp : p ∈ ps) (hqq : q ∈ ps) (hpq : p ≠ q) :
    ((∃ g ∈ w1.env.list, h.length ≤ g ∧ p ∈ primitives w1.heap g ∧ q ∈ primitives w1.heap g) ↔
      ∃ g ∈ w1'.env.list, h.length ≤ g ∧ p ∈ primitives w1'.heap g ∧ q ∈ primitives w1'.heap g) ∧
    (p ∈ w1.env.list ↔ p ∈ w1'.env.list) := by
  have hm : ∀ r, r ∈ ps ↔ r ∈ ps' := fun r => hp.mem_iff
  obtain ⟨a1, a2⟩ := groups_touch hac hnd hsym hw hu hpp hqq hpq
  obtain ⟨b1, b2⟩ := groups_touch (hs.acyclic hac) (hp.nodup_iff.mp hnd) (hsym.same hs hm) hw' hu' ((hm p).mp hpp) ((hm q).mp hqq) hpq
  have ht : ∀ p q, Relation.EqvGen (Touch h ps) p q ↔ Relation.EqvGen (Touch h' ps') p q := fun p q =>
    ⟨chain_same hs hm, chain_same hs.symm fun r => (hm r).symm⟩
  rw [← hs.length] at b1
  refine ⟨a1.trans ((ht p q).trans b1.symm), a2.trans (Iff.trans ⟨?_, ?_⟩ b2.symm)⟩
  · intro hall r hr hrp he
    exact hall r ((hm r).mpr hr) hrp ((ht p r).mpr he)
  · intro hall r hr hrp he
    exact hall r ((hm r).mp hr) hrp ((ht p r).mp he)

end

/-- The groups of an update: members of `ps`, each once, in one group only. -/
theorem group_facts {α : Type} [Add α] [Sub α] [Mul α] [Div α] [Neg α] [Zero α] [One α]
    [LE α] [LT α] [DecidableLE α] [DecidableLT α] [CMath α] {h : Heap α} (hac : Acyclic h) {ps : List Ptr} (hnd : ps.Nodup)
    {w w1 : World α} (hw : register h true ps = .ok w) (hu : w.exec .update = .ok w1) :
    (∀ g ∈ w1.env.list, h.length ≤ g → (primitives w1.heap g).Nodup ∧ ∀ p ∈ primitives w1.heap g, p ∈ ps) ∧
    ∀ g ∈ w1.env.list, ∀ g' ∈ w1.env.list, h.length ≤ g → h.length ≤ g' → ∀ p, p ∈ primitives w1.heap g →
      p ∈ primitives w1.heap g' → g = g' := by
  obtain ⟨h1, h2, h3, h4⟩ := register_ok hw
  obtain ⟨r, hr, hu⟩ := Res.bind_eq_ok.mp hu
  cases hu
  simp only [Env.update, h2, if_true, h1] at hr
  obtain ⟨r', hr', hr⟩ := Res.bind_eq_ok.mp hr
  obtain ⟨k, l⟩ := r'
  cases hr
  obtain ⟨aggs, rest, rfl, hna, -, hsub, hperm⟩ := C05_partition hac (fun r hr => h4 r (h3.mem_iff.mp hr)) hr'
  have hin : ∀ g ∈ aggs ++ rest, h.length ≤ g → g ∈ aggs := by
    intro g hg hl
    rcases List.mem_append.mp hg with hg | hg
    · exact hg
    · exact absurd (h4 g (h3.mem_iff.mp (hsub.subset hg))) (not_lt.mpr hl)
  have hnd2 : (aggs.flatMap (primitives k)).Nodup :=
    (List.nodup_append.mp (hperm.nodup_iff.mpr (h3.nodup_iff.mpr hnd))).1
  obtain ⟨hn1, hn2⟩ := List.nodup_flatMap.mp hnd2
  refine ⟨?_, ?_⟩
  · intro g hg hl
    have hg' := hin g hg hl
    refine ⟨hn1 g hg', fun p hp => h3.mem_iff.mp (hperm.mem_iff.mp ?_)⟩
    exact List.mem_append_left _ (List.mem_flatMap.mpr ⟨g, hg', hp⟩)
  · intro g hg g' hg' hl hl' p hp hp'
    by_contra hne
    have : Std.Symm (Function.onFun List.Disjoint (primitives k)) := ⟨fun _ _ h => List.Disjoint.symm h⟩
    exact hn2.forall (hin g hg hl) (hin g' hg' hl') hne hp hp'

/-- C111, the centres with aggregation (real numbers): if moreover no obstacle is nested in two of the `ps`, the aggregate
that contains an obstacle has the same members, the same centre and the same reference position (which
everything in it shares) under any names.

Full statement (false, see `C111_negation`): without `hsym`, and with the same velocity for every agent. -/
theorem C111_centres_partial {h h' : Heap ℝ} (hs : SameUnnamed h h') (hac : Acyclic h) {ps ps' : List Ptr} (hp : ps.Perm ps')
    (hnd : ps.Nodup) (hsym : Mutual h ps) (hdis : ∀ p ∈ ps, ∀ q ∈ ps, p ≠ q → ∀ r, Within h p r → ¬ Within h q r)
    {w w' w1 w1' : World ℝ} (hw : register h true ps = .ok w) (hw' : register h' true ps' = .ok w')
    (hu : w.exec .update = .ok w1) (hu' : w'.exec .update = .ok w1') {p g g' : Ptr}
    (hg : g ∈ w1.env.list) (hgn : h.length ≤ g) (hpg : p ∈ primitives w1.heap g)
    (hg' : g' ∈ w1'.env.list) (hgn' : h.length ≤ g') (hpg' : p ∈ primitives w1'.heap g') :
    (primitives w1.heap g).Perm (primitives w1'.heap g') ∧
    ∃ c, (w1.heap[g]?).map Obj.position = some c ∧ (w1'.heap[g']?).map Obj.position = some c ∧
      (∀ r, Within w1.heap g r → refOf w1.heap r = some c) ∧ ∀ r, Within w1'.heap g' r → refOf w1'.heap r = some c := by
  have hac' := hs.acyclic hac
  have hnd' := hp.nodup_iff.mp hnd
  have hlen := hs.length
  obtain ⟨a1, a2⟩ := group_facts hac hnd hw hu
  obtain ⟨b1, b2⟩ := group_facts hac' hnd' hw' hu'
  have hpps := (a1 g hg hgn).2 p hpg
  have hperm : (primitives w1.heap g).Perm (primitives w1'.heap g') := by
    refine (List.perm_ext_iff_of_nodup (a1 g hg hgn).1 (b1 g' hg' (hlen ▸ hgn')).1).mpr fun q => ?_
    by_cases hpq : p = q
    · subst hpq; exact ⟨fun _ => hpg', fun _ => hpg⟩
    constructor
    · intro hq
      obtain ⟨x, hx, hxl, hxp, hxq⟩ := (C111_groups_partial hs hac hp hnd hsym hw hw' hu hu' hpps ((a1 g hg hgn).2 q hq) hpq).1.mp
        ⟨g, hg, hgn, hpg, hq⟩
      rw [b2 g' hg' x hx (hlen ▸ hgn') (hlen ▸ hxl) p hpg' hxp]
      exact hxq
    · intro hq
      have hqq := hp.mem_iff.mpr ((b1 g' hg' (hlen ▸ hgn')).2 q hq)
      obtain ⟨x, hx, hxl, hxp, hxq⟩ := (C111_groups_partial hs hac hp hnd hsym hw hw' hu hu' hpps hqq hpq).1.mpr
        ⟨g', hg', hgn', hpg', hq⟩
      rw [a2 g hg x hx hgn hxl p hpg hxp]
      exact hxq
  have centre : ∀ {h : Heap ℝ} {ps : List Ptr} {w w1 : World ℝ} {g : Ptr}, Acyclic h → ps.Nodup →
      (∀ p ∈ ps, ∀ q ∈ ps, p ≠ q → ∀ r, Within h p r → ¬ Within h q r) → register h true ps = .ok w →
      w.exec .update = .ok w1 → g ∈ w1.env.list → h.length ≤ g →
      (w1.heap[g]?).map Obj.position = some (mean (positions h (primitives w1.heap g))) ∧
        ∀ r, Within w1.heap g r → refOf w1.heap r = some (mean (positions h (primitives w1.heap g))) := by
    intro h ps w w1 g hac hnd hdis hw hu hg hgn
    obtain ⟨h1, h2, h3, h4⟩ := register_ok hw
    obtain ⟨r, hr, hu⟩ := Res.bind_eq_ok.mp hu
    cases hu
    simp only [Env.update, h2, if_true, h1] at hr
    obtain ⟨r', hr', hr⟩ := Res.bind_eq_ok.mp hr
    obtain ⟨k, l⟩ := r'
    cases hr
    refine C09_update hac (fun r hr => h4 r (h3.mem_iff.mp hr)) ?_ hr' hg hgn
    intro i j p q r hij hp hq h5 h6
    refine hdis p (h3.mem_iff.mp (List.mem_of_getElem? hp)) q (h3.mem_iff.mp (List.mem_of_getElem? hq)) ?_ r h5 h6
    rintro rfl
    exact hij (index_unique (h3.nodup_iff.mpr hnd) hp hq)
  have hchild : ∀ {x y : Ptr}, Child h' x y → Child h x y := by
    rintro x y ⟨a, ha, hy⟩
    obtain ⟨o, ho, hu⟩ := hs.symm.get ha
    cases o with
    | plain b => cases hu
    | ellipsoid e => cases hu
    | hull k => cases hu
    | aggregate a' =>
      refine ⟨a', ho, ?_⟩
      have : a.prims = a'.prims := by
        simp only [unname, Obj.mapBase, Obj.aggregate.injEq, Aggregate.mk.injEq] at hu
        tauto
      exact this ▸ hy
  have hwithin : ∀ {x y : Ptr}, Within h' x y → Within h x y := by
    intro x y hw
    induction hw with
    | refl => exact .refl
    | tail _ hc ih => exact ih.tail (hchild hc)
  obtain ⟨c1, c2⟩ := centre hac hnd hdis hw hu hg hgn
  obtain ⟨d1, d2⟩ := centre hac' hnd' (fun x hx y hy hxy r h5 h6 => hdis x (hp.mem_iff.mpr hx) y (hp.mem_iff.mpr hy) hxy r
    (hwithin h5) (hwithin h6)) hw' hu' hg' (hlen ▸ hgn')
  have hpos : positions h' (primitives w1'.heap g') = positions h (primitives w1'.heap g') := by
    unfold positions
    refine List.filterMap_congr fun x _ => ?_
    have key : ∀ h : Heap ℝ, (h[x]?).map Obj.position = ((unnamed h)[x]?).map Obj.position := by
      intro h
      simp only [unnamed, List.getElem?_map, Option.map_map]
      refine congrArg (fun f => Option.map f h[x]?) (funext fun o => ?_)
      cases o <;> rfl
    rw [key, key h, show unnamed h = unnamed h' from hs]
  have hmean : mean (positions h' (primitives w1'.heap g')) = mean (positions h (primitives w1.heap g)) := by
    rw [hpos]
    exact mean_perm (hperm.symm.filterMap _)
  rw [hmean] at d1 d2
  exact ⟨hperm, _, c1, d1, c2, d2⟩

theorem environment_aux {h h' : Heap ℝ} (hs : SameUnnamed h h') (hac : Acyclic h) {ps ps' : List Ptr} (hp : ps.Perm ps')
    (hnd : ps.Nodup) {b : Bool} (hno : b = true → Apart h ps) {w w' w1 w1' : World ℝ}
    (hw : register h b ps = .ok w) (hw' : register h' b ps' = .ok w')
    (hu : w.exec .update = .ok w1) (hu' : w'.exec .update = .ok w1') (a : Agent ℝ) (loc rep planar : Bool)
    (critical power : ℝ) (k : Heap ℝ) (v : V3 ℝ)
    (hm : modulateVelocity w1.heap a w1.env loc rep planar critical power = .ok (k, v)) :
    ∃ k', modulateVelocity w1'.heap a w1'.env loc rep planar critical power = .ok (k', v) ∧ SameUnnamed k k' := by
  have hno' : b = true → Apart h' ps' := by
    intro hb p hp1 q hq1 hpq op oq hop hoq hi
    obtain ⟨op', hop', e1⟩ := hs.symm.get hop
    obtain ⟨oq', hoq', e2⟩ := hs.symm.get hoq
    refine hno hb p (hp.mem_iff.mpr hp1) q (hp.mem_iff.mpr hq1) hpq op' oq' hop' hoq' ?_
    rw [← isIntersecting_unnamed] at hi ⊢
    rw [show unnamed h = unnamed h' from hs, ← e1, ← e2]
    exact hi
  obtain ⟨h1, h2⟩ := apart_update hac hnd hno hw hu
  obtain ⟨h3, h4⟩ := apart_update (hs.acyclic hac) (hp.nodup_iff.mp hnd) hno' hw' hu'
  have h5 : w1.env.list.Perm w1'.env.list := (h2.trans hp).trans h4.symm
  rw [h1] at hm
  rw [h3]
  have h6 := (C46_order h hac a w1.env w1'.env h5 loc rep planar critical power (k, v)).mp hm
  have h7 := C111_velocity hs a w1'.env w1'.env rfl loc rep planar critical power
  rw [h6] at h7
  obtain ⟨r, h8, h9⟩ := Res.bind_eq_ok.mp h7.symm
  obtain ⟨k', v'⟩ := r
  simp only [Res.ok.injEq, Prod.mk.injEq] at h9
  obtain ⟨h9, rfl⟩ := h9
  exact ⟨k', h8, h9.symm⟩

/-- C111, without aggregation (real numbers): the same obstacles, under any names and registered in any order, give the
same velocity after `update`. -/
theorem C111_environment {h h' : Heap ℝ} (hs : SameUnnamed h h') (hac : Acyclic h) {ps ps' : List Ptr} (hp : ps.Perm ps')
    (hnd : ps.Nodup) {w w' w1 w1' : World ℝ} (hw : register h false ps = .ok w) (hw' : register h' false ps' = .ok w')
    (hu : w.exec .update = .ok w1) (hu' : w'.exec .update = .ok w1') (a : Agent ℝ) (loc rep planar : Bool)
    (critical power : ℝ) (k : Heap ℝ) (v : V3 ℝ)
    (hm : modulateVelocity w1.heap a w1.env loc rep planar critical power = .ok (k, v)) :
    ∃ k', modulateVelocity w1'.heap a w1'.env loc rep planar critical power = .ok (k', v) ∧ SameUnnamed k k' :=
  environment_aux hs hac hp hnd (by simp) hw hw' hu hu' a loc rep planar critical power k v hm

/-- C111, the part that holds with aggregation: if no two of the obstacles meet.

Full statement (false, see `C111_negation`): without `hno`. -/
theorem C111_apart_partial {h h' : Heap ℝ} (hs : SameUnnamed h h') (hac : Acyclic h) {ps ps' : List Ptr} (hp : ps.Perm ps')
    (hnd : ps.Nodup) (hno : Apart h ps) {w w' w1 w1' : World ℝ}
    (hw : register h true ps = .ok w) (hw' : register h' true ps' = .ok w')
    (hu : w.exec .update = .ok w1) (hu' : w'.exec .update = .ok w1') (a : Agent ℝ) (loc rep planar : Bool)
    (critical power : ℝ) (k : Heap ℝ) (v : V3 ℝ)
    (hm : modulateVelocity w1.heap a w1.env loc rep planar critical power = .ok (k, v)) :
    ∃ k', modulateVelocity w1'.heap a w1'.env loc rep planar critical power = .ok (k', v) ∧ SameUnnamed k k' :=
  environment_aux hs hac hp hnd (fun _ => hno) hw hw' hu hu' a loc rep planar critical power k v hm

/-- The ellipsoid with another name. -/
def called (e : Ellipsoid ℝ) (s : String) : Ellipsoid ℝ := { e with base := e.base.setName s }

theorem a_lt_b : ("a" : String) < "b" := by decide

theorem register_in_order {a b : Ellipsoid ℝ} (ha : a.base.name = "a") (hb : b.base.name = "b") :
    register [.ellipsoid a, .ellipsoid b] true [0, 1] =
      .ok ⟨[.ellipsoid a, .ellipsoid b], ⟨[("a", 0), ("b", 1)], true, []⟩⟩ := by
  have e1 : ¬ ("a" : String) = "b" := by decide
  have e2 : ¬ ("b" : String) < "a" := by decide
  simp only [register, List.foldlM_cons, List.foldlM_nil, World.exec, World.init, Env.mk', Env.addObstacle, Heap.deref,
    List.getElem?_cons_zero, List.getElem?_cons_succ, Obj.name, Obj.base, ha, hb, Env.find, Env.insert, Res.ok_bind, if_neg e1,
    if_neg e2]
  rfl

theorem register_swapped {a b : Ellipsoid ℝ} (ha : a.base.name = "b") (hb : b.base.name = "a") :
    register [.ellipsoid a, .ellipsoid b] true [0, 1] =
      .ok ⟨[.ellipsoid a, .ellipsoid b], ⟨[("a", 1), ("b", 0)], true, []⟩⟩ := by
  have e1 : ¬ ("b" : String) = "a" := by decide
  simp only [register, List.foldlM_cons, List.foldlM_nil, World.exec, World.init, Env.mk', Env.addObstacle, Heap.deref,
    List.getElem?_cons_zero, List.getElem?_cons_succ, Obj.name, Obj.base, ha, hb, Env.find, Env.insert, Res.ok_bind, if_neg e1,
    if_pos a_lt_b]
  rfl

/-- C111 is false with aggregation: two overlapping ellipsoids become one aggregate or stay apart, depending on which of
the two names comes first in the alphabet. -/
theorem C111_negation : ∃ (h h' : Heap ℝ) (w w' w1 w1' : World ℝ) (g : Ptr), SameUnnamed h h' ∧ Acyclic h ∧
    register h true [0, 1] = .ok w ∧ register h' true [0, 1] = .ok w' ∧
    w.exec .update = .ok w1 ∧ w'.exec .update = .ok w1' ∧
    w1.env.list = [g] ∧ (primitives w1.heap g).Perm [0, 1] ∧ w1'.env.list = [1, 0] ∧ w1'.heap = h' := by
  obtain ⟨e, o, -, -, hx⟩ := C30_negation_ellipsoids
  have hm : (called o "a").isIntersectingEllipsoid (called e "b") = .ok true := (hx []).2
  have hn : (called e "a").isIntersectingEllipsoid (called o "b") = .ok false := (hx []).1
  obtain ⟨h1, g, hrun, -, -, hprims, -, -⟩ := two_update hm
  have flat : ∀ a b : Ellipsoid ℝ, Acyclic [.ellipsoid a, .ellipsoid b] := fun a b => acyclic_flat (by
    intro p c hp
    match p with
    | 0 => simp at hp
    | 1 => simp at hp
    | n + 2 => simp at hp)
  have hrun' : aggregateObstacles [.ellipsoid (called o "b"), .ellipsoid (called e "a")] [1, 0] =
      .ok ([.ellipsoid (called o "b"), .ellipsoid (called e "a")], [1, 0]) := by
    refine C06_no_meets (flat _ _) (by simp) ?_
    rintro i j ⟨hij, p, q, op, oq, hp, hq, hop, hoq, hi⟩
    have hj : j < 2 := (List.getElem?_eq_some_iff.mp hq).1
    obtain rfl : i = 0 := by omega
    obtain rfl : j = 1 := by omega
    cases hp; cases hq
    cases hop; cases hoq
    have h3 : Heap.isIntersecting [.ellipsoid (called o "b"), .ellipsoid (called e "a")] (.ellipsoid (called e "a"))
      (.ellipsoid (called o "b")) = .ok false := hn
    rw [h3] at hi
    cases hi
  refine ⟨[.ellipsoid (called o "a"), .ellipsoid (called e "b")], [.ellipsoid (called o "b"), .ellipsoid (called e "a")],
    ⟨_, ⟨[("a", 0), ("b", 1)], true, []⟩⟩, ⟨_, ⟨[("a", 1), ("b", 0)], true, []⟩⟩,
    ⟨h1, ⟨[("a", 0), ("b", 1)], true, [g]⟩⟩, ⟨_, ⟨[("a", 1), ("b", 0)], true, [1, 0]⟩⟩, g, rfl, flat _ _,
    register_in_order rfl rfl, register_swapped rfl rfl, ?_, ?_,    rfl, hprims, rfl, rfl⟩
  · simp [World.exec, Env.update, hrun]
  · simp [World.exec, Env.update, hrun']

/-- Non-vacuity: two obstacles far apart with two pairs of names, registered in an environment with aggregation. -/
example : ∃ (h h' : Heap ℝ) (w w' : World ℝ), h ≠ h' ∧ SameUnnamed h h' ∧ Acyclic h ∧ ([0, 1] : List Ptr).Nodup ∧
    Apart h [0, 1] ∧ register h true [0, 1] = .ok w ∧ register h' true [0, 1] = .ok w' := by
  refine ⟨aloof, [.ellipsoid (called (circ "a" V3.zero 1) "b"), .ellipsoid (called (circ "b" ⟨100, 0, 0⟩ 1) "a")],
    ⟨_, ⟨[("a", 0), ("b", 1)], true, []⟩⟩, ⟨_, ⟨[("a", 1), ("b", 0)], true, []⟩⟩, ?_, rfl, ?_, by decide, ?_, rfl,
    register_swapped rfl rfl⟩
  · intro hc
    have := congrArg (fun h : Heap ℝ => h[0]?.map Obj.name) hc
    have h2 : some "a" = some "b" := this
    simp at h2
  · refine acyclic_flat ?_
    intro p c hp
    match p with
    | 0 => simp [aloof] at hp
    | 1 => simp [aloof] at hp
    | n + 2 => simp [aloof] at hp
  · intro p hp q hq hpq op oq hop hoq
    have h1 : p < 2 := by simp at hp; rcases hp with rfl | rfl <;> decide
    have h2 : q < 2 := by simp at hq; rcases hq with rfl | rfl <;> decide
    exact aloof_scattered.2 p q op oq h1 h2 hpq hop hoq

/-- Non-vacuity without aggregation: overlapping obstacles under two pairs of names, both environments updated. -/
example : ∃ (h h' : Heap ℝ) (w w' w1 w1' : World ℝ), SameUnnamed h h' ∧ Acyclic h ∧ register h false [0, 1] = .ok w ∧
    register h' false [1, 0] = .ok w' ∧ w.exec .update = .ok w1 ∧ w'.exec .update = .ok w1' ∧
    w1.env.list = [0, 1] ∧ w1'.env.list = [1, 0] := by
  refine ⟨pair, [.ellipsoid (called (circ "a" V3.zero 1) "b"), .ellipsoid (called (circ "b" ⟨5, 0, 0⟩ 10) "a")],
    ⟨pair, ⟨[("a", 0), ("b", 1)], false, []⟩⟩,
    ⟨[.ellipsoid (called (circ "a" V3.zero 1) "b"), .ellipsoid (called (circ "b" ⟨5, 0, 0⟩ 10) "a")],
      ⟨[("a", 1), ("b", 0)], false, []⟩⟩, _, _, rfl, ?_, rfl, rfl, rfl, rfl, rfl, rfl⟩
  refine acyclic_flat ?_
  intro p c hp
  match p with
  | 0 => simp [pair] at hp
  | 1 => simp [pair] at hp
  | n + 2 => simp [pair] at hp

/-- Non-vacuity of the symmetry: two discs that meet, under two pairs of names. -/
example : ∃ (h h' : Heap ℝ) (w w' : World ℝ), SameUnnamed h h' ∧ Acyclic h ∧ Mutual h [0, 1] ∧ Touch h [0, 1] 0 1 ∧
    (∀ p ∈ [0, 1], ∀ q ∈ ([0, 1] : List Ptr), p ≠ q → ∀ r, Within h p r → ¬ Within h q r) ∧
    register h true [0, 1] = .ok w ∧ register h' true [0, 1] = .ok w' := by
  have m1 : (circ "a" V3.zero 1).isIntersectingEllipsoid (circ "b" ⟨1 / 2, 0, 0⟩ 1) = .ok true :=
    circ_meet (by norm_num) (by norm_num [V3.zero])
  have m2 : (circ "b" ⟨1 / 2, 0, 0⟩ 1).isIntersectingEllipsoid (circ "a" V3.zero 1) = .ok true :=
    circ_meet (by norm_num) (by norm_num [V3.zero])
  have m3 : ∀ s c, (circ s c 1).isIntersectingEllipsoid (circ s c 1) = .ok true := fun s c =>
    circ_meet (by norm_num) (by norm_num)
  refine ⟨[.ellipsoid (circ "a" V3.zero 1), .ellipsoid (circ "b" ⟨1 / 2, 0, 0⟩ 1)],
    [.ellipsoid (called (circ "a" V3.zero 1) "b"), .ellipsoid (called (circ "b" ⟨1 / 2, 0, 0⟩ 1) "a")], _, _, rfl, ?_, ?_, ?_, ?_,
    register_in_order rfl rfl, register_swapped rfl rfl⟩
  · refine acyclic_flat ?_
    intro p c hp
    match p with
    | 0 => simp at hp
    | 1 => simp at hp
    | n + 2 => simp at hp
  · intro p hp q hq op oq hop hoq _
    simp only [List.mem_cons, List.not_mem_nil, or_false] at hp hq
    rcases hp with rfl | rfl <;> rcases hq with rfl | rfl <;> cases hop <;> cases hoq
    exacts [m3 _ _, m2, m1, m3 _ _]
  · exact ⟨by simp, by simp, by decide, _, _, rfl, rfl, m1⟩
  · intro p _ q _ hpq r h1 h2
    have hself : ∀ {p r : Ptr}, Within [.ellipsoid (circ "a" V3.zero 1), .ellipsoid (circ "b" ⟨1 / 2, 0, 0⟩ 1)] p r → r = p := by
      intro p r hw
      rcases Relation.ReflTransGen.cases_head hw with rfl | ⟨c, ⟨ag, hag, -⟩, -⟩
      · rfl
      · match p with
        | 0 => simp at hag
        | 1 => simp at hag
        | n + 2 => simp at hag
    exact hpq ((hself h1).symm.trans (hself h2))

end DOA.Props
