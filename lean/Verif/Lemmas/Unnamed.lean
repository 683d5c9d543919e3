import Verif.Model.Loop
import Verif.Spec.Unnamed

/-! # No query of an obstacle and no modulation looks at names -/

set_option linter.unusedSectionVars false
set_option linter.unusedSimpArgs false

namespace DOA
open DOA.Spec Modulation

variable {α : Type} [Add α] [Sub α] [Mul α] [Div α] [Neg α] [Zero α] [One α]
  [LE α] [LT α] [DecidableLE α] [DecidableLT α] [CMath α]

theorem deref_unnamed (h : Heap α) (p : Ptr) : (unnamed h).deref p = h.deref p >>= fun o => .ok (unname o) := by
  simp only [Heap.deref, unnamed, List.getElem?_map]
  cases h[p]? <;> rfl

theorem fuel_unnamed (h : Heap α) : (unnamed h).fuel = h.fuel := by simp [Heap.fuel, unnamed]

theorem unname_unname (o : Obj α) : unname (unname o) = unname o := by cases o <;> rfl

theorem bind_ok {β γ δ : Type} (x : Res β) (f : β → γ) (g : γ → Res δ) :
    ((x >>= fun b => .ok (f b)) >>= g) = x >>= fun b => g (f b) := by
  cases x <;> rfl

theorem pointIsInsideAux_unnamed (h : Heap α) (pt : V3 α) : ∀ (f : Nat) (o : Obj α),
    Heap.pointIsInsideAux f (unnamed h) (unname o) pt = Heap.pointIsInsideAux f h o pt := by
  intro f
  induction f with
  | zero => intro o; rfl
  | succ f ih =>
    intro o
    cases o with
    | plain b => rfl
    | ellipsoid e => rfl
    | hull k => rfl
    | aggregate a =>
      have e1 : unname (.aggregate a : Obj α) = .aggregate { a with base := a.base.setName "" } := rfl
      rw [e1]
      simp only [Heap.pointIsInsideAux, deref_unnamed, bind_ok, ih]

theorem isIntersectingEllipsoid_unnamed (o : Obj α) (e : Ellipsoid α) :
    Heap.isIntersectingEllipsoid (unname o) { e with base := e.base.setName "" } = Heap.isIntersectingEllipsoid o e := by
  cases o <;> rfl

theorem isIntersectingAux_unnamed (h : Heap α) (o : Obj α) : ∀ (f : Nat) (u : Obj α),
    Heap.isIntersectingAux f (unnamed h) (unname o) (unname u) = Heap.isIntersectingAux f h o u := by
  intro f
  induction f with
  | zero => intro u; rfl
  | succ f ih =>
    intro u
    cases u with
    | plain b => rfl
    | ellipsoid e => exact isIntersectingEllipsoid_unnamed o e
    | hull k => rfl
    | aggregate a =>
      have e1 : unname (.aggregate a : Obj α) = .aggregate { a with base := a.base.setName "" } := rfl
      rw [e1]
      simp only [Heap.isIntersectingAux, deref_unnamed, bind_ok, ih]

theorem pointIsInside_unnamed (h : Heap α) (o : Obj α) (pt : V3 α) :
    (unnamed h).pointIsInside (unname o) pt = h.pointIsInside o pt := by
  rw [Heap.pointIsInside, fuel_unnamed, pointIsInsideAux_unnamed]; rfl

theorem isIntersecting_unnamed (h : Heap α) (o u : Obj α) :
    (unnamed h).isIntersecting (unname o) (unname u) = h.isIntersecting o u := by
  rw [Heap.isIntersecting, fuel_unnamed, isIntersectingAux_unnamed]; rfl

theorem isIntersectingList_unnamed (h : Heap α) (o : Obj α) (l : List Ptr) :
    (unnamed h).isIntersectingList (unname o) l = h.isIntersectingList o l := by
  simp only [Heap.isIntersectingList, deref_unnamed, bind_ok, isIntersecting_unnamed]

theorem distanceToPoint_unnamed (h : Heap α) (o : Obj α) (pt m : V3 α) :
    (unnamed h).distanceToPoint (unname o) pt m = h.distanceToPoint o pt m := by
  cases o with
  | plain b => rfl
  | ellipsoid e => rfl
  | hull k => rfl
  | aggregate a =>
    have e1 := pointIsInside_unnamed h (.aggregate a) pt
    have e2 : unname (.aggregate a : Obj α) = .aggregate { a with base := a.base.setName "" } := rfl
    rw [e2] at e1 ⊢
    simp only [Heap.distanceToPoint, e1]

theorem normalToAgent_unnamed (h : Heap α) (o : Obj α) (pt : V3 α) (m : α) :
    (unnamed h).normalToAgent (unname o) pt m = h.normalToAgent o pt m := by
  cases o with
  | plain b => rfl
  | ellipsoid e => rfl
  | hull k => rfl
  | aggregate a =>
    have e1 := pointIsInside_unnamed h (.aggregate a) pt
    have e2 : unname (.aggregate a : Obj α) = .aggregate { a with base := a.base.setName "" } := rfl
    rw [e2] at e1 ⊢
    simp only [Heap.normalToAgent, e1]

theorem repulsionVector_unnamed (h : Heap α) (o : Obj α) (pt : V3 α) (m : α) :
    (unnamed h).repulsionVector (unname o) pt m = h.repulsionVector o pt m := by
  cases o with
  | plain b => rfl
  | ellipsoid e => rfl
  | hull k => rfl
  | aggregate a =>
    have e1 := pointIsInside_unnamed h (.aggregate a) pt
    have e3 := distanceToPoint_unnamed h (.aggregate a) pt (V3.const m)
    have e2 : unname (.aggregate a : Obj α) = .aggregate { a with base := a.base.setName "" } := rfl
    rw [e2] at e1 e3 ⊢
    simp only [Heap.repulsionVector, Heap.repulsionFactor, e1, e3]
    rfl

theorem generateRepulsion_unnamed (h : Heap α) (o : Obj α) (pt : V3 α) (m t : α) :
    (unnamed h).generateRepulsion (unname o) pt m t = h.generateRepulsion o pt m t := by
  simp only [Heap.generateRepulsion, Heap.distanceToAgent, distanceToPoint_unnamed, repulsionVector_unnamed]

theorem isClosed_unnamed (o : Obj α) : (unname o).isClosed = o.isClosed := by cases o <;> rfl

theorem set_unnamed (h : Heap α) (p : Ptr) (o : Obj α) : (unnamed h).set p (unname o) = unnamed (h.set p o) := by
  simp [unnamed, List.map_set]

theorem setRefAux_unnamed (v : V3 α) : ∀ (f : Nat) (h : Heap α) (p : Ptr),
    Heap.setRefAux f (unnamed h) p v = Heap.setRefAux f h p v >>= fun h' => .ok (unnamed h') := by
  intro f
  induction f with
  | zero => intro h p; rfl
  | succ f ih =>
    intro h p
    have key : ∀ (l : List Ptr) (h : Heap α), l.foldlM (fun h q => Heap.setRefAux f h q v) (unnamed h) =
        l.foldlM (fun h q => Heap.setRefAux f h q v) h >>= fun h' => .ok (unnamed h') := by
      intro l
      induction l with
      | nil => intro h; rfl
      | cons q l ihl =>
        intro h
        simp only [List.foldlM_cons, ih]
        cases Heap.setRefAux f h q v with
        | ok h1 => exact ihl h1
        | throw e => rfl
        | ub u => rfl
    simp only [Heap.setRefAux, deref_unnamed, bind_ok]
    cases hd : h.deref p with
    | throw e => rfl
    | ub u => rfl
    | ok o =>
      simp only [Res.ok_bind]
      have hm : (unname o).mapBase (·.setRef v) = unname (o.mapBase (·.setRef v)) := by cases o <;> rfl
      rw [hm, set_unnamed]
      cases o with
      | plain b => rfl
      | ellipsoid e => rfl
      | hull k => rfl
      | aggregate a => exact key a.prims _

theorem shiftReferencePoint_unnamed (h : Heap α) (p : Ptr) (x v : V3 α) :
    (unnamed h).shiftReferencePoint p x v = h.shiftReferencePoint p x v >>= fun h' => .ok (unnamed h') := by
  simp only [Heap.shiftReferencePoint, deref_unnamed, bind_ok]
  cases hd : h.deref p with
  | throw e => rfl
  | ub u => rfl
  | ok o =>
    simp only [Res.ok_bind]
    have hi : (unname o).intersectionPoints = o.intersectionPoints := by cases o <;> rfl
    rw [hi]
    split
    · rw [Heap.setRef, fuel_unnamed, setRefAux_unnamed]; rfl
    · rfl

theorem modulationMatrix_unnamed (h : Heap α) (a : Agent α) (o : Obj α) :
    modulationMatrix (unnamed h) a (unname o) = modulationMatrix h a o := by
  unfold modulationMatrix
  rw [normalToAgent_unnamed, Heap.distanceToAgent, distanceToPoint_unnamed]
  cases o <;> rfl

/-- An item of an obstacle without its name. -/
def unitem (i : Item α) : Item α := { i with base := i.base.setName "" }

theorem collect_unnamed (planar : Bool) (a : Agent α) : ∀ (l : List Ptr) (h : Heap α),
    collect planar a (unnamed h) l = collect planar a h l >>= fun r => .ok (unnamed r.1, r.2.map unitem) := by
  intro l
  induction l with
  | nil => intro h; rfl
  | cons p l ih =>
    intro h
    have key : ∀ h : Heap α, (do
        let o ← (unnamed h).deref p
        let m ← modulationMatrix (unnamed h) a o
        let r ← collect planar a (unnamed h) l
        .ok (r.1, ({ base := o.base, matrix := m.1, basis := m.2.1, dist := m.2.2 } : Item α) :: r.2)) = (do
        let o ← h.deref p
        let m ← modulationMatrix h a o
        let r ← collect planar a h l
        .ok (r.1, ({ base := o.base, matrix := m.1, basis := m.2.1, dist := m.2.2 } : Item α) :: r.2)) >>=
          fun r => .ok (unnamed r.1, r.2.map unitem) := by
      intro h
      simp only [deref_unnamed, bind_ok, modulationMatrix_unnamed, ih]
      cases h.deref p with
      | throw e => rfl
      | ub u => rfl
      | ok o =>
        simp only [Res.ok_bind]
        cases modulationMatrix h a o with
        | throw e => rfl
        | ub u => rfl
        | ok m =>
          simp only [Res.ok_bind]
          cases collect planar a h l with
          | throw e => rfl
          | ub u => rfl
          | ok r => cases o <;> rfl
    simp only [collect]
    cases planar with
    | false => exact key h
    | true =>
      simp only [if_true, shiftReferencePoint_unnamed, bind_ok]
      cases h.shiftReferencePoint p a.state.position a.state.linearVelocity with
      | throw e => rfl
      | ub u => rfl
      | ok h1 => exact key h1

theorem combine_unitem (x v : V3 α) (items : List (Item α)) (c p : α) :
    combine x v (items.map unitem) c p = combine x v items c p := by
  have e1 : (items.map unitem).map (·.dist) = items.map (·.dist) := by
    simp only [List.map_map]; rfl
  have e2 : ∀ w : List α, (items.map unitem).zip w = (items.zip w).map fun y => (unitem y.1, y.2) := by
    intro w
    rw [List.zip_map_left]; rfl
  simp only [combine, relativeVelocities, e1, e2, List.foldl_map]
  rfl

theorem repulsionSum_unnamed (h : Heap α) (a : Agent α) (l : List Ptr) :
    repulsionSum (unnamed h) a l = repulsionSum h a l := by
  simp only [repulsionSum, deref_unnamed, bind_ok, generateRepulsion_unnamed]

theorem modulateVelocity_unnamed (h : Heap α) (a : Agent α) (e : Env) (loc rep planar : Bool) (c p : α) :
    modulateVelocity (unnamed h) a e loc rep planar c p =
      modulateVelocity h a e loc rep planar c p >>= fun r => .ok (unnamed r.1, r.2) := by
  unfold modulateVelocity
  by_cases he : e.list.isEmpty = true
  · simp only [he, if_true]; rfl
  · simp only [he, if_false, Bool.false_eq_true]
    have rest : ∀ s : Bool, (if (!s) = true then Res.ok (unnamed h, a.state.linearVelocity) else do
          let r ← collect planar a (unnamed h) e.list
          if rep = true then do
              let v ← repulsionSum r.1 a e.list
              let rep ← Res.ok (some v)
              Res.ok (r.1, finish rep (combine a.state.position a.state.linearVelocity r.2 c p))
            else do
              let rep ← Res.ok none
              Res.ok (r.1, finish rep (combine a.state.position a.state.linearVelocity r.2 c p))) =
        (if (!s) = true then Res.ok (h, a.state.linearVelocity) else do
          let r ← collect planar a h e.list
          if rep = true then do
              let v ← repulsionSum r.1 a e.list
              let rep ← Res.ok (some v)
              Res.ok (r.1, finish rep (combine a.state.position a.state.linearVelocity r.2 c p))
            else do
              let rep ← Res.ok none
              Res.ok (r.1, finish rep (combine a.state.position a.state.linearVelocity r.2 c p))) >>=
          fun r => .ok (unnamed r.1, r.2) := by
      intro s
      cases s with
      | false => rfl
      | true =>
        simp only [Bool.not_true, if_false, Bool.false_eq_true, collect_unnamed, bind_ok, combine_unitem, repulsionSum_unnamed]
        cases collect planar a h e.list with
        | throw e => rfl
        | ub u => rfl
        | ok r =>
          simp only [Res.ok_bind]
          cases rep with
          | false => rfl
          | true =>
            simp only [if_true]
            cases repulsionSum r.1 a e.list with
            | throw e => rfl
            | ub u => rfl
            | ok v => rfl
    cases loc with
    | false =>
      simp only [if_false, Bool.false_eq_true, Res.ok_bind]
      exact rest true
    | true =>
      simp only [if_true, Agent.getEnvelope]
      cases a.envelope with
      | none => rfl
      | some q =>
        simp only [deref_unnamed, bind_ok, isIntersectingList_unnamed]
        cases h.deref q with
        | throw e => rfl
        | ub u => rfl
        | ok o =>
          simp only [Res.ok_bind]
          cases h.isIntersectingList o e.list with
          | throw e => rfl
          | ub u => rfl
          | ok s => exact rest s

theorem withState_unnamed (h : Heap α) (a : Agent α) (s : State α) :
    a.withState (unnamed h) s = a.withState h s >>= fun r => .ok (unnamed r.1, r.2) := by
  simp only [Agent.withState, Agent.updateEnvelope]
  cases a.envelope with
  | none => rfl
  | some p =>
    simp only [deref_unnamed, bind_ok]
    cases h.deref p with
    | throw e => rfl
    | ub u => rfl
    | ok o =>
      cases o with
      | plain b => rfl
      | hull k => rfl
      | aggregate a => rfl
      | ellipsoid e =>
        simp only [Res.ok_bind, unname, Obj.mapBase]
        rw [← set_unnamed]
        rfl

theorem iterate_unnamed (c : Loop α) (e : Env) (v : V3 α) (h : Heap α) (a : Agent α) :
    c.iterate e v (unnamed h, a) = c.iterate e v (h, a) >>= fun r => .ok (unnamed r.1, r.2) := by
  simp only [Loop.iterate, Agent.setLinearVelocity, withState_unnamed, bind_ok]
  cases a.withState h (a.state.setLinearVelocity v) with
  | throw e => rfl
  | ub u => rfl
  | ok s =>
    simp only [Res.ok_bind, modulateVelocity_unnamed, bind_ok]
    cases modulateVelocity s.1 s.2 e c.isLocal c.addRepulsion c.planar c.critical c.power with
    | throw e => rfl
    | ub u => rfl
    | ok r => exact withState_unnamed _ _ _

theorem run_unnamed (c : Loop α) (e : Env) : ∀ (n : Nat) (h : Heap α) (a : Agent α),
    c.run e n (unnamed h, a) = c.run e n (h, a) >>= fun r => .ok (unnamed r.1, r.2) := by
  intro n
  induction n with
  | zero => intro h a; rfl
  | succ n ih =>
    intro h a
    simp only [Loop.run, iterate_unnamed, bind_ok]
    cases c.iterate e (c.desired a.state.position) (h, a) with
    | throw e => rfl
    | ub u => rfl
    | ok s => exact ih s.1 s.2

theorem inObstacle_unnamed (h : Heap α) (a : Agent α) (o : Obj α) :
    a.inObstacle (unnamed h) (unname o) = a.inObstacle h o := by
  have e1 := isIntersecting_unnamed h (.ellipsoid a.safetyEnvelope) o
  have e2 := isIntersecting_unnamed (unnamed h) (.ellipsoid a.safetyEnvelope) (unname o)
  have e3 : unnamed (unnamed h) = unnamed h := by
    simp only [unnamed, List.map_map]
    exact List.map_congr_left fun o _ => unname_unname o
  rw [unname_unname, e3] at e2
  exact e2.symm.trans e1

theorem existPath_unnamed (h : Heap α) (a : Agent α) (t : V3 α) (l : List Ptr) :
    a.existPath (unnamed h) t l = a.existPath h t l := by
  simp only [Agent.existPath, Agent.pathTest, deref_unnamed, bind_ok, pointIsInside_unnamed, isClosed_unnamed]

theorem iterateWall_unnamed (c : Loop α) (e : Env) (h : Heap α) (a : Agent α) :
    c.iterateWall e (unnamed h, a) = c.iterateWall e (h, a) >>= fun r => .ok (unnamed r.1, r.2) := by
  simp only [Loop.iterateWall, existPath_unnamed]
  cases a.existPath h c.target e.list with
  | throw e => rfl
  | ub u => rfl
  | ok b =>
    cases b with
    | false => exact withState_unnamed _ _ _
    | true =>
      simp only [Res.ok_bind, if_true, Agent.setLinearVelocity, withState_unnamed, bind_ok, iterate_unnamed]
      cases a.withState h (a.state.setLinearVelocity
          (V3.smul (lit 9 10) (c.desired a.state.position) + V3.smul (lit 1 10) V3.zero)) with
      | throw e => rfl
      | ub u => rfl
      | ok s => rfl

theorem runWall_unnamed (c : Loop α) (e : Env) : ∀ (n : Nat) (h : Heap α) (a : Agent α),
    c.runWall e n (unnamed h, a) = c.runWall e n (h, a) >>= fun r => .ok (unnamed r.1, r.2) := by
  intro n
  induction n with
  | zero => intro h a; rfl
  | succ n ih =>
    intro h a
    simp only [Loop.runWall, iterateWall_unnamed, bind_ok]
    cases c.iterateWall e (h, a) with
    | throw e => rfl
    | ub u => rfl
    | ok s => exact ih s.1 s.2

theorem lookup_found (h : Heap α) {e : Env} {k : String} {p : Ptr} (hk : Env.find e.map k = some p) : e.lookup h k = .ok p := by
  simp only [Env.lookup, Env.lookupSlot, hk, Res.ok_bind, Env.readSlot]

theorem mapBase_unname (f : Base α → Base α) (hf : ∀ b : Base α, f (b.setName "") = (f b).setName "") (o : Obj α) :
    (unname o).mapBase f = unname (o.mapBase f) := by
  cases o <;> simp only [unname, Obj.mapBase, hf]

theorem modulateVelocity_list (h : Heap α) (a : Agent α) {e e' : Env} (he : e.list = e'.list) (loc rep planar : Bool) (c p : α) :
    modulateVelocity h a e loc rep planar c p = modulateVelocity h a e' loc rep planar c p := by
  unfold modulateVelocity; rw [he]

theorem iterateMoving_unnamed (c : Loop α) {e e' : Env} (he : e.list = e'.list) {k k' : String} {p : Ptr}
    (hk : Env.find e.map k = some p) (hk' : Env.find e'.map k' = some p) (goal : V3 α) (h : Heap α) (a : Agent α) :
    c.iterateMoving e' k' goal (unnamed h, a) =
      c.iterateMoving e k goal (h, a) >>= fun r => .ok (unnamed r.1, r.2) := by
  simp only [Loop.iterateMoving, lookup_found h hk, lookup_found (unnamed h) hk', Res.ok_bind, deref_unnamed, bind_ok]
  cases h.deref p with
  | throw e => rfl
  | ub u => rfl
  | ok o =>
    have hpos : (unname o).position = o.position := by cases o <;> rfl
    simp only [Res.ok_bind, Agent.setLinearVelocity, withState_unnamed, bind_ok, hpos]
    cases a.withState h (a.state.setLinearVelocity (c.desired a.state.position)) with
    | throw e => rfl
    | ub u => rfl
    | ok s1 =>
      simp only [Res.ok_bind, deref_unnamed, bind_ok]
      cases s1.1.deref p with
      | throw e => rfl
      | ub u => rfl
      | ok o1 =>
        simp only [Res.ok_bind]
        rw [mapBase_unname _ (fun _ => rfl), set_unnamed, modulateVelocity_unnamed, ← modulateVelocity_list _ _ he]
        cases modulateVelocity (s1.1.set p (o1.mapBase (·.setLinearVelocity (V3.smul (-c.gain) (o.position - goal))))) s1.2 e
            c.isLocal c.addRepulsion c.planar c.critical c.power with
        | throw e => rfl
        | ub u => rfl
        | ok r =>
          simp only [Res.ok_bind, Agent.setPosition, withState_unnamed, bind_ok]
          cases s1.2.withState r.1 (s1.2.state.setPosition (a.state.position + V3.smul c.dt (c.limit r.2))) with
          | throw e => rfl
          | ub u => rfl
          | ok s2 =>
            simp only [Res.ok_bind, deref_unnamed, bind_ok]
            cases s2.1.deref p with
            | throw e => rfl
            | ub u => rfl
            | ok o2 =>
              simp only [Res.ok_bind]
              rw [mapBase_unname _ (fun _ => rfl), set_unnamed, Heap.setRef, fuel_unnamed, setRefAux_unnamed, Heap.setRef]
              cases Heap.setRefAux (Heap.fuel (s2.1.set p (o2.mapBase
                (·.setPosition (o.position + V3.smul c.dt (V3.smul (-c.gain) (o.position - goal)))))))
                (s2.1.set p (o2.mapBase (·.setPosition (o.position + V3.smul c.dt (V3.smul (-c.gain) (o.position - goal))))))
                p (o.position + V3.smul c.dt (V3.smul (-c.gain) (o.position - goal))) with
              | throw e => rfl
              | ub u => rfl
              | ok h3 => rfl

theorem runMoving_unnamed (c : Loop α) {e e' : Env} (he : e.list = e'.list) {k k' : String} {p : Ptr}
    (hk : Env.find e.map k = some p) (hk' : Env.find e'.map k' = some p) (goal : V3 α) : ∀ (n : Nat) (h : Heap α) (a : Agent α),
    c.runMoving e' k' goal n (unnamed h, a) =
      c.runMoving e k goal n (h, a) >>= fun r => .ok (unnamed r.1, r.2) := by
  intro n
  induction n with
  | zero => intro h a; rfl
  | succ n ih =>
    intro h a
    simp only [Loop.runMoving, iterateMoving_unnamed c he hk hk', bind_ok]
    cases c.iterateMoving e k goal (h, a) with
    | throw e => rfl
    | ub u => rfl
    | ok s => exact ih s.1 s.2

end DOA
