import Verif.Lemmas.Alike

/-!
# C90: results do not depend on where obstacles are stored

Neither the addresses of the objects, nor other objects in memory, nor the sharing of primitives between aggregates
influence a result.
-/

set_option linter.unusedSectionVars false
set_option linter.unusedSimpArgs false

namespace DOA.Props
open DOA DOA.Spec DOA.Modulation

variable {α : Type} [Add α] [Sub α] [Mul α] [Div α] [Neg α] [Zero α] [One α]
  [LE α] [LT α] [DecidableLE α] [DecidableLT α] [CMath α]

/-- C90: the queries that do not use the reference position give the same answers (or fail in the same way) for
obstacles that are alike. -/
theorem C90_queries {h h' : Heap α} (ha : Acyclic h) (ha' : Acyclic h') {p p' : Ptr} {o o' : Obj α}
    (ho : h[p]? = some o) (ho' : h'[p']? = some o') (s : Alike h h' o o') :
    (∀ pt, h.pointIsInside o pt = h'.pointIsInside o' pt) ∧
    (∀ pt m, h.distanceToPoint o pt m = h'.distanceToPoint o' pt m) ∧
    (∀ pt m, h.normalToAgent o pt m = h'.normalToAgent o' pt m) ∧
    (∀ pt m f, h.repulsionFactor o pt m f = h'.repulsionFactor o' pt m f) ∧
    (∀ x y, o.intersectionPoints x y = o'.intersectionPoints x y) ∧ o.isClosed = o'.isClosed ∧
    o.name = o'.name ∧ o.position = o'.position := by
  refine ⟨fun pt => pointIsInside_alike ha ha' ho ho' s pt, fun pt m => distanceToPoint_alike ha ha' ho ho' s pt m,
    fun pt m => normalToAgent_alike ha ha' ho ho' s pt m, fun pt m f => ?_, fun x y => ?_, isClosed_alike s, name_alike s,
    position_alike s⟩
  · simp only [Heap.repulsionFactor, distanceToPoint_alike ha ha' ho ho' s]
  · rw [intersectionPoints_alike s]

/-- C90: the intersection test of two obstacles depends only on what they are made of. -/
theorem C90_intersects {h h' : Heap α} (ha : Acyclic h) (ha' : Acyclic h') {p p' : Ptr} {o o' u u' : Obj α}
    (ho : h[p]? = some o) (ho' : h'[p']? = some o') (s : Alike h h' o o') (t : Alike h h' u u') :
    h.isIntersecting u o = h'.isIntersecting u' o' :=
  isIntersecting_alike ha ha' ho ho' s t

/-- C90: the queries that do use the reference position. -/
theorem C90_repulsion {h h' : Heap α} (ha : Acyclic h) (ha' : Acyclic h') {p p' : Ptr} {o o' : Obj α}
    (ho : h[p]? = some o) (ho' : h'[p']? = some o') (s : Alike h h' o o') (hr : o.base.refPos = o'.base.refPos) :
    (∀ pt m, h.repulsionVector o pt m = h'.repulsionVector o' pt m) ∧
    (∀ pt m t, h.generateRepulsion o pt m t = h'.generateRepulsion o' pt m t) ∧
    ∀ a, modulationMatrix h a o = modulationMatrix h' a o' :=
  ⟨fun pt m => repulsionVector_alike ha ha' ho ho' s hr pt m,
    fun pt m t => generateRepulsion_alike ha ha' ho ho' s hr pt m t,
    fun a => modulationMatrix_alike ha ha' ho ho' s hr a a rfl rfl⟩

/-- C90: `exist_path`. -/
theorem C90_path {h h' : Heap α} (ha : Acyclic h) (ha' : Acyclic h') {l l' : List Ptr} (t : Twins h h' l l')
    {a a' : Agent α} (hs : a.state = a'.state) (target : V3 α) :
    a.existPath h target l = a'.existPath h' target l' := by
  refine foldlM_forall₂ (t.imp ?_) true
  rintro p p' ⟨o, o', h1, h2, -, h4⟩ x
  simp only [Heap.deref, h1, h2, Res.ok_bind, Agent.pathTest, hs, pointIsInside_alike ha ha' h1 h2 h4,
    isClosed_alike h4]

/-- C90: `in_obstacle`. -/
theorem C90_in_obstacle {h h' : Heap α} (ha : Acyclic h) (ha' : Acyclic h') {p p' : Ptr} {o o' : Obj α}
    (ho : h[p]? = some o) (ho' : h'[p']? = some o') (s : Alike h h' o o') {a a' : Agent α} (hs : a.state = a'.state)
    (hm : a.margin = a'.margin) : a.inObstacle h o = a'.inObstacle h' o' := by
  have h1 : a.safetyEnvelope = a'.safetyEnvelope := by simp only [Agent.safetyEnvelope, Agent.effMargin, hs, hm]
  rw [Agent.inObstacle, Agent.inObstacle, h1]
  exact isIntersecting_alike ha ha' ho ho' s (.ellipsoid _ _ rfl)

/-- C90: `modulate_velocity`, for every combination of its flags, returns the same velocity in both heaps, throws the
same exception in both or runs into the same undefined behaviour in both; and afterwards the obstacles are again twins. -/
theorem C90_velocity {h h' : Heap α} (ha : Acyclic h) (ha' : Acyclic h') {e e' : Env} (t : Twins h h' e.list e'.list)
    {a a' : Agent α} (hs : a.state = a'.state) (hm : a.margin = a'.margin) (he : TwinEnvelopes h h' a a')
    (isLocal addRepulsion planar : Bool) (critical power : α) :
    Agree (fun r r' => r.2 = r'.2 ∧ Twins r.1 r'.1 e.list e'.list)
      (modulateVelocity h a e isLocal addRepulsion planar critical power)
      (modulateVelocity h' a' e' isLocal addRepulsion planar critical power) := by
  have hemp : e.list.isEmpty = e'.list.isEmpty := by
    have := t.length_eq
    cases h1 : e.list <;> cases h2 : e'.list <;> simp [h1, h2] at this ⊢
  have tail : Agree (fun r r' => r.2 = r'.2 ∧ Twins r.1 r'.1 e.list e'.list)
      (collect planar a h e.list >>= fun r => (if addRepulsion then do
          let v ← repulsionSum r.1 a e.list
          Res.ok (some v)
        else .ok none) >>= fun rep => .ok (r.1, finish rep (combine a.state.position a.state.linearVelocity r.2
          critical power)))
      (collect planar a' h' e'.list >>= fun r => (if addRepulsion then do
          let v ← repulsionSum r.1 a' e'.list
          Res.ok (some v)
        else .ok none) >>= fun rep => .ok (r.1, finish rep (combine a'.state.position a'.state.linearVelocity r.2
          critical power))) := by
    obtain ⟨k, k', r, hk, hk', htk, -, -, hc, hc'⟩ := collect_twins ha ha' t hs hm planar
    rw [hc, hc', hs]
    cases r with
    | throw x => exact rfl
    | ub x => exact rfl
    | ok its =>
      simp only [Res.ok_bind, repulsionSum_twins hk hk' htk hs hm]
      cases addRepulsion with
      | false => exact ⟨rfl, htk⟩
      | true =>
        simp only [if_true]
        cases repulsionSum k' a' e'.list with
        | throw x => exact rfl
        | ub x => exact rfl
        | ok v => exact ⟨rfl, htk⟩
  have htail : ∀ b : Bool, Agree (fun r r' => r.2 = r'.2 ∧ Twins r.1 r'.1 e.list e'.list)
      (if (!b) = true then .ok (h, a.state.linearVelocity) else
      (collect planar a h e.list >>= fun r => (if addRepulsion then do
          let v ← repulsionSum r.1 a e.list
          Res.ok (some v)
        else .ok none) >>= fun rep => .ok (r.1, finish rep (combine a.state.position a.state.linearVelocity r.2
          critical power))))
      (if (!b) = true then .ok (h', a'.state.linearVelocity) else
      (collect planar a' h' e'.list >>= fun r => (if addRepulsion then do
          let v ← repulsionSum r.1 a' e'.list
          Res.ok (some v)
        else .ok none) >>= fun rep => .ok (r.1, finish rep (combine a'.state.position a'.state.linearVelocity r.2
          critical power)))) := by
    intro b
    cases b with
    | false => exact ⟨by rw [hs], t⟩
    | true => simpa using tail
  have key : ∀ (h : Heap α) (a : Agent α) (e : Env), modulateVelocity h a e isLocal addRepulsion planar critical power =
      if e.list.isEmpty then .ok (h, a.state.linearVelocity) else
        (if isLocal then a.getEnvelope h >>= fun env => h.isIntersectingList env e.list else Res.ok true) >>= fun b =>
        if (!b) = true then .ok (h, a.state.linearVelocity) else
      (collect planar a h e.list >>= fun r => (if addRepulsion then do
          let v ← repulsionSum r.1 a e.list
          Res.ok (some v)
        else .ok none) >>= fun rep => .ok (r.1, finish rep (combine a.state.position a.state.linearVelocity r.2
          critical power))) := by
    intro h a e
    unfold modulateVelocity
    cases isLocal <;> cases addRepulsion <;> simp only [if_true, Bool.false_eq_true, if_false, bind_assoc, Res.ok_bind]
  rw [key, key, hemp]
  split
  · exact ⟨by rw [hs], t⟩
  · cases isLocal with
    | false => simpa only [Bool.false_eq_true, if_false, Res.ok_bind] using htail true
    | true =>
      simp only [if_true]
      rcases he with ⟨h1, h2⟩ | ⟨p, p', h1, h2, o, o', h3, h4, -, h5⟩
      · simp [Agent.getEnvelope, h1, h2, Agree]
      · simp only [Agent.getEnvelope, h1, h2, Heap.deref, h3, h4, Res.ok_bind]
        rw [isIntersectingList_twins ha ha' t h5]
        cases h'.isIntersectingList o' e'.list with
        | throw x => exact rfl
        | ub x => exact rfl
        | ok b => exact htail b

end DOA.Props
