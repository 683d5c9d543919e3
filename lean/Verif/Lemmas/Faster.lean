import Verif.Lemmas.Unnamed
import Verif.Lemmas.Units
import Verif.Spec.Faster

/-! # Another unit of time: only the velocities of the obstacles change -/

set_option linter.unusedSectionVars false
set_option linter.unusedSimpArgs false

namespace DOA
open DOA.Spec Modulation

theorem deref_faster (μ : ℝ) (h : Heap ℝ) (p : Ptr) : (fasterHeap μ h).deref p = h.deref p >>= fun o => .ok (faster μ o) := by
  simp only [Heap.deref, fasterHeap, List.getElem?_map]
  cases h[p]? <;> rfl

theorem fuel_faster (μ : ℝ) (h : Heap ℝ) : (fasterHeap μ h).fuel = h.fuel := by simp [Heap.fuel, fasterHeap]

theorem pointIsInsideAux_faster (μ : ℝ) (h : Heap ℝ) (pt : V3 ℝ) : ∀ (f : Nat) (o : Obj ℝ),
    Heap.pointIsInsideAux f (fasterHeap μ h) (faster μ o) pt = Heap.pointIsInsideAux f h o pt := by
  intro f
  induction f with
  | zero => intro o; rfl
  | succ f ih =>
    intro o
    cases o with
    | plain b => rfl
    | ellipsoid e => rfl
    | hull k => rfl
    | aggregate a =>
      have e1 : faster μ (.aggregate a : Obj ℝ) = .aggregate { a with base := { a.base with state := fasterState μ a.base.state } } := rfl
      rw [e1]
      simp only [Heap.pointIsInsideAux, deref_faster, bind_ok, ih]

theorem isIntersectingEllipsoid_faster (μ : ℝ) (o : Obj ℝ) (e : Ellipsoid ℝ) :
    Heap.isIntersectingEllipsoid (faster μ o) { e with base := { e.base with state := fasterState μ e.base.state } } = Heap.isIntersectingEllipsoid o e := by
  cases o <;> rfl

theorem isIntersectingAux_faster (μ : ℝ) (h : Heap ℝ) (o : Obj ℝ) : ∀ (f : Nat) (u : Obj ℝ),
    Heap.isIntersectingAux f (fasterHeap μ h) (faster μ o) (faster μ u) = Heap.isIntersectingAux f h o u := by
  intro f
  induction f with
  | zero => intro u; rfl
  | succ f ih =>
    intro u
    cases u with
    | plain b => rfl
    | ellipsoid e => exact isIntersectingEllipsoid_faster μ o e
    | hull k => rfl
    | aggregate a =>
      have e1 : faster μ (.aggregate a : Obj ℝ) = .aggregate { a with base := { a.base with state := fasterState μ a.base.state } } := rfl
      rw [e1]
      simp only [Heap.isIntersectingAux, deref_faster, bind_ok, ih]

theorem pointIsInside_faster (μ : ℝ) (h : Heap ℝ) (o : Obj ℝ) (pt : V3 ℝ) :
    (fasterHeap μ h).pointIsInside (faster μ o) pt = h.pointIsInside o pt := by
  rw [Heap.pointIsInside, fuel_faster, pointIsInsideAux_faster]; rfl

theorem isIntersecting_faster (μ : ℝ) (h : Heap ℝ) (o u : Obj ℝ) :
    (fasterHeap μ h).isIntersecting (faster μ o) (faster μ u) = h.isIntersecting o u := by
  rw [Heap.isIntersecting, fuel_faster, isIntersectingAux_faster]; rfl

theorem isIntersectingList_faster (μ : ℝ) (h : Heap ℝ) (o : Obj ℝ) (l : List Ptr) :
    (fasterHeap μ h).isIntersectingList (faster μ o) l = h.isIntersectingList o l := by
  simp only [Heap.isIntersectingList, deref_faster, bind_ok, isIntersecting_faster]

theorem distanceToPoint_faster (μ : ℝ) (h : Heap ℝ) (o : Obj ℝ) (pt m : V3 ℝ) :
    (fasterHeap μ h).distanceToPoint (faster μ o) pt m = h.distanceToPoint o pt m := by
  cases o with
  | plain b => rfl
  | ellipsoid e => rfl
  | hull k => rfl
  | aggregate a =>
    have e1 := pointIsInside_faster μ h (.aggregate a) pt
    have e2 : faster μ (.aggregate a : Obj ℝ) = .aggregate { a with base := { a.base with state := fasterState μ a.base.state } } := rfl
    rw [e2] at e1 ⊢
    simp only [Heap.distanceToPoint, e1]

theorem normalToAgent_faster (μ : ℝ) (h : Heap ℝ) (o : Obj ℝ) (pt : V3 ℝ) (m : ℝ) :
    (fasterHeap μ h).normalToAgent (faster μ o) pt m = h.normalToAgent o pt m := by
  cases o with
  | plain b => rfl
  | ellipsoid e => rfl
  | hull k => rfl
  | aggregate a =>
    have e1 := pointIsInside_faster μ h (.aggregate a) pt
    have e2 : faster μ (.aggregate a : Obj ℝ) = .aggregate { a with base := { a.base with state := fasterState μ a.base.state } } := rfl
    rw [e2] at e1 ⊢
    simp only [Heap.normalToAgent, e1]

theorem repulsionVector_faster (μ : ℝ) (h : Heap ℝ) (o : Obj ℝ) (pt : V3 ℝ) (m : ℝ) :
    (fasterHeap μ h).repulsionVector (faster μ o) pt m = h.repulsionVector o pt m := by
  cases o with
  | plain b => rfl
  | ellipsoid e => rfl
  | hull k => rfl
  | aggregate a =>
    have e1 := pointIsInside_faster μ h (.aggregate a) pt
    have e3 := distanceToPoint_faster μ h (.aggregate a) pt (V3.const m)
    have e2 : faster μ (.aggregate a : Obj ℝ) = .aggregate { a with base := { a.base with state := fasterState μ a.base.state } } := rfl
    rw [e2] at e1 e3 ⊢
    simp only [Heap.repulsionVector, Heap.repulsionFactor, e1, e3]
    rfl

theorem generateRepulsion_faster (μ : ℝ) (h : Heap ℝ) (o : Obj ℝ) (pt : V3 ℝ) (m t : ℝ) :
    (fasterHeap μ h).generateRepulsion (faster μ o) pt m t = h.generateRepulsion o pt m t := by
  simp only [Heap.generateRepulsion, Heap.distanceToAgent, distanceToPoint_faster, repulsionVector_faster]

theorem repulsionSum_faster (μ : ℝ) (h : Heap ℝ) (a : Agent ℝ) (l : List Ptr) :
    repulsionSum (fasterHeap μ h) (fasterAgent μ a) l = repulsionSum h a l := by
  have e1 : (fasterAgent μ a).state.position = a.state.position := rfl
  have e2 : (fasterAgent μ a).margin = a.margin := rfl
  simp only [repulsionSum, deref_faster, bind_ok, generateRepulsion_faster, e1, e2]

theorem set_faster (μ : ℝ) (h : Heap ℝ) (p : Ptr) (o : Obj ℝ) : (fasterHeap μ h).set p (faster μ o) = fasterHeap μ (h.set p o) := by
  simp [fasterHeap, List.map_set]

theorem setRefAux_faster (μ : ℝ) (v : V3 ℝ) : ∀ (f : Nat) (h : Heap ℝ) (p : Ptr),
    Heap.setRefAux f (fasterHeap μ h) p v = Heap.setRefAux f h p v >>= fun h' => .ok (fasterHeap μ h') := by
  intro f
  induction f with
  | zero => intro h p; rfl
  | succ f ih =>
    intro h p
    have key : ∀ (l : List Ptr) (h : Heap ℝ), l.foldlM (fun h q => Heap.setRefAux f h q v) (fasterHeap μ h) =
        l.foldlM (fun h q => Heap.setRefAux f h q v) h >>= fun h' => .ok (fasterHeap μ h') := by
      intro l
      induction l with
      | nil => intro h; rfl
      | cons q l ihl =>
        intro h
        simp only [List.foldlM_cons, ih]
        cases Heap.setRefAux f h q v with
        | ok h1 => exact ihl h1
        | throw e => rfl
        | ub u => rfl
    simp only [Heap.setRefAux, deref_faster, bind_ok]
    cases hd : h.deref p with
    | throw e => rfl
    | ub u => rfl
    | ok o =>
      simp only [Res.ok_bind]
      have hm : (faster μ o).mapBase (·.setRef v) = faster μ (o.mapBase (·.setRef v)) := by cases o <;> rfl
      rw [hm, set_faster]
      cases o with
      | plain b => rfl
      | ellipsoid e => rfl
      | hull k => rfl
      | aggregate a => exact key a.prims _


theorem intersectionPoints_faster {μ : ℝ} (hμ : 0 < μ) (o : Obj ℝ) (x v : V3 ℝ) :
    (faster μ o).intersectionPoints x (x + V3.smul μ v) = o.intersectionPoints x (x + v) := by
  cases o with
  | plain b => rfl
  | hull k => rfl
  | aggregate a => rfl
  | ellipsoid e =>
    show ({ e with base := { e.base with state := fasterState μ e.base.state } } : Ellipsoid ℝ).intersectionPoints _ _ =
      e.intersectionPoints _ _
    have hlin : ∀ w : V3 ℝ, e.base.pose.inverse.apply (x + w) - e.base.pose.inverse.apply x =
        e.base.pose.inverse.orientation.rotate w := by
      intro w
      simp only [Pose.apply, Quat.rotate, V3.cross]
      ext <;> simp [V3.smul, V3.add_x, V3.add_y, V3.add_z, V3.sub_x, V3.sub_y, V3.sub_z] <;> ring
    have hrot : ∀ w : V3 ℝ, e.base.pose.inverse.orientation.rotate (V3.smul μ w) =
        V3.smul μ (e.base.pose.inverse.orientation.rotate w) := by
      intro w
      simp only [Quat.rotate, V3.cross]
      ext <;> simp [V3.smul, V3.add_x, V3.add_y, V3.add_z] <;> ring
    have h1 := hlin v
    have h2 := hlin (V3.smul μ v)
    rw [hrot] at h2
    have ha : ((e.base.pose.inverse.apply (x + V3.smul μ v)).y - (e.base.pose.inverse.apply x).y) /
        ((e.base.pose.inverse.apply (x + V3.smul μ v)).x - (e.base.pose.inverse.apply x).x) =
        ((e.base.pose.inverse.apply (x + v)).y - (e.base.pose.inverse.apply x).y) /
        ((e.base.pose.inverse.apply (x + v)).x - (e.base.pose.inverse.apply x).x) := by
      have hx := congrArg V3.x h1
      have hy := congrArg V3.y h1
      have hx' := congrArg V3.x h2
      have hy' := congrArg V3.y h2
      simp only [V3.sub_x, V3.sub_y, V3.smul] at hx hy hx' hy'
      rw [hx, hy]
      simp only [V3.smul] at hx' hy' ⊢
      rw [hx', hy', mul_div_mul_left _ _ hμ.ne']
    have hp : ({ e.base with state := fasterState μ e.base.state } : Base ℝ).pose = e.base.pose := rfl
    unfold Ellipsoid.intersectionPoints
    simp only [hp, ha]

theorem shiftReferencePoint_faster {μ : ℝ} (hμ : 0 < μ) (h : Heap ℝ) (p : Ptr) (x v : V3 ℝ) :
    (fasterHeap μ h).shiftReferencePoint p x (V3.smul μ v) =
      h.shiftReferencePoint p x v >>= fun h' => .ok (fasterHeap μ h') := by
  simp only [Heap.shiftReferencePoint, deref_faster, bind_ok, intersectionPoints_faster hμ]
  cases hd : h.deref p with
  | throw e => rfl
  | ub u => rfl
  | ok o =>
    simp only [Res.ok_bind]
    split
    · rw [Heap.setRef, fuel_faster, setRefAux_faster]; rfl
    · rfl

theorem modulationMatrix_faster (μ : ℝ) (h : Heap ℝ) (a : Agent ℝ) (o : Obj ℝ) :
    modulationMatrix (fasterHeap μ h) (fasterAgent μ a) (faster μ o) = modulationMatrix h a o := by
  unfold modulationMatrix
  rw [normalToAgent_faster, Heap.distanceToAgent, distanceToPoint_faster]
  cases o <;> rfl

/-- An item of an obstacle with its speeds multiplied by `μ`. -/
noncomputable def fasterItem (μ : ℝ) (i : Item ℝ) : Item ℝ :=
  { i with base := { i.base with state := fasterState μ i.base.state } }

theorem collect_faster {μ : ℝ} (hμ : 0 < μ) (planar : Bool) (a : Agent ℝ) : ∀ (l : List Ptr) (h : Heap ℝ),
    collect planar (fasterAgent μ a) (fasterHeap μ h) l =
      collect planar a h l >>= fun r => .ok (fasterHeap μ r.1, r.2.map (fasterItem μ)) := by
  intro l
  induction l with
  | nil => intro h; rfl
  | cons p l ih =>
    intro h
    have key : ∀ h : Heap ℝ, (do
        let o ← (fasterHeap μ h).deref p
        let m ← modulationMatrix (fasterHeap μ h) (fasterAgent μ a) o
        let r ← collect planar (fasterAgent μ a) (fasterHeap μ h) l
        .ok (r.1, ({ base := o.base, matrix := m.1, basis := m.2.1, dist := m.2.2 } : Item ℝ) :: r.2)) = (do
        let o ← h.deref p
        let m ← modulationMatrix h a o
        let r ← collect planar a h l
        .ok (r.1, ({ base := o.base, matrix := m.1, basis := m.2.1, dist := m.2.2 } : Item ℝ) :: r.2)) >>=
          fun r => .ok (fasterHeap μ r.1, r.2.map (fasterItem μ)) := by
      intro h
      simp only [deref_faster, bind_ok, modulationMatrix_faster, ih]
      cases h.deref p with
      | throw e => rfl
      | ub u => rfl
      | ok o =>
        simp only [Res.ok_bind]
        cases modulationMatrix h a o with
        | throw e => rfl
        | ub u => rfl
        | ok m =>
          simp only [Res.ok_bind]
          cases collect planar a h l with
          | throw e => rfl
          | ub u => rfl
          | ok r => cases o <;> rfl
    simp only [collect]
    cases planar with
    | false => exact key h
    | true =>
      have e1 : (fasterAgent μ a).state.position = a.state.position := rfl
      have e2 : (fasterAgent μ a).state.linearVelocity = V3.smul μ a.state.linearVelocity := rfl
      simp only [if_true, e1, e2, shiftReferencePoint_faster hμ, bind_ok]
      cases h.shiftReferencePoint p a.state.position a.state.linearVelocity with
      | throw e => rfl
      | ub u => rfl
      | ok h1 => exact key h1

theorem combine_faster {μ : ℝ} (hμ : 0 < μ) (x v : V3 ℝ) (items : List (Item ℝ)) (c p : ℝ) :
    combine x (V3.smul μ v) (items.map (fasterItem μ)) c p = V3.smul μ (combine x v items c p) := by
  have hU : (⟨1, μ⟩ : Units).Valid := ⟨one_pos, hμ⟩
  have hone : ∀ w : V3 ℝ, V3.smul 1 w = w := fun w => by ext <;> simp [V3.smul]
  have hf : List.Forall₂ (ScaledItem ⟨1, μ⟩ x) items (items.map (fasterItem μ)) := by
    induction items with
    | nil => exact .nil
    | cons i items ih =>
      refine .cons ⟨rfl, rfl, fun w => ?_⟩ ih
      show obstacleVelocity (V3.smul 1 x) _ _ w _ = _
      rw [hone]
      have hvel : V3.smul μ i.base.state.linearVelocity + V3.cross (V3.smul μ i.base.state.angularVelocity) (x - i.base.position) =
          V3.smul μ (i.base.state.linearVelocity + V3.cross i.base.state.angularVelocity (x - i.base.position)) := by
        rw [V3.smul_add']
        congr 1
        ext <;> simp only [V3.cross, V3.smul] <;> ring
      have e3 : (fasterItem μ i).base.position = i.base.position := rfl
      have e4 : (fasterItem μ i).base.state.linearVelocity = V3.smul μ i.base.state.linearVelocity := rfl
      have e5 : (fasterItem μ i).base.state.angularVelocity = V3.smul μ i.base.state.angularVelocity := rfl
      have e6 : (fasterItem μ i).dist = i.dist := rfl
      have e7 : (fasterItem μ i).basis = i.basis := rfl
      unfold obstacleVelocity
      simp only [e3, e4, e5, e6, e7, hvel]
      generalize i.base.state.linearVelocity + _ = v
      have hsw : ∀ k : ℝ, V3.smul k (V3.smul μ v) = V3.smul μ (V3.smul k v) := by
        intro k; rw [V3.smul_smul', V3.smul_smul', mul_comm]
      simp only [hsw, M3.mulVec_smul]
      ext <;> simp only [V3.smul] <;> ring
  have key := combine_scale hU x v c p hf
  simp only [hone] at key
  exact key

theorem withState_faster {μ : ℝ} (hμ : 0 < μ) (h : Heap ℝ) (a : Agent ℝ) (s : State ℝ) :
    (fasterAgent μ a).withState (fasterHeap μ h) (fasterState μ s) =
      a.withState h s >>= fun r => .ok (fasterHeap μ r.1, fasterAgent μ r.2) := by
  have e0 : (fasterAgent μ a).envelope = a.envelope := rfl
  simp only [Agent.withState, Agent.updateEnvelope, e0]
  cases a.envelope with
  | none => rfl
  | some p =>
    simp only [deref_faster, bind_ok]
    cases h.deref p with
    | throw e => rfl
    | ub u => rfl
    | ok o =>
      cases o with
      | plain b => rfl
      | hull k => rfl
      | aggregate a => rfl
      | ellipsoid e =>
        simp only [Res.ok_bind, faster, Obj.mapBase]
        rw [← set_faster]
        have hn : (fasterState μ s).linearVelocity.normalized = s.linearVelocity.normalized :=
          V3.normalized_smul_pos hμ _
        have hp : (fasterState μ s).position = s.position := rfl
        simp only [Agent.envelopeFor, hn, hp]
        rfl

theorem isClosed_faster (μ : ℝ) (o : Obj ℝ) : (faster μ o).isClosed = o.isClosed := by cases o <;> rfl

theorem existPath_faster (μ : ℝ) (h : Heap ℝ) (a : Agent ℝ) (t : V3 ℝ) (l : List Ptr) :
    (fasterAgent μ a).existPath (fasterHeap μ h) t l = a.existPath h t l := by
  have e1 : (fasterAgent μ a).state.position = a.state.position := rfl
  simp only [Agent.existPath, Agent.pathTest, deref_faster, bind_ok, pointIsInside_faster, isClosed_faster, e1]

theorem findInList_faster (μ : ℝ) (h : Heap ℝ) (k : String) : ∀ l : List Ptr,
    Env.findInList (fasterHeap μ h) k l = Env.findInList h k l := by
  intro l
  induction l with
  | nil => rfl
  | cons p l ih =>
    have hn : ∀ o : Obj ℝ, (faster μ o).name = o.name := fun o => by cases o <;> rfl
    simp only [Env.findInList, deref_faster, bind_ok, hn, ih]

theorem lookup_faster (μ : ℝ) (h : Heap ℝ) (e : Env) (k : String) : e.lookup (fasterHeap μ h) k = e.lookup h k := by
  simp only [Env.lookup, Env.lookupSlot, findInList_faster]

end DOA
