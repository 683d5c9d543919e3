import Verif.Lemmas.OriginUpdate
import Verif.Model.World
import Verif.Lemmas.Order
import Verif.Lemmas.Agent

/-!
# Helper lemmas for the change of the origin: queries, modulation and control loops
-/

namespace DOA
open DOA.Spec DOA.Modulation DOA.Ellipsoid DOA.Aggregation
set_option linter.unnecessarySeqFocus false
set_option linter.unusedSectionVars false
set_option linter.unusedSimpArgs false

namespace Origin

/-! ## queries -/

theorem pointIsInsideAux_moved (t : V3 ℝ) (h : Heap ℝ) (x : V3 ℝ) : ∀ (n : Nat) (o : Obj ℝ),
    Heap.pointIsInsideAux n (movedHeap t h) (movedObj t o) (x + t) = Heap.pointIsInsideAux n h o x := by
  intro n
  induction n with
  | zero => intros; rfl
  | succ n ih =>
    intro o
    cases o with
    | plain b => rfl
    | ellipsoid e =>
      simp only [movedObj, Heap.pointIsInsideAux]
      congr 1
      exact insideE t e x
    | hull k => exact hullInside_moved t k x
    | aggregate a =>
      simp only [movedObj, Heap.pointIsInsideAux, hullInside_moved]
      congr 1
      funext b
      split
      · rfl
      · generalize false = acc
        induction a.prims generalizing acc with
        | nil => rfl
        | cons q l ihl =>
          simp only [List.foldlM_cons]
          rw [deref_moved]
          cases h.deref q with
          | throw x => rfl
          | ub u => rfl
          | ok oq =>
            simp only [Res.map_ok, Res.ok_bind]
            rw [ih oq]
            congr 1
            funext s
            exact ihl s

theorem inside_moved (t : V3 ℝ) (h : Heap ℝ) (o : Obj ℝ) (x : V3 ℝ) :
    (movedHeap t h).pointIsInside (movedObj t o) (x + t) = h.pointIsInside o x := by
  unfold Heap.pointIsInside
  rw [fuel_moved, pointIsInsideAux_moved]

theorem distance_moved (t : V3 ℝ) (h : Heap ℝ) (o : Obj ℝ) (x m : V3 ℝ) :
    (movedHeap t h).distanceToPoint (movedObj t o) (x + t) m = h.distanceToPoint o x m := by
  cases o with
  | plain b => rfl
  | ellipsoid e => exact congrArg Res.ok (distanceE t e x m)
  | hull k => exact hullDistance_moved t k x m
  | aggregate a =>
    have := inside_moved t h (.aggregate a) x
    simp only [movedObj] at this ⊢
    simp only [Heap.distanceToPoint, this, hullDistance_moved]

theorem normal_moved (t : V3 ℝ) (h : Heap ℝ) (o : Obj ℝ) (x : V3 ℝ) (m : ℝ) :
    (movedHeap t h).normalToAgent (movedObj t o) (x + t) m = h.normalToAgent o x m := by
  cases o with
  | plain b => rfl
  | ellipsoid e => exact congrArg Res.ok (normalE t e x m)
  | hull k => exact hullNormal_moved t k x
  | aggregate a =>
    have := inside_moved t h (.aggregate a) x
    simp only [movedObj] at this ⊢
    simp only [Heap.normalToAgent, this, hullNormal_moved]

theorem repulsion_moved (t : V3 ℝ) (h : Heap ℝ) (o : Obj ℝ) (x : V3 ℝ) (m : ℝ) :
    (movedHeap t h).repulsionVector (movedObj t o) (x + t) m = h.repulsionVector o x m := by
  cases o with
  | plain b => rfl
  | ellipsoid e => exact repulsionE t e x m
  | hull k => rfl
  | aggregate a =>
    have h1 := inside_moved t h (.aggregate a) x
    have h2 := distance_moved t h (.aggregate a) x (V3.const m)
    simp only [movedObj] at h1 h2 ⊢
    simp only [Heap.repulsionVector, Heap.repulsionFactor, h1, h2, ref_moved]
    cases h.distanceToPoint (.aggregate a) x (V3.const m) with
    | throw x => rfl
    | ub u => rfl
    | ok d =>
      simp only [Res.ok_bind]
      cases a.base.ref with
      | throw x => rfl
      | ub u => rfl
      | ok r => simp only [Res.map_ok, Res.ok_bind, sub_moved]

theorem generate_moved (t : V3 ℝ) (h : Heap ℝ) (o : Obj ℝ) (x : V3 ℝ) (m th : ℝ) :
    (movedHeap t h).generateRepulsion (movedObj t o) (x + t) m th = h.generateRepulsion o x m th := by
  simp only [Heap.generateRepulsion, Heap.distanceToAgent, distance_moved, repulsion_moved]

theorem referenceDirection_moved (t : V3 ℝ) (b : Base ℝ) (x r : V3 ℝ) :
    referenceDirection (movedBase t b).pose (x + t) (r + t) = referenceDirection b.pose x r := by
  simp only [referenceDirection, inv_moved]

theorem basisMatrices_moved (t : V3 ℝ) (n x : V3 ℝ) (b : Base ℝ) :
    basisMatrices n (x + t) (movedBase t b) = basisMatrices n x b := by
  unfold basisMatrices
  rw [ref_moved]
  cases b.ref with
  | throw x => rfl
  | ub u => rfl
  | ok r => simp only [Res.map_ok, Res.ok_bind, referenceDirection_moved]

theorem agentPosition_moved (t : V3 ℝ) (a : Agent ℝ) : (movedAgent t a).state.position = a.state.position + t := rfl

theorem matrix_moved (t : V3 ℝ) (h : Heap ℝ) (a : Agent ℝ) (o : Obj ℝ) :
    modulationMatrix (movedHeap t h) (movedAgent t a) (movedObj t o) = modulationMatrix h a o := by
  simp only [modulationMatrix, Heap.distanceToAgent, agentPosition_moved, base_moved, basisMatrices_moved]
  simp only [show (movedAgent t a).margin = a.margin from rfl, normal_moved, distance_moved]
  rfl

theorem velocity_moved (t x : V3 ℝ) (b : Base ℝ) (d w : ℝ) (m : M3 ℝ) :
    obstacleVelocity (x + t) (movedBase t b) d w m = obstacleVelocity x b d w m := by
  simp only [obstacleVelocity, position_moved, sub_moved]
  rfl

/-! ## `modulate_velocity` -/

/-- What is stored about an obstacle, seen from another origin. -/
def movedItem (t : V3 ℝ) (i : Item ℝ) : Item ℝ := { i with base := movedBase t i.base }

theorem zip_movedItem (t : V3 ℝ) (l : List (Item ℝ)) (w : List ℝ) :
    (l.map (movedItem t)).zip w = (l.zip w).map (fun x => (movedItem t x.1, x.2)) := by
  rw [List.zip_map_left]
  rfl

theorem combine_moved (t x v : V3 ℝ) (l : List (Item ℝ)) (critical power : ℝ) :
    combine (x + t) v (l.map (movedItem t)) critical power = combine x v l critical power := by
  have h1 : (l.map (movedItem t)).map (·.dist) = l.map (·.dist) := by rw [List.map_map]; rfl
  have h2 : ∀ w, relativeVelocities (x + t) v (l.map (movedItem t)) w = relativeVelocities x v l w := by
    intro w
    simp only [relativeVelocities, zip_movedItem, List.foldl_map]
    simp only [movedItem, velocity_moved]
  unfold combine
  simp only [h1, h2, zip_movedItem, List.foldl_map]
  rfl

theorem Seen.shift {Z : Prop} {t : V3 ℝ} {h h' : Heap ℝ} (s : Seen Z t h h') (p : Ptr) (x v : V3 ℝ) :
    Agree (Seen Z t) (h.shiftReferencePoint p x v) (h'.shiftReferencePoint p (x + t) v) := by
  unfold Heap.shiftReferencePoint
  refine Agree.bind (s.deref p) ?_
  rintro o o' - - ⟨rfl, ho⟩
  simp only
  rw [add_moved, points_moved]
  cases hc : (o.intersectionPoints x (x + v)).1
  · exact s
  · simp only [if_true]
    have := s.setRef p (((o.intersectionPoints x (x + v)).2.1 + (o.intersectionPoints x (x + v)).2.2).sdiv (lit 2 1))
    have e : ∀ a b : V3 ℝ, ((a + t) + (b + t)).sdiv (lit 2 1) = (a + b).sdiv (lit 2 1) + t := by
      intro a b
      ext <;> simp [V3.sdiv, lit_real] <;> ring
    rw [e]
    exact this

/-- the optional shift of a reference position -/
noncomputable def shiftIf (planar : Bool) (a : Agent ℝ) (h : Heap ℝ) (p : Ptr) : Res (Heap ℝ) :=
  match planar with
  | true => h.shiftReferencePoint p a.state.position a.state.linearVelocity
  | false => .ok h

theorem collect_moved {Z : Prop} {t : V3 ℝ} (planar : Bool) (a : Agent ℝ) : ∀ (l : List Ptr) {h h' : Heap ℝ}, Seen Z t h h' →
    Agree (fun r r' => Seen Z t r.1 r'.1 ∧ r'.2 = r.2.map (movedItem t)) (collect planar a h l)
      (collect planar (movedAgent t a) h' l)
  | [], _, _, s => ⟨s, rfl⟩
  | p :: rest, h, h', s => by
    have hc : ∀ (a : Agent ℝ) (h : Heap ℝ), collect planar a h (p :: rest) =
        (shiftIf planar a h p >>= fun h => h.deref p >>= fun o => modulationMatrix h a o >>= fun m =>
          collect planar a h rest >>= fun r =>
            Res.ok (r.1, ⟨o.base, m.1, m.2.1, m.2.2⟩ :: r.2)) := by
      intro a h
      cases planar <;> rfl
    rw [hc, hc]
    refine Agree.bind (R := Seen Z t) ?_ ?_
    · cases planar with
      | false => exact s
      | true => exact s.shift p _ _
    intro k k' _ _ s
    refine Agree.bind (s.deref p) ?_
    rintro o o' - - ⟨rfl, ho⟩
    rw [s.1, matrix_moved]
    refine Agree.bind agree_same ?_
    rintro _ m - - rfl
    refine Agree.bind (collect_moved planar a rest ⟨rfl, s.2⟩) ?_
    rintro r r' - - ⟨h1, h2⟩
    refine ⟨h1, ?_⟩
    simp only [h2, List.map_cons, movedItem, base_moved]

theorem repulsionSum_moved {Z : Prop} {t : V3 ℝ} {h h' : Heap ℝ} (s : Seen Z t h h') (a : Agent ℝ) (l : List Ptr) :
    repulsionSum h' (movedAgent t a) l = repulsionSum h a l := by
  rw [s.1]
  unfold repulsionSum
  generalize (V3.zero : V3 ℝ) = acc
  induction l generalizing acc with
  | nil => rfl
  | cons p l ih =>
    simp only [List.foldlM_cons]
    rw [deref_moved]
    cases h.deref p with
    | throw x => rfl
    | ub u => rfl
    | ok o =>
      simp only [Res.map_ok, Res.ok_bind, agentPosition_moved]
      rw [show (movedAgent t a).margin = a.margin from rfl, generate_moved]
      cases h.generateRepulsion o a.state.position a.margin (lit 11 10) with
      | throw x => rfl
      | ub u => rfl
      | ok v => exact ih _

theorem intersectingList_moved {t : V3 ℝ} {h h' : Heap ℝ} (s : h' = movedHeap t h) {o : Obj ℝ}
    (ho : ∀ e, o = .ellipsoid e → t.z = 0 ∨ ZRotated e) (l : List Ptr) :
    h'.isIntersectingList (movedObj t o) l = h.isIntersectingList o l := by
  unfold Heap.isIntersectingList
  generalize false = acc
  induction l generalizing acc with
  | nil => rfl
  | cons p l ih =>
    simp only [List.foldlM_cons]
    have : (if acc then Res.ok true else do
        let oq ← h'.deref p
        h'.isIntersecting (movedObj t o) oq) = (if acc then Res.ok true else do
        let oq ← h.deref p
        h.isIntersecting o oq) := by
      split
      · rfl
      · rw [s, deref_moved]
        cases h.deref p with
        | throw x => rfl
        | ub u => rfl
        | ok oq => exact isIntersecting_moved rfl ho oq
    rw [this]
    congr 1
    funext b
    exact ih b

theorem modulate_moved {Z : Prop} {t : V3 ℝ} {loc : Bool} (hZ : loc = true → Z → t.z = 0) {h h' : Heap ℝ}
    (s : Seen Z t h h') (a : Agent ℝ) (e : Env) (rep planar : Bool)
    (critical power : ℝ) :
    Agree (fun r r' => Seen Z t r.1 r'.1 ∧ r'.2 = r.2) (modulateVelocity h a e loc rep planar critical power)
      (modulateVelocity h' (movedAgent t a) e loc rep planar critical power) := by
  rw [modulateVelocity_eq, modulateVelocity_eq]
  split
  · exact ⟨s, rfl⟩
  refine Agree.bind (R := fun b c => c = b) ?_ ?_
  · cases loc with
    | false => rfl
    | true =>
      simp only [sightOf, Agent.getEnvelope]
      rw [show (movedAgent t a).envelope = a.envelope from rfl]
      cases a.envelope with
      | none => rfl
      | some p =>
        refine Agree.bind (s.deref p) ?_
        rintro o o' - - ⟨rfl, ho⟩
        rw [intersectingList_moved s.1 (fun e he => (s.2.get (he ▸ ho)).imp (hZ rfl) id)]
        exact agree_same
  rintro _ b - - rfl
  split
  · refine Agree.bind (collect_moved planar a e.list s) ?_
    rintro r r' - - ⟨s1, h2⟩
    have hr : repOf r'.1 (movedAgent t a) rep e.list = repOf r.1 a rep e.list := by
      unfold repOf
      rw [repulsionSum_moved s1]
    rw [h2, hr, agentPosition_moved, combine_moved]
    refine Agree.bind (R := fun b c => c = b) agree_same ?_
    rintro _ b - - rfl
    exact ⟨s1, rfl⟩
  · exact ⟨s, rfl⟩

/-! ## the agent -/

theorem upright_envelope (a : Agent ℝ) (e : Ellipsoid ℝ) : ZRotated (a.envelopeFor e) := by
  have h0 : ∀ θ : ℝ, (Quat.ofAngleZ θ).normalized = Quat.ofAngleZ θ := by
    intro θ
    have hu : (Quat.ofAngleZ θ).sqNorm = 1 := ofAngleZ_unit θ
    unfold Quat.normalized
    rw [hu, if_pos one_pos]
    simp
  have h1 : ∃ θ : ℝ, (a.envelopeFor e).base.orientation = Quat.ofAngleZ θ := ⟨_, h0 _⟩
  obtain ⟨θ, h1⟩ := h1
  unfold ZRotated
  rw [h1]
  exact ⟨(Quat.isUnit_iff_norm _).mp (ofAngleZ_unit θ), by simp [Quat.ofAngleZ], by simp [Quat.ofAngleZ]⟩

theorem envelopeFor_moved (t : V3 ℝ) (a : Agent ℝ) (e : Ellipsoid ℝ) :
    (movedAgent t a).envelopeFor (movedE t e) = movedE t (a.envelopeFor e) := by
  unfold Agent.envelopeFor
  simp only [agentPosition_moved]
  rw [show (movedAgent t a).state.linearVelocity = a.state.linearVelocity from rfl,
    show (movedAgent t a).deltaT = a.deltaT from rfl, add_moved, sub_moved]
  rfl

/-- The program states: the same scene, the same agent. -/
def SeenState (Z : Prop) (t : V3 ℝ) (s s' : Heap ℝ × Agent ℝ) : Prop := Seen Z t s.1 s'.1 ∧ s'.2 = movedAgent t s.2

theorem updateEnvelope_moved {Z : Prop} {t : V3 ℝ} {h h' : Heap ℝ} (s : Seen Z t h h') (a : Agent ℝ) :
    Agree (Seen Z t) (a.updateEnvelope h) ((movedAgent t a).updateEnvelope h') := by
  unfold Agent.updateEnvelope
  rw [show (movedAgent t a).envelope = a.envelope from rfl]
  cases a.envelope with
  | none => rfl
  | some p =>
    refine Agree.bind (s.deref p) ?_
    rintro o o' - - ⟨rfl, ho⟩
    cases o with
    | plain b => rfl
    | hull b => rfl
    | aggregate b => rfl
    | ellipsoid e =>
      simp only [movedObj]
      have h1 := s.set p (o := .ellipsoid (a.envelopeFor e)) (fun e' he => by
        injection he with he
        subst he
        exact .inr (upright_envelope a e))
      have h2 := envelopeFor_moved t a e
      rw [show movedObj t (.ellipsoid (a.envelopeFor e)) = .ellipsoid (movedE t (a.envelopeFor e)) from rfl, ← h2] at h1
      exact h1

theorem withState_moved {Z : Prop} {t : V3 ℝ} {s s' : Heap ℝ × Agent ℝ} (h : SeenState Z t s s') {u u' : State ℝ}
    (hu : u' = { u with pose := { u.pose with position := u.pose.position + t } }) :
    Agree (SeenState Z t) (Agent.withState s.1 s.2 u) (Agent.withState s'.1 s'.2 u') := by
  unfold Agent.withState
  simp only
  have := updateEnvelope_moved h.1 { s.2 with state := u }
  rw [show movedAgent t { s.2 with state := u } = { s'.2 with state := u' } by rw [h.2, hu]; rfl] at this
  refine Agree.bind this ?_
  intro k k' _ _ hk
  refine ⟨hk, ?_⟩
  rw [h.2, hu]
  rfl

theorem setVelocity_moved {Z : Prop} {t : V3 ℝ} {s s' : Heap ℝ × Agent ℝ} (h : SeenState Z t s s') (v : V3 ℝ) :
    Agree (SeenState Z t) (s.2.setLinearVelocity s.1 v) (s'.2.setLinearVelocity s'.1 v) := by
  unfold Agent.setLinearVelocity
  exact withState_moved h (by rw [h.2]; rfl)

theorem setPosition_agent {Z : Prop} {t : V3 ℝ} {s s' : Heap ℝ × Agent ℝ} (h : SeenState Z t s s') (x : V3 ℝ) :
    Agree (SeenState Z t) (s.2.setPosition s.1 x) (s'.2.setPosition s'.1 (x + t)) := by
  unfold Agent.setPosition
  exact withState_moved h (by rw [h.2]; rfl)

theorem existPath_moved {Z : Prop} {t : V3 ℝ} {s s' : Heap ℝ × Agent ℝ} (h : SeenState Z t s s') (x : V3 ℝ) (l : List Ptr) :
    s'.2.existPath s'.1 (x + t) l = s.2.existPath s.1 x l := by
  rw [h.2, h.1.1]
  unfold Agent.existPath
  generalize true = acc
  induction l generalizing acc with
  | nil => rfl
  | cons p l ih =>
    simp only [List.foldlM_cons]
    rw [deref_moved]
    cases s.1.deref p with
    | throw x => rfl
    | ub u => rfl
    | ok o =>
      simp only [Res.map_ok, Res.ok_bind, agentPosition_moved]
      have : Agent.pathTest (movedHeap t s.1) (s.2.state.position + t) (x + t) (movedObj t o) =
          Agent.pathTest s.1 s.2.state.position x o := by
        simp only [Agent.pathTest, inside_moved, closed_moved]
      rw [this]
      cases Agent.pathTest s.1 s.2.state.position x o with
      | throw x => rfl
      | ub u => rfl
      | ok b => exact ih _

theorem upright_disc (a : Agent ℝ) : ZRotated a.safetyEnvelope := by
  refine ⟨?_, rfl, rfl⟩
  change (Quat.one : Quat ℝ).norm = 1
  rw [← Quat.isUnit_iff_norm]
  simp [Quat.IsUnit, Quat.one, Quat.sqNorm]

theorem inObstacle_moved (t : V3 ℝ) (h : Heap ℝ) (a : Agent ℝ) (o : Obj ℝ) :
    (movedAgent t a).inObstacle (movedHeap t h) (movedObj t o) = a.inObstacle h o := by
  unfold Agent.inObstacle
  exact isIntersecting_moved rfl (o := .ellipsoid a.safetyEnvelope)
    (fun e he => by injection he with he; subst he; exact .inr (upright_disc a)) o

/-! ## control loops -/

theorem desired_moved (t : V3 ℝ) (c : Loop ℝ) (x : V3 ℝ) : (movedLoop t c).desired (x + t) = c.desired x := by
  simp only [Loop.desired, movedLoop, sub_moved]

theorem iterate_moved {Z : Prop} {t : V3 ℝ} (c : Loop ℝ) (hZ : c.isLocal = true → Z → t.z = 0) (e : Env) (v : V3 ℝ) {s s' : Heap ℝ × Agent ℝ} (h : SeenState Z t s s') :
    Agree (SeenState Z t) (c.iterate e v s) ((movedLoop t c).iterate e v s') := by
  unfold Loop.iterate
  simp only
  refine Agree.bind (setVelocity_moved h v) ?_
  intro s1 s1' _ _ h1
  rw [h1.2]
  refine Agree.bind (modulate_moved hZ h1.1 s1.2 e c.addRepulsion c.planar c.critical c.power) ?_
  rintro r r' - - ⟨h2, h3⟩
  rw [h3, h.2, agentPosition_moved, add_moved]
  exact setPosition_agent (s := (r.1, s1.2)) (s' := (r'.1, movedAgent t s1.2)) ⟨h2, rfl⟩ _

theorem run_moved {Z : Prop} {t : V3 ℝ} (c : Loop ℝ) (hZ : c.isLocal = true → Z → t.z = 0) (e : Env) : ∀ (n : Nat) {s s' : Heap ℝ × Agent ℝ}, SeenState Z t s s' →
    Agree (SeenState Z t) (c.run e n s) ((movedLoop t c).run e n s')
  | 0, _, _, h => h
  | n + 1, s, s', h => by
    unfold Loop.run
    rw [h.2, agentPosition_moved, desired_moved]
    refine Agree.bind (iterate_moved c hZ e _ h) ?_
    intro r r' _ _ hr
    exact run_moved c hZ e n hr

theorem runMixed_moved {Z : Prop} {t : V3 ℝ} (c : Loop ℝ) (hZ : c.isLocal = true → Z → t.z = 0) (e : Env) : ∀ (n : Nat) (prev : Option (V3 ℝ)) {s s' : Heap ℝ × Agent ℝ},
    SeenState Z t s s' → Agree (SeenState Z t) (c.runMixed e n prev s) ((movedLoop t c).runMixed e n prev s')
  | 0, _, _, _, h => h
  | n + 1, none, s, s', h => rfl
  | n + 1, some p, s, s', h => by
    unfold Loop.runMixed
    simp only
    rw [h.2, agentPosition_moved, desired_moved]
    refine Agree.bind (iterate_moved c hZ e _ h) ?_
    intro r r' _ _ hr
    exact runMixed_moved c hZ e n _ hr

theorem iterateWall_moved {Z : Prop} {t : V3 ℝ} (c : Loop ℝ) (hZ : c.isLocal = true → Z → t.z = 0) (e : Env) {s s' : Heap ℝ × Agent ℝ} (h : SeenState Z t s s') :
    Agree (SeenState Z t) (c.iterateWall e s) ((movedLoop t c).iterateWall e s') := by
  unfold Loop.iterateWall
  rw [show (movedLoop t c).target = c.target + t from rfl, existPath_moved h]
  refine Agree.bind agree_same ?_
  rintro _ b - - rfl
  split
  · simp only
    have hd : (movedLoop t c).desired s'.2.state.position = c.desired s.2.state.position := by
      rw [h.2, agentPosition_moved, desired_moved]
    rw [hd]
    refine Agree.bind (setVelocity_moved h _) ?_
    intro r r' _ _ hr
    exact iterate_moved c hZ e _ hr
  · exact setVelocity_moved h _

theorem runWall_moved {Z : Prop} {t : V3 ℝ} (c : Loop ℝ) (hZ : c.isLocal = true → Z → t.z = 0) (e : Env) : ∀ (n : Nat) {s s' : Heap ℝ × Agent ℝ}, SeenState Z t s s' →
    Agree (SeenState Z t) (c.runWall e n s) ((movedLoop t c).runWall e n s')
  | 0, _, _, h => h
  | n + 1, _, _, h => Agree.bind (iterateWall_moved c hZ e h) fun _ _ _ _ hr => runWall_moved c hZ e n hr

theorem lookup_moved (t : V3 ℝ) (h : Heap ℝ) (e : Env) (k : String) : e.lookup (movedHeap t h) k = e.lookup h k := by
  have hf : ∀ l : List Ptr, Env.findInList (movedHeap t h) k l = Env.findInList h k l := by
    intro l
    induction l with
    | nil => rfl
    | cons p l ih =>
      unfold Env.findInList
      rw [deref_moved, ih]
      cases h.deref p with
      | throw x => rfl
      | ub u => rfl
      | ok o => simp only [Res.map_ok, Res.ok_bind, name_moved]
  unfold Env.lookup Env.lookupSlot
  simp only [hf]

theorem levelBase {Z : Prop} {h : Heap ℝ} (l : Lev Z h) {p : Ptr} {o : Obj ℝ} (ho : h[p]? = some o) {f : Base ℝ → Base ℝ}
    (hf : ∀ b, (f b).orientation = b.orientation) : ∀ e, o.mapBase f = .ellipsoid e → Z ∨ ZRotated e := by
  intro e he
  cases o with
  | ellipsoid e' =>
    simp only [Obj.mapBase] at he
    injection he with he
    subst he
    refine (l.get ho).imp id fun z => ?_
    unfold ZRotated at z ⊢
    simp only [hf]
    exact z
  | _ => simp [Obj.mapBase] at he

theorem iterateMoving_moved {Z : Prop} {t : V3 ℝ} (c : Loop ℝ) (hZ : c.isLocal = true → Z → t.z = 0) (e : Env) (name : String) (goal : V3 ℝ) {s s' : Heap ℝ × Agent ℝ}
    (h : SeenState Z t s s') :
    Agree (SeenState Z t) (c.iterateMoving e name goal s) ((movedLoop t c).iterateMoving e name (goal + t) s') := by
  unfold Loop.iterateMoving
  simp only
  rw [show e.lookup s'.1 name = e.lookup s.1 name by rw [h.1.1, lookup_moved]]
  refine Agree.bind agree_same ?_
  rintro _ p - - rfl
  refine Agree.bind (h.1.deref p) ?_
  rintro o o' - - ⟨rfl, ho⟩
  have hd : (movedLoop t c).desired s'.2.state.position = c.desired s.2.state.position := by
    rw [h.2, agentPosition_moved, desired_moved]
  rw [hd, objPosition_moved, sub_moved]
  refine Agree.bind (setVelocity_moved h _) ?_
  intro s1 s1' _ _ h1
  refine Agree.bind (h1.1.deref p) ?_
  rintro o1 o1' - - ⟨rfl, ho1⟩
  have hset := h1.1.set p (o := o1.mapBase (·.setLinearVelocity (V3.smul (-c.gain) (o.position - goal))))
    (levelBase h1.1.2 ho1 fun _ => rfl)
  rw [← mapBase_moved t (g := (·.setLinearVelocity (V3.smul (-c.gain) (o.position - goal)))) (fun b => rfl)] at hset
  rw [h1.2]
  refine Agree.bind (modulate_moved hZ hset s1.2 e c.addRepulsion c.planar c.critical c.power) ?_
  rintro r r' - - ⟨h2, h3⟩
  rw [h3, h.2, agentPosition_moved, add_moved]
  refine Agree.bind (setPosition_agent (s := (r.1, s1.2)) (s' := (r'.1, movedAgent t s1.2)) ⟨h2, rfl⟩ _) ?_
  intro s2 s2' _ _ h4
  refine Agree.bind (h4.1.deref p) ?_
  rintro o2 o2' - - ⟨rfl, ho2⟩
  rw [show (movedLoop t c).gain = c.gain from rfl, show (movedLoop t c).dt = c.dt from rfl, add_moved]
  generalize o.position + V3.smul c.dt (V3.smul (-c.gain) (o.position - goal)) = y
  have hset := h4.1.set p (o := o2.mapBase (·.setPosition y)) (levelBase h4.1.2 ho2 fun _ => rfl)
  rw [← mapBase_moved t (g := (·.setPosition (y + t))) (fun b => rfl)] at hset
  refine Agree.bind (hset.setRef p y) ?_
  intro k k' _ _ hk
  exact ⟨hk, h4.2⟩

theorem runMoving_moved {Z : Prop} {t : V3 ℝ} (c : Loop ℝ) (hZ : c.isLocal = true → Z → t.z = 0) (e : Env) (name : String) (goal : V3 ℝ) : ∀ (n : Nat)
    {s s' : Heap ℝ × Agent ℝ}, SeenState Z t s s' →
    Agree (SeenState Z t) (c.runMoving e name goal n s) ((movedLoop t c).runMoving e name (goal + t) n s')
  | 0, _, _, h => h
  | n + 1, _, _, h => Agree.bind (iterateMoving_moved c hZ e name goal h) fun _ _ _ _ hr => runMoving_moved c hZ e name goal n hr

theorem runUpdating_moved {Z : Prop} {t : V3 ℝ} (c : Loop ℝ) (hZ : Z → t.z = 0) : ∀ (n : Nat) {s s' : World ℝ × Agent ℝ},
    Seen Z t s.1.heap s'.1.heap ∧ s'.1.env = s.1.env ∧ s'.2 = movedAgent t s.2 →
    Agree (fun r r' => Seen Z t r.1.heap r'.1.heap ∧ r'.1.env = r.1.env ∧ r'.2 = movedAgent t r.2)
      (runUpdating c n s) (runUpdating (movedLoop t c) n s')
  | 0, _, _, h => h
  | n + 1, s, s', h => by
    unfold runUpdating
    refine Agree.bind (R := fun w w' => Seen Z t w.heap w'.heap ∧ w'.env = w.env) ?_ ?_
    · unfold World.exec
      rw [h.2.1]
      refine Agree.bind (update_moved hZ h.1 s.1.env) ?_
      intro r r' _ _ hr
      exact hr
    intro w w' _ _ hw
    rw [hw.2, h.2.2, agentPosition_moved, desired_moved]
    refine Agree.bind (iterate_moved c (fun _ => hZ) w.env _ (s := (w.heap, s.2)) (s' := (w'.heap, movedAgent t s.2)) ⟨hw.1, rfl⟩) ?_
    intro r r' _ _ hr
    exact runUpdating_moved c hZ n ⟨hr.1, rfl, hr.2⟩

end Origin
end DOA
