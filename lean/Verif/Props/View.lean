import Verif.Lemmas.View
import Verif.Props.Moving
import Verif.Props.AggregationHistory
import Verif.Props.Rounding

/-!
# C97 the choice of the coordinates
-/

namespace DOA.Props
open DOA DOA.Spec DOA.Modulation DOA.Ellipsoid
set_option linter.unusedSectionVars false
set_option linter.unusedSimpArgs false
set_option linter.unnecessarySeqFocus false

/-- C97: in every coordinates that are turned about the vertical axis, shifted and possibly reflected, there is the same
ellipsoid. -/
theorem C97_exists {V : View} (hV : V.Valid) (e : Ellipsoid ℝ) (hq : e.base.orientation.norm = 1)
    (hw : V.side = -1 → ∃ k1 k2 k3, HasCurv e k1 k2 k3) : ∃ e', SameEllipsoid V e e' := by
  obtain ⟨w, z, h1, h2, h3⟩ : ∃ w z : ℝ, w * w + z * z = 1 ∧ w * w - z * z = V.c ∧ 2 * w * z = V.s := by
    have hc := hV.1
    have hc1 : -1 ≤ V.c := by nlinarith [mul_self_nonneg V.s]
    by_cases hm : V.c = -1
    · refine ⟨0, 1, by norm_num, by rw [hm]; norm_num, ?_⟩
      have : V.s * V.s = 0 := by rw [hm] at hc; linarith
      rw [mul_self_eq_zero.mp this]; norm_num
    · have hpos : 0 < (1 + V.c) / 2 := by
        have : -1 < V.c := lt_of_le_of_ne hc1 (Ne.symm hm)
        linarith
      have hs := Real.mul_self_sqrt hpos.le
      have hs0 : Real.sqrt ((1 + V.c) / 2) ≠ 0 := (Real.sqrt_pos.mpr hpos).ne'
      set r := Real.sqrt ((1 + V.c) / 2)
      have e1 : V.s / (2 * r) * (V.s / (2 * r)) = (1 - V.c) / 2 := by
        have h4 : r * r = (1 + V.c) / 2 := hs
        field_simp
        have : V.s ^ 2 = (1 + V.c) * (1 - V.c) := by nlinarith
        rw [this]
        have h5 : r ^ 2 = (1 + V.c) / 2 := by rw [sq]; exact h4
        rw [h5]; ring
      refine ⟨r, V.s / (2 * r), by rw [e1, hs]; ring, by rw [e1, hs]; ring, by field_simp⟩
  have hu : e.base.pose.orientation.IsUnit := (Quat.isUnit_iff_norm _).mpr hq
  set q := e.base.pose.orientation with hqdef
  have hside := hV.2
  obtain ⟨f, hf1, hf2⟩ : ∃ f : Quat ℝ, f.IsUnit ∧ ∀ u, f.rotate (V.flip u) = V.flip (q.rotate u) := by
    refine ⟨⟨q.w, V.side * q.x, q.y, V.side * q.z⟩, ?_, ?_⟩
    · have : q.sqNorm = 1 := hu
      simp only [Quat.IsUnit, Quat.sqNorm] at this ⊢
      linear_combination this + (q.x * q.x + q.z * q.z) * hside
    · intro u
      rcases hV.side_cases with hs | hs <;>
      · ext <;> simp only [Quat.rotate, Quat.vec, View.flip, V3.cross, V3.smul, V3.add_x, V3.add_y, V3.add_z, hs] <;> ring
  set t : Quat ℝ := ⟨w, 0, 0, z⟩ with ht
  have htu : t.IsUnit := by simp only [Quat.IsUnit, Quat.sqNorm, ht]; linarith
  have htr : ∀ u : V3 ℝ, t.rotate (V.flip u) = V.vector u := by
    intro u
    rw [Quat.rotate_eq_sandwich htu]
    ext <;> simp only [Quat.sandwich, Quat.mul, Quat.conjugate, Quat.vec, View.flip, View.vector, ht, ← h2, ← h3]
    · ring
    · ring
    · linear_combination u.z * h1
  have hrot : ∀ u, (t.mul f).rotate (V.flip u) = V.vector (q.rotate u) := by
    intro u
    rw [Quat.rotate_mul htu hf1, hf2, htr]
  refine ⟨{ e with base := { e.base with
      state := ⟨⟨V.point e.base.position, t.mul f⟩, V.vector e.base.state.linearVelocity,
        V3.smul V.side (V.vector e.base.state.angularVelocity)⟩
      refPos := e.base.refPos.map V.point } }, hq, ?_, fun u => ?_, rfl, rfl, rfl, rfl, rfl, rfl, hw⟩
  · exact (Quat.isUnit_iff_norm _).mp (htu.mul hf1)
  · show (t.mul f).rotate (V.flip u) + V.point e.base.position = V.point (q.rotate u + e.base.position)
    rw [hrot]
    ext <;> simp [View.point, View.vector] <;> ring

/-- C97, the distances: the same in all coordinates. -/
theorem C97_measures {V : View} (hV : V.Valid) {e e' : Ellipsoid ℝ} (s : SameEllipsoid V e e') (x m : V3 ℝ) :
    e'.distanceToPoint (V.point x) m = e.distanceToPoint x m ∧
    e'.pointIsInside (V.point x) = e.pointIsInside x ∧
    ∀ r, e'.normalToAgent (V.point x) r = V.flip (e.normalToAgent x r) :=
  ⟨s.distance hV x m, s.inside hV x, fun r => s.normal hV x r⟩

/-- C97, the part that holds for the velocity: among ellipsoids that are at rest (or level with the agent) the result of
`modulate_velocity`, for all options, is the same in all coordinates with the same vertical axis, whether right-handed or
left-handed; and so are the reference points it leaves behind.
Full statement (false, see `C97_negation` and `C97_negation_moving`): for all rigid motions, and for all motions of the
obstacles. -/
theorem C97_velocity_partial {V : View} (hV : V.Valid) {h h' : Heap ℝ} {a a' : Agent ℝ} {E : Env}
    (hs : SameObstacles V h h' E.list) (ha : SameView V a a') (hr : RestOrLevel h a E.list)
    (loc rep planar : Bool) (hl : loc = true → SameSight V h h' a a' E.list) (critical power : ℝ) :
    Agree (fun r r' => r'.2 = V.vector r.2 ∧ SameObstacles V r.1 r'.1 E.list)
      (modulateVelocity h a E loc rep planar critical power)
      (modulateVelocity h' a' E loc rep planar critical power) := by
  rw [modulateVelocity_eq, modulateVelocity_eq]
  split
  · exact ⟨ha.velocity, hs⟩
  rw [sight_view hV hs loc hl]
  refine Agree.bind (R := fun b c => b = c) (by cases sightOf h a loc E.list <;> exact rfl) fun b c _ _ hbc => ?_
  subst hbc
  split
  · refine Agree.bind (collect_view hV ha planar E.list h h' (fun _ hx => hx) hs hr) fun r r' _ _ ⟨q1, q2⟩ => ?_
    have hcomb := combine_view hV a.state.position a.state.linearVelocity critical power q2
    rw [ha.position, ha.velocity, hcomb]
    have hfin : ∀ rp : Option (V3 ℝ), finish (rp.map V.vector) (V.vector (combine a.state.position a.state.linearVelocity r.2 critical power)) =
        V.vector (finish rp (combine a.state.position a.state.linearVelocity r.2 critical power)) := by
      intro rp
      have hnan : ∀ v : V3 ℝ, v.hasNaN = false := fun v => by simp [V3.hasNaN]
      unfold finish
      simp only [hnan, Bool.false_eq_true, if_false]
      cases rp with
      | none => rfl
      | some v =>
        simp only [Option.map_some, View.norm_vector hV, ← View.vector_add]
        split <;> rfl
    cases rep with
    | false => exact ⟨hfin none, q1⟩
    | true =>
      simp only [repOf, bind_assoc, Res.ok_bind]
      have hrep := repulsion_view hV ha q1 E.list (fun _ hx => hx) V3.zero
      rw [View.vector_zero] at hrep
      refine Agree.bind hrep fun v v' _ _ hv => ?_
      subst hv
      exact ⟨hfin (some v), q1⟩
  · exact ⟨ha.velocity, hs⟩

theorem withState_scene {V : View} {l : List Ptr} {s s' : Heap ℝ × Agent ℝ} (sc : SameScene V l s s')
    (st st' : State ℝ) (h1 : st'.position = V.point st.position) (h2 : st'.linearVelocity = V.vector st.linearVelocity) :
    ∃ t t', s.2.withState s.1 st = .ok t ∧ s'.2.withState s'.1 st' = .ok t' ∧ SameScene V l t t' ∧
      t.2 = { s.2 with state := st } ∧ t'.2 = { s'.2 with state := st' } := by
  obtain ⟨q, e, e1, e2, e3⟩ := sc.envelope
  obtain ⟨q', e', e1', e2', e3'⟩ := sc.envelope'
  have l1 := (List.getElem?_eq_some_iff.mp e2).1
  have l1' := (List.getElem?_eq_some_iff.mp e2').1
  refine ⟨(s.1.set q (.ellipsoid (({ s.2 with state := st } : Agent ℝ).envelopeFor e)), { s.2 with state := st }),
    (s'.1.set q' (.ellipsoid (({ s'.2 with state := st' } : Agent ℝ).envelopeFor e')), { s'.2 with state := st' }),
    ?_, ?_, ?_, rfl, rfl⟩
  · simp only [Agent.withState, Agent.updateEnvelope, e1, Heap.deref_ok' e2, Res.ok_bind]
  · simp only [Agent.withState, Agent.updateEnvelope, e1', Heap.deref_ok' e2', Res.ok_bind]
  · have ne : ∀ p ∈ l, q ≠ p := fun p hp hqp => e3 (hqp ▸ hp)
    have ne' : ∀ p ∈ l, q' ≠ p := fun p hp hqp => e3' (hqp ▸ hp)
    refine ⟨fun p hp => ?_, ⟨h1, h2, sc.agent.margin⟩, fun p hp f hf => ?_, ⟨q, _, e1, List.getElem?_set_self l1, e3⟩,
      ⟨q', _, e1', List.getElem?_set_self l1', e3'⟩⟩
    · obtain ⟨f, f', g1, g2, g3⟩ := sc.obstacles p hp
      exact ⟨f, f', by rw [List.getElem?_set_ne (ne p hp), g1], by rw [List.getElem?_set_ne (ne' p hp), g2], g3⟩
    · rw [List.getElem?_set_ne (ne p hp)] at hf
      exact sc.rest p hp f hf

theorem modulate_scene {V : View} (hV : V.Valid) (c : Loop ℝ) (hc : c.isLocal = false) {E : Env}
    {s s' : Heap ℝ × Agent ℝ} (sc : SameScene V E.list s s') :
    Agree (fun r r' => r'.2 = V.vector r.2 ∧ SameScene V E.list (r.1, s.2) (r'.1, s'.2))
      (modulateVelocity s.1 s.2 E c.isLocal c.addRepulsion c.planar c.critical c.power)
      (modulateVelocity s'.1 s'.2 E c.isLocal c.addRepulsion c.planar c.critical c.power) := by
  have key := C97_velocity_partial hV sc.obstacles sc.agent (fun p hp f hf => .inl (sc.rest p hp f hf))
    c.isLocal c.addRepulsion c.planar (fun h => by rw [hc] at h; cases h) c.critical c.power
  cases hx : modulateVelocity s.1 s.2 E c.isLocal c.addRepulsion c.planar c.critical c.power <;>
    cases hy : modulateVelocity s'.1 s'.2 E c.isLocal c.addRepulsion c.planar c.critical c.power <;>
    rw [hx, hy] at key <;> try exact key
  rename_i r r'
  obtain ⟨k1, k2⟩ := key
  have f1 := C47_frame hx
  have f2 := C47_frame hy
  refine ⟨k1, k2, sc.agent, fun p hp f hf => ?_, ?_, ?_⟩
  · obtain ⟨e, e', g1, g2, g3⟩ := sc.obstacles p hp
    have hshape := f1.1 p
    simp only at hf
    rw [g1, hf] at hshape
    simp only [Option.map_some, Option.some.injEq] at hshape
    have := shape_ellipsoid hshape
    injection this with this
    have hst : f.base.state = e.base.state := by rw [this]
    rw [hst]
    exact sc.rest p hp e g1
  · obtain ⟨q, e, g1, g2, g3⟩ := sc.envelope
    exact ⟨q, e, g1, by rw [f1.2.1 q g3]; exact g2, g3⟩
  · obtain ⟨q, e, g1, g2, g3⟩ := sc.envelope'
    exact ⟨q, e, g1, by rw [f2.2.1 q g3]; exact g2, g3⟩

/-- C97, the part that holds for the control loop: after any number of iterations among ellipsoids at rest the agent is at
the same place, in all coordinates with the same vertical axis, whether right-handed or left-handed.
Full statement: see `C97_velocity_partial`; the loops with `is_local` are left out. -/
theorem C97_loop_partial {V : View} (hV : V.Valid) (c : Loop ℝ) (hc : c.isLocal = false) {E : Env} :
    ∀ (n : ℕ) {s s' : Heap ℝ × Agent ℝ}, SameScene V E.list s s' →
    Agree (fun t t' => t'.2.state.position = V.point t.2.state.position ∧ SameScene V E.list t t')
      (c.run E n s) ((V.loop c).run E n s')
  | 0, _, _, sc => ⟨sc.agent.position, sc⟩
  | n + 1, s, s', sc => by
    unfold Loop.run
    refine Agree.bind (R := SameScene V E.list) ?_ fun t t' _ _ ht => C97_loop_partial hV c hc n ht
    have hdes : (V.loop c).desired s'.2.state.position = V.vector (c.desired s.2.state.position) := by
      simp only [Loop.desired, View.loop, sc.agent.position, View.point_sub, View.vector_smul]
    rw [hdes]
    generalize c.desired s.2.state.position = v
    unfold Loop.iterate Agent.setLinearVelocity Agent.setPosition
    obtain ⟨t, t', h1, h2, sc1, h3, h4⟩ := withState_scene sc (s.2.state.setLinearVelocity v)
      (s'.2.state.setLinearVelocity (V.vector v)) sc.agent.position rfl
    rw [h1, h2, Res.ok_bind, Res.ok_bind]
    refine Agree.bind (modulate_scene hV c hc sc1) fun r r' _ _ ⟨k1, sc2⟩ => ?_
    have hlim : (V.loop c).limit (V.vector r.2) = V.vector (c.limit r.2) := by
      unfold Loop.limit View.loop
      cases c.maxVel with
      | none => rfl
      | some m =>
        simp only [View.norm_vector hV, View.normalized_vector hV, ← View.vector_smul]
        split <;> rfl
    rw [k1, hlim, sc.agent.position]
    have hpos : V.point s.2.state.position + V3.smul c.dt (V.vector (c.limit r.2)) =
        V.point (s.2.state.position + V3.smul c.dt (c.limit r.2)) := by
      rw [View.point_add, View.vector_smul]
    obtain ⟨u, u', g1, g2, sc3, -, -⟩ := withState_scene sc2
      (t.2.state.setPosition (s.2.state.position + V3.smul c.dt (c.limit r.2)))
      (t'.2.state.setPosition (V.point s.2.state.position + V3.smul c.dt (V.vector (c.limit r.2)))) hpos
      sc1.agent.velocity
    have g2' : t'.2.withState r'.1 (t'.2.state.setPosition (V.point s.2.state.position +
        V3.smul (V.loop c).dt (V.vector (c.limit r.2)))) = .ok u' := g2
    rw [g1, g2']
    exact sc3

/-! ## the counterexamples -/

/-- The unit ball at the origin, turned by `q`, with velocity `u`. -/
def turnedBall (q : Quat ℝ) (u : V3 ℝ) : Ellipsoid ℝ :=
  { ball V3.zero with base := { (ball V3.zero).base with state := ⟨⟨V3.zero, q⟩, u, V3.zero⟩ } }

/-- the modulation matrix in the frame of the ball, at (3/5,0,4/5) -/
noncomputable def slantAct (w : V3 ℝ) : V3 ℝ :=
  ⟨32 / 25 * w.x - 24 / 25 * w.z, 2 * w.y, -(24 / 25) * w.x + 18 / 25 * w.z⟩

theorem slant_scene {q : Quat ℝ} (hq : q.IsUnit) (u v : V3 ℝ) :
    ∃ M : M3 ℝ, (∀ w, M.mulVec (q.rotate w) = q.rotate (slantAct w)) ∧
      modulateVelocity [.ellipsoid (turnedBall q u)] (agentAt (q.rotate ⟨3 / 5, 0, 4 / 5⟩) v) (envOf [0]) false false false
        1 2 = .ok ([.ellipsoid (turnedBall q u)],
          core (v - ⟨369 / 625 * u.x + 192 / 625 * u.z, 9 / 25 * u.y, 192 / 625 * u.x + 481 / 625 * u.z⟩) [(M, 1)] +
            ⟨369 / 625 * u.x + 192 / 625 * u.z, 9 / 25 * u.y, 192 / 625 * u.x + 481 / 625 * u.z⟩) := by
  set a := agentAt (q.rotate ⟨3 / 5, 0, 4 / 5⟩) v with ha
  set h : Heap ℝ := [.ellipsoid (turnedBall q u)] with hh
  have hm := matrix_ellipsoid h a (turnedBall q u) rfl
  have hpos : a.state.position = q.rotate ⟨3 / 5, 0, 4 / 5⟩ := rfl
  have hvel : a.state.linearVelocity = v := rfl
  have hmar : a.margin = 0 := rfl
  have hpose : (turnedBall q u).base.pose = ⟨V3.zero, q⟩ := rfl
  have hinv : ∀ w, (turnedBall q u).base.pose.inverse.apply (q.rotate w) = w := by
    intro w
    have h1 : q.rotate w = (turnedBall q u).base.pose.apply w := by
      rw [hpose]; simp only [Pose.apply, V3.add_zero']
    rw [h1, Pose.apply_inverse_apply hq]
  have hinv0 : (turnedBall q u).base.pose.inverse.apply V3.zero = V3.zero := by
    have := hinv V3.zero
    rwa [Quat.rotate_zero] at this
  have hn : (turnedBall q u).normalToAgent (q.rotate ⟨3 / 5, 0, 4 / 5⟩) 0 = ⟨3 / 5, 0, 4 / 5⟩ := by
    have hb := ball_normal V3.zero _ slant_norm
    unfold Ellipsoid.normalToAgent at hb ⊢
    rw [hinv]
    rw [ball_inv] at hb
    exact hb
  have hd : gdist (turnedBall q u) 0 (q.rotate ⟨3 / 5, 0, 4 / 5⟩) = 1 := by
    have hb : gdist (ball V3.zero) 0 ⟨3 / 5, 0, 4 / 5⟩ = 1 := by rw [ball_dist]; norm_num
    unfold gdist Ellipsoid.distanceToPoint at hb ⊢
    rw [hinv]
    rw [ball_inv] at hb
    exact hb
  have hr : referenceDirection (turnedBall q u).base.pose (q.rotate ⟨3 / 5, 0, 4 / 5⟩) V3.zero = ⟨3 / 5, 0, 4 / 5⟩ := by
    unfold referenceDirection
    rw [hinv, hinv0, V3.sub_zero', V3.normalized_of_ne, slant_norm]
    · ext <;> simp [V3.smul]
    · intro h0; have := slant_norm; rw [h0, V3.norm_eq_zero.mpr rfl] at this; norm_num at this
  rw [hpos, hmar, hd, hn, hr] at hm
  refine ⟨modulationProduct q (referenceBasis ⟨3 / 5, 0, 4 / 5⟩ ⟨3 / 5, 0, 4 / 5⟩) (diagonalEigenvalues 1 1),
    fun w => ?_, ?_⟩
  rotate_left
  · rw [modulate_plain h a (envOf [0]) false 1 2 [_] (by simp [envOf]) (by intro h; cases h) (by
      simp only [envOf, List.mapM_cons, List.mapM_nil]
      rw [itemOf_ok rfl hm]; rfl), combine_eq]
    have hw : weightOf [(1 : ℝ)] 1 2 1 = 1 := weightOf_single _ _ _
    have hov : ∀ m, obsVel a.state.position [⟨(turnedBall q u).base, m, orthogonalBasis ⟨3 / 5, 0, 4 / 5⟩, 1⟩] 1 2 =
        ⟨369 / 625 * u.x + 192 / 625 * u.z, 9 / 25 * u.y, 192 / 625 * u.x + 481 / 625 * u.z⟩ := by
      intro m
      simp only [obsVel, List.map_cons, List.map_nil, hw]
      rw [V3.lsum_cons, V3.lsum_nil, V3.add_zero']
      unfold obstacleVelocity orthogonalBasis
      rw [slant_tangent]
      have hp : (turnedBall q u).base.state = ⟨⟨V3.zero, q⟩, u, V3.zero⟩ := rfl
      ext <;> norm_num [hp, V3.cross, V3.zero, V3.smul, M3.mulVec, M3.transpose, maxS] <;> ring
    have hb : (Obj.ellipsoid (turnedBall q u)).base = (turnedBall q u).base := rfl
    rw [hb, hov, hvel]
    simp only [pairs, List.map_cons, List.map_nil, hw]
    rfl
  · rw [modulationProduct_mulVec hq, Quat.rotate_conjugate_rotate hq]
    congr 1
    rw [C34_inside 1 1 (le_refl _)]
    simp only [referenceBasis, slant_tangent, M3.mulVec, M3.had, M3.inverse, M3.det, V3.cross, slantAct, V3.mk.injEq]
    refine ⟨?_, ?_, ?_⟩ <;> norm_num <;> ring

/-- a third of a turn about (1,1,1) -/
noncomputable def thirdTurn : Quat ℝ := ⟨1 / 2, 1 / 2, 1 / 2, 1 / 2⟩
theorem thirdTurn_unit : thirdTurn.IsUnit := by norm_num [thirdTurn, Quat.IsUnit, Quat.sqNorm]
theorem thirdTurn_rotate (a b c : ℝ) : thirdTurn.rotate ⟨a, b, c⟩ = ⟨c, a, b⟩ := by
  rw [Quat.rotate_eq_sandwich thirdTurn_unit]
  ext <;> simp only [Quat.sandwich, Quat.mul, Quat.conjugate, Quat.vec, thirdTurn] <;> ring

/-- C97 is false when the coordinates are tilted: a ball at rest, seen in coordinates in which the z axis is another one;
the same agent with the same velocity gets a different velocity, (0,0,-6/5) in the first coordinates, about
(-18/25,24/25,0) in the others, where the same vector would be (-6/5,0,0). -/
theorem C97_negation : ∃ (q : Quat ℝ) (e e' : Ellipsoid ℝ) (a a' : Agent ℝ) (out out' : V3 ℝ), q.IsUnit ∧
    (∀ u, e'.base.pose.apply u = q.rotate (e.base.pose.apply u)) ∧ e'.axis = e.axis ∧
    e'.curv = e.curv ∧ e'.base.margin = e.base.margin ∧ e'.base.refPos = e.base.refPos.map q.rotate ∧
    Static (.ellipsoid e) ∧ Static (.ellipsoid e') ∧
    a'.state.position = q.rotate a.state.position ∧ a'.state.linearVelocity = q.rotate a.state.linearVelocity ∧
    a'.margin = a.margin ∧
    modulateVelocity [.ellipsoid e] a (envOf [0]) false false false 1 2 = .ok ([.ellipsoid e], out) ∧
    modulateVelocity [.ellipsoid e'] a' (envOf [0]) false false false 1 2 = .ok ([.ellipsoid e'], out') ∧
    out' ≠ q.rotate out := by
  obtain ⟨M, hM, h1⟩ := slant_scene Quat.isUnit_one V3.zero ⟨0, 0, -1⟩
  obtain ⟨M', hM', h2⟩ := slant_scene thirdTurn_unit V3.zero ⟨-1, 0, 0⟩
  have hov : (⟨369 / 625 * (V3.zero : V3 ℝ).x + 192 / 625 * (V3.zero : V3 ℝ).z, 9 / 25 * (V3.zero : V3 ℝ).y,
      192 / 625 * (V3.zero : V3 ℝ).x + 481 / 625 * (V3.zero : V3 ℝ).z⟩ : V3 ℝ) = V3.zero := by
    ext <;> simp [V3.zero]
  rw [hov, V3.sub_zero', V3.add_zero'] at h1 h2
  rw [core_vertical] at h1
  rw [Quat.rotate_one] at h1
  rw [thirdTurn_rotate] at h2
  have hm' : M'.mulVec ⟨-1, 0, 0⟩ = ⟨-(18 / 25), 24 / 25, 0⟩ := by
    have := hM' ⟨0, 0, -1⟩
    rw [thirdTurn_rotate] at this
    rw [this]
    simp only [slantAct, thirdTurn_rotate]
    norm_num
  have hn' : V3.norm (⟨-(18 / 25), 24 / 25, 0⟩ : V3 ℝ) = 6 / 5 := by
    rw [V3.norm, V3.sqNorm, V3.dot, sqrt_real, Real.sqrt_eq_iff_mul_self_eq] <;> norm_num
  have key := (core_single (rv := ⟨-1, 0, 0⟩) (M := M') rfl (fun c _ _ h => by
    rw [hm'] at h
    have := congrArg V3.y h
    norm_num [V3.smul] at this)).2.1
  rw [hm', hn'] at key
  have hz : V3.normalized (⟨0, 0, -1⟩ : V3 ℝ) = ⟨0, 0, -1⟩ := by
    rw [V3.normalized_of_ne (by intro h; have := congrArg V3.z h; norm_num [V3.zero] at this)]
    have : V3.norm (⟨0, 0, -1⟩ : V3 ℝ) = 1 := by norm_num [V3.norm, V3.sqNorm, V3.dot, sqrt_real]
    rw [this]; ext <;> simp [V3.smul]
  rw [hz] at h1
  generalize core ⟨-1, 0, 0⟩ [(M', 1)] = out' at h2 key
  generalize ([(M, (1 : ℝ))].map fun x => V3.norm (x.1.mulVec ⟨0, 0, -1⟩) * x.2).sum = m at h1
  refine ⟨thirdTurn, turnedBall Quat.one V3.zero, turnedBall thirdTurn V3.zero, agentAt ⟨3 / 5, 0, 4 / 5⟩ ⟨0, 0, -1⟩,
    agentAt ⟨4 / 5, 3 / 5, 0⟩ ⟨-1, 0, 0⟩, V3.smul m ⟨0, 0, -1⟩, out', thirdTurn_unit, fun u => ?_, rfl, rfl, rfl,
    ?_, ⟨rfl, rfl⟩, ⟨rfl, rfl⟩, ?_, ?_, rfl, h1, h2, ?_⟩
  · show thirdTurn.rotate u + V3.zero = thirdTurn.rotate (Quat.one.rotate u + V3.zero)
    rw [V3.add_zero', V3.add_zero', Quat.rotate_one]
  · show some (V3.zero : V3 ℝ) = Option.map _ (some V3.zero)
    rw [Option.map_some, Quat.rotate_zero]
  · exact (thirdTurn_rotate _ _ _).symm
  · exact (thirdTurn_rotate 0 0 (-1)).symm
  · intro h
    rw [h] at key
    have hy := (V3.dot_le_norm ⟨0, -1, 0⟩ _).trans (mul_le_mul_of_nonneg_left key (V3.norm_nonneg _))
    have hu : V3.norm (⟨0, -1, 0⟩ : V3 ℝ) = 1 := by norm_num [V3.norm, V3.sqNorm, V3.dot, sqrt_real]
    rw [hu] at hy
    simp only [V3.dot, V3.smul, thirdTurn_rotate, V3.sub_x, V3.sub_y, V3.sub_z, mul_zero] at hy
    norm_num at hy

/-- C97 is false for a moving obstacle, even when the coordinates are only turned by half a turn about the vertical axis: the
first vector of the basis with which the velocity of the obstacle is multiplied is the normal, its transpose is applied
without a change of coordinates.  A ball moves with (625,0,0), the agent on its surface with (369,0,192); its velocity stays
as it is.  In the turned coordinates it becomes (-369,0,1344/5), not (-369,0,192). -/
theorem C97_negation_moving : ∃ (V : View) (e e' : Ellipsoid ℝ) (a a' : Agent ℝ) (out out' : V3 ℝ), V.Valid ∧ V.side = 1 ∧
    SameEllipsoid V e e' ∧ SameView V a a' ∧
    modulateVelocity [.ellipsoid e] a (envOf [0]) false false false 1 2 = .ok ([.ellipsoid e], out) ∧
    modulateVelocity [.ellipsoid e'] a' (envOf [0]) false false false 1 2 = .ok ([.ellipsoid e'], out') ∧
    out = ⟨369, 0, 192⟩ ∧ out' = ⟨-369, 0, 1344 / 5⟩ ∧ V.vector out = ⟨-369, 0, 192⟩ := by
  have hu : (⟨0, 0, 0, 1⟩ : Quat ℝ).IsUnit := by norm_num [Quat.IsUnit, Quat.sqNorm]
  have hrot : ∀ a b c : ℝ, (⟨0, 0, 0, 1⟩ : Quat ℝ).rotate ⟨a, b, c⟩ = ⟨-a, -b, c⟩ := by
    intro a b c
    rw [Quat.rotate_eq_sandwich hu]
    ext <;> simp only [Quat.sandwich, Quat.mul, Quat.conjugate, Quat.vec] <;> ring
  obtain ⟨M, hM, h1⟩ := slant_scene Quat.isUnit_one ⟨625, 0, 0⟩ ⟨369, 0, 192⟩
  obtain ⟨M', hM', h2⟩ := slant_scene hu ⟨-625, 0, 0⟩ ⟨-369, 0, 192⟩
  have out1 : core (⟨369, 0, 192⟩ - ⟨369 / 625 * 625 + 192 / 625 * 0, 9 / 25 * 0, 192 / 625 * 625 + 481 / 625 * 0⟩) [(M, 1)] +
      ⟨369 / 625 * 625 + 192 / 625 * 0, 9 / 25 * 0, 192 / 625 * 625 + 481 / 625 * 0⟩ = ⟨369, 0, 192⟩ := by
    have : (⟨369, 0, 192⟩ : V3 ℝ) - ⟨369 / 625 * 625 + 192 / 625 * 0, 9 / 25 * 0, 192 / 625 * 625 + 481 / 625 * 0⟩ =
        ⟨0, 0, 0⟩ := by ext <;> simp only [V3.sub_x, V3.sub_y, V3.sub_z] <;> norm_num
    rw [this, core_vertical]
    have hz : V3.normalized (⟨0, 0, 0⟩ : V3 ℝ) = ⟨0, 0, 0⟩ := V3.normalized_zero
    rw [hz]
    ext <;> simp only [V3.smul, V3.add_x, V3.add_y, V3.add_z] <;> norm_num
  have out2 : core (⟨-369, 0, 192⟩ - ⟨369 / 625 * -625 + 192 / 625 * 0, 9 / 25 * 0, 192 / 625 * -625 + 481 / 625 * 0⟩)
      [(M', 1)] + ⟨369 / 625 * -625 + 192 / 625 * 0, 9 / 25 * 0, 192 / 625 * -625 + 481 / 625 * 0⟩ =
      ⟨-369, 0, 1344 / 5⟩ := by
    have : (⟨-369, 0, 192⟩ : V3 ℝ) - ⟨369 / 625 * -625 + 192 / 625 * 0, 9 / 25 * 0, 192 / 625 * -625 + 481 / 625 * 0⟩ =
        ⟨0, 0, 384⟩ := by ext <;> simp only [V3.sub_x, V3.sub_y, V3.sub_z] <;> norm_num
    rw [this, core_vertical]
    have hz : V3.normalized (⟨0, 0, 384⟩ : V3 ℝ) = ⟨0, 0, 1⟩ := by
      rw [V3.normalized_of_ne (by intro h; have := congrArg V3.z h; norm_num [V3.zero] at this)]
      have : V3.norm (⟨0, 0, 384⟩ : V3 ℝ) = 384 := by
        rw [V3.norm, V3.sqNorm, V3.dot, sqrt_real, Real.sqrt_eq_iff_mul_self_eq] <;> norm_num
      rw [this]; ext <;> norm_num [V3.smul]
    have hm : M'.mulVec ⟨0, 0, 384⟩ = ⟨384 * (24 / 25), 0, 384 * (18 / 25)⟩ := by
      have := hM' ⟨0, 0, 384⟩
      rw [hrot, neg_zero] at this
      rw [this]
      simp only [slantAct, hrot]
      norm_num
    have hn : V3.norm (⟨384 * (24 / 25), 0, 384 * (18 / 25)⟩ : V3 ℝ) = 384 * (6 / 5) := by
      rw [V3.norm, V3.sqNorm, V3.dot, sqrt_real, Real.sqrt_eq_iff_mul_self_eq] <;> norm_num
    simp only [List.map_cons, List.map_nil, List.sum_cons, List.sum_nil, hm, hn, hz]
    ext <;> simp only [V3.smul, V3.add_x, V3.add_y, V3.add_z] <;> norm_num
  rw [out1, Quat.rotate_one] at h1
  rw [out2, hrot, neg_zero] at h2
  refine ⟨⟨-1, 0, 1, V3.zero⟩, turnedBall Quat.one ⟨625, 0, 0⟩, turnedBall ⟨0, 0, 0, 1⟩ ⟨-625, 0, 0⟩,
    agentAt ⟨3 / 5, 0, 4 / 5⟩ ⟨369, 0, 192⟩, agentAt ⟨-(3 / 5), 0, 4 / 5⟩ ⟨-369, 0, 192⟩, ⟨369, 0, 192⟩, ⟨-369, 0, 1344 / 5⟩,
    ⟨by norm_num, by norm_num⟩, rfl, ⟨?_, ?_, fun u => ?_, rfl, rfl, rfl, ?_, ?_, ?_, ?_⟩, ⟨?_, ?_, rfl⟩, h1, h2, rfl, rfl, ?_⟩
  · exact (Quat.isUnit_iff_norm _).mp Quat.isUnit_one
  · exact (Quat.isUnit_iff_norm _).mp hu
  · obtain ⟨a, b, c⟩ := u
    show (⟨0, 0, 0, 1⟩ : Quat ℝ).rotate (View.flip _ ⟨a, b, c⟩) + V3.zero = View.point _ (Quat.one.rotate ⟨a, b, c⟩ + V3.zero)
    simp only [View.flip, Quat.rotate_one, V3.add_zero', hrot]
    ext <;> simp [View.point, View.vector, V3.zero]
  · show some (V3.zero : V3 ℝ) = Option.map _ (some V3.zero)
    rw [Option.map_some]
    congr 1
    ext <;> simp [View.point, View.vector, V3.zero]
  · show (⟨-625, 0, 0⟩ : V3 ℝ) = View.vector _ ⟨625, 0, 0⟩
    ext <;> simp [View.vector]
  · show (V3.zero : V3 ℝ) = V3.smul _ (View.vector _ V3.zero)
    ext <;> simp [View.vector, V3.smul, V3.zero]
  · intro h; norm_num at h
  · show (⟨-(3 / 5), 0, 4 / 5⟩ : V3 ℝ) = View.point _ ⟨3 / 5, 0, 4 / 5⟩
    ext <;> simp [View.point, View.vector, V3.zero]
  · show (⟨-369, 0, 192⟩ : V3 ℝ) = View.vector _ ⟨369, 0, 192⟩
    ext <;> simp [View.vector]
  · ext <;> simp [View.vector]

/-! ## concrete cases -/

/-- Every valid view of a tilted ellipsoid that moves, with its reference point away from the centre. -/
example (V : View) (hV : V.Valid) : ∃ e', SameEllipsoid V
    { turnedBall thirdTurn ⟨1, 2, 3⟩ with axis := ⟨3, 2, 1⟩ } e' :=
  C97_exists hV _ ((Quat.isUnit_iff_norm _).mp thirdTurn_unit) (fun _ => ⟨1, 1, 1, by
    simp [HasCurv, turnedBall, ball, Ellipsoid.ofBase, V3.const]⟩)

/-- `C97_velocity_partial` and `C97_loop_partial`: two balls, of which one is turned, in arbitrary coordinates. -/
example (V : View) (hV : V.Valid) (c : Loop ℝ) (hc : c.isLocal = false) (n : ℕ) (x v : V3 ℝ) :
    ∃ e0 e1 : Ellipsoid ℝ,
      Agree (fun t t' => t'.2.state.position = V.point t.2.state.position ∧ SameScene V [0, 1] t t')
        (c.run (envOf [0, 1]) n (Agent.mk2 [.ellipsoid (ball V3.zero), .ellipsoid (turnedBall thirdTurn V3.zero)]
          ⟨Pose.ofPosition x, v, V3.zero⟩ 0))
        ((V.loop c).run (envOf [0, 1]) n (Agent.mk2 [.ellipsoid e0, .ellipsoid e1]
          ⟨Pose.ofPosition (V.point x), V.vector v, V3.zero⟩ 0)) := by
  have hcv : ∀ q u, HasCurv (turnedBall q u) 1 1 1 := fun q u => by
    simp [HasCurv, turnedBall, ball, Ellipsoid.ofBase, V3.const]
  obtain ⟨e0, h0⟩ := C97_exists hV (turnedBall Quat.one V3.zero) ((Quat.isUnit_iff_norm _).mp Quat.isUnit_one)
    (fun _ => ⟨1, 1, 1, hcv _ _⟩)
  obtain ⟨e1, h1⟩ := C97_exists hV (turnedBall thirdTurn V3.zero) ((Quat.isUnit_iff_norm _).mp thirdTurn_unit)
    (fun _ => ⟨1, 1, 1, hcv _ _⟩)
  refine ⟨e0, e1, C97_loop_partial hV c hc n ?_⟩
  refine ⟨fun p hp => ?_, ⟨rfl, rfl, rfl⟩, fun p hp e he => ?_, ⟨2, _, rfl, rfl, by simp [envOf]⟩, ⟨2, _, rfl, rfl, by simp [envOf]⟩⟩
  · have : p = 0 ∨ p = 1 := by simpa [envOf] using hp
    rcases this with rfl | rfl
    · exact ⟨_, _, rfl, rfl, h0⟩
    · exact ⟨_, _, rfl, rfl, h1⟩
  · have : p = 0 ∨ p = 1 := by simpa [envOf] using hp
    rcases this with rfl | rfl
    · simp [Agent.mk2] at he; subst he; exact ⟨rfl, rfl⟩
    · simp [Agent.mk2] at he; subst he; exact ⟨rfl, rfl⟩

/-- `C97_velocity_partial` with `is_local`: a ball that moves on the level of the agent, and an envelope. -/
example (V : View) (hV : V.Valid) (v : V3 ℝ) (rep planar : Bool) (critical power : ℝ) : ∃ e e1 : Ellipsoid ℝ,
    Agree (fun r r' => r'.2 = V.vector r.2 ∧ SameObstacles V r.1 r'.1 [0])
      (modulateVelocity [.ellipsoid (turnedBall Quat.one ⟨1, 2, 3⟩), .ellipsoid (turnedBall Quat.one V3.zero)]
        { agentAt ⟨2, 0, 0⟩ v with envelope := some 1 } (envOf [0]) true rep planar critical power)
      (modulateVelocity [.ellipsoid e, .ellipsoid e1]
        { agentAt (V.point ⟨2, 0, 0⟩) (V.vector v) with envelope := some 1 } (envOf [0]) true rep planar critical power) := by
  have hcv : ∀ q u, HasCurv (turnedBall q u) 1 1 1 := fun q u => by
    simp [HasCurv, turnedBall, ball, Ellipsoid.ofBase, V3.const]
  have hzr : ∀ u, ZRotated (turnedBall Quat.one u) := fun u =>
    ⟨(Quat.isUnit_iff_norm _).mp Quat.isUnit_one, rfl, rfl⟩
  obtain ⟨e0, h0⟩ := C97_exists hV (turnedBall Quat.one ⟨1, 2, 3⟩) ((Quat.isUnit_iff_norm _).mp Quat.isUnit_one)
    (fun _ => ⟨1, 1, 1, hcv _ _⟩)
  obtain ⟨e1, h1⟩ := C97_exists hV (turnedBall Quat.one V3.zero) ((Quat.isUnit_iff_norm _).mp Quat.isUnit_one)
    (fun _ => ⟨1, 1, 1, hcv _ _⟩)
  have hs : SameObstacles V [.ellipsoid (turnedBall Quat.one ⟨1, 2, 3⟩), .ellipsoid (turnedBall Quat.one V3.zero)]
      [.ellipsoid e0, .ellipsoid e1] [0] := by
    intro p hp
    obtain rfl : p = 0 := by simpa using hp
    exact ⟨_, _, rfl, rfl, h0⟩
  have hr : RestOrLevel [.ellipsoid (turnedBall Quat.one ⟨1, 2, 3⟩), .ellipsoid (turnedBall Quat.one V3.zero)]
      { agentAt ⟨2, 0, 0⟩ v with envelope := some 1 } [0] := by
    intro p hp f hf
    obtain rfl : p = 0 := by simpa using hp
    obtain rfl : turnedBall Quat.one ⟨1, 2, 3⟩ = f := by simpa using hf
    right
    have h2 := congrArg V3.z ball_normal2
    unfold Ellipsoid.normalToAgent at h2 ⊢
    exact h2
  have ha : SameView V { agentAt ⟨2, 0, 0⟩ v with envelope := some 1 }
      { agentAt (V.point ⟨2, 0, 0⟩) (V.vector v) with envelope := some 1 } := ⟨rfl, rfl, rfl⟩
  refine ⟨e0, e1, C97_velocity_partial (E := envOf [0]) hV hs ha hr true rep planar (fun _ => ⟨⟨1, 1, _, _, rfl, rfl,
    rfl, rfl, h1, hzr _⟩, fun p hp f hf => ?_⟩) critical power⟩
  obtain rfl : p = 0 := by simpa [envOf] using hp
  obtain rfl : turnedBall Quat.one ⟨1, 2, 3⟩ = f := by simpa using hf
  exact hzr _

end DOA.Props
