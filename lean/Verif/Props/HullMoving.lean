import Verif.Props.UnitsHull
import Verif.Props.MovingLoop

/-!
# C44 and C76 for hulls

The normal of a hull is a chord between two surface points turned by a right angle, and is not normalised. The code
multiplies the velocity of the obstacle by `basis * basis.transpose()`, that is, by the squared length of the chord.
-/

set_option linter.unusedSectionVars false
set_option linter.unusedSimpArgs false

namespace DOA.Props
open DOA DOA.Spec DOA.Modulation DOA.Ellipsoid DOA.Hull

/-- C44 for hulls, exactly: the velocity that the code takes for that of the hull at the place of the agent is the true
one multiplied by the squared length of the chord (and attenuated and weighted as it should be). -/
theorem C44_hull (h : Heap ℝ) (a : Agent ℝ) (k : Hull ℝ) (hk : FlatHull k) (w : V3 ℝ) (b : Bool)
    (hb : k.pointIsInside a.state.position = .ok b) (hw : IsChord k a.state.position w)
    (hz : a.state.position.z = k.base.position.z) (hlong : 1 / 10000 ≤ w.norm)
    (hs : DOA.Props.turn (a.state.position - k.base.position) w ≠ 0)
    (hlin : k.base.state.linearVelocity.z = 0) (hax : k.base.state.angularVelocity.x = 0)
    (hay : k.base.state.angularVelocity.y = 0) :
    ∃ M B d, modulationMatrix h a (.hull k) = .ok (M, B, d) ∧ ∀ weight : ℝ,
      obstacleVelocity a.state.position k.base d weight B =
        V3.smul (w.norm ^ 2) (V3.smul (weight * Real.exp (-(max 1 d - 1)))
          (k.base.state.linearVelocity + V3.cross k.base.state.angularVelocity (a.state.position - k.base.position))) := by
  obtain ⟨M, B, d, hm, -, -, -⟩ := C82_chord_partial h a k hk w b hb hw hz hlong hs
  refine ⟨M, B, d, hm, fun weight => ?_⟩
  obtain ⟨w', hw', hwz, hn⟩ := chord_of k hk _ hb
  have := chord_unique hw' hw
  subst this
  have hB := basis_of_matrix (h := h) (o := .hull k) hn hm
  have hsq : w'.norm ^ 2 = w'.sqNorm := by rw [sq, V3.norm_sq]
  unfold obstacleVelocity
  simp only [hB, exp_real, maxS_real]
  rw [basis_twice hwz hlong _ (by simp [V3.smul, V3.cross, hlin, hax, hay]), hsq]
  ext <;> simp only [V3.smul] <;> ring

/-! ### C76 -/

/-- The column depends on the direction only. -/
theorem column_ray {k k' : Hull ℝ} (hor : k.base.pose.orientation = Quat.one) (hor' : k'.base.pose.orientation = Quat.one)
    (hp : k'.polar.map (·.z) = k.polar.map (·.z)) {x x' : V3 ℝ} {t : ℝ} (ht : 0 < t)
    (hx : x' - k'.base.position = V3.smul t (x - k.base.position)) : k'.column x' = k.column x := by
  have h1 : ∀ (q : Hull ℝ) (y : V3 ℝ), q.base.pose.orientation = Quat.one →
      (MathTools.cartesianToPolar (q.base.pose.inverse.apply y)).z =
        (⟨(y - q.base.position).x, (y - q.base.position).y⟩ : ℂ).arg := by
    intro q y hq
    rw [inverse_apply_one hq]
    simp only [MathTools.cartesianToPolar, atan2_real]
    rfl
  unfold column
  rw [h1 k x hor, h1 k' x' hor', hp, hx]
  congr 1
  have : (⟨(V3.smul t (x - k.base.position)).x, (V3.smul t (x - k.base.position)).y⟩ : ℂ) =
      (t : ℂ) * ⟨(x - k.base.position).x, (x - k.base.position).y⟩ := by
    apply Complex.ext <;> simp [V3.smul]
  rw [this, Complex.arg_real_mul _ ht]

/-- Without repulsion from the obstacles the flag for it makes no difference. -/
theorem modulate_unrepelled (h : Heap ℝ) (a : Agent ℝ) (e : Env) (rep : Bool) (c p : ℝ) (its : List (Item ℝ))
    (hne : e.list ≠ []) (hits : e.list.mapM (itemOf h a) = .ok its)
    (hrep : repulsionSum h a e.list = .ok V3.zero) :
    modulateVelocity h a e false rep false c p =
      .ok (h, combine a.state.position a.state.linearVelocity its c p) := by
  cases rep with
  | false => exact modulate_plain h a e false c p its hne (by intro h; cases h) hits
  | true =>
    have hem : e.list.isEmpty = false := by simpa using hne
    have hc : collect false a h e.list = .ok (h, its) := by rw [collect_false, hits]; rfl
    unfold modulateVelocity
    simp only [hem, Bool.false_eq_true, if_false, hc, Res.ok_bind, hrep]
    have : ¬ (lit 1 10000 : ℝ) < V3.norm V3.zero := by rw [V3.norm_eq_zero.mpr rfl]; norm_num
    simp [finish, this, V3.hasNaN]

/-- An agent at rest outside of a hull that moves in the direction to the agent. -/
theorem chased (h : Heap ℝ) (a : Agent ℝ) (e : Env) (p : Ptr) (o : Obj ℝ) (c w : V3 ℝ) (s d critical power : ℝ)
    (rep : Bool) (hl : e.list = [p]) (h0 : h[p]? = some o) (hrep : repulsionSum h a e.list = .ok V3.zero)
    (hor : o.base.pose.orientation = Quat.one) (href : o.base.refPos = some c)
    (hn : h.normalToAgent o a.state.position a.margin = .ok ⟨-w.y, w.x, 0⟩)
    (hd : h.distanceToAgent o a.state.position a.margin = .ok d) (hd1 : 1 ≤ d)
    (hz : a.state.position.z = c.z) (hw : w.z = 0) (hlong : 1 / 10000 ≤ w.norm)
    (hs : DOA.Props.turn (a.state.position - c) w ≠ 0) (hrest : a.state.linearVelocity = V3.zero)
    (hlin : o.base.state.linearVelocity = V3.smul s (a.state.position - c)) (hang : o.base.state.angularVelocity = V3.zero) :
    modulateVelocity h a e false rep false critical power =
      .ok (h, V3.smul (Real.exp (-(d - 1)) * w.sqNorm * s / d) (a.state.position - c)) := by
  have hdp : 0 < d := by linarith
  obtain ⟨M, B, hm, hM⟩ := chord_matrix h a o c w d hor href hn hd hdp hz hw hlong hs
  have hB := basis_of_matrix hn hm
  have hits : e.list.mapM (itemOf h a) = .ok [⟨o.base, M, B, d⟩] := by
    rw [hl, mapM_ok]; exact .cons (itemOf_ok h0 hm) .nil
  rw [modulate_unrepelled h a e rep critical power _ (by simp [hl]) hits hrep]
  congr 2
  have hz0 : (a.state.position - c).z = 0 := by simp [hz]
  set r := a.state.position - c with hr
  set σ := Real.exp (-(d - 1)) * w.sqNorm * s with hσ
  have hvel : obstacleVelocity a.state.position o.base d 1 B = V3.smul σ r := by
    unfold obstacleVelocity
    simp only [hlin, hang, hB]
    have e1 : V3.cross V3.zero (a.state.position - o.base.position) = V3.zero := by ext <;> simp [V3.cross, V3.zero]
    have e2 : CMath.exp (-(maxS (1 : ℝ) d - 1)) = Real.exp (-(d - 1)) := by
      rw [maxS_real, max_eq_right hd1]; rfl
    simp only [e1, V3.add_zero', e2, V3.smul_smul']
    rw [basis_twice hw hlong _ (by simp [V3.smul, hz0]), V3.smul_smul', hσ]
    ext <;> simp only [V3.smul] <;> ring
  have hobs : obsVel a.state.position [⟨o.base, M, B, d⟩] critical power = V3.smul σ r := by
    rw [← hvel]
    simp [obsVel, weightOf_single, V3.lsum]
  rw [combine_eq, hobs, hrest]
  have hM0 : M.mulVec (V3.zero - V3.smul σ r) = V3.smul (1 - 1 / d) (V3.zero - V3.smul σ r) := by
    rw [hM _ (by simp [V3.smul, hz0, V3.zero])]
    have t0 : DOA.Props.turn r (V3.zero - V3.smul σ r) = 0 := by simp [DOA.Props.turn, V3.smul, V3.zero]; ring
    have t1 : DOA.Props.turn (V3.zero - V3.smul σ r) w = -σ * DOA.Props.turn r w := by
      simp [DOA.Props.turn, V3.smul, V3.zero]; ring
    have hd' : 0 ≤ 1 - 1 / d := by rw [sub_nonneg, div_le_one hdp]; exact hd1
    rw [t0, t1, mul_div_assoc, div_self hs, max_eq_right hd']
    ext <;> simp [V3.smul, V3.zero] <;> ring
  have hp1 : pairs [⟨o.base, M, B, d⟩] critical power = [(M, 1)] := by simp [pairs, weightOf_single]
  have hc : core (V3.zero - V3.smul σ r) [(M, 1)] = V3.smul (1 - 1 / d) (V3.zero - V3.smul σ r) := by
    rw [← hM0]
    by_cases hz1 : M.mulVec (V3.zero - V3.smul σ r) = V3.zero
    · rw [core_of_zero_speed hz1, hz1]
    have hd2 : 0 < 1 - 1 / d := by
      rcases hd1.eq_or_lt with hd2 | hd2
      · exfalso; apply hz1; rw [hM0, ← hd2]; ext <;> simp [V3.smul, V3.zero]
      · rw [sub_pos, div_lt_one hdp]; exact hd2
    have hrv : V3.zero - V3.smul σ r ≠ V3.zero := by
      intro h; apply hz1; rw [hM0, h]; ext <;> simp [V3.smul, V3.zero]
    refine (core_single (by simp [V3.smul, hz0, V3.zero]) ?_).1 (Or.inl ?_)
    · intro c' hc' _ he
      rw [hM0] at he
      have : V3.smul (1 - 1 / d + c') (V3.zero - V3.smul σ r) = V3.zero := by
        have e1 := congrArg V3.x he
        have e2 := congrArg V3.y he
        have e3 := congrArg V3.z he
        simp only [V3.smul] at e1 e2 e3
        ext <;> simp only [V3.smul] <;> simp only [V3.zero] at * <;> linarith
      have hn := congrArg V3.norm this
      rw [V3.norm_smul_pos (by linarith), V3.norm_eq_zero.mpr rfl] at hn
      have := V3.norm_pos hrv
      have h3 : 0 < 1 - 1 / d + c' := by linarith
      exact absurd hn (mul_pos h3 this).ne'
    · rw [hM0]
      generalize V3.zero - V3.smul σ r = u at hrv
      have hu := V3.norm_pos hrv
      have : V3.dot (V3.smul (1 - 1 / d) u) u = (1 - 1 / d) * (u.norm * u.norm) := by
        rw [V3.norm_sq]; simp only [V3.dot, V3.smul, V3.sqNorm]; ring
      unfold Spec.angle
      rw [V3.norm_smul_pos hd2, this, show (1 - 1 / d) * (u.norm * u.norm) = (1 - 1 / d) * u.norm * u.norm by ring,
        div_self (by positivity), Real.arccos_one]
  rw [hp1, hc]
  ext <;> simp [V3.smul, V3.zero] <;> field_simp <;> ring

theorem overrun {k k' : Hull ℝ} (hor : k.base.pose.orientation = Quat.one) (hor' : k'.base.pose.orientation = Quat.one)
    (hp : k'.polar = k.polar) {r s x' : V3 ℝ} {t : ℝ} (hs1 : k.polar[k.column (k.base.position + r)]? = some s)
    (hs2 : s.x = r.norm) (hrn : 0 < r.norm) (hrel : x' - k'.base.position = V3.smul t r) (ht0 : 0 < t) (ht1 : t < 1) :
    k'.pointIsInside x' = .ok true := by
  have hcol2 : k'.column x' = k.column (k.base.position + r) := by
    refine column_ray (k := k) hor hor' (by rw [hp]) ht0 ?_
    rw [hrel]
    ext <;> simp [V3.smul]
  rw [inside_value k' hor' x' s (by rw [hcol2, hp]; exact hs1), hrel, V3.norm_smul_pos ht0, hs2, decide_eq_true]
  nlinarith

/-- C76 is false for hulls: every hull whose chord at the place of the agent is shorter than 1 (those that the code
computes have 500 chords) runs over an agent that waits in front of it. The hull is drawn to a goal in the direction of the
agent, the agent has arrived at its target strictly outside of the hull: after one iteration of the loop of
testMovingObstacle.cpp it is inside, with and without repulsion, for all gains, time steps and speed limits. -/
theorem C76_negation_hull (c : Loop ℝ) (E : Env) (name : String) (h : Heap ℝ) (a : Agent ℝ) (p q : Ptr) (k : Hull ℝ)
    (env : Ellipsoid ℝ) (r w : V3 ℝ) (γ ε : ℝ) (hk : FlatHull k) (hside : k.isInside = false)
    (hang : k.base.state.angularVelocity = V3.zero)
    (hfind : Env.find E.map name = some p) (hl : E.list = [p]) (hp : h[p]? = some (.hull k))
    (hq : a.envelope = some q) (henv : h[q]? = some (.ellipsoid env)) (hpq : q ≠ p)
    (hloc : c.isLocal = false) (hplanar : c.planar = false) (hmax : ∀ m, c.maxVel = some m → 0 ≤ m)
    (hr : r.z = 0) (hsurf : ∃ s, k.polar[k.column (k.base.position + r)]? = some s ∧ s.x = r.norm)
    (hw : IsChord k (k.base.position + r) w) (hlong : 1 / 10000 ≤ w.norm) (hshort : w.norm < 1)
    (hs : DOA.Props.turn r w ≠ 0)
    (hx : a.state.position = k.base.position + V3.smul (1 + ε) r) (htarget : c.target = a.state.position)
    (hstep : 0 < c.dt * c.gain * γ) (hstep1 : c.dt * c.gain * γ ≤ 1)
    (hε : 0 < ε) (hclose : ε < (1 - w.norm ^ 2) * (c.dt * c.gain * γ)) :
    k.distanceToPoint a.state.position (V3.const a.margin) = .ok (1 + ε) ∧
    k.pointIsInside a.state.position = .ok false ∧
    ∃ st' k', c.iterateMoving E name (k.base.position + V3.smul γ r) (h, a) = .ok st' ∧
      st'.1[p]? = some (.hull k') ∧ k'.polar = k.polar ∧
      k'.base.position = k.base.position + V3.smul (c.dt * c.gain * γ) r ∧
      k'.pointIsInside st'.2.state.position = .ok true := by
  obtain ⟨s, hs1, hs2⟩ := hsurf
  have hr0 : r ≠ V3.zero := by
    rintro rfl; simp [DOA.Props.turn, V3.zero] at hs
  have hrn := V3.norm_pos hr0
  have h1ε : 0 < 1 + ε := by linarith
  have hrel : a.state.position - k.base.position = V3.smul (1 + ε) r := by
    rw [hx]; ext <;> simp [V3.smul]
  have hcol : k.column a.state.position = k.column (k.base.position + r) :=
    column_ray hk.orient hk.orient rfl h1ε (by rw [hrel]; ext <;> simp [V3.smul])
  have hnorm : (a.state.position - k.base.position).norm = (1 + ε) * r.norm := by rw [hrel, V3.norm_smul_pos h1ε]
  have hin : k.pointIsInside a.state.position = .ok false := by
    rw [inside_value k hk.orient _ s (by rw [hcol]; exact hs1), hnorm, hs2, decide_eq_false]
    nlinarith
  have hdist : ∀ m, k.distanceToPoint a.state.position m = .ok (1 + ε) := by
    intro m
    obtain ⟨s', -, hc', -, hd⟩ := hull_distance_eq k hk.ok a.state.position m hin
    rw [hcol, hs1] at hc'
    cases hc'
    rw [hd, inverse_apply_one hk.orient, hside]
    show Res.ok ((a.state.position - k.base.position).norm / s.x) = _
    rw [hnorm, hs2, mul_div_assoc, div_self hrn.ne', mul_one]
  refine ⟨hdist _, hin, ?_⟩
  have hchord : IsChord k a.state.position w := by
    obtain ⟨t1, t2, g1, g2, g3⟩ := hw
    exact ⟨t1, t2, by rw [hcol]; exact g1, by rw [hcol]; exact g2, g3⟩
  obtain ⟨w', hw', hwz, hn⟩ := chord_of k hk _ hin
  have := chord_unique hw' hchord
  subst this
  have hq' : q < h.length := (List.getElem?_eq_some_iff.1 henv).1
  have hp' : p < h.length := (List.getElem?_eq_some_iff.1 hp).1
  have hdes : c.desired a.state.position = V3.zero := by
    unfold Loop.desired; rw [htarget]; ext <;> simp [V3.smul, V3.zero]
  set W := V3.smul (-c.gain) (k.base.position - (k.base.position + V3.smul γ r)) with hW
  have hW' : W = V3.smul (c.gain * γ) r := by rw [hW]; ext <;> simp [V3.smul] <;> ring
  set k1 : Hull ℝ := { k with base := k.base.setLinearVelocity W } with hk1
  set a1 : Agent ℝ := { a with state := a.state.setLinearVelocity V3.zero } with ha1
  set h1 : Heap ℝ := (h.set q (.ellipsoid (a1.envelopeFor env))).set p (.hull k1) with hh1
  have hmod := chased h1 a1 E p (.hull k1) k.base.position w' (c.gain * γ / (1 + ε)) (1 + ε) c.critical c.power
    c.addRepulsion hl (by simp [hh1, hp'])
    (by
      rw [hl]
      simp only [repulsionSum, List.foldlM_cons, List.foldlM_nil, Heap.deref]
      have : h1[p]? = some (.hull k1) := by simp [hh1, hp']
      simp only [this, Res.ok_bind, Heap.generateRepulsion, Heap.repulsionVector]
      have hd1 : h1.distanceToAgent (.hull k1) a1.state.position a1.margin = .ok (1 + ε) := hdist (V3.const a.margin)
      rw [hd1, Res.ok_bind, ite_self, Res.ok_bind, V3.add_zero']
      rfl)
    hk.orient hk.ref hn (hdist (V3.const a.margin)) (by linarith)
    (by show a.state.position.z = _; rw [hx]; simp [V3.smul, hr]) hwz hlong
    (by
      show DOA.Props.turn (a.state.position - k.base.position) w' ≠ 0
      rw [hrel]
      have : DOA.Props.turn (V3.smul (1 + ε) r) w' = (1 + ε) * DOA.Props.turn r w' := by
        simp [DOA.Props.turn, V3.smul]; ring
      rw [this]
      exact mul_ne_zero h1ε.ne' hs)
    rfl
    (by
      show W = V3.smul _ (a.state.position - k.base.position)
      rw [hrel, hW']
      ext <;> simp only [V3.smul] <;> field_simp)
    hang
  set out := V3.smul (Real.exp (-(1 + ε - 1)) * w'.sqNorm * (c.gain * γ / (1 + ε)) / (1 + ε))
    (a1.state.position - k.base.position) with hout
  obtain ⟨μ, hμ0, hμ1, hμ⟩ : ∃ μ, 0 ≤ μ ∧ μ ≤ 1 ∧ c.limit out = V3.smul μ out := by
    unfold Loop.limit
    cases hm : c.maxVel with
    | none => exact ⟨1, zero_le_one, le_rfl, by ext <;> simp [V3.smul]⟩
    | some m =>
      dsimp only
      split
      · rename_i hlt
        have hm0 := hmax m hm
        have hn0 : 0 < out.norm := lt_of_le_of_lt hm0 hlt
        refine ⟨m / out.norm, by positivity, by rw [div_le_one hn0]; exact hlt.le, ?_⟩
        calc V3.smul m out.normalized = V3.smul (m / out.norm * out.norm) out.normalized := by
              rw [div_mul_cancel₀ _ hn0.ne']
          _ = V3.smul (m / out.norm) (V3.smul out.norm out.normalized) := (V3.smul_smul' _ _ _).symm
          _ = _ := by rw [V3.norm_smul_normalized]
      · exact ⟨1, zero_le_one, le_rfl, by ext <;> simp [V3.smul]⟩
  set y' := k.base.position + V3.smul c.dt W with hy'
  set x' := a.state.position + V3.smul c.dt (c.limit out) with hx'
  set a2 : Agent ℝ := { a1 with state := a1.state.setPosition x' } with ha2
  set k2 : Hull ℝ := { k1 with base := (k1.base.setPosition y').setRef y' } with hk2
  set h2 : Heap ℝ := h1.set q (.ellipsoid (a2.envelopeFor (a1.envelopeFor env))) with hh2
  refine ⟨(h2.set p (.hull k2), a2), k2, ?_, ?_, rfl, ?_, ?_⟩
  · have hlook : E.lookup h name = .ok p := by
      simp [Env.lookup, Env.lookupSlot, Env.readSlot, hfind]
    unfold Loop.iterateMoving
    rw [hlook]
    have hset0 : Agent.setLinearVelocity h a V3.zero = .ok (h.set q (.ellipsoid (a1.envelopeFor env)), a1) := by
      simp only [Agent.setLinearVelocity, Agent.withState, Agent.updateEnvelope, hq, Heap.deref, henv, Res.ok_bind]
      simp only [ha1, hq]
    have hp0 : (h.set q (.ellipsoid (a1.envelopeFor env)))[p]? = some (.hull k) := by
      rw [List.getElem?_set_ne hpq, hp]
    simp only [Res.ok_bind, Heap.deref, hp, hdes, hset0, hp0]
    have hmod' : modulateVelocity h1 a1 E c.isLocal c.addRepulsion c.planar c.critical c.power = .ok (h1, out) := by
      rw [hloc, hplanar]; exact hmod
    have hset : Agent.setPosition h1 a1 x' = .ok (h2, a2) := by
      have : h1[q]? = some (.ellipsoid (a1.envelopeFor env)) := by
        rw [hh1, List.getElem?_set_ne hpq.symm, List.getElem?_set_self hq']
      have hq1 : a1.envelope = some q := hq
      simp only [Agent.setPosition, Agent.withState, Agent.updateEnvelope, hq1, Heap.deref, this, Res.ok_bind]
      simp only [hh2, ha2, hq1]
    have hp2 : h2[p]? = some (.hull k1) := by
      rw [hh2, List.getElem?_set_ne hpq, hh1, List.getElem?_set_self (by simpa using hp')]
    have hlen2 : p < h2.length := by rw [hh2, hh1]; simpa using hp'
    show (do
      let r ← modulateVelocity h1 a1 E c.isLocal c.addRepulsion c.planar c.critical c.power
      let s2 ← a1.setPosition r.1 (a.state.position + V3.smul c.dt (c.limit r.2))
      let o2 ← s2.1.deref p
      let h3 ← Heap.setRef (s2.1.set p (o2.mapBase (·.setPosition y'))) p y'
      Res.ok (h3, s2.2)) = _
    rw [hmod', Res.ok_bind, hset, Res.ok_bind]
    simp only [Heap.deref, hp2, Res.ok_bind]
    have hsr : Heap.setRef (h2.set p ((Obj.hull k1).mapBase (·.setPosition y'))) p y' = .ok (h2.set p (.hull k2)) := by
      simp only [Heap.setRef, Heap.fuel, Heap.setRefAux, Heap.deref]
      rw [List.getElem?_set_self hlen2]
      simp only [Obj.mapBase, Res.ok_bind, List.set_set]
      rfl
    rw [hsr]
    rfl
  · have hlen2 : p < h2.length := by rw [hh2, hh1]; simpa using hp'
    exact List.getElem?_set_self hlen2
  · show y' = _
    rw [hy', hW', V3.smul_smul', mul_assoc]
  · have hrel' : x' - y' = V3.smul (1 + ε - c.dt * c.gain * γ *
        (1 - μ * (Real.exp (-(1 + ε - 1)) * w'.sqNorm / (1 + ε)))) r := by
      rw [hx', hy', hμ, hout, show a1.state.position = a.state.position from rfl, hrel, hx, hW']
      ext <;> simp only [V3.smul, V3.add_x, V3.add_y, V3.add_z, V3.sub_x, V3.sub_y, V3.sub_z] <;> field_simp <;> ring
    set t := 1 + ε - c.dt * c.gain * γ * (1 - μ * (Real.exp (-(1 + ε - 1)) * w'.sqNorm / (1 + ε))) with ht
    set ν := μ * (Real.exp (-(1 + ε - 1)) * w'.sqNorm / (1 + ε)) with hν
    have hsq : w'.norm ^ 2 = w'.sqNorm := by rw [sq, V3.norm_sq]
    have hsq0 : 0 ≤ w'.sqNorm := by rw [← hsq]; positivity
    have hν0 : 0 ≤ ν := by positivity
    have hν1 : ν ≤ w'.norm ^ 2 := by
      have e1 : Real.exp (-(1 + ε - 1)) ≤ 1 := by rw [Real.exp_le_one_iff]; linarith
      have e0 := Real.exp_pos (-(1 + ε - 1))
      have : Real.exp (-(1 + ε - 1)) * w'.sqNorm / (1 + ε) ≤ w'.sqNorm := by
        rw [div_le_iff₀ h1ε]; nlinarith
      rw [hsq, hν]
      calc _ ≤ 1 * (Real.exp (-(1 + ε - 1)) * w'.sqNorm / (1 + ε)) := mul_le_mul_of_nonneg_right hμ1 (by positivity)
        _ ≤ _ := by rw [one_mul]; exact this
    have ht1 : t < 1 := by
      have := mul_le_mul_of_nonneg_left hν1 hstep.le
      rw [ht]; linarith
    have ht0 : 0 < t := by
      have := mul_nonneg hstep.le hν0
      rw [ht]; linarith
    exact overrun (k := k) (k' := k2) hk.orient hk.orient rfl hs1 hs2 hrn hrel' ht0 ht1

/-- The kite, ten times smaller. -/
noncomputable def midge : Hull ℝ :=
  ⟨Base.mkRef "midge" (State.ofPosition V3.zero) V3.zero V3.zero, false, 4, 1 / 10,
    [⟨0, -1 / 10, 0⟩, ⟨1 / 10, 0, 0⟩, ⟨0, 1 / 10, 0⟩, ⟨-1 / 5, 0, 0⟩],
    [⟨1 / 10, Real.pi / 2, -(Real.pi / 2)⟩, ⟨1 / 10, Real.pi / 2, 0⟩, ⟨1 / 10, Real.pi / 2, Real.pi / 2⟩,
      ⟨1 / 5, Real.pi / 2, Real.pi⟩]⟩

theorem midge_flat : FlatHull midge := by
  refine ⟨⟨by norm_num [midge], rfl, rfl⟩, rfl, rfl, ?_, ?_⟩
  · intro s hs
    simp only [midge, List.mem_cons, List.not_mem_nil, or_false] at hs
    rcases hs with rfl | rfl | rfl | rfl <;> rfl
  · intro q hq
    simp only [midge, List.mem_cons, List.not_mem_nil, or_false] at hq
    rcases hq with rfl | rfl | rfl | rfl <;> norm_num

theorem midge_column : midge.column (midge.base.position + ⟨2 / 25, 3 / 50, 0⟩) = 2 := by
  refine Eq.trans ?_ kite_column_left
  refine column_ray (k := kite) (k' := midge) rfl rfl rfl (t := 1 / 10) (by norm_num) ?_
  rw [kite_sub]
  ext <;> norm_num [V3.smul]

/-- The hull runs over the agent in the loop of testMovingObstacle.cpp with its own constants (with repulsion). -/
example (e : Ellipsoid ℝ) : ∃ (c : Loop ℝ) (a : Agent ℝ), c.gain = 1 ∧ c.dt = 1 / 100 ∧ c.addRepulsion = true ∧
    midge.pointIsInside a.state.position = .ok false ∧
    ∃ st' k', c.iterateMoving ⟨[("midge", 0)], false, [0]⟩ "midge" ⟨2 / 25, 3 / 50, 0⟩ ([.hull midge, .ellipsoid e], a) = .ok st' ∧
      st'.1[0]? = some (.hull k') ∧ k'.pointIsInside st'.2.state.position = .ok true := by
  have hdt : (Moving.loop : Loop ℝ).dt = 1 / 100 := by norm_num [Moving.loop]
  have hg : (Moving.loop : Loop ℝ).gain = 1 := rfl
  have hx : midge.base.position = V3.zero := rfl
  have hrn : V3.norm (⟨2 / 25, 3 / 50, 0⟩ : V3 ℝ) = 1 / 10 := by
    have : (⟨2 / 25, 3 / 50, 0⟩ : V3 ℝ) = V3.smul (1 / 10) ⟨4 / 5, 3 / 5, 0⟩ := by ext <;> norm_num [V3.smul]
    rw [this, V3.norm_smul_pos (by norm_num), norm_three_four _ (by norm_num), mul_one]
  have hw2 : V3.norm (⟨-1 / 5, -1 / 10, 0⟩ : V3 ℝ) ^ 2 = 1 / 20 := by
    rw [sq, V3.norm_sq]; norm_num [V3.sqNorm, V3.dot]
  have hw0 := V3.norm_nonneg (⟨-1 / 5, -1 / 10, 0⟩ : V3 ℝ)
  obtain ⟨x, hxdef⟩ : ∃ x : V3 ℝ, x = midge.base.position + V3.smul (1 + 1 / 200) ⟨2 / 25, 3 / 50, 0⟩ := ⟨_, rfl⟩
  obtain ⟨-, h2, st', k', h3, h4, -, -, h5⟩ := C76_negation_hull { (Moving.loop : Loop ℝ) with target := x }
    ⟨[("midge", 0)], false, [0]⟩ "midge" [.hull midge, .ellipsoid e] ⟨⟨Pose.ofPosition x, V3.zero, V3.zero⟩, 0, some 1, 0⟩
    0 1 midge e ⟨2 / 25, 3 / 50, 0⟩ ⟨-1 / 5, -1 / 10, 0⟩ 1 (1 / 200) midge_flat rfl rfl (by simp [Env.find]) rfl rfl rfl rfl
    (by norm_num) rfl rfl
    (by
      intro m hm
      have : m = lit 100 1 := (Option.some.inj hm).symm
      rw [this]; norm_num)
    rfl
    ⟨⟨1 / 10, Real.pi / 2, Real.pi / 2⟩, by rw [midge_column]; rfl, hrn.symm⟩
    ⟨⟨0, 1 / 10, 0⟩, ⟨-1 / 5, 0, 0⟩, by rw [midge_column]; rfl, by rw [midge_column]; rfl, by ext <;> norm_num⟩
    (by nlinarith) (by nlinarith) (by norm_num [DOA.Props.turn]) hxdef rfl
    (by show 0 < (Moving.loop : Loop ℝ).dt * (Moving.loop : Loop ℝ).gain * 1; rw [hdt, hg]; norm_num)
    (by show (Moving.loop : Loop ℝ).dt * (Moving.loop : Loop ℝ).gain * 1 ≤ 1; rw [hdt, hg]; norm_num)
    (by norm_num)
    (by
      show 1 / 200 < (1 - V3.norm (⟨-1 / 5, -1 / 10, 0⟩ : V3 ℝ) ^ 2) * ((Moving.loop : Loop ℝ).dt * (Moving.loop : Loop ℝ).gain * 1)
      rw [hdt, hg, hw2]; norm_num)
  have hgoal : midge.base.position + V3.smul 1 (⟨2 / 25, 3 / 50, 0⟩ : V3 ℝ) = ⟨2 / 25, 3 / 50, 0⟩ := by
    ext <;> simp [V3.smul, hx, V3.zero]
  rw [hgoal] at h3
  exact ⟨{ (Moving.loop : Loop ℝ) with target := x }, ⟨⟨Pose.ofPosition x, V3.zero, V3.zero⟩, 0, some 1, 0⟩, hg, hdt, rfl, h2,
    st', k', h3, h4, h5⟩

end DOA.Props
