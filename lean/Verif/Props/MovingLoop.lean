import Verif.Props.Speed
import Verif.Props.Moving
import Verif.Props.Loop

/-!
# C76: the control loop with a moving obstacle
-/

set_option linter.unusedSectionVars false
set_option linter.unusedSimpArgs false

namespace DOA.Props
open DOA DOA.Spec DOA.Modulation DOA.Ellipsoid

/-- The obstacle `e` at another place `y`, with velocity `w` and the reference point at its centre. -/
def placed (e : Ellipsoid ℝ) (y w : V3 ℝ) : Ellipsoid ℝ :=
  { e with base := { e.base with state := (e.base.state.setLinearVelocity w).setPosition y, refPos := some y } }

theorem placed_smooth {e : Ellipsoid ℝ} {m : ℝ} {k : ℕ} (sm : Smooth e m k) (y w : V3 ℝ) : Smooth (placed e y w) m k :=
  ⟨sm.curv, sm.unit, sm.long, sm.exact_⟩

theorem placed_between {e : Ellipsoid ℝ} {m l L : ℝ} (hb : Between e m l L) (y w : V3 ℝ) :
    Between (placed e y w) m l L :=
  ⟨hb.pos, hb.x_ge, hb.y_ge, hb.x_le, hb.y_le⟩

/-- only the relative position matters -/
theorem gdist_placed {e : Ellipsoid ℝ} {m : ℝ} {k : ℕ} (sm : Smooth e m k) (y u w w' x : V3 ℝ) :
    gdist (placed e (y + u) w') m x = gdist (placed e y w) m (x - u) := by
  rw [gdist, gdist, distance_frame _ _ _ k k k (placed_smooth sm _ _).curv (placed_smooth sm _ _).long,
    distance_frame _ _ _ k k k (placed_smooth sm _ _).curv (placed_smooth sm _ _).long]
  have h1 : (placed e (y + u) w').base.pose.inverse.apply x = (placed e y w).base.pose.inverse.apply (x - u) := by
    show e.base.pose.orientation.conjugate.rotate x + e.base.pose.orientation.conjugate.rotate (-(y + u)) =
      e.base.pose.orientation.conjugate.rotate (x - u) + e.base.pose.orientation.conjugate.rotate (-y)
    rw [Quat.rotate_neg, Quat.rotate_neg, Quat.rotate_add, Quat.rotate_sub]
    v3_ring
  rw [h1]
  rfl

/-- The velocity computed for one obstacle that may move but does not turn. -/
theorem moving_out (h : Heap ℝ) (a : Agent ℝ) (E : Env) (e : Ellipsoid ℝ) (k : ℕ) (p : Ptr) (l L κ : ℝ)
    (rep : Bool) (critical power s : ℝ) (hl : E.list = [p]) (hp : h[p]? = some (.ellipsoid e))
    (hang : e.base.state.angularVelocity = V3.zero) (sm : Smooth e a.margin k) (hb : Between e a.margin l L)
    (hκ : Aspect l L κ k) (href : e.base.refPos = some e.base.position)
    (hpl : InPlane e a.state.position e.base.position) (hd : 0 < gdist e a.margin a.state.position)
    (hs : s = Real.exp (-(max 1 (gdist e a.margin a.state.position) - 1)))
    (hz : (a.state.linearVelocity - V3.smul s e.base.state.linearVelocity).z = 0) :
    ∃ (M : M3 ℝ) (n err ρ : V3 ℝ) (c : ℝ), V3.norm n = 1 ∧ 0 < c ∧
      (∀ u, Slope e a.margin a.state.position u (c * V3.dot n u)) ∧
      (∀ u, V3.dot n (M.mulVec u) = max 0 (1 - 1 / gdist e a.margin a.state.position) * V3.dot n u) ∧
      (∀ u, V3.norm (M.mulVec u) ≤ 2 * κ * V3.norm u) ∧
      (1 ≤ gdist e a.margin a.state.position → ∀ u, (1 - κ / gdist e a.margin a.state.position) * V3.sqNorm u ≤
        V3.dot u (M.mulVec u)) ∧
      V3.norm err ≤ 1 / 10 ^ 8 * V3.norm (M.mulVec (a.state.linearVelocity - V3.smul s e.base.state.linearVelocity)) ∧
      0 ≤ V3.dot n ρ ∧ (ρ = V3.zero ∨ (gdist e a.margin a.state.position < 11 / 10 ∧
        ρ = V3.smul (2 / gdist e a.margin a.state.position) (a.state.position - e.base.position))) ∧
      (rep = true → gdist e a.margin a.state.position < 11 / 10 →
        1 / 10000 < V3.norm (V3.smul (2 / gdist e a.margin a.state.position) (a.state.position - e.base.position)) →
        ρ = V3.smul (2 / gdist e a.margin a.state.position) (a.state.position - e.base.position)) ∧
      modulateVelocity h a E false rep false critical power =
        .ok (h, M.mulVec (a.state.linearVelocity - V3.smul s e.base.state.linearVelocity) + err + ρ +
          V3.smul s e.base.state.linearVelocity) := by
  obtain ⟨M, B, n, c, hm, hn, hc, hsl, hsn, hform⟩ := planar_form h a e k l L κ sm hb hκ href hpl hd
  obtain ⟨M1, B1, hm1, hnorm⟩ := C75_speed_partial h a e k l L κ sm hb hκ href hpl hd
  have hfwd : 1 ≤ gdist e a.margin a.state.position → ∀ u, (1 - κ / gdist e a.margin a.state.position) * V3.sqNorm u ≤
        V3.dot u (M.mulVec u) := by
    intro h1
    obtain ⟨M2, B2, hm2, h2⟩ := C75_forward_partial h a e k l L κ sm hb hκ href hpl h1
    rw [hm] at hm2
    simp only [Res.ok.injEq, Prod.mk.injEq] at hm2
    obtain ⟨rfl, -, -⟩ := hm2
    exact h2
  rw [hm] at hm1
  simp only [Res.ok.injEq, Prod.mk.injEq] at hm1
  obtain ⟨rfl, -, -⟩ := hm1
  have hgt : gdist e a.margin e.base.position < gdist e a.margin a.state.position := by rw [gdist_centre sm]; exact hd
  have hB : Orthonormal B := C44_orthonormal h a e e.base.position k M B _ sm href hgt hpl.1 hm
  set d := gdist e a.margin a.state.position with hdd
  set w := e.base.state.linearVelocity with hw
  set v := a.state.linearVelocity with hv
  have hits : E.list.mapM (itemOf h a) = .ok [⟨e.base, M, B, d⟩] := by
    rw [hl, mapM_ok]; exact .cons (itemOf_ok hp hm) .nil
  have hout := modulate_plain h a E false critical power _ (by rw [hl]; simp) (by intro h; cases h) hits
  rw [combine_eq] at hout
  have hov : obsVel a.state.position [(⟨e.base, M, B, d⟩ : Item ℝ)] critical power = V3.smul s w := by
    unfold obsVel
    simp only [List.map_cons, List.map_nil]
    rw [V3.lsum_cons, V3.lsum_nil, V3.add_zero', weightOf_single, obstacleVelocity_eq hB, one_mul, ← hs]
    congr 1
    unfold pointVelocity
    rw [hang, ← hw]
    ext <;> simp [V3.cross, V3.zero]
  have hpairs : pairs [(⟨e.base, M, B, d⟩ : Item ℝ)] critical power = [(M, 1)] := by
    unfold pairs
    simp only [List.map_cons, List.map_nil, weightOf_single]
  rw [hov, hpairs] at hout
  obtain ⟨-, c2, -⟩ := core_single hz (M := M) fun c hc hne =>
    matrix_not_opposite (o := .ellipsoid e) sm.unit hm _ c hc hne
  set mv := core (v - V3.smul s w) [(M, 1)] with hmv
  have hdot : ∀ u, V3.dot n (M.mulVec u) = max 0 (1 - 1 / d) * V3.dot n u := by
    intro u
    rw [hform u, V3.dot_sub, V3.dot_smul, V3.dot_smul]
    have h0 := hsn.1.ne'
    field_simp
    ring
  have e1 : mv + V3.smul s w = M.mulVec (v - V3.smul s w) + (mv - M.mulVec (v - V3.smul s w)) + V3.zero + V3.smul s w := by
    rw [V3.add_zero']; v3_ring
  have hdz : V3.dot n V3.zero = 0 := by simp [V3.dot, V3.zero]
  refine ⟨M, n, mv - M.mulVec (v - V3.smul s w), ?_⟩
  cases rep with
  | false =>
    refine ⟨V3.zero, c, hn, hc, hsl, hdot, hnorm, hfwd, c2, hdz.ge, Or.inl rfl, (fun h => by cases h), ?_⟩
    rw [← e1]; exact hout
  | true =>
    by_cases hnear : d < 11 / 10
    · have h3 := C42_near h e e.base.position a.state.position a.margin (11 / 10) href hnear
      have h7 := C42_added h h a E false false critical power _ [_] (by rw [hl]; simp) (by intro h; cases h) hout
        (by rw [hl]; exact .cons ⟨_, hp, h3⟩ .nil)
      rw [V3.lsum_cons, V3.lsum_nil, V3.add_zero', ← hdd] at h7
      by_cases hbig : 1 / 10000 < V3.norm (V3.smul (2 / d) (a.state.position - e.base.position))
      · rw [if_pos hbig] at h7
        refine ⟨_, c, hn, hc, hsl, hdot, hnorm, hfwd, c2, ?_, Or.inr ⟨hnear, rfl⟩, (fun _ _ _ => rfl), ?_⟩
        · rw [V3.dot_smul]; exact mul_nonneg (by positivity) hsn.1.le
        · rw [h7]; congr 2; v3_ring
      · rw [if_neg hbig] at h7
        refine ⟨V3.zero, c, hn, hc, hsl, hdot, hnorm, hfwd, c2, hdz.ge, Or.inl rfl, (fun _ _ hb => absurd hb hbig), ?_⟩
        rw [← e1]; exact h7
    · have h3 := C42_far h (.ellipsoid e) a.state.position a.margin (11 / 10) _ rfl hnear
      have h7 := C42_added h h a E false false critical power _ [V3.zero] (by rw [hl]; simp) (by intro h; cases h) hout
        (by rw [hl]; exact .cons ⟨_, hp, h3⟩ .nil)
      rw [V3.lsum_cons, V3.lsum_nil, V3.add_zero', if_neg (by
        rw [show V3.norm (V3.zero : V3 ℝ) = 0 from V3.norm_eq_zero.mpr rfl]; norm_num)] at h7
      refine ⟨V3.zero, c, hn, hc, hsl, hdot, hnorm, hfwd, c2, hdz.ge, Or.inl rfl, (fun _ hb => absurd hb hnear), ?_⟩
      rw [← e1]; exact h7

/-- What is fixed during the loop: `e` is the obstacle, `l` and `L` are its smallest and largest half lengths in the
plane, `κ` measures how much they differ. -/
structure MovingSetup (c : Loop ℝ) (E : Env) (name : String) (goal : V3 ℝ) (e : Ellipsoid ℝ) (p : Ptr)
    (m l L κ : ℝ) (k : ℕ) : Prop where
  list : E.list = [p]
  found : Env.find E.map name = some p
  orient_x : e.base.pose.orientation.x = 0
  orient_y : e.base.pose.orientation.y = 0
  ang : e.base.state.angularVelocity = V3.zero
  smooth : Smooth e m k
  between : Between e m l L
  aspect : Aspect l L κ k
  goal_z : goal.z = 0
  target_z : c.target.z = 0
  notLocal : c.isLocal = false
  notPlanar : c.planar = false
  repulsion : c.addRepulsion = true
  dt : 0 ≤ c.dt

/-- At the beginning of an iteration the obstacle is at `y`. -/
def OnMove (e : Ellipsoid ℝ) (p : Ptr) (m : ℝ) (y : V3 ℝ) (s : Heap ℝ × Agent ℝ) : Prop :=
  y.z = 0 ∧ ∃ w : V3 ℝ, w.z = 0 ∧ OnLoop (placed e y w) p m s

/-- The distance of the agent from the obstacle at `y`. -/
noncomputable def apart (e : Ellipsoid ℝ) (m : ℝ) (y x : V3 ℝ) : ℝ := gdist (placed e y V3.zero) m x

theorem apart_eq (e : Ellipsoid ℝ) (m : ℝ) (y w x : V3 ℝ) : gdist (placed e y w) m x = apart e m y x := rfl

theorem placed_plane {c : Loop ℝ} {E : Env} {name : String} {goal : V3 ℝ} {e : Ellipsoid ℝ} {p : Ptr} {m l L κ : ℝ}
    {k : ℕ} (hc : MovingSetup c E name goal e p m l L κ k) {y w : V3 ℝ} (hy : y.z = 0) (hw : w.z = 0) :
    InPlaneZ (placed e y w).base :=
  ⟨hc.orient_x, hc.orient_y, hy, (fun v hv => by cases hv; exact hy), hw,
    (by show e.base.state.angularVelocity.x = 0; rw [hc.ang]; rfl),
    (by show e.base.state.angularVelocity.y = 0; rw [hc.ang]; rfl)⟩

theorem plane_of {b : Ellipsoid ℝ} {m : ℝ} {k : ℕ} (sm : Smooth b m k) (hb : InPlaneZ b.base) {x : V3 ℝ} (hx : x.z = 0) :
    (∃ p q, x = b.base.pose.apply ⟨p, q, 0⟩) ∧ (b.base.pose.inverse.apply x).z = 0 := by
  have h1 := flat_apply (flat_inversePose hb.pose) hx
  refine ⟨⟨(b.base.pose.inverse.apply x).x, (b.base.pose.inverse.apply x).y, ?_⟩, h1⟩
  have h2 : (⟨(b.base.pose.inverse.apply x).x, (b.base.pose.inverse.apply x).y, 0⟩ : V3 ℝ) =
      b.base.pose.inverse.apply x := by ext <;> simp [h1]
  rw [h2, Pose.apply_apply_inverse (unit' sm)]

/-- One iteration, given the result of `modulate_velocity`. -/
theorem moving_mech {c : Loop ℝ} {E : Env} {name : String} {goal : V3 ℝ} {e : Ellipsoid ℝ} {p : Ptr} {m l L κ : ℝ}
    {k : ℕ} (hc : MovingSetup c E name goal e p m l L κ k) {y : V3 ℝ} {st : Heap ℝ × Agent ℝ} (hs : OnMove e p m y st)
    {w : V3 ℝ} (hw : w = V3.smul (-c.gain) (y - goal)) :
    ∃ (h2 : Heap ℝ) (a1 : Agent ℝ), h2[p]? = some (.ellipsoid (placed e y w)) ∧ a1.margin = m ∧
      a1.state.position = st.2.state.position ∧ a1.state.linearVelocity = c.desired st.2.state.position ∧
      InPlaneZ (placed e y w).base ∧
      ∀ out, modulateVelocity h2 a1 E false c.addRepulsion false c.critical c.power = .ok (h2, out) →
        ∃ st', c.iterateMoving E name goal st = .ok st' ∧ OnMove e p m (y + V3.smul c.dt w) st' ∧
          st'.2.state.position = st.2.state.position + V3.smul c.dt (c.limit out) := by
  obtain ⟨hy, w0, hw0, hon⟩ := hs
  have hwz : w.z = 0 := by
    rw [hw]; simp only [V3.smul, V3.sub_z, hy, hc.goal_z]; ring
  set x := st.2.state.position with hx
  set v := c.desired x with hv
  have hvz : v.z = 0 := desired_flat c hc.target_z hon.flat
  obtain ⟨h1, hset, hon1⟩ := withState_onLoop hon (st.2.state.setLinearVelocity v) hon.flat
  set a1 : Agent ℝ := { st.2 with state := st.2.state.setLinearVelocity v } with ha1
  have hmar : a1.margin = m := hon.margin
  -- the obstacle gets its velocity
  have hlt : p < h1.length := by
    by_contra hn
    have := hon1.obj
    rw [List.getElem?_eq_none (Nat.le_of_not_lt hn)] at this
    cases this
  set h2 : Heap ℝ := h1.set p (.ellipsoid (placed e y w)) with hh2
  have hon2 : OnLoop (placed e y w) p m (h2, a1) := by
    obtain ⟨q, env, hqp, hq, henv⟩ := hon1.envelope
    refine ⟨List.getElem?_set_self hlt, ⟨q, env, hqp, hq, ?_⟩, hon1.margin, hon1.flat⟩
    show (h1.set p _)[q]? = _
    rw [List.getElem?_set_ne (Ne.symm hqp)]
    exact henv
  have hplz := placed_plane hc hy hwz
  refine ⟨h2, a1, hon2.obj, hmar, rfl, rfl, hplz, fun out hmod => ?_⟩
  have hout : out.z = 0 := by
    refine C48_planar_partial h2 h2 a1 E false c.addRepulsion false c.critical c.power _ hon.flat hvz ?_ hmod
    intro q hq o ho
    rw [hc.list] at hq
    simp only [List.mem_singleton] at hq
    subst hq
    rw [hon2.obj] at ho
    cases ho
    refine ⟨hplz, ?_⟩
    show e.curv.z ≠ 1 / 2
    rw [hc.smooth.curv.1]
    have hk : (1 : ℝ) ≤ k := by exact_mod_cast hc.smooth.curv.2.1
    show (k : ℝ) ≠ 1 / 2
    linarith
  have hlim : (c.limit out).z = 0 := by
    unfold Loop.limit
    split
    · exact hout
    · split
      · unfold V3.normalized
        split <;> simp [V3.smul, V3.sdiv, hout]
      · exact hout
  obtain ⟨h3, hset3, hon3⟩ := withState_onLoop hon2 (a1.state.setPosition (x + V3.smul c.dt (c.limit out))) (by
    show (x + _).z = 0
    simp only [V3.add_z, V3.smul, hlim, mul_zero, add_zero]
    exact hon.flat)
  set a3 : Agent ℝ := { a1 with state := a1.state.setPosition (x + V3.smul c.dt (c.limit out)) } with ha3
  have hlt3 : p < h3.length := by
    by_contra hn
    have := hon3.obj
    rw [List.getElem?_eq_none (Nat.le_of_not_lt hn)] at this
    cases this
  refine ⟨((h3.set p (.ellipsoid (placed e (y + V3.smul c.dt w) w))), a3), ?_, ⟨?_, w, hwz, ?_⟩, rfl⟩
  · have hlook : E.lookup st.1 name = .ok p := by
      simp [Env.lookup, Env.lookupSlot, Env.readSlot, hc.found]
    have hset' : Agent.setLinearVelocity st.1 st.2 v = .ok (h1, a1) := hset
    have hset3' : Agent.setPosition h2 a1 (x + V3.smul c.dt (c.limit out)) = .ok (h3, a3) := hset3
    unfold Loop.iterateMoving
    rw [hlook]
    simp only [Res.ok_bind, Heap.deref, hon.obj]
    rw [← hx, ← hv, hset']
    simp only [Res.ok_bind, hon1.obj]
    have hpo : (Obj.ellipsoid (placed e y w0)).position = y := rfl
    have eh2 : h1.set p ((Obj.ellipsoid (placed e y w0)).mapBase (·.setLinearVelocity w)) = h2 := rfl
    simp only [hpo, ← hw]
    rw [eh2, hc.notLocal, hc.notPlanar, hmod]
    simp only [Res.ok_bind, hset3', hon3.obj]
    have hsr : Heap.setRef (h3.set p ((Obj.ellipsoid (placed e y w)).mapBase (·.setPosition (y + V3.smul c.dt w)))) p
        (y + V3.smul c.dt w) = .ok (h3.set p (.ellipsoid (placed e (y + V3.smul c.dt w) w))) := by
      simp only [Heap.setRef, Heap.fuel, Heap.setRefAux, Heap.deref]
      rw [List.getElem?_set_self hlt3]
      simp only [Obj.mapBase, Res.ok_bind, List.set_set]
      rfl
    show (do
      let h3 ← Heap.setRef (h3.set p ((Obj.ellipsoid (placed e y w)).mapBase (·.setPosition (y + V3.smul c.dt w)))) p
        (y + V3.smul c.dt w)
      Res.ok (h3, a3)) = _
    rw [hsr]
    rfl
  · simp only [V3.add_z, V3.smul, hy, hwz, mul_zero, add_zero]
  · obtain ⟨q, env, hqp, hq, henv⟩ := hon3.envelope
    refine ⟨List.getElem?_set_self hlt3, ⟨q, env, hqp, hq, ?_⟩, hon3.margin, hon3.flat⟩
    show (h3.set p _)[q]? = _
    rw [List.getElem?_set_ne (Ne.symm hqp)]
    exact henv

/-- One iteration: `w` is the velocity of the obstacle, `u` the velocity relative to it, `f` the distance. -/
theorem moving_iterate {c : Loop ℝ} {E : Env} {name : String} {goal : V3 ℝ} {e : Ellipsoid ℝ} {p : Ptr} {m l L κ : ℝ}
    {k : ℕ} (hc : MovingSetup c E name goal e p m l L κ k) {y : V3 ℝ} {st : Heap ℝ × Agent ℝ} (hs : OnMove e p m y st)
    {w u : V3 ℝ} {f s : ℝ} (hw : w = V3.smul (-c.gain) (y - goal)) (hf : f = apart e m y st.2.state.position)
    (hpos : 0 < f) (hse : s = Real.exp (-(max 1 f - 1))) (hu : u = c.desired st.2.state.position - V3.smul s w) :
    ∃ (M : M3 ℝ) (n err ρ : V3 ℝ) (c0 : ℝ) (st' : Heap ℝ × Agent ℝ), V3.norm n = 1 ∧ 0 < c0 ∧
      (∀ u, Slope (placed e y w) m st.2.state.position u (c0 * V3.dot n u)) ∧
      (∀ u, V3.dot n (M.mulVec u) = max 0 (1 - 1 / f) * V3.dot n u) ∧
      (∀ u, V3.norm (M.mulVec u) ≤ 2 * κ * V3.norm u) ∧
      (1 ≤ f → ∀ u, (1 - κ / f) * V3.sqNorm u ≤ V3.dot u (M.mulVec u)) ∧
      V3.norm err ≤ 1 / 10 ^ 8 * V3.norm (M.mulVec u) ∧
      0 ≤ V3.dot n ρ ∧ (ρ = V3.zero ∨ (f < 11 / 10 ∧ ρ = V3.smul (2 / f) (st.2.state.position - y))) ∧
      (f < 11 / 10 → 1 / 10000 < V3.norm (V3.smul (2 / f) (st.2.state.position - y)) →
        ρ = V3.smul (2 / f) (st.2.state.position - y)) ∧
      c.iterateMoving E name goal st = .ok st' ∧ OnMove e p m (y + V3.smul c.dt w) st' ∧
      st'.2.state.position = st.2.state.position +
        V3.smul c.dt (c.limit (M.mulVec u + err + ρ + V3.smul s w)) := by
  obtain ⟨h2, a1, hobj, hmar, hpos1, hvel1, hplz, hmech⟩ := moving_mech hc hs hw
  have smp := placed_smooth hc.smooth y w
  have hxz : st.2.state.position.z = 0 := by
    obtain ⟨-, w0, -, h0⟩ := hs
    exact h0.flat
  have hwz : w.z = 0 := hplz.vel
  have hvz : (c.desired st.2.state.position).z = 0 := desired_flat c hc.target_z hxz
  have hpl : InPlane (placed e y w) st.2.state.position (placed e y w).base.position :=
    ⟨(plane_of smp hplz hxz).1, (plane_of smp hplz hs.1).1⟩
  have hfe : f = gdist (placed e y w) a1.margin a1.state.position := by rw [hf, hmar, hpos1]; rfl
  obtain ⟨M, n, err, ρ, c0, q1, q2, q3, q4, q5, q6, q7, q8, q9, q10, hmod⟩ := moving_out h2 a1 E (placed e y w) k p l L κ
    c.addRepulsion c.critical c.power s hc.list hobj hc.ang (by rw [hmar]; exact smp)
    (by rw [hmar]; exact placed_between hc.between y w) hc.aspect rfl (by rw [hpos1]; exact hpl) (by rw [← hfe]; exact hpos)
    (by rw [← hfe]; exact hse)
    (by rw [hvel1]
        show (c.desired st.2.state.position).z - (V3.smul s w).z = 0
        simp only [hvz, V3.smul, hwz, mul_zero, sub_zero])
  rw [← hfe] at q4 q6 q9 q10
  rw [hpos1] at q9 q10
  have hvel : a1.state.linearVelocity - V3.smul s (placed e y w).base.state.linearVelocity = u := by rw [hu, hvel1]; rfl
  have hwe : (placed e y w).base.state.linearVelocity = w := rfl
  rw [hvel, hwe] at hmod
  rw [hvel] at q7
  rw [hmar, hpos1] at q3
  obtain ⟨st', g1, g2, g3⟩ := hmech _ hmod
  exact ⟨M, n, err, ρ, c0, st', q1, q2, q3, q4, q5, q6, q7, q8, q9, q10 hc.repulsion, g1, g2, g3⟩

/-- Near the obstacle means near its centre. -/
theorem near_centre {e : Ellipsoid ℝ} {m l L T : ℝ} {k : ℕ} (sm : Smooth e m k) (hb : Between e m l L) {x : V3 ℝ}
    (hz : (e.base.pose.inverse.apply x).z = 0) (hT : 1 ≤ T) (hx : gdist e m x ≤ T) :
    V3.norm (x - e.base.position) ≤ 3 / 2 * L * T := by
  have hL : 0 < L := lt_of_lt_of_le hb.pos (le_trans hb.x_ge hb.x_le)
  have hX : 0 < (halfLengths e (V3.const m)).x := lt_of_lt_of_le hb.pos hb.x_ge
  have hY : 0 < (halfLengths e (V3.const m)).y := lt_of_lt_of_le hb.pos hb.y_ge
  have hyx : e.base.pose.orientation.conjugate.rotate (x - e.base.position) = e.base.pose.inverse.apply x := by
    rw [Quat.rotate_sub]
    simp only [Pose.apply, Pose.inverse, Quat.rotate_neg]
    show _ - e.base.pose.orientation.conjugate.rotate e.base.pose.position = _
    v3_ring
  rw [gdist, distance_frame e _ _ k k k sm.curv sm.long] at hx
  rw [← Quat.norm_rotate (unit' sm).conjugate, hyx]
  generalize e.base.pose.inverse.apply x = y at hx hz
  obtain ⟨bl, bx, by', bX, bY⟩ := hb
  generalize halfLengths e (V3.const m) = Λ at *
  have hk := sm.curv.2.1
  have key : ∀ t : ℝ, t ^ (2 * k) ≤ T → t ^ 2 ≤ T := by
    intro t ht
    by_contra hn
    rw [not_le] at hn
    rw [pow_mul] at ht
    have h1 : 1 ≤ t ^ 2 := by linarith
    have h2 : (t ^ 2) ^ 1 ≤ (t ^ 2) ^ k := pow_le_pow_right₀ h1 hk
    rw [pow_one] at h2
    linarith
  have h1 : 0 ≤ (y.x / Λ.x) ^ (2 * k) := (even_two_mul k).pow_nonneg _
  have h2 : 0 ≤ (y.y / Λ.y) ^ (2 * k) := (even_two_mul k).pow_nonneg _
  have h3 : 0 ≤ (y.z / Λ.z) ^ (2 * k) := (even_two_mul k).pow_nonneg _
  unfold level at hx
  have k1 := key (y.x / Λ.x) (by linarith)
  have k2 := key (y.y / Λ.y) (by linarith)
  have e1 : y.x * y.x ≤ T * L ^ 2 := by
    have : y.x * y.x = (y.x / Λ.x) ^ 2 * Λ.x ^ 2 := by field_simp
    rw [this]
    exact mul_le_mul k1 (by nlinarith) (by positivity) (by linarith)
  have e2 : y.y * y.y ≤ T * L ^ 2 := by
    have : y.y * y.y = (y.y / Λ.y) ^ 2 * Λ.y ^ 2 := by field_simp
    rw [this]
    exact mul_le_mul k2 (by nlinarith) (by positivity) (by linarith)
  rw [V3.norm, CMath.sqrt]
  refine Real.sqrt_le_iff.mpr ⟨by positivity, ?_⟩
  simp only [V3.sqNorm, V3.dot, hz]
  have h4 : T * L ^ 2 ≤ T * L ^ 2 * T := by nlinarith [mul_pos (by linarith : 0 < T) (pow_pos hL 2)]
  nlinarith

/-- The speeds of the agent and of the obstacle, and what is required of them in one step. -/
structure ShortStep (c : Loop ℝ) (l L κ : ℝ) (k : ℕ) (V W : ℝ) : Prop where
  step : 2 * k * (c.dt * ((1 + 22 / 10 ^ 8 * κ) * (V + W) + 2 * W)) < l
  error : 22 / 10 ^ 9 * κ * k * (V + W) ≤ l
  limit : ∀ mv, c.maxVel = some mv → 2 * κ * (1 + 1 / 10 ^ 8) * (V + W) + W + 33 / 10 * L ≤ mv

theorem decay_bound {f : ℝ} (hf : 1 < f) : (1 - Real.exp (-(f - 1))) * f ≤ 2 * (f - 1) := by
  have h1 : 2 - f ≤ Real.exp (-(f - 1)) := by linarith [Real.add_one_le_exp (-(f - 1))]
  have h2 := Real.exp_pos (-(f - 1))
  rcases le_total f 2 with h | h
  · nlinarith
  · nlinarith

/-- The distance after a step relative to the obstacle. -/
theorem moving_distance {b : Ellipsoid ℝ} {m l L κ : ℝ} {k : ℕ} (sm : Smooth b m k) (hb : Between b m l L)
    (hlk : 11 / 10 ^ 5 * k < l) {x n u err ρ w : V3 ℝ} {M : M3 ℝ} {c0 f s t V W : ℝ}
    (hz : (b.base.pose.inverse.apply x).z = 0) (hfe : gdist b m x = f) (hout : 1 < f)
    (hse : s = Real.exp (-(f - 1))) (ht : 0 ≤ t) (q1 : V3.norm n = 1) (q2 : 0 < c0)
    (q3 : ∀ u, Slope b m x u (c0 * V3.dot n u)) (q4 : V3.dot n (M.mulVec u) = (1 - 1 / f) * V3.dot n u)
    (hun : V3.norm u ≤ V + W) (hwn : V3.norm w = W) (herrn : V3.norm err ≤ 2 / 10 ^ 8 * κ * (V + W))
    (q8 : 0 ≤ V3.dot n ρ)
    (q10 : f < 11 / 10 → 1 / 10000 < V3.norm (V3.smul (2 / f) (x - b.base.position)) →
        ρ = V3.smul (2 / f) (x - b.base.position))
    (hst : 2 * k * (t * ((1 + 22 / 10 ^ 8 * κ) * (V + W) + 2 * W)) < l) (herr : 22 / 10 ^ 9 * κ * k * (V + W) ≤ l) :
    1 < gdist b m (x + V3.smul t (M.mulVec u + err + ρ - V3.smul (1 - s) w)) := by
  set δ := V3.smul t (M.mulVec u + err + ρ - V3.smul (1 - s) w) with hδ
  have hl := hb.pos
  have hk1 : (1 : ℝ) ≤ k := by exact_mod_cast sm.curv.2.1
  have hs1 : s ≤ 1 := by rw [hse, Real.exp_le_one_iff]; linarith
  have hW0 : 0 ≤ W := by rw [← hwn]; exact V3.norm_nonneg w
  have htan := gdist_tangent sm (q3 δ)
  rw [hfe] at htan
  refine lt_of_lt_of_le ?_ htan
  have hnδ : V3.dot n δ = t * ((1 - 1 / f) * V3.dot n u + V3.dot n err + V3.dot n ρ - (1 - s) * V3.dot n w) := by
    have e2 : V3.dot n δ = t * (V3.dot n (M.mulVec u) + V3.dot n err + V3.dot n ρ - (1 - s) * V3.dot n w) := by
      rw [hδ]
      simp only [V3.dot, V3.smul, V3.add_x, V3.add_y, V3.add_z, V3.sub_x, V3.sub_y, V3.sub_z]; ring
    rw [e2, q4]
  have hcs : ∀ a : V3 ℝ, |V3.dot n a| ≤ V3.norm a := by
    intro a
    have h1 := V3.cauchy_schwarz n a
    rw [(V3.norm_eq_one_iff n).mp q1, one_mul, ← V3.norm_sq] at h1
    exact abs_le_of_sq_le_sq (by nlinarith) (V3.norm_nonneg a)
  have hc0 : c0 ≤ 2 * k / l * f := by
    have h1 := slope_flat sm (q3 n) hb hz
    rw [V3.dot_self_eq, (V3.norm_eq_one_iff n).mp q1, q1, hfe, max_eq_right hout.le, mul_one, abs_of_pos q2] at h1
    refine le_trans h1 (le_of_eq ?_)
    ring
  set C := 2 * k / l with hC
  have hC0 : 0 < C := by positivity
  have hsf : (1 - s) * f ≤ 2 * (f - 1) := by rw [hse]; exact decay_bound hout
  have hen := V3.norm_nonneg err
  -- the pieces
  have p1 : -(C * (f - 1) * V3.norm u) ≤ c0 * ((1 - 1 / f) * V3.dot n u) := by
    have h1 := (abs_le.mp (hcs u)).1
    have h2 : 0 ≤ 1 - 1 / f := by
      have : 1 / f ≤ 1 := by rw [div_le_one (by linarith)]; exact hout.le
      linarith
    have h3 : c0 * (1 - 1 / f) ≤ C * (f - 1) := by
      refine le_trans (mul_le_mul_of_nonneg_right hc0 h2) (le_of_eq ?_)
      have : f ≠ 0 := by linarith
      field_simp
    have h4 := mul_le_mul_of_nonneg_left h1 (mul_nonneg q2.le h2)
    have h5 := mul_le_mul_of_nonneg_right h3 (V3.norm_nonneg u)
    linarith
  have p2 : -(C * f * V3.norm err) ≤ c0 * V3.dot n err := by
    have h1 := (abs_le.mp (hcs err)).1
    have h4 := mul_le_mul_of_nonneg_left h1 q2.le
    have h5 := mul_le_mul_of_nonneg_right hc0 hen
    linarith
  have p3 : -(C * (2 * (f - 1)) * W) ≤ c0 * (-((1 - s) * V3.dot n w)) := by
    have h1 := hwn ▸ (abs_le.mp (hcs w)).2
    have h2 : 0 ≤ 1 - s := by linarith
    have h4 := mul_le_mul_of_nonneg_left h1 (mul_nonneg q2.le h2)
    have h5 : c0 * (1 - s) ≤ C * (2 * (f - 1)) := by
      have h6 := mul_le_mul_of_nonneg_right hc0 h2
      have h7 := mul_le_mul_of_nonneg_left hsf hC0.le
      linarith
    have h8 := mul_le_mul_of_nonneg_right h5 hW0
    linarith
  have hshort : t * (C * (V3.norm u + 11 * V3.norm err + 2 * W)) < 1 := by
    have h1 : V3.norm u + 11 * V3.norm err + 2 * W ≤
        (1 + 22 / 10 ^ 8 * κ) * (V + W) + 2 * W := by linarith
    have h2 := mul_le_mul_of_nonneg_left (mul_le_mul_of_nonneg_left h1 hC0.le) ht
    refine lt_of_le_of_lt h2 ?_
    rw [hC]
    have h3 := (div_lt_one hl).mpr hst
    refine lt_of_le_of_lt (le_of_eq ?_) h3
    ring
  have hf1 : 0 < f - 1 := by linarith
  have hsum : c0 * V3.dot n δ = t * (c0 * ((1 - 1 / f) * V3.dot n u) + c0 * V3.dot n err + c0 * V3.dot n ρ +
      c0 * (-((1 - s) * V3.dot n w))) := by rw [hnδ]; ring
  rw [hsum]
  have hun0 := V3.norm_nonneg u
  rcases le_or_gt (11 / 10) f with hfar | hnear
  · have hρ0 := mul_nonneg q2.le q8
    have h1 : -((f - 1) * (C * (V3.norm u + 11 * V3.norm err + 2 * W))) ≤
        c0 * ((1 - 1 / f) * V3.dot n u) + c0 * V3.dot n err + c0 * V3.dot n ρ + c0 * (-((1 - s) * V3.dot n w)) := by
      have h2 : C * f * V3.norm err ≤ C * (11 * (f - 1)) * V3.norm err := by
        refine mul_le_mul_of_nonneg_right (mul_le_mul_of_nonneg_left ?_ hC0.le) hen
        linarith
      linarith
    have h2 := mul_le_mul_of_nonneg_left h1 ht
    have h3 := mul_lt_mul_of_pos_left hshort hf1
    linarith
  · -- the repulsion
    have hny : f ≤ c0 * V3.dot n (x - b.base.position) := by
      have h1 := gdist_tangent sm (slope_smul sm (-1) (q3 (x - b.base.position)))
      have e3 : x + V3.smul (-1) (x - b.base.position) = b.base.position := by
        ext <;> simp only [V3.smul, V3.add_x, V3.add_y, V3.add_z, V3.sub_x, V3.sub_y, V3.sub_z] <;> ring
      have e4 : gdist b m b.base.position = 0 := gdist_centre sm
      rw [e3, hfe, e4] at h1
      linarith
    have hxy : l / (2 * k) ≤ V3.norm (x - b.base.position) := by
      have h1 := (abs_le.mp (hcs (x - b.base.position))).2
      have h2 : f ≤ C * f * V3.norm (x - b.base.position) := by
        have h3 : c0 * V3.dot n (x - b.base.position) ≤ c0 * V3.norm (x - b.base.position) := mul_le_mul_of_nonneg_left h1 q2.le
        have h4 := mul_le_mul_of_nonneg_right hc0 (V3.norm_nonneg (x - b.base.position))
        linarith
      have h5 : f * 1 ≤ f * (C * V3.norm (x - b.base.position)) := by linarith
      have h6 := le_of_mul_le_mul_left h5 (by linarith)
      rw [div_le_iff₀ (by positivity)]
      rw [hC, div_mul_eq_mul_div, le_div_iff₀ hl] at h6
      linarith
    have hbig : 1 / 10000 < V3.norm (V3.smul (2 / f) (x - b.base.position)) := by
      rw [V3.norm_smul, abs_of_pos (by positivity), div_mul_eq_mul_div, lt_div_iff₀ (by linarith)]
      have h1 : 11 / 10 ^ 5 < 2 * (l / (2 * k)) := by
        have : 2 * (l / (2 * k)) = l / k := by field_simp
        rw [this, lt_div_iff₀ (by linarith)]
        exact hlk
      nlinarith
    have hρ2 : 2 ≤ c0 * V3.dot n ρ := by
      rw [q10 hnear hbig, V3.dot_smul]
      have e1 : c0 * (2 / f * V3.dot n (x - b.base.position)) = 2 / f * (c0 * V3.dot n (x - b.base.position)) := by ring
      rw [e1, div_mul_eq_mul_div, le_div_iff₀ (by linarith)]
      linarith
    have herr2 : C * f * V3.norm err ≤ 2 := by
      have h1 : 11 / 10 * (k * V3.norm err) ≤ l := by
        have h2 := mul_le_mul_of_nonneg_left herrn (by positivity : (0 : ℝ) ≤ 11 / 10 * k)
        refine le_trans (le_trans (le_of_eq ?_) (le_trans h2 (le_of_eq ?_))) herr
        · ring
        · ring
      have h2 : C * f * V3.norm err ≤ C * (11 / 10) * V3.norm err :=
        mul_le_mul_of_nonneg_right (mul_le_mul_of_nonneg_left hnear.le hC0.le) hen
      refine le_trans h2 ?_
      rw [hC]
      have e1 : 2 * k / l * (11 / 10) * V3.norm err = 2 * (11 / 10 * (k * V3.norm err)) / l := by ring
      rw [e1, div_le_iff₀ hl]
      linarith
    have h1 : -((f - 1) * (C * (V3.norm u + 11 * V3.norm err + 2 * W))) ≤
        c0 * ((1 - 1 / f) * V3.dot n u) + c0 * V3.dot n err + c0 * V3.dot n ρ + c0 * (-((1 - s) * V3.dot n w)) := by
      have h2 : 0 ≤ (f - 1) * (C * (11 * V3.norm err)) := by positivity
      linarith
    have h2 := mul_le_mul_of_nonneg_left h1 ht
    have h3 := mul_lt_mul_of_pos_left hshort hf1
    linarith

/-- One iteration does not take the agent into the obstacle. -/
theorem moving_stays {c : Loop ℝ} {E : Env} {name : String} {goal : V3 ℝ} {e : Ellipsoid ℝ} {p : Ptr} {m l L κ : ℝ}
    {k : ℕ} (hc : MovingSetup c E name goal e p m l L κ k) (hlk : 11 / 10 ^ 5 * k < l) {y : V3 ℝ}
    {st : Heap ℝ × Agent ℝ} (hs : OnMove e p m y st) {w u : V3 ℝ} {f s : ℝ} (hw : w = V3.smul (-c.gain) (y - goal))
    (hf : f = apart e m y st.2.state.position) (hout : 1 < f) (hse : s = Real.exp (-(max 1 f - 1)))
    (hu : u = c.desired st.2.state.position - V3.smul s w)
    (hstep : ShortStep c l L κ k (V3.norm (c.desired st.2.state.position)) (V3.norm w)) :
    ∃ (M : M3 ℝ) (err ρ : V3 ℝ) (st' : Heap ℝ × Agent ℝ),
      (∀ u, V3.norm (M.mulVec u) ≤ 2 * κ * V3.norm u) ∧
      (∀ u, (1 - κ / f) * V3.sqNorm u ≤ V3.dot u (M.mulVec u)) ∧
      V3.norm err ≤ 1 / 10 ^ 8 * V3.norm (M.mulVec u) ∧ (ρ = V3.zero ∨ f < 11 / 10) ∧
      V3.norm (M.mulVec u + err + ρ + V3.smul s w) ≤
        2 * κ * (1 + 1 / 10 ^ 8) * (V3.norm (c.desired st.2.state.position) + V3.norm w) + V3.norm w + 33 / 10 * L ∧
      c.iterateMoving E name goal st = .ok st' ∧ OnMove e p m (y + V3.smul c.dt w) st' ∧
      st'.2.state.position = st.2.state.position + V3.smul c.dt (M.mulVec u + err + ρ + V3.smul s w) ∧
      1 < apart e m (y + V3.smul c.dt w) st'.2.state.position := by
  obtain ⟨M, n, err, ρ, c0, st', q1, q2, q3, q4, q5, q6, q7, q8, q9, q10, hit, hon, hpos⟩ :=
    moving_iterate hc hs hw hf (by linarith) hse hu
  set x := st.2.state.position with hx
  set v := c.desired x with hv
  obtain ⟨hst, herr, hlim⟩ := hstep
  have hκ := hc.aspect.1
  have hl := hc.between.pos
  have hL : 0 < L := lt_of_lt_of_le hl (le_trans hc.between.x_ge hc.between.x_le)
  have hk1 : (1 : ℝ) ≤ k := by exact_mod_cast hc.smooth.curv.2.1
  have hs0 : 0 < s := by rw [hse]; exact Real.exp_pos _
  have hs1 : s ≤ 1 := by
    rw [hse, Real.exp_le_one_iff]; linarith [le_max_left 1 f]
  have hun : V3.norm u ≤ V3.norm v + V3.norm w := by
    have e1 : u = v + V3.smul (-s) w := by rw [hu]; v3_ring
    rw [e1]
    refine le_trans (norm_add_le' _ _) ?_
    rw [V3.norm_smul, abs_neg, abs_of_pos hs0]
    have := mul_le_mul_of_nonneg_right hs1 (V3.norm_nonneg w)
    linarith
  have hMu : V3.norm (M.mulVec u) ≤ 2 * κ * (V3.norm v + V3.norm w) :=
    le_trans (q5 u) (mul_le_mul_of_nonneg_left hun (by positivity))
  have hwn := V3.norm_nonneg w
  have hvn := V3.norm_nonneg v
  have hyz := hs.1
  have hwz : w.z = 0 := by
    rw [hw]; simp only [V3.smul, V3.sub_z, hyz, hc.goal_z]; ring
  have hxz : x.z = 0 := by
    obtain ⟨w0, -, h0⟩ := hs.2
    exact h0.flat
  have smp := placed_smooth hc.smooth y w
  have hzz := (plane_of smp (placed_plane hc hyz hwz) hxz).2
  have hfe : gdist (placed e y w) m x = f := by rw [hf]; rfl
  have hρn : V3.norm ρ ≤ 33 / 10 * L := by
    rcases q9 with h0 | ⟨h0, h1⟩
    · rw [h0, V3.norm_eq_zero.mpr rfl]; positivity
    · have h2 := near_centre smp (placed_between hc.between y w) hzz (T := 11 / 10) (by norm_num) (by rw [hfe]; exact h0.le)
      have h3 : V3.norm (x - y) ≤ 3 / 2 * L * (11 / 10) := h2
      rw [h1, V3.norm_smul, abs_of_pos (by positivity), div_mul_eq_mul_div, div_le_iff₀ (by linarith)]
      nlinarith
  set out := M.mulVec u + err + ρ + V3.smul s w with houte
  have hon' : V3.norm out ≤ 2 * κ * (1 + 1 / 10 ^ 8) * (V3.norm v + V3.norm w) + V3.norm w + 33 / 10 * L := by
    have h1 := norm_add_le' (M.mulVec u + err + ρ) (V3.smul s w)
    have h2 := norm_add_le' (M.mulVec u + err) ρ
    have h3 := norm_add_le' (M.mulVec u) err
    rw [V3.norm_smul, abs_of_pos hs0] at h1
    have h4 := mul_le_mul_of_nonneg_right hs1 hwn
    rw [← houte] at h1
    linarith
  have hlimit : c.limit out = out := by
    unfold Loop.limit
    cases hm : c.maxVel with
    | none => rfl
    | some mv =>
      simp only []
      rw [if_neg]
      exact not_lt.mpr (le_trans hon' (hlim mv hm))
  rw [hlimit] at hpos
  refine ⟨M, err, ρ, st', q5, q6 hout.le, q7, ?_, hon', hit, hon, hpos, ?_⟩
  · rcases q9 with h0 | ⟨h0, -⟩
    · exact Or.inl h0
    · exact Or.inr h0
  -- the distance afterwards
  have hd' : apart e m (y + V3.smul c.dt w) st'.2.state.position =
      gdist (placed e y w) m (x + V3.smul c.dt (M.mulVec u + err + ρ - V3.smul (1 - s) w)) := by
    unfold apart
    rw [gdist_placed hc.smooth y _ w, hpos]
    congr 1
    rw [houte]
    ext <;> simp only [V3.smul, V3.add_x, V3.add_y, V3.add_z, V3.sub_x, V3.sub_y, V3.sub_z] <;> ring
  rw [hd']
  refine moving_distance smp (placed_between hc.between y w) hlk hzz hfe hout (by rw [hse, max_eq_right hout.le]) hc.dt
    q1 q2 q3 ?_ hun rfl (by linarith) q8 q10 hst herr
  rw [q4 u, max_eq_right]
  have : 1 / f ≤ 1 := by rw [div_le_one (by linarith)]; exact hout.le
  linarith

/-- C76: the loop of testMovingObstacle.cpp, with the obstacle in the list of the environment. The obstacle goes to its
goal and the agent, which wants to go somewhere else, stays outside of it, as long as every step is short for the
speeds of both (`ShortStep`). -/
theorem C76_moving_partial (c : Loop ℝ) (E : Env) (name : String) (goal : V3 ℝ) (e : Ellipsoid ℝ) (p : Ptr) (m l L κ : ℝ)
    (k : ℕ) (hc : MovingSetup c E name goal e p m l L κ k) (hlk : 11 / 10 ^ 5 * k < l) (n : ℕ) :
    ∀ (st : Heap ℝ × Agent ℝ) (y : V3 ℝ), OnMove e p m y st → 1 < apart e m y st.2.state.position →
    (∀ i < n, ∀ st', c.runMoving E name goal i st = .ok st' →
      ShortStep c l L κ k (V3.norm (c.desired st'.2.state.position))
        (V3.norm (V3.smul (-c.gain * (1 - c.dt * c.gain) ^ i) (y - goal)))) →
    ∃ st', c.runMoving E name goal n st = .ok st' ∧
      OnMove e p m (goal + V3.smul ((1 - c.dt * c.gain) ^ n) (y - goal)) st' ∧
      1 < apart e m (goal + V3.smul ((1 - c.dt * c.gain) ^ n) (y - goal)) st'.2.state.position := by
  induction n with
  | zero =>
    intro st y hs h0 _
    have e1 : goal + V3.smul ((1 - c.dt * c.gain) ^ 0) (y - goal) = y := by
      ext <;> simp only [V3.smul, V3.add_x, V3.add_y, V3.add_z, V3.sub_x, V3.sub_y, V3.sub_z] <;> ring
    rw [e1]
    exact ⟨st, rfl, hs, h0⟩
  | succ n ih =>
    intro st y hs h0 hshort
    have h1 := hshort 0 (Nat.succ_pos n) st rfl
    rw [pow_zero, mul_one] at h1
    obtain ⟨M, err, ρ, st1, -, -, -, -, -, hit, hon, -, hap⟩ := moving_stays hc hlk hs rfl rfl h0 rfl rfl h1
    set y1 := y + V3.smul c.dt (V3.smul (-c.gain) (y - goal)) with hy1
    have hyg : y1 - goal = V3.smul (1 - c.dt * c.gain) (y - goal) := by
      rw [hy1]
      ext <;> simp only [V3.smul, V3.add_x, V3.add_y, V3.add_z, V3.sub_x, V3.sub_y, V3.sub_z] <;> ring
    have hpow : ∀ (i : ℕ) (g : ℝ), V3.smul (g * (1 - c.dt * c.gain) ^ i) (y1 - goal) =
        V3.smul (g * (1 - c.dt * c.gain) ^ (i + 1)) (y - goal) := by
      intro i g; rw [hyg]; ext <;> simp only [V3.smul] <;> ring
    obtain ⟨st', g1, g2, g3⟩ := ih st1 y1 hon hap (by
      intro i hi st' hr
      rw [hpow]
      refine hshort (i + 1) (Nat.succ_lt_succ hi) st' ?_
      rw [Loop.runMoving, hit]
      exact hr)
    have e2 := hpow n 1
    rw [one_mul, one_mul] at e2
    rw [e2] at g2 g3
    exact ⟨st', by rw [Loop.runMoving, hit]; exact g1, g2, g3⟩

/-- Conditions that can be checked before the loop starts. `T` is the distance from which on the agent is drawn to its
target, `G` bounds the distance between the target and the path of the obstacle, `Φ` bounds the distance of the agent from
its target plus a multiple of the way the obstacle still has to go. -/
structure Forever (c : Loop ℝ) (goal y0 x0 : V3 ℝ) (l L κ : ℝ) (k : ℕ) (T G Φ : ℝ) : Prop where
  gain : 0 < c.gain
  far : 11 / 10 ≤ T
  turn : κ / 10 ^ 7 ≤ 1 - κ / T
  rate : 4 * κ ^ 2 * (c.dt * c.gain) ≤ 1 - κ / T
  path0 : V3.norm (y0 - c.target) ≤ G
  path1 : V3.norm (goal - c.target) ≤ G
  start : V3.norm (x0 - c.target) + (2 * κ + 6 / 5) * V3.norm (y0 - goal) ≤ Φ
  near : 3 / 2 * L * T + G + c.dt * (2 * κ * (1 + 1 / 10 ^ 8) * (c.gain * Φ) + 33 / 10 * L) +
    (2 * κ + 6 / 5) * V3.norm (y0 - goal) ≤ Φ
  step : 2 * k * (c.dt * c.gain * ((1 + 22 / 10 ^ 8 * κ) * Φ)) < l
  error : 22 / 10 ^ 9 * κ * k * (c.gain * Φ) ≤ l
  limit : ∀ mv, c.maxVel = some mv → 2 * κ * (1 + 1 / 10 ^ 8) * (c.gain * Φ) + 33 / 10 * L ≤ mv

theorem aspect_one {l L κ : ℝ} {k : ℕ} (hl : 0 < l) (hL : l ≤ L) (h : Aspect l L κ k) : 1 ≤ κ := by
  obtain ⟨h0, ⟨-, h1⟩ | ⟨-, h1⟩⟩ := h
  · by_contra hn
    rw [not_le] at hn
    have h2 : 0 < l * L := mul_pos hl (by linarith)
    nlinarith [sq_nonneg (l - L)]
  · nlinarith

/-- the pull towards the target -/
theorem pull {M : M3 ℝ} {X : V3 ℝ} {κ γ τ : ℝ} (hκ : 1 ≤ κ) (hτ : 0 ≤ τ) (hγ1 : γ ≤ 1) (hr : 4 * κ ^ 2 * τ ≤ γ)
    (h1 : V3.norm (M.mulVec X) ≤ 2 * κ * V3.norm X) (h2 : γ * V3.sqNorm X ≤ V3.dot X (M.mulVec X)) :
    V3.norm (X + V3.smul (-τ) (M.mulVec X)) ≤ (1 - τ * γ / 2) * V3.norm X := by
  have hX := V3.norm_nonneg X
  have hτ1 : τ ≤ 1 := by nlinarith
  have hτγ : τ * γ ≤ 1 := by nlinarith
  have h0 : 0 ≤ (1 - τ * γ / 2) * V3.norm X := mul_nonneg (by linarith) hX
  rw [V3.norm, CMath.sqrt]
  refine Real.sqrt_le_iff.mpr ⟨h0, ?_⟩
  have e1 : V3.sqNorm (X + V3.smul (-τ) (M.mulVec X)) =
      V3.sqNorm X - 2 * τ * V3.dot X (M.mulVec X) + τ ^ 2 * V3.sqNorm (M.mulVec X) := by
    simp only [V3.sqNorm, V3.dot, V3.smul, V3.add_x, V3.add_y, V3.add_z]; ring
  rw [e1, mul_pow, ← V3.norm_sq X, ← V3.norm_sq (M.mulVec X)]
  rw [← V3.norm_sq] at h2
  have h3 := mul_self_le_mul_self (V3.norm_nonneg (M.mulVec X)) h1
  generalize V3.norm (M.mulVec X) = N at *
  generalize V3.norm X = D at *
  generalize V3.dot X (M.mulVec X) = P at *
  have h4 : τ ^ 2 * (N * N) ≤ τ ^ 2 * (2 * κ * D * (2 * κ * D)) := mul_le_mul_of_nonneg_left h3 (sq_nonneg τ)
  have h5 : τ * (4 * κ ^ 2 * τ) * (D * D) ≤ τ * γ * (D * D) :=
    mul_le_mul_of_nonneg_right (mul_le_mul_of_nonneg_left hr hτ) (mul_self_nonneg D)
  have h6 := mul_le_mul_of_nonneg_left h2 hτ
  nlinarith [mul_nonneg (sq_nonneg (τ * γ)) (mul_self_nonneg D)]

set_option maxHeartbeats 1000000 in
/-- C76, for every number of iterations: with these conditions the agent never touches the obstacle. -/
theorem C76_forever_partial (c : Loop ℝ) (E : Env) (name : String) (goal : V3 ℝ) (e : Ellipsoid ℝ) (p : Ptr) (m l L κ : ℝ)
    (k : ℕ) (hc : MovingSetup c E name goal e p m l L κ k) (hlk : 11 / 10 ^ 5 * k < l) (st : Heap ℝ × Agent ℝ) (y : V3 ℝ)
    (hs : OnMove e p m y st) (h0 : 1 < apart e m y st.2.state.position) (T G Φ : ℝ)
    (hF : Forever c goal y st.2.state.position l L κ k T G Φ) (n : ℕ) :
    ∃ st', c.runMoving E name goal n st = .ok st' ∧
      OnMove e p m (goal + V3.smul ((1 - c.dt * c.gain) ^ n) (y - goal)) st' ∧
      1 < apart e m (goal + V3.smul ((1 - c.dt * c.gain) ^ n) (y - goal)) st'.2.state.position := by
  have hκ1 : 1 ≤ κ := aspect_one hc.between.pos (le_trans hc.between.x_ge hc.between.x_le) hc.aspect
  have hl := hc.between.pos
  have hL : 0 < L := lt_of_lt_of_le hl (le_trans hc.between.x_ge hc.between.x_le)
  have hk1 : (1 : ℝ) ≤ k := by exact_mod_cast hc.smooth.curv.2.1
  obtain ⟨fK, fT, fturn, frate, fp0, fp1, fstart, fnear, fstep, ferr, flim⟩ := hF
  set τ := c.dt * c.gain with hτ
  set β := 2 * κ + 6 / 5 with hβ
  set γ := 1 - κ / T with hγ
  have hdt := hc.dt
  have hτ0 : 0 ≤ τ := mul_nonneg hdt fK.le
  have hT0 : 0 < T := by linarith
  have hκT : 0 ≤ κ / T := by positivity
  have hγ0 : 0 ≤ γ := le_trans (by positivity) fturn
  have hγ1 : γ ≤ 1 := by linarith
  have hτ1 : τ ≤ 1 := by nlinarith
  have hκ7 : κ ≤ 10 ^ 7 := by
    have : κ / 10 ^ 7 ≤ 1 := le_trans fturn hγ1
    rwa [div_le_one (by norm_num)] at this
  -- the invariant
  have key : ∀ n : ℕ, ∀ (st1 : Heap ℝ × Agent ℝ) (y1 : V3 ℝ), OnMove e p m y1 st1 → 1 < apart e m y1 st1.2.state.position →
      V3.norm (y1 - c.target) ≤ G → V3.norm (y1 - goal) ≤ V3.norm (y - goal) →
      V3.norm (st1.2.state.position - c.target) + β * V3.norm (y1 - goal) ≤ Φ →
      ∃ st', c.runMoving E name goal n st1 = .ok st' ∧
        OnMove e p m (goal + V3.smul ((1 - τ) ^ n) (y1 - goal)) st' ∧
        1 < apart e m (goal + V3.smul ((1 - τ) ^ n) (y1 - goal)) st'.2.state.position := by
    intro n
    induction n with
    | zero =>
      intro st1 y1 hs h0 _ _ _
      have e1 : goal + V3.smul ((1 - τ) ^ 0) (y1 - goal) = y1 := by
        ext <;> simp only [V3.smul, V3.add_x, V3.add_y, V3.add_z, V3.sub_x, V3.sub_y, V3.sub_z] <;> ring
      rw [e1]
      exact ⟨st1, rfl, hs, h0⟩
    | succ n ih =>
      intro st1 y1 hs h0 hG hY hΦ
      set x := st1.2.state.position with hx
      set D := V3.norm (x - c.target) with hD
      set Y := V3.norm (y1 - goal) with hYd
      have hD0 : 0 ≤ D := V3.norm_nonneg _
      have hY0 : 0 ≤ Y := V3.norm_nonneg _
      set w := V3.smul (-c.gain) (y1 - goal) with hw
      have hvn : V3.norm (c.desired x) = c.gain * D := by
        rw [Loop.desired, V3.norm_smul, abs_neg, abs_of_pos fK]
      have hwn : V3.norm w = c.gain * Y := by rw [hw, V3.norm_smul, abs_neg, abs_of_pos fK]
      have hΦ0 : 0 ≤ Φ := by nlinarith
      have hDY : D + 3 * Y ≤ Φ := by nlinarith
      have hB : 2 * κ * (1 + 1 / 10 ^ 8) * (c.gain * D + c.gain * Y) + c.gain * Y + 33 / 10 * L ≤
          2 * κ * (1 + 1 / 10 ^ 8) * (c.gain * Φ) + 33 / 10 * L := by
        have h1 : c.gain * (D + 3 * Y) ≤ c.gain * Φ := mul_le_mul_of_nonneg_left hDY fK.le
        have h2 := mul_le_mul_of_nonneg_left h1 (by positivity : 0 ≤ 2 * κ * (1 + 1 / 10 ^ 8))
        have h3 : 0 ≤ c.gain * Y := by positivity
        have h4 : c.gain * Y ≤ 2 * κ * (1 + 1 / 10 ^ 8) * (2 * (c.gain * Y)) := by nlinarith
        linarith
      have hss : ShortStep c l L κ k (V3.norm (c.desired x)) (V3.norm w) := by
        rw [hvn, hwn]
        refine ⟨?_, ?_, ?_⟩
        · refine lt_of_le_of_lt ?_ fstep
          refine mul_le_mul_of_nonneg_left ?_ (by positivity)
          have e1 : c.dt * ((1 + 22 / 10 ^ 8 * κ) * (c.gain * D + c.gain * Y) + 2 * (c.gain * Y)) =
              τ * ((1 + 22 / 10 ^ 8 * κ) * (D + Y) + 2 * Y) := by rw [hτ]; ring
          rw [e1]
          refine mul_le_mul_of_nonneg_left ?_ hτ0
          have h2 := mul_le_mul_of_nonneg_left hDY (by positivity : 0 ≤ 1 + 22 / 10 ^ 8 * κ)
          have h3 : 0 ≤ 22 / 10 ^ 8 * κ * Y := by positivity
          linarith
        · refine le_trans ?_ ferr
          refine mul_le_mul_of_nonneg_left ?_ (by positivity)
          rw [← mul_add]
          exact mul_le_mul_of_nonneg_left (by linarith) fK.le
        · intro mv hmv
          exact le_trans hB (flim mv hmv)
      obtain ⟨M, err, ρ, st2, q1, q2, q3, q4, q5, hit, hon, hpos, hap⟩ := moving_stays hc hlk hs hw rfl h0 rfl rfl hss
      set f := apart e m y1 x with hf
      set s := Real.exp (-(max 1 f - 1)) with hse
      set u := c.desired x - V3.smul s w with hu
      set y2 := y1 + V3.smul c.dt w with hy2
      have hs0 : 0 < s := Real.exp_pos _
      have hs1 : s ≤ 1 := by rw [hse, Real.exp_le_one_iff]; linarith [le_max_left 1 f]
      have hyg : y2 - goal = V3.smul (1 - τ) (y1 - goal) := by
        rw [hy2, hw, hτ]
        ext <;> simp only [V3.smul, V3.add_x, V3.add_y, V3.add_z, V3.sub_x, V3.sub_y, V3.sub_z] <;> ring
      have hY2 : V3.norm (y2 - goal) = (1 - τ) * Y := by rw [hyg, V3.norm_smul, abs_of_nonneg (by linarith)]
      have hY2le : V3.norm (y2 - goal) ≤ Y := by rw [hY2]; nlinarith
      have hG2 : V3.norm (y2 - c.target) ≤ G := by
        have e1 : y2 - c.target = V3.smul (1 - τ) (y1 - c.target) + V3.smul τ (goal - c.target) := by
          rw [hy2, hw, hτ]
          ext <;> simp only [V3.smul, V3.add_x, V3.add_y, V3.add_z, V3.sub_x, V3.sub_y, V3.sub_z] <;> ring
        rw [e1]
        refine le_trans (norm_add_le' _ _) ?_
        rw [V3.norm_smul, V3.norm_smul, abs_of_nonneg (by linarith), abs_of_nonneg hτ0]
        nlinarith
      have hΦ2 : V3.norm (st2.2.state.position - c.target) + β * V3.norm (y2 - goal) ≤ Φ := by
        rcases lt_or_ge f T with hn | hfar
        · -- near the obstacle
          obtain ⟨hyz, w0, hw0, hon0⟩ := hs
          have hxy : V3.norm (x - y1) ≤ 3 / 2 * L * T :=
            near_centre (placed_smooth hc.smooth y1 w0) (placed_between hc.between y1 w0)
              (plane_of (placed_smooth hc.smooth y1 w0) (placed_plane hc hyz hw0) hon0.flat).2 (by linarith) hn.le
          have hDn : D ≤ 3 / 2 * L * T + G := by
            have e1 : x - c.target = (x - y1) + (y1 - c.target) := by v3_ring
            rw [hD, e1]
            exact le_trans (norm_add_le' _ _) (add_le_add hxy hG)
          have e2 : st2.2.state.position - c.target = (x - c.target) + V3.smul c.dt (M.mulVec u + err + ρ + V3.smul s w) := by
            rw [hpos]; v3_ring
          have h1 := norm_add_le' (x - c.target) (V3.smul c.dt (M.mulVec u + err + ρ + V3.smul s w))
          rw [← e2, V3.norm_smul, abs_of_nonneg hdt] at h1
          rw [hvn, hwn] at q5
          have h2 := mul_le_mul_of_nonneg_left (le_trans q5 hB) hdt
          have h3 : β * V3.norm (y2 - goal) ≤ β * V3.norm (y - goal) :=
            mul_le_mul_of_nonneg_left (le_trans hY2le hY) (by positivity)
          linarith
        · -- far from the obstacle
          have hρ : ρ = V3.zero := q4.resolve_right (by linarith)
          have hγf : ∀ X, γ * V3.sqNorm X ≤ V3.dot X (M.mulVec X) := by
            intro X
            refine le_trans (mul_le_mul_of_nonneg_right ?_ (V3.sqNorm_nonneg X)) (q2 X)
            have : κ / f ≤ κ / T := div_le_div_of_nonneg_left (by linarith) hT0 hfar
            linarith
          have h1 := pull hκ1 hτ0 hγ1 frate (q1 (x - c.target)) (hγf (x - c.target))
          have hMv : M.mulVec u = V3.smul (-c.gain) (M.mulVec (x - c.target)) - V3.smul s (M.mulVec w) := by
            rw [hu, Loop.desired, M3.mulVec_sub, M3.mulVec_smul, M3.mulVec_smul]
          have e2 : st2.2.state.position - c.target = ((x - c.target) + V3.smul (-τ) (M.mulVec (x - c.target))) +
              V3.smul c.dt (V3.smul (-s) (M.mulVec w) + err + V3.smul s w) := by
            rw [hpos, hρ, hMv, hτ]
            ext <;> simp only [V3.smul, V3.add_x, V3.add_y, V3.add_z, V3.sub_x, V3.sub_y, V3.sub_z, V3.zero] <;> ring
          have h2 := norm_add_le' ((x - c.target) + V3.smul (-τ) (M.mulVec (x - c.target)))
            (V3.smul c.dt (V3.smul (-s) (M.mulVec w) + err + V3.smul s w))
          rw [← e2, V3.norm_smul, abs_of_nonneg hdt] at h2
          have h3 := norm_add_le' (V3.smul (-s) (M.mulVec w) + err) (V3.smul s w)
          have h4 := norm_add_le' (V3.smul (-s) (M.mulVec w)) err
          rw [V3.norm_smul, abs_neg, abs_of_pos hs0] at h4
          rw [V3.norm_smul s w, abs_of_pos hs0] at h3
          have h5 : V3.norm (M.mulVec w) ≤ 2 * κ * (c.gain * Y) := by rw [← hwn]; exact q1 w
          have h6 : s * V3.norm (M.mulVec w) ≤ 2 * κ * (c.gain * Y) :=
            le_trans (mul_le_of_le_one_left (V3.norm_nonneg _) hs1) h5
          have h7 : s * V3.norm w ≤ c.gain * Y := by
            rw [← hwn]; exact mul_le_of_le_one_left (V3.norm_nonneg _) hs1
          have hun : V3.norm u ≤ c.gain * D + c.gain * Y := by
            have e1 : u = c.desired x + V3.smul (-s) w := by rw [hu]; v3_ring
            rw [e1]
            refine le_trans (norm_add_le' _ _) ?_
            rw [V3.norm_smul, abs_neg, abs_of_pos hs0, hvn]
            linarith
          have h8 : V3.norm err ≤ 2 / 10 ^ 8 * κ * (c.gain * D + c.gain * Y) := by
            have := mul_le_mul_of_nonneg_left hun (by positivity : 0 ≤ 2 * κ)
            linarith [q1 u]
          have h9 : V3.norm (V3.smul (-s) (M.mulVec w) + err + V3.smul s w) ≤
              2 * κ * (c.gain * Y) + 2 / 10 ^ 8 * κ * (c.gain * D + c.gain * Y) + c.gain * Y := by linarith
          have h10 := mul_le_mul_of_nonneg_left h9 hdt
          have e3 : c.dt * (2 * κ * (c.gain * Y) + 2 / 10 ^ 8 * κ * (c.gain * D + c.gain * Y) + c.gain * Y) =
              τ * (2 * κ * Y + 2 / 10 ^ 8 * κ * (D + Y) + Y) := by rw [hτ]; ring
          rw [e3] at h10
          rw [← hD] at h1
          have h11 : V3.norm (st2.2.state.position - c.target) ≤
              (1 - τ * γ / 2) * D + τ * (2 * κ * Y + 2 / 10 ^ 8 * κ * (D + Y) + Y) := by linarith
          have h12 : 2 / 10 ^ 8 * κ ≤ γ / 2 := by linarith
          have h13 : τ * (2 / 10 ^ 8 * κ * D) ≤ τ * (γ / 2 * D) :=
            mul_le_mul_of_nonneg_left (mul_le_mul_of_nonneg_right h12 hD0) hτ0
          have h14 : 2 / 10 ^ 8 * κ ≤ 1 / 5 := by linarith
          have h15 : τ * (2 / 10 ^ 8 * κ * Y) ≤ τ * (1 / 5 * Y) :=
            mul_le_mul_of_nonneg_left (mul_le_mul_of_nonneg_right h14 hY0) hτ0
          rw [hY2]
          have h16 : β * ((1 - τ) * Y) = β * Y - τ * (2 * κ * Y + 1 / 5 * Y + Y) := by rw [hβ]; ring
          rw [h16]
          linarith
      obtain ⟨st', g1, g2, g3⟩ := ih st2 y2 hon hap hG2 (le_trans hY2le hY) hΦ2
      have e2 : V3.smul ((1 - τ) ^ n) (y2 - goal) = V3.smul ((1 - τ) ^ (n + 1)) (y1 - goal) := by
        rw [hyg]; ext <;> simp only [V3.smul] <;> ring
      rw [e2] at g2 g3
      exact ⟨st', by rw [Loop.runMoving, hit]; exact g1, g2, g3⟩
  exact key n st y hs h0 fp0 le_rfl fstart

end DOA.Props
