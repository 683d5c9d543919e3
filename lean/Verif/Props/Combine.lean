import Verif.Lemmas.Combine
import Verif.Lemmas.ModulationGeom

/-!
# Properties of `modulate_velocity` (C39–C45)
-/

set_option linter.unusedSectionVars false
set_option linter.unusedSimpArgs false

namespace DOA.Props
open DOA DOA.Spec DOA.Modulation

/-- The obstacle does not move. -/
def Static (o : Obj ℝ) : Prop :=
  o.base.state.linearVelocity = V3.zero ∧ o.base.state.angularVelocity = V3.zero

/-- With `is_local`, the envelope of the agent meets some listed obstacle. -/
def InSight (h : Heap ℝ) (a : Agent ℝ) (e : Env) (loc : Bool) : Prop :=
  loc = true → ∃ env, a.getEnvelope h = .ok env ∧ h.isIntersectingList env e.list = .ok true

theorem obstacleVelocity_static {x : V3 ℝ} {b : Base ℝ} (h1 : b.state.linearVelocity = V3.zero)
    (h2 : b.state.angularVelocity = V3.zero) (d w : ℝ) (m : M3 ℝ) :
    obstacleVelocity x b d w m = V3.zero := by
  unfold obstacleVelocity
  rw [h1, h2]
  ext <;> simp [V3.cross, V3.zero, V3.smul, M3.mulVec, M3.transpose]

theorem lsum_zero {β : Type} {f : β → V3 ℝ} {l : List β} (h : ∀ b ∈ l, f b = V3.zero) :
    V3.lsum (l.map f) = V3.zero := by
  induction l with
  | nil => exact V3.lsum_nil
  | cons b l ih =>
    rw [List.map_cons, V3.lsum_cons, h b List.mem_cons_self, ih fun c hc => h c (List.mem_cons_of_mem _ hc)]
    exact V3.add_zero' _

theorem itemOf_ok {h : Heap ℝ} {a : Agent ℝ} {p : Ptr} {o : Obj ℝ} {M B : M3 ℝ} {d : ℝ}
    (hp : h[p]? = some o) (hm : modulationMatrix h a o = .ok (M, B, d)) :
    itemOf h a p = .ok ⟨o.base, M, B, d⟩ := by
  simp [itemOf, Heap.deref, hp, hm]

/-! ## C39 one obstacle -/

/-- C39: with exactly one static obstacle of any kind and a planar velocity, the result is `M v` when
the angle between `M v` and `v` is 0 or at least 1E-4, and otherwise differs from `M v` by at most
1E-8 of its length. (`M v` is never opposite to `v`, so the interpolation is never ambiguous.) -/
theorem C39_single (h : Heap ℝ) (a : Agent ℝ) (e : Env) (loc : Bool) (critical power : ℝ) (p : Ptr)
    (o : Obj ℝ) (M B : M3 ℝ) (d : ℝ) (hl : e.list = [p]) (hp : h[p]? = some o) (hst : Static o)
    (hq : o.base.orientation.norm = 1) (hm : modulationMatrix h a o = .ok (M, B, d))
    (hv : a.state.linearVelocity.z = 0) (hsight : InSight h a e loc) :
    ∃ out, modulateVelocity h a e loc false false critical power = .ok (h, out) ∧
      (angle (M.mulVec a.state.linearVelocity) a.state.linearVelocity = 0 ∨
        1 / 10000 ≤ angle (M.mulVec a.state.linearVelocity) a.state.linearVelocity →
        out = M.mulVec a.state.linearVelocity) ∧
      V3.norm (out - M.mulVec a.state.linearVelocity) ≤
        1 / 10 ^ 8 * V3.norm (M.mulVec a.state.linearVelocity) := by
  have hits : e.list.mapM (itemOf h a) = .ok [⟨o.base, M, B, d⟩] := by
    rw [hl, mapM_ok]; exact .cons (itemOf_ok hp hm) .nil
  refine ⟨_, modulate_plain h a e loc critical power _ (by rw [hl]; simp) hsight hits, ?_⟩
  rw [combine_eq]
  have hov : obsVel a.state.position [⟨o.base, M, B, d⟩] critical power = V3.zero := by
    unfold obsVel
    apply lsum_zero
    intro i hi
    simp only [List.mem_singleton] at hi
    subst hi
    exact obstacleVelocity_static hst.1 hst.2 _ _ _
  have hpairs : pairs [⟨o.base, M, B, d⟩] critical power = [(M, 1)] := by
    simp [pairs, weightOf_single]
  rw [hov, hpairs, V3.sub_zero', V3.add_zero']
  obtain ⟨h1, h2, -⟩ := core_single hv (M := M) fun c hc hne => matrix_not_opposite hq hm _ c hc hne
  exact ⟨h1, h2⟩

/-- the environment with one obstacle -/
def envOf (l : List Ptr) : Env := ⟨[], false, l⟩

example : ∃ (M B : M3 ℝ) (d : ℝ) (out : V3 ℝ),
    modulationMatrix [.ellipsoid (ball V3.zero)] (agentAt ⟨2, 0, 0⟩ ⟨-1, 1, 0⟩) (.ellipsoid (ball V3.zero)) =
      .ok (M, B, d) ∧
    modulateVelocity [.ellipsoid (ball V3.zero)] (agentAt ⟨2, 0, 0⟩ ⟨-1, 1, 0⟩) (envOf [0]) false false false 1 2 =
      .ok ([.ellipsoid (ball V3.zero)], out) ∧
    V3.norm (out - M.mulVec ⟨-1, 1, 0⟩) ≤ 1 / 10 ^ 8 * V3.norm (M.mulVec ⟨-1, 1, 0⟩) := by
  have hm := matrix_ellipsoid [.ellipsoid (ball V3.zero)] (agentAt ⟨2, 0, 0⟩ ⟨-1, 1, 0⟩) (ball V3.zero) rfl
  obtain ⟨out, h1, -, h2⟩ := C39_single [.ellipsoid (ball V3.zero)] (agentAt ⟨2, 0, 0⟩ ⟨-1, 1, 0⟩) (envOf [0])
    false 1 2 0 (.ellipsoid (ball V3.zero)) _ _ _ rfl rfl ⟨rfl, rfl⟩ (ball_smooth _).unit hm rfl
    (by intro h; cases h)
  exact ⟨_, _, _, out, hm, h1, h2⟩

/-! ## C40 nothing in sight -/

section

variable {α : Type} [Add α] [Sub α] [Mul α] [Div α] [Neg α] [Zero α] [One α]
  [LE α] [LT α] [DecidableLE α] [DecidableLT α] [CMath α]

/-- C40: with an empty list the velocity is returned as it is and nothing changes; the envelope is not
even looked at. Holds for every scalar type, in particular for doubles. -/
theorem C40_empty (h : Heap α) (a : Agent α) (e : Env) (loc rep planar : Bool) (critical power : α)
    (hl : e.list = []) :
    modulateVelocity h a e loc rep planar critical power = .ok (h, a.state.linearVelocity) := by
  simp [modulateVelocity, hl]

/-- C40: with `is_local`, when the envelope intersects none of the listed obstacles. -/
theorem C40_local (h : Heap α) (a : Agent α) (e : Env) (rep planar : Bool) (critical power : α)
    (env : Obj α) (henv : a.getEnvelope h = .ok env)
    (hno : ∀ p ∈ e.list, ∃ o, h[p]? = some o ∧ h.isIntersecting env o = .ok false) :
    modulateVelocity h a e true rep planar critical power = .ok (h, a.state.linearVelocity) := by
  have key : h.isIntersectingList env e.list = .ok false := by
    unfold Heap.isIntersectingList
    generalize e.list = l at hno
    induction l with
    | nil => rfl
    | cons p l ih =>
      obtain ⟨o, h1, h2⟩ := hno p List.mem_cons_self
      simp only [List.foldlM_cons, Heap.deref, h1, Bool.false_eq_true, if_false, Res.ok_bind, h2]
      exact ih fun q hq => hno q (List.mem_cons_of_mem _ hq)
  unfold modulateVelocity
  simp only [henv, key, if_true, Res.ok_bind]
  split <;> rfl

/-- C40, converse: when the envelope meets a listed obstacle, the obstacles are taken into account:
the result does not depend on `is_local`. -/
theorem C40_seen (h : Heap α) (a : Agent α) (e : Env) (rep planar : Bool) (critical power : α)
    (env : Obj α) (henv : a.getEnvelope h = .ok env)
    (hok : ∀ p ∈ e.list, ∃ o b, h[p]? = some o ∧ h.isIntersecting env o = .ok b)
    (hyes : ∃ p ∈ e.list, ∃ o, h[p]? = some o ∧ h.isIntersecting env o = .ok true) :
    modulateVelocity h a e true rep planar critical power =
      modulateVelocity h a e false rep planar critical power := by
  have htrue : ∀ l : List Ptr, l.foldlM (fun (acc : Bool) q =>
      if acc then Res.ok true else do
        let oq ← h.deref q
        h.isIntersecting env oq) true = .ok true := by
    intro l
    induction l with
    | nil => rfl
    | cons p l ih => simp only [List.foldlM_cons, if_true, Res.ok_bind]; exact ih
  have key : h.isIntersectingList env e.list = .ok true := by
    unfold Heap.isIntersectingList
    generalize e.list = l at hok hyes
    induction l with
    | nil => obtain ⟨p, hp, _⟩ := hyes; cases hp
    | cons p l ih =>
      obtain ⟨o, b, h1, h2⟩ := hok p List.mem_cons_self
      simp only [List.foldlM_cons, Heap.deref, h1, Bool.false_eq_true, if_false, Res.ok_bind, h2]
      cases b with
      | true => exact htrue l
      | false =>
        apply ih (fun q hq => hok q (List.mem_cons_of_mem _ hq))
        obtain ⟨q, hq, o', h3, h4⟩ := hyes
        rcases List.mem_cons.mp hq with rfl | hq
        · rw [h1] at h3; cases h3; rw [h2] at h4; cases h4
        · exact ⟨q, hq, o', h3, h4⟩
  unfold modulateVelocity
  simp only [henv, key, if_true, Res.ok_bind, Bool.false_eq_true, if_false]

/-! ## C41 no NaN -/

/-- C41: over any scalar type in which 0 is not NaN: the returned velocity contains no NaN, or it is the
agent's own velocity, returned because there was nothing to modulate. -/
theorem C41_no_nan (h0 : CMath.isNaN (0 : α) = false) (h h' : Heap α) (a : Agent α) (e : Env)
    (loc rep planar : Bool) (critical power : α) (out : V3 α)
    (hr : modulateVelocity h a e loc rep planar critical power = .ok (h', out)) :
    (CMath.isNaN out.x = false ∧ CMath.isNaN out.y = false ∧ CMath.isNaN out.z = false) ∨
      (out = a.state.linearVelocity ∧ (e.list = [] ∨
        (loc = true ∧ ∃ env, a.getEnvelope h = .ok env ∧ h.isIntersectingList env e.list = .ok false))) := by
  unfold modulateVelocity at hr
  by_cases he : e.list.isEmpty = true
  · simp only [he, if_true, Res.ok.injEq, Prod.mk.injEq] at hr
    exact Or.inr ⟨hr.2.symm, Or.inl (by simpa using he)⟩
  · simp only [he, Bool.false_eq_true, if_false] at hr
    have fin : ∀ r : Heap α × List (Item α), ∀ x : Option (V3 α),
        let v := finish x (combine a.state.position a.state.linearVelocity r.2 critical power)
        CMath.isNaN v.x = false ∧ CMath.isNaN v.y = false ∧ CMath.isNaN v.z = false := by
      intro r x
      have key : ∀ v : V3 α, CMath.isNaN (if v.hasNaN then V3.zero else v).x = false ∧
          CMath.isNaN (if v.hasNaN then V3.zero else v).y = false ∧
          CMath.isNaN (if v.hasNaN then V3.zero else v).z = false := by
        intro v
        by_cases hn : v.hasNaN = true
        · simp [hn, V3.zero, h0]
        · simp only [hn, Bool.false_eq_true, if_false]
          simpa [V3.hasNaN, and_assoc] using hn
      exact key _
    have last : ∀ r : Res (Heap α × V3 α), (do
          let r ← collect planar a h e.list
          let mv := combine a.state.position a.state.linearVelocity r.2 critical power
          let rep ← if rep then do
              let v ← repulsionSum r.1 a e.list
              .ok (some v)
            else .ok none
          .ok (r.1, finish rep mv)) = r → r = .ok (h', out) →
        CMath.isNaN out.x = false ∧ CMath.isNaN out.y = false ∧ CMath.isNaN out.z = false := by
      intro r hr hok
      rw [hok] at hr
      obtain ⟨r, -, hr⟩ := Res.bind_eq_ok.mp hr
      cases rep with
      | false =>
        simp only [Bool.false_eq_true, if_false, Res.ok_bind, Res.ok.injEq, Prod.mk.injEq] at hr
        rw [← hr.2]; exact fin r none
      | true =>
        simp only [if_true] at hr
        obtain ⟨x, -, hr⟩ := Res.bind_eq_ok.mp hr
        simp only [Res.ok_bind, Res.ok.injEq, Prod.mk.injEq] at hr
        rw [← hr.2]; exact fin r (some x)
    cases loc with
    | false =>
      left
      simp only [Bool.false_eq_true, if_false, Res.ok_bind, Bool.not_true] at hr
      exact last _ rfl hr
    | true =>
      simp only [if_true] at hr
      obtain ⟨env, h1, hr⟩ := Res.bind_eq_ok.mp hr
      obtain ⟨sight, h2, hr⟩ := Res.bind_eq_ok.mp hr
      cases sight with
      | false =>
        simp only [Bool.not_false, if_true, Res.ok.injEq, Prod.mk.injEq] at hr
        exact Or.inr ⟨hr.2.symm, Or.inr ⟨rfl, env, h1, h2⟩⟩
      | true =>
        left
        simp only [Bool.not_true, Bool.false_eq_true, if_false] at hr
        exact last _ rfl hr

/-! ## C42 repulsion -/

/-- C42: no repulsion at or beyond the threshold, for every kind of obstacle (any scalar type). -/
theorem C42_far (h : Heap α) (o : Obj α) (x : V3 α) (m threshold d : α)
    (hd : h.distanceToAgent o x m = .ok d) (hfar : ¬ d < threshold) :
    h.generateRepulsion o x m threshold = .ok V3.zero := by
  simp [Heap.generateRepulsion, hd, hfar]

end

/-- C42: below the threshold the repulsion of an ellipsoid is `2/d` times the vector from the reference
point to the agent. -/
theorem C42_near (h : Heap ℝ) (e : Ellipsoid ℝ) (ref x : V3 ℝ) (m threshold : ℝ)
    (href : e.base.refPos = some ref) (hnear : gdist e m x < threshold) :
    h.generateRepulsion (.ellipsoid e) x m threshold =
      .ok (V3.smul (2 / gdist e m x) (x - ref)) := by
  have h1 : e.distanceToPoint x (V3.const m) < threshold := hnear
  simp [Heap.generateRepulsion, Heap.distanceToAgent, Heap.distanceToPoint, h1, Heap.repulsionVector,
    Ellipsoid.repulsionVector, Base.ref, href, Ellipsoid.repulsionFactor, gdist]

/-- C42: moving along the repulsion increases the distance (reference point nearer to the centre than the
agent). -/
theorem C42_outward (h : Heap ℝ) (e : Ellipsoid ℝ) (ref x : V3 ℝ) (m threshold : ℝ) (k : ℕ)
    (sm : Smooth e m k) (href : e.base.refPos = some ref) (hnear : gdist e m x < threshold)
    (hin : gdist e m ref < gdist e m x) :
    ∃ r s, h.generateRepulsion (.ellipsoid e) x m threshold = .ok r ∧ Slope e m x r s ∧ 0 < s := by
  obtain ⟨y, w, c⟩ := coord sm hin
  obtain ⟨k0, hk0, hs⟩ := slope_world sm c.y0
  rw [← c.hx] at hs
  obtain ⟨s, hs0, hr⟩ := c.r_eq
  have hnr := c.nr
  rw [hr, V3.dot_smul] at hnr
  have hn : 0 < V3.dot (e.normalToAgent x m) (y - w) := (mul_pos_iff_of_pos_left hs0).mp hnr
  have e1 : V3.smul (2 / gdist e m x) (x - ref) =
      e.base.pose.orientation.rotate (V3.smul (2 / gdist e m x) (y - w)) := by
    rw [Quat.rotate_smul]
    congr 1
    conv_lhs => rw [c.hx, c.href]
    simp only [Pose.apply, Quat.rotate_sub]
    v3_ring
  have hpos := c.pos
  refine ⟨_, k0 * V3.dot (e.normalToAgent x m) (V3.smul (2 / gdist e m x) (y - w)),
    C42_near h e ref x m threshold href hnear, ?_, ?_⟩
  · rw [e1]; exact (hs _ _).mpr rfl
  · rw [V3.dot_smul]
    positivity

/-- C42: along a ray from the centre (centred reference point) the repulsion is stronger the nearer the
agent is. -/
theorem C42_stronger (h : Heap ℝ) (e : Ellipsoid ℝ) (u : V3 ℝ) (m threshold s1 s2 : ℝ) (k : ℕ)
    (sm : Smooth e m k) (href : e.base.refPos = some e.base.position) (hu : u ≠ V3.zero)
    (hs1 : 0 < s1) (hs : s1 < s2) (hnear : gdist e m (e.base.position + V3.smul s2 u) < threshold) :
    ∃ r1 r2, h.generateRepulsion (.ellipsoid e) (e.base.position + V3.smul s1 u) m threshold = .ok r1 ∧
      h.generateRepulsion (.ellipsoid e) (e.base.position + V3.smul s2 u) m threshold = .ok r2 ∧
      V3.norm r2 < V3.norm r1 := by
  have hq := unit' sm
  have hpt : ∀ s, e.base.position + V3.smul s u =
      e.base.pose.apply (V3.smul s (e.base.pose.orientation.conjugate.rotate u)) := by
    intro s
    simp only [Pose.apply]
    rw [Quat.rotate_smul, Quat.rotate_rotate_conjugate hq]
    rw [V3.add_comm']; rfl
  set w := e.base.pose.orientation.conjugate.rotate u with hw
  have hw0 : w ≠ V3.zero := by
    intro h0
    apply hu
    rw [← Quat.rotate_rotate_conjugate hq u, ← hw, h0]
    ext <;> simp [Quat.rotate, V3.zero, V3.cross, V3.smul, Quat.vec]
  set L := level (halfLengths e (V3.const m)) k k k w with hL
  have hLpos : 0 < L := lt_of_le_of_ne (Ellipsoid.level_nonneg _ _ _ _ _) (fun h0 => hw0
    ((Ellipsoid.level_eq_zero _ k k k w (allGt_zero sm.long) sm.curv.2.1 sm.curv.2.1 sm.curv.2.1).mp h0.symm))
  have hd : ∀ s, gdist e m (e.base.position + V3.smul s u) = s ^ (2 * k) * L := by
    intro s
    rw [hpt, dist_apply sm, hL]
    simp only [level, V3.smul]
    simp only [mul_div_assoc, mul_pow]
    ring
  have hk : 1 ≤ k := sm.curv.2.1
  have hs2 : 0 < s2 := hs1.trans hs
  have hlt : s1 ^ (2 * k) < s2 ^ (2 * k) := by
    apply pow_lt_pow_left₀ hs hs1.le; omega
  have hn1 : gdist e m (e.base.position + V3.smul s1 u) < threshold := by
    rw [hd] at hnear ⊢
    have := mul_lt_mul_of_pos_right hlt hLpos
    linarith
  refine ⟨_, _, C42_near h e _ _ m threshold href hn1, C42_near h e _ _ m threshold href hnear, ?_⟩
  have hnorm : ∀ s, 0 < s → V3.norm (V3.smul (2 / gdist e m (e.base.position + V3.smul s u))
      (e.base.position + V3.smul s u - e.base.position)) = 2 / (s ^ (2 * k - 1) * L) * V3.norm u := by
    intro s hs
    have e1 : e.base.position + V3.smul s u - e.base.position = V3.smul s u := by v3_ring
    rw [e1, hd, V3.norm_smul, V3.norm_smul, abs_of_pos (by positivity), abs_of_pos hs]
    have e2 : s ^ (2 * k) = s ^ (2 * k - 1) * s := by rw [← pow_succ]; congr 1; omega
    rw [e2]
    field_simp
  rw [hnorm s1 hs1, hnorm s2 hs2]
  have hu' := V3.norm_pos hu
  apply mul_lt_mul_of_pos_right _ hu'
  apply div_lt_div_of_pos_left (by norm_num) (by positivity)
  apply mul_lt_mul_of_pos_right _ hLpos
  apply pow_lt_pow_left₀ hs hs1.le; omega

example : ∃ r, Heap.generateRepulsion ([] : Heap ℝ) (.ellipsoid (ball V3.zero)) ⟨102 / 100, 0, 0⟩ 0 (11 / 10) =
    .ok r ∧ r ≠ V3.zero := by
  have hd : gdist (ball V3.zero) 0 ⟨102 / 100, 0, 0⟩ = 10404 / 10000 := by rw [ball_dist]; norm_num
  refine ⟨_, C42_near [] (ball V3.zero) V3.zero _ 0 (11 / 10) rfl (by rw [hd]; norm_num), ?_⟩
  rw [hd]
  intro h0
  have := congrArg V3.x h0
  simp [V3.smul, V3.zero] at this

/-! ## C43 speed -/

/-- the interpolated direction has length one, up to the cut-off -/
theorem norm_reconstruct (s : V2 ℝ) : 1 ≤ V3.norm (reconstruct s) ∧ V3.norm (reconstruct s) ≤ 1 + 1 / 10 ^ 8 := by
  have h := sqNorm_reconstruct s
  have h0 := V2.norm_nonneg s
  rw [V3.norm, sqrt_real, h]
  split
  · rename_i hs
    have h2 : V2.norm s ^ 2 ≤ (1 / 10000) ^ 2 := by gcongr
    constructor
    · rw [Real.one_le_sqrt]; nlinarith [sq_nonneg (V2.norm s)]
    · rw [Real.sqrt_le_iff]; constructor
      · norm_num
      · norm_num at h2 ⊢; linarith
  · rw [Real.sqrt_one]; norm_num

theorem sum_terms (rv : V3 ℝ) (l : List (M3 ℝ × ℝ)) :
    ((l.map fun x => angleTerm (dsFrame rv.normalized).transpose rv.normalized rv x.1 x.2).map (·.1)).sum =
      (l.map fun x => V3.norm (x.1.mulVec rv) * x.2).sum := by
  rw [List.map_map]; rfl

theorem norm_core (rv : V3 ℝ) (hz : rv.z = 0) (l : List (M3 ℝ × ℝ)) (hw : ∀ x ∈ l, 0 ≤ x.2) :
    (l.map fun x => V3.norm (x.1.mulVec rv) * x.2).sum ≤ V3.norm (core rv l) ∧
    V3.norm (core rv l) ≤ (1 + 1 / 10 ^ 8) * (l.map fun x => V3.norm (x.1.mulVec rv) * x.2).sum := by
  have hW : 0 ≤ (l.map fun x => V3.norm (x.1.mulVec rv) * x.2).sum := by
    apply List.sum_nonneg
    intro y hy
    obtain ⟨x, hx, rfl⟩ := List.mem_map.mp hy
    exact mul_nonneg (V3.norm_nonneg _) (hw x hx)
  unfold core
  simp only [sum_terms]
  by_cases h0 : rv = V3.zero
  · have : (l.map fun x => V3.norm (x.1.mulVec rv) * x.2).sum = 0 := by
      apply List.sum_eq_zero
      intro y hy
      obtain ⟨x, hx, rfl⟩ := List.mem_map.mp hy
      have : x.1.mulVec rv = V3.zero := by rw [h0]; ext <;> simp [M3.mulVec, V3.zero]
      rw [this, V3.norm_eq_zero.mpr rfl, zero_mul]
    rw [this]
    have e : ∀ v : V3 ℝ, V3.smul 0 v = V3.zero := by intro v; ext <;> simp [V3.smul, V3.zero]
    rw [e, V3.norm_eq_zero.mpr rfl]; norm_num
  · have hv1 := V3.norm_normalized h0
    have hvz : rv.normalized.z = 0 := by rw [V3.normalized_of_ne h0]; simp [V3.smul, hz]
    rw [V3.norm_smul, abs_of_nonneg hW]
    have : ∀ r, V3.norm ((dsFrame rv.normalized).mulVec r) = V3.norm r := by
      intro r; unfold V3.norm; rw [sqNorm_frame hv1 hvz]
    rw [this]
    obtain ⟨h1, h2⟩ := norm_reconstruct ⟨((l.map fun x => angleTerm (dsFrame rv.normalized).transpose
      rv.normalized rv x.1 x.2).map (·.2.x)).sum, ((l.map fun x => angleTerm (dsFrame rv.normalized).transpose
      rv.normalized rv x.1 x.2).map (·.2.y)).sum⟩
    constructor
    · nlinarith
    · nlinarith

/-- The listed obstacles give the matrices, bases and distances `ms`. -/
def Matrices (h : Heap ℝ) (a : Agent ℝ) (l : List Ptr) (ms : List (M3 ℝ × M3 ℝ × ℝ)) : Prop :=
  List.Forall₂ (fun p m => ∃ o, h[p]? = some o ∧ modulationMatrix h a o = .ok m) l ms

/-- The weighted mean of the speeds `|M_i v|`. -/
noncomputable def meanSpeed (v : V3 ℝ) (critical power : ℝ) (ms : List (M3 ℝ × M3 ℝ × ℝ)) : ℝ :=
  ((ms.zip (weightObstacles (ms.map (·.2.2)) critical power)).map
    fun x => V3.norm (x.1.1.mulVec v) * x.2).sum

theorem items_of {h : Heap ℝ} {a : Agent ℝ} {l : List Ptr} {ms : List (M3 ℝ × M3 ℝ × ℝ)}
    (hm : Matrices h a l ms) : ∃ its : List (Item ℝ), l.mapM (itemOf h a) = .ok its ∧
      its.map (fun i => (i.matrix, i.basis, i.dist)) = ms ∧
      ∀ i ∈ its, ∃ p ∈ l, ∃ o, h[p]? = some o ∧ i.base = o.base ∧
        modulationMatrix h a o = .ok (i.matrix, i.basis, i.dist) := by
  induction hm with
  | nil => exact ⟨[], rfl, rfl, fun i hi => by cases hi⟩
  | @cons p m l ms hpm _ ih =>
    obtain ⟨o, h1, h2⟩ := hpm
    obtain ⟨its, h3, h4, h5⟩ := ih
    refine ⟨⟨o.base, m.1, m.2.1, m.2.2⟩ :: its, ?_, by simp [h4], ?_⟩
    · rw [List.mapM_cons, itemOf_ok h1 h2, h3]; rfl
    · intro i hi
      rcases List.mem_cons.mp hi with rfl | hi
      · exact ⟨p, List.mem_cons_self, o, h1, rfl, h2⟩
      · obtain ⟨q, hq, r⟩ := h5 i hi
        exact ⟨q, List.mem_cons_of_mem _ hq, r⟩

theorem pairs_zip (its : List (Item ℝ)) (c p : ℝ) :
    pairs its c p = ((its.map fun i => (i.matrix, i.basis, i.dist)).zip
      (weightObstacles ((its.map fun i => (i.matrix, i.basis, i.dist)).map (·.2.2)) c p)).map
        fun x => (x.1.1, x.2) := by
  rw [weight_eq]
  unfold pairs
  simp only [List.map_map]
  have e : ((fun x : M3 ℝ × M3 ℝ × ℝ => x.2.2) ∘ fun i : Item ℝ => (i.matrix, i.basis, i.dist)) = (·.dist) := rfl
  rw [e]
  generalize weightOf (its.map (·.dist)) c p = f
  induction its with
  | nil => rfl
  | cons i l ih => simp only [List.map_cons, List.zip_cons_cons, ih]; rfl

theorem static_obsVel {h : Heap ℝ} {a : Agent ℝ} {l : List Ptr} {its : List (Item ℝ)} {x : V3 ℝ} {c p : ℝ}
    (hst : ∀ q ∈ l, ∃ o, h[q]? = some o ∧ Static o)
    (hi : ∀ i ∈ its, ∃ p ∈ l, ∃ o, h[p]? = some o ∧ i.base = o.base ∧
        modulationMatrix h a o = .ok (i.matrix, i.basis, i.dist)) :
    obsVel x its c p = V3.zero := by
  unfold obsVel
  apply lsum_zero
  intro i hmem
  obtain ⟨q, hq, o, h1, h2, -⟩ := hi i hmem
  obtain ⟨o', h3, h4⟩ := hst q hq
  rw [h1] at h3; cases h3
  rw [h2]
  exact obstacleVelocity_static h4.1 h4.2 _ _ _

theorem pairs_nonneg {its : List (Item ℝ)} {c p : ℝ} (hne : its ≠ []) : ∀ x ∈ pairs its c p, 0 ≤ x.2 := by
  intro x hx
  obtain ⟨i, hi, rfl⟩ := List.mem_map.mp hx
  have := (C33_convex (its.map (·.dist)) c p (by simpa using hne)).2.1
  rw [weight_eq] at this
  exact this _ (List.mem_map_of_mem (List.mem_map_of_mem hi))

/-- C43: for any number of static obstacles and a planar velocity the speed of the result is the weighted
mean of the speeds `|M_i v|`, up to a relative error of 1E-8 (the small-angle cut-off). -/
theorem C43_speed (h : Heap ℝ) (a : Agent ℝ) (e : Env) (loc : Bool) (critical power : ℝ)
    (ms : List (M3 ℝ × M3 ℝ × ℝ)) (hne : e.list ≠ []) (hm : Matrices h a e.list ms)
    (hst : ∀ q ∈ e.list, ∃ o, h[q]? = some o ∧ Static o)
    (hv : a.state.linearVelocity.z = 0) (hsight : InSight h a e loc) :
    ∃ out, modulateVelocity h a e loc false false critical power = .ok (h, out) ∧
      meanSpeed a.state.linearVelocity critical power ms ≤ V3.norm out ∧
      V3.norm out ≤ (1 + 1 / 10 ^ 8) * meanSpeed a.state.linearVelocity critical power ms := by
  obtain ⟨its, h1, h2, h3⟩ := items_of hm
  have hine : its ≠ [] := by
    rintro rfl
    rw [mapM_ok] at h1
    cases hl : e.list with
    | nil => exact hne hl
    | cons p l => rw [hl] at h1; cases h1
  refine ⟨_, modulate_plain h a e loc critical power its hne hsight h1, ?_⟩
  rw [combine_eq, static_obsVel hst h3, V3.sub_zero', V3.add_zero']
  have hms : meanSpeed a.state.linearVelocity critical power ms =
      ((pairs its critical power).map fun x => V3.norm (x.1.mulVec a.state.linearVelocity) * x.2).sum := by
    unfold meanSpeed
    rw [pairs_zip, h2, List.map_map]; rfl
  rw [hms]
  exact norm_core _ hv _ (pairs_nonneg hine)

/-- columns of an orthogonal basis: the square of the length -/
theorem sqNorm_orth {b : M3 ℝ} (h01 : V3.dot b.c0 b.c1 = 0) (h02 : V3.dot b.c0 b.c2 = 0)
    (h12 : V3.dot b.c1 b.c2 = 0) (c : V3 ℝ) :
    V3.sqNorm (b.mulVec c) = c.x ^ 2 * V3.sqNorm b.c0 + c.y ^ 2 * V3.sqNorm b.c1 + c.z ^ 2 * V3.sqNorm b.c2 := by
  simp only [V3.sqNorm, V3.dot, M3.mulVec] at *
  linear_combination 2 * c.x * c.y * h01 + 2 * c.x * c.z * h02 + 2 * c.y * c.z * h12

/-- the eigenvalues are at most 2 -/
theorem diag_le (d : ℝ) : (diagonalEigenvalues d 1).x ≤ 2 ∧ (diagonalEigenvalues d 1).y ≤ 2 ∧
    (diagonalEigenvalues d 1).z ≤ 2 := by
  by_cases h : d ≤ 1
  · rw [C34_inside d 1 h]; norm_num
  · have hd : 0 < d := by linarith
    rw [diag_eq d hd]
    have h1 : 0 < 1 / d := by positivity
    refine ⟨max_le (by norm_num) (by linarith), ?_, ?_⟩ <;> simp only [] <;>
      linarith [min_le_left 1 (1 / d)]

/-- a ball with centred reference at most doubles the speed -/
theorem matrix_le_two {h : Heap ℝ} {a : Agent ℝ} {e : Ellipsoid ℝ} {ref : V3 ℝ} {k : ℕ} {M B : M3 ℝ} {d : ℝ}
    (sm : Smooth e a.margin k) (href : e.base.refPos = some ref) (hb : CentredBall e a.margin ref)
    (hx : a.state.position ≠ e.base.position)
    (hm : modulationMatrix h a (.ellipsoid e) = .ok (M, B, d)) (v : V3 ℝ) :
    V3.norm (M.mulVec v) ≤ 2 * V3.norm v := by
  have hq := unit' sm
  have hpos : gdist e a.margin ref < gdist e a.margin a.state.position := by
    have h0 : ∀ x, gdist e a.margin x = 0 ↔ x = e.base.position := by
      intro x
      rw [gdist, Ellipsoid.distance_frame e _ _ k k k sm.curv sm.long,
        Ellipsoid.level_eq_zero _ k k k _ (allGt_zero sm.long) sm.curv.2.1 sm.curv.2.1 sm.curv.2.1]
      exact Ellipsoid.frame_zero_iff e hq x
    rw [(h0 ref).mpr hb.2.2.2]
    exact lt_of_le_of_ne (dist_nonneg sm _) (fun h1 => hx ((h0 _).mp h1.symm))
  obtain ⟨y, w, c⟩ := coord sm hpos
  rw [matrix_ellipsoid h a e href] at hm
  simp only [Res.ok.injEq, Prod.mk.injEq] at hm
  obtain ⟨rfl, -, -⟩ := hm
  have hn1 : V3.norm (e.normalToAgent a.state.position a.margin) = 1 := by
    rw [c.hx]; exact (normal_facts sm c.y0).1
  have hdet := coord_det sm c
  rw [normal_ball sm c hb] at hdet ⊢
  rw [modulationProduct_mulVec hq, Quat.norm_rotate hq, ← Quat.norm_rotate hq.conjugate v]
  generalize e.base.pose.orientation.conjugate.rotate v = v
  generalize e.normalToAgent a.state.position a.margin = n at *
  generalize hD : diagonalEigenvalues (gdist e a.margin a.state.position) 1 = D
  obtain ⟨dx, dy, dz⟩ := diag_le (gdist e a.margin a.state.position)
  obtain ⟨px, py, pz⟩ := diag_nonneg (gdist e a.margin a.state.position)
  rw [hD] at dx dy dz px py pz
  obtain ⟨cc, rfl⟩ : ∃ c, (referenceBasis n n).mulVec c = v := ⟨_, M3.mulVec_inverse_mulVec hdet v⟩
  rw [M3.inverse_mulVec_mulVec hdet]
  have o1 : V3.dot (referenceBasis n n).c0 (referenceBasis n n).c1 = 0 := dot_tangent n
  have o2 : V3.dot (referenceBasis n n).c0 (referenceBasis n n).c2 = 0 := V3.dot_cross_self' _ _
  have o3 : V3.dot (referenceBasis n n).c1 (referenceBasis n n).c2 = 0 := V3.dot_cross_self _ _
  have hsq : V3.sqNorm ((referenceBasis n n).mulVec (M3.had D cc)) ≤
      (2 * V3.norm ((referenceBasis n n).mulVec cc)) ^ 2 := by
    have e1 : (2 * V3.norm ((referenceBasis n n).mulVec cc)) ^ 2 =
        4 * V3.sqNorm ((referenceBasis n n).mulVec cc) := by rw [← V3.norm_sq]; ring
    rw [e1, sqNorm_orth o1 o2 o3, sqNorm_orth o1 o2 o3]
    simp only [M3.had]
    have a0 := V3.sqNorm_nonneg (referenceBasis n n).c0
    have a1 := V3.sqNorm_nonneg (referenceBasis n n).c1
    have a2 := V3.sqNorm_nonneg (referenceBasis n n).c2
    have b0 : (D.x * cc.x) ^ 2 ≤ 4 * cc.x ^ 2 := by
      have : D.x ^ 2 ≤ 4 := by nlinarith
      nlinarith [sq_nonneg cc.x]
    have b1 : (D.y * cc.y) ^ 2 ≤ 4 * cc.y ^ 2 := by
      have : D.y ^ 2 ≤ 4 := by nlinarith
      nlinarith [sq_nonneg cc.y]
    have b2 : (D.z * cc.z) ^ 2 ≤ 4 * cc.z ^ 2 := by
      have : D.z ^ 2 ≤ 4 := by nlinarith
      nlinarith [sq_nonneg cc.z]
    nlinarith
  rw [V3.norm, sqrt_real]
  exact Real.sqrt_le_iff.mpr ⟨by have := V3.norm_nonneg ((referenceBasis n n).mulVec cc); positivity, hsq⟩

/-- C43: among balls with centred reference points the speed is at most doubled (up to the cut-off). -/
theorem C43_bound (h : Heap ℝ) (a : Agent ℝ) (e : Env) (loc : Bool) (critical power : ℝ)
    (hne : e.list ≠ [])
    (hballs : ∀ q ∈ e.list, ∃ el ref k, h[q]? = some (.ellipsoid el) ∧ Static (.ellipsoid el) ∧
      Smooth el a.margin k ∧ el.base.refPos = some ref ∧ CentredBall el a.margin ref ∧
      a.state.position ≠ el.base.position)
    (hv : a.state.linearVelocity.z = 0) (hsight : InSight h a e loc) :
    ∃ out, modulateVelocity h a e loc false false critical power = .ok (h, out) ∧
      V3.norm out ≤ (1 + 1 / 10 ^ 8) * (2 * V3.norm a.state.linearVelocity) := by
  obtain ⟨ms, hms⟩ : ∃ ms, Matrices h a e.list ms := by
    unfold Matrices
    generalize e.list = l at hballs
    induction l with
    | nil => exact ⟨[], .nil⟩
    | cons q l ih =>
      obtain ⟨ms, h1⟩ := ih fun p hp => hballs p (List.mem_cons_of_mem _ hp)
      obtain ⟨el, ref, k, h2, -, -, h4, -⟩ := hballs q List.mem_cons_self
      exact ⟨_ :: ms, .cons ⟨_, h2, matrix_ellipsoid h a el h4⟩ h1⟩
  obtain ⟨out, h1, -, h2⟩ := C43_speed h a e loc critical power ms hne hms
    (fun q hq => by obtain ⟨el, ref, k, h2, h3, -⟩ := hballs q hq; exact ⟨_, h2, h3⟩) hv hsight
  refine ⟨out, h1, h2.trans ?_⟩
  apply mul_le_mul_of_nonneg_left _ (by norm_num)
  have hmsne : ms.map (·.2.2) ≠ [] := by
    intro h0
    have : ms = [] := by simpa using h0
    rw [this] at hms
    cases hl : e.list with
    | nil => exact hne hl
    | cons p l => rw [hl] at hms; cases hms
  obtain ⟨w1, w2, w3⟩ := C33_convex (ms.map (·.2.2)) critical power hmsne
  have hM : ∀ m ∈ ms, V3.norm (m.1.mulVec a.state.linearVelocity) ≤ 2 * V3.norm a.state.linearVelocity := by
    intro m hm
    obtain ⟨q, hq, o, h3, h4⟩ : ∃ q ∈ e.list, ∃ o, h[q]? = some o ∧ modulationMatrix h a o = .ok m := by
      clear hballs h1 h2 hmsne w1 w2 w3 hsight hne
      unfold Matrices at hms
      generalize e.list = l at hms ⊢
      induction hms with
      | nil => cases hm
      | @cons p m' l ms hp _ ih =>
        rcases List.mem_cons.mp hm with rfl | hm
        · obtain ⟨o, h3, h4⟩ := hp; exact ⟨p, List.mem_cons_self, o, h3, h4⟩
        · obtain ⟨q, hq, r⟩ := ih hm; exact ⟨q, List.mem_cons_of_mem _ hq, r⟩
    obtain ⟨el, ref, k, h5, -, h6, h7, h8, h9⟩ := hballs q hq
    rw [h3] at h5; cases h5
    exact matrix_le_two h6 h7 h8 h9 h4 _
  unfold meanSpeed
  have hlen : (weightObstacles (ms.map (·.2.2)) critical power).length = ms.length := by simpa using w1
  generalize weightObstacles (ms.map (·.2.2)) critical power = ws at w2 w3 hlen
  have key : ∀ (ms : List (M3 ℝ × M3 ℝ × ℝ)) (ws : List ℝ), ws.length = ms.length → (∀ w ∈ ws, 0 ≤ w) →
      (∀ m ∈ ms, V3.norm (m.1.mulVec a.state.linearVelocity) ≤ 2 * V3.norm a.state.linearVelocity) →
      ((ms.zip ws).map fun x => V3.norm (x.1.1.mulVec a.state.linearVelocity) * x.2).sum ≤
        2 * V3.norm a.state.linearVelocity * ws.sum := by
    intro ms
    induction ms with
    | nil => intro ws hl _ _; simp at hl; subst hl; simp
    | cons m ms ih =>
      intro ws hl hw hm
      cases ws with
      | nil => simp at hl
      | cons w ws =>
        simp only [List.zip_cons_cons, List.map_cons, List.sum_cons]
        have h1 := ih ws (by simpa using hl) (fun x hx => hw x (List.mem_cons_of_mem _ hx))
          (fun x hx => hm x (List.mem_cons_of_mem _ hx))
        have h2 := mul_le_mul_of_nonneg_right (hm m List.mem_cons_self) (hw w List.mem_cons_self)
        linarith
  have := key ms ws hlen w2 hM
  rw [w3, mul_one] at this
  exact this

example : ∃ out, modulateVelocity [.ellipsoid (ball V3.zero)] (agentAt ⟨2, 0, 0⟩ ⟨-1, 1, 0⟩) (envOf [0]) false
    false false 1 2 = .ok ([.ellipsoid (ball V3.zero)], out) ∧
    V3.norm out ≤ (1 + 1 / 10 ^ 8) * (2 * V3.norm (⟨-1, 1, 0⟩ : V3 ℝ)) := by
  refine C43_bound [.ellipsoid (ball V3.zero)] (agentAt ⟨2, 0, 0⟩ ⟨-1, 1, 0⟩) (envOf [0]) false 1 2
    (by simp [envOf]) ?_ rfl (by intro h; cases h)
  intro q hq
  simp only [envOf, List.mem_singleton] at hq
  subst hq
  refine ⟨ball V3.zero, V3.zero, 1, rfl, ⟨rfl, rfl⟩, ball_smooth _, rfl, ⟨?_, rfl, rfl, rfl⟩, ?_⟩
  · simp [ball, Ellipsoid.ofBase, V3.const]
  · simp [agentAt, State.position, Pose.ofPosition, ball, Ellipsoid.ofBase, Base.mkRef, Base.position,
      State.ofPosition, V3.zero]

end DOA.Props
