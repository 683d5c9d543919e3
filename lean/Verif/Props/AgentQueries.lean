import Verif.Props.Agent
import Verif.Props.Intersection

/-!
# C52, C53: questions to the agent
-/

set_option linter.unusedSectionVars false
set_option linter.unusedSimpArgs false

namespace DOA.Props
open DOA DOA.Spec DOA.Modulation

/-! ## C52 `in_obstacle` -/

section
variable {α : Type} [Add α] [Sub α] [Mul α] [Div α] [Neg α] [Zero α] [One α]
  [LE α] [LT α] [DecidableLE α] [DecidableLT α] [CMath α]

/-- C52: for every ellipsoid and agent, `in_obstacle` returns (every scalar type). -/
theorem C52_total (h : Heap α) (a : Agent α) (o : Ellipsoid α) : ∃ b, a.inObstacle h (.ellipsoid o) = .ok b := by
  simp only [Agent.inObstacle, Heap.isIntersecting, Heap.fuel, Heap.isIntersectingAux, Heap.isIntersectingEllipsoid]
  exact C29_total _ _

/-- C52: `in_obstacle` is true if the position of the agent is inside (any orientation, any margin, every
scalar type). -/
theorem C52_inside (h : Heap α) (a : Agent α) (o : Ellipsoid α) (hin : o.pointIsInside a.state.position = true) :
    a.inObstacle h (.ellipsoid o) = .ok true := by
  simp only [Agent.inObstacle, Heap.isIntersecting, Heap.fuel, Heap.isIntersectingAux, Heap.isIntersectingEllipsoid,
    Ellipsoid.isIntersectingEllipsoid]
  have : o.pointIsInside a.safetyEnvelope.base.position = true := hin
  rw [if_pos this]
  split <;> rfl

end

theorem safety_rot (a : Agent ℝ) : ZRotated a.safetyEnvelope := by
  refine ⟨?_, rfl, rfl⟩
  rw [← Quat.isUnit_iff_norm]
  simp [Quat.IsUnit, Quat.sqNorm, Agent.safetyEnvelope, Ellipsoid.ofBase, Base.mkState, Base.orientation,
    State.orientation, State.ofPosition, Pose.ofPosition, Quat.one]

theorem safety_inside (a : Agent ℝ) (p : V3 ℝ) : a.safetyEnvelope.pointIsInside p = true ↔
    (p.x - a.state.position.x) ^ 2 + (p.y - a.state.position.y) ^ 2 ≤ (max (1 / 10) a.margin) ^ 2 := by
  have h : halfLengths a.safetyEnvelope V3.zero =
      ⟨max (1 / 10) a.margin, max (1 / 10) a.margin, max (1 / 10) a.margin⟩ := by
    ext <;> simp [halfLengths, Agent.safetyEnvelope, Ellipsoid.ofBase, Base.mkState, V3.zero, V3.const, Agent.effMargin]
  rw [circle_inside (safety_rot a) (max (1 / 10) a.margin) (lt_of_lt_of_le (by norm_num) (le_max_left _ _))
    (by rw [h]) (by rw [h])]
  rfl

/-- C52: in geometric terms — if the agent's x-y position is in the ellipse of an obstacle rotated about z,
`in_obstacle` is true. -/
theorem C52_deep (h : Heap ℝ) (a : Agent ℝ) (o : Ellipsoid ℝ) (ho : ZRotated o)
    (hin : InEllipse o (halfLengths o V3.zero) a.state.position.x a.state.position.y) :
    a.inObstacle h (.ellipsoid o) = .ok true :=
  C52_inside h a o ((Ellipsoid.inside_iff_inEllipse ho _).mpr hin)

/-- C52: `in_obstacle` is also true if the centre of the obstacle is within `max(0.1, margin)` of the agent. -/
theorem C52_centre (h : Heap ℝ) (a : Agent ℝ) (o : Ellipsoid ℝ)
    (hd : (o.base.position.x - a.state.position.x) ^ 2 + (o.base.position.y - a.state.position.y) ^ 2 ≤
      (max (1 / 10) a.margin) ^ 2) : a.inObstacle h (.ellipsoid o) = .ok true := by
  simp only [Agent.inObstacle, Heap.isIntersecting, Heap.fuel, Heap.isIntersectingAux, Heap.isIntersectingEllipsoid,
    Ellipsoid.isIntersectingEllipsoid]
  rw [if_pos ((safety_inside a _).mpr hd)]

/-- C52, the second half for obstacles rotated about z: if `in_obstacle` is true then some point of the inflated
ellipse is within `max(0.1, margin)` of the agent in the x-y plane.
Full statement: for ellipsoids with any orientation.  It is false, see `C52_negation`. -/
theorem C52_touches_partial (h : Heap ℝ) (a : Agent ℝ) (o : Ellipsoid ℝ) (ho : ZRotated o)
    (hox : (halfLengths o V3.zero).x ≠ 0) (hoy : (halfLengths o V3.zero).y ≠ 0)
    (hin : a.inObstacle h (.ellipsoid o) = .ok true) :
    ∃ x y, InEllipse o (halfLengths o V3.zero) x y ∧
      (x - a.state.position.x) ^ 2 + (y - a.state.position.y) ^ 2 ≤ (max (1 / 10) a.margin) ^ 2 := by
  simp only [Agent.inObstacle, Heap.isIntersecting, Heap.fuel, Heap.isIntersectingAux,
    Heap.isIntersectingEllipsoid] at hin
  obtain ⟨x, y, h1, h2⟩ := C29_sound_partial _ _ (safety_rot a) ho hox hoy hin
  refine ⟨x, y, h2, ?_⟩
  exact (safety_inside a ⟨x, y, 0⟩).mp ((Ellipsoid.inside_iff_inEllipse (safety_rot a) _).mpr h1)

/-- a rod of half length 10 along x and radius 1/10, turned by 90 degrees about its own axis -/
noncomputable def rod : Ellipsoid ℝ :=
  ⟨Base.mkState "rod" (State.ofPose ⟨V3.zero, ⟨√2 / 2, √2 / 2, 0, 0⟩⟩) V3.zero, ⟨10, 1 / 10, 1 / 10⟩, V3.const 1⟩

theorem sqrt2_sq : √2 * √2 = 2 := Real.mul_self_sqrt (by norm_num)

theorem rod_theta : rod.sampleTheta = 2 * Real.pi - Real.pi / 2 := by
  have h2 := sqrt2_sq
  have hp : 0 < √2 := Real.sqrt_pos.mpr (by norm_num)
  have hn : V3.norm rod.base.orientation.vec = √2 / 2 := by
    show √(V3.sqNorm (⟨√2 / 2, 0, 0⟩ : V3 ℝ)) = _
    rw [Real.sqrt_eq_iff_mul_self_eq_of_pos (by positivity)]
    simp [V3.sqNorm, V3.dot]
  have hw : rod.base.orientation.w = √2 / 2 := rfl
  have hz : rod.base.orientation.vec.z = 0 := rfl
  have ha : rod.base.orientation.toAngleAxis = (Real.pi / 2, V3.sdiv rod.base.orientation.vec (√2 / 2)) := by
    have hpos : 0 < √2 / 2 := by positivity
    unfold Quat.toAngleAxis
    simp only [hn, hw]
    rw [if_pos (Or.inr hpos), if_neg (not_lt.mpr hpos.le)]
    congr 1
    rw [absS_real, abs_of_pos hpos, atan2_real]
    have : (⟨√2 / 2, √2 / 2⟩ : ℂ) = ((1 : ℝ) : ℂ) * (Complex.cos ((Real.pi / 4 : ℝ) : ℂ) + Complex.sin ((Real.pi / 4 : ℝ) : ℂ) * Complex.I) := by
      rw [← Complex.ofReal_cos, ← Complex.ofReal_sin, Real.cos_pi_div_four, Real.sin_pi_div_four]
      apply Complex.ext <;> simp
    rw [this, Complex.arg_mul_cos_add_sin_mul_I one_pos ⟨by linarith [Real.pi_pos], by linarith [Real.pi_pos]⟩]
    simp; ring
  unfold Ellipsoid.sampleTheta
  rw [ha]
  simp only [V3.sdiv, hz, zero_div, lt_irrefl, if_false]
  simp

/-- C52 is false for tilted obstacles: the rod along the x axis above, the agent at (0,-10,0) with margin 0:
`in_obstacle` is true, although every point of the rod is at least 9.9 away from the agent (the boundary samples
of `is_intersecting_ellipsoid` take the rotation angle for a rotation about z). -/
theorem C52_negation : ∃ (a : Agent ℝ) (o : Ellipsoid ℝ), a.margin = 0 ∧ o.base.pose.orientation.IsUnit ∧
    AllGt o.axis 0 ∧ a.inObstacle [] (.ellipsoid o) = .ok true ∧
    ∀ u : V3 ℝ, level (halfLengths o V3.zero) 1 1 1 u ≤ 1 →
      (99 / 10) ^ 2 ≤ ((o.base.pose.apply u).x - a.state.position.x) ^ 2
        + ((o.base.pose.apply u).y - a.state.position.y) ^ 2 := by
  have h2 := sqrt2_sq
  refine ⟨agentAt ⟨0, -10, 0⟩ V3.zero, rod, rfl, ?_, by norm_num [AllGt, rod], ?_, ?_⟩
  · show (⟨√2 / 2, √2 / 2, 0, 0⟩ : Quat ℝ).sqNorm = 1
    simp only [Quat.sqNorm]; nlinarith
  · simp only [Agent.inObstacle, Heap.isIntersecting, Heap.fuel, Heap.isIntersectingAux,
      Heap.isIntersectingEllipsoid, Ellipsoid.isIntersectingEllipsoid]
    split
    · rfl
    · split
      · rfl
      · obtain ⟨l, hl, -, hi, -⟩ := MathTools.linspace_ok (0 : ℝ) (lit 2 1 * CMath.pi) 100 (by omega)
        have hmem : (0 : ℝ) ∈ l := List.mem_of_getElem? hi
        have hs : rod.samples 100 true = .ok (l.map (rod.sampleAt (rod.axis + rod.base.margin) rod.sampleTheta)) := by
          simp only [Ellipsoid.samples, if_true]
          have : ((100 : Nat) : Int) = 100 := rfl
          rw [this, hl]
          rfl
        rw [hs]
        simp only [Res.ok_bind, Res.ok.injEq, List.any_eq_true]
        refine ⟨_, List.mem_map.mpr ⟨0, hmem, rfl⟩, ?_⟩
        rw [safety_inside]
        have hc : Real.cos rod.sampleTheta = 0 := by
          rw [rod_theta, Real.cos_two_pi_sub, Real.cos_pi_div_two]
        have hsn : Real.sin rod.sampleTheta = -1 := by
          rw [rod_theta, Real.sin_two_pi_sub, Real.sin_pi_div_two]
        simp only [Ellipsoid.sampleAt, cos_real, sin_real, hc, hsn, Real.cos_zero, Real.sin_zero]
        norm_num [rod, Base.mkState, agentAt, State.position, Pose.ofPosition, Base.position, State.ofPose, V3.zero]
  · intro u hu
    have hx : (rod.base.pose.apply u).y = -u.z := by
      simp only [Pose.apply, Base.pose, rod, Base.mkState, State.ofPose, Quat.rotate, Quat.vec, V3.cross, V3.smul,
        V3.add_x, V3.add_y, V3.add_z, V3.zero]
      linear_combination (-(u.y + u.z) / 2) * h2
    rw [hx]
    have hl : halfLengths rod V3.zero = ⟨10, 1 / 10, 1 / 10⟩ := by
      ext <;> simp [halfLengths, rod, Base.mkState, V3.zero]
    rw [hl] at hu
    simp only [level, mul_one] at hu
    have hz : (u.z / (1 / 10)) ^ 2 ≤ 1 := by nlinarith [sq_nonneg (u.x / 10), sq_nonneg (u.y / (1 / 10))]
    have hz' : u.z ≤ 1 / 10 := by nlinarith
    have hz'' : -(1 / 10) ≤ u.z := by nlinarith
    have : (agentAt ⟨0, -10, 0⟩ V3.zero).state.position = ⟨0, -10, 0⟩ := rfl
    rw [this]
    simp only
    nlinarith [sq_nonneg ((rod.base.pose.apply u).x - 0)]

example : (agentAt ⟨0, 0, 0⟩ V3.zero).inObstacle [] (.ellipsoid (ballAt ⟨0, 0, 0⟩)) = .ok true :=
  C52_centre [] _ _ (by norm_num [agentAt, ballAt, Ellipsoid.ofBase, Base.mkRef, State.ofPosition, Base.position,
    State.position, Pose.ofPosition])

/-! ## C53 `exist_path` -/

section
variable {α : Type} [Add α] [Sub α] [Mul α] [Div α] [Neg α] [Zero α] [One α]
  [LE α] [LT α] [DecidableLE α] [DecidableLT α] [CMath α]

/-- An obstacle separates two points: it is closed and contains exactly one of them. -/
def Separates (h : Heap α) (o : Obj α) (x y : V3 α) : Prop :=
  ∃ i j, h.pointIsInside o x = .ok i ∧ h.pointIsInside o y = .ok j ∧ i ≠ j ∧ o.isClosed = .ok true

theorem pathTest_ok {h : Heap α} {x y : V3 α} {o : Obj α} {b : Bool} :
    Agent.pathTest h x y o = .ok b ↔ ∃ i j, h.pointIsInside o y = .ok i ∧ h.pointIsInside o x = .ok j ∧
      ((i = j ∧ b = true) ∨ (i ≠ j ∧ ∃ c, o.isClosed = .ok c ∧ b = !c)) := by
  simp only [Agent.pathTest, Res.bind_eq_ok]
  constructor
  · rintro ⟨i, hi, j, hj, h1⟩
    refine ⟨i, j, hi, hj, ?_⟩
    by_cases hij : i = j
    · subst hij
      rw [if_pos (by cases i <;> rfl)] at h1
      injection h1 with h1
      exact Or.inl ⟨rfl, h1.symm⟩
    · rw [if_neg (by cases i <;> cases j <;> first | exact absurd rfl hij | decide), Res.bind_eq_ok] at h1
      obtain ⟨c, hc, h1⟩ := h1
      injection h1 with h1
      exact Or.inr ⟨hij, c, hc, h1.symm⟩
  · rintro ⟨i, j, hi, hj, h1⟩
    refine ⟨i, hi, j, hj, ?_⟩
    rcases h1 with ⟨rfl, rfl⟩ | ⟨hij, c, hc, rfl⟩
    · rw [if_pos (by cases i <;> rfl)]
    · rw [if_neg (by cases i <;> cases j <;> first | exact absurd rfl hij | decide), Res.bind_eq_ok]
      exact ⟨c, hc, rfl⟩

theorem pathTest_symm {h : Heap α} {x y : V3 α} {o : Obj α} {b : Bool}
    (hb : Agent.pathTest h x y o = .ok b) : Agent.pathTest h y x o = .ok b := by
  obtain ⟨i, j, hi, hj, h1⟩ := pathTest_ok.mp hb
  refine pathTest_ok.mpr ⟨j, i, hj, hi, ?_⟩
  rcases h1 with ⟨h1, h2⟩ | ⟨h1, h2⟩
  · exact Or.inl ⟨h1.symm, h2⟩
  · exact Or.inr ⟨Ne.symm h1, h2⟩

/-- the answer for one pointer -/
def pathOne (h : Heap α) (x y : V3 α) (q : Ptr) : Res Bool :=
  h.deref q >>= fun o => Agent.pathTest h x y o

theorem fold_and {f : Ptr → Res Bool} (l : List Ptr) : ∀ (acc r : Bool),
    l.foldlM (fun acc q => f q >>= fun b => (.ok (acc && b) : Res Bool)) acc = .ok r ↔
      ∃ bs, l.mapM f = .ok bs ∧ r = (acc && bs.all id) := by
  induction l with
  | nil =>
    intro acc r
    simp only [List.foldlM_nil, List.mapM_nil, Res.pure_eq, Res.ok.injEq]
    constructor
    · rintro rfl; exact ⟨[], rfl, by simp⟩
    · rintro ⟨bs, rfl, rfl⟩; simp
  | cons q l ih =>
    intro acc r
    simp only [List.foldlM_cons, List.mapM_cons, Res.bind_eq_ok, Res.pure_eq, Res.ok.injEq]
    constructor
    · rintro ⟨acc', ⟨b, hb, rfl⟩, h⟩
      obtain ⟨bs, h1, h2⟩ := (ih _ _).mp h
      exact ⟨b :: bs, ⟨b, hb, bs, h1, rfl⟩, by rw [h2]; simp [Bool.and_assoc]⟩
    · rintro ⟨_, ⟨b, hb, bs, h1, rfl⟩, h2⟩
      exact ⟨_, ⟨b, hb, rfl⟩, (ih _ _).mpr ⟨bs, h1, by rw [h2]; simp [Bool.and_assoc]⟩⟩

theorem existPath_ok {h : Heap α} {a : Agent α} {t : V3 α} {l : List Ptr} {r : Bool} :
    a.existPath h t l = .ok r ↔ ∃ bs, l.mapM (pathOne h a.state.position t) = .ok bs ∧ r = bs.all id := by
  have := fold_and (f := pathOne h a.state.position t) l true r
  simp only [Bool.true_and] at this
  rw [← this]
  simp only [Agent.existPath, pathOne, bind_assoc]

theorem pathOne_ok {h : Heap α} {x y : V3 α} {q : Ptr} {b : Bool} :
    pathOne h x y q = .ok b ↔ ∃ o, h[q]? = some o ∧ Agent.pathTest h x y o = .ok b := by
  simp only [pathOne, Res.bind_eq_ok, Heap.deref]
  constructor
  · rintro ⟨o, ho, hb⟩
    cases hq : h[q]? with
    | none => rw [hq] at ho; cases ho
    | some o' => rw [hq] at ho; injection ho with ho; exact ⟨o', rfl, by rw [ho]; exact hb⟩
  · rintro ⟨o, ho, hb⟩
    exact ⟨o, by rw [ho], hb⟩

/-- C53: the answer is "no" exactly when some closed obstacle of the list contains exactly one of the two
points — for every list of obstacles of every kind on which the function returns. -/
theorem C53_exact {h : Heap α} {a : Agent α} {t : V3 α} {l : List Ptr} {r : Bool}
    (hr : a.existPath h t l = .ok r) :
    r = false ↔ ∃ q ∈ l, ∃ o, h[q]? = some o ∧ Separates h o t a.state.position := by
  obtain ⟨bs, h1, rfl⟩ := existPath_ok.mp hr
  have h2 := (mapM_ok _ _ _).mp h1
  constructor
  · intro hf
    rw [List.all_eq_false] at hf
    obtain ⟨b, hb, hbf⟩ := hf
    clear hr h1
    induction h2 with
    | nil => cases hb
    | @cons q b' l' bs' hq _ ih =>
      rcases List.mem_cons.mp hb with rfl | hb
      · obtain ⟨o, ho, hp⟩ := pathOne_ok.mp hq
        obtain ⟨i, j, hi, hj, h3⟩ := pathTest_ok.mp hp
        refine ⟨q, List.mem_cons_self, o, ho, i, j, hi, hj, ?_⟩
        rcases h3 with ⟨-, h3⟩ | ⟨h3, c, hc, h4⟩
        · rw [h3] at hbf; simp at hbf
        · refine ⟨h3, ?_⟩
          rw [h4] at hbf
          cases c
          · simp at hbf
          · exact hc
      · obtain ⟨q', hq', h3⟩ := ih hb
        exact ⟨q', List.mem_cons_of_mem _ hq', h3⟩
  · rintro ⟨q, hq, o, ho, i, j, hi, hj, hne, hc⟩
    rw [List.all_eq_false]
    clear hr h1
    induction h2 with
    | nil => cases hq
    | @cons q' b' l' bs' hq' _ ih =>
      rcases List.mem_cons.mp hq with rfl | hq
      · obtain ⟨o', ho', hp⟩ := pathOne_ok.mp hq'
        rw [ho] at ho'; injection ho' with ho'; subst ho'
        obtain ⟨i', j', hi', hj', h3⟩ := pathTest_ok.mp hp
        rw [hi] at hi'; injection hi' with hi'
        rw [hj] at hj'; injection hj' with hj'
        subst hi' hj'
        rcases h3 with ⟨h3, -⟩ | ⟨-, c, hc', h4⟩
        · exact absurd h3 hne
        · rw [hc] at hc'; injection hc' with hc'; subst hc'
          exact ⟨b', List.mem_cons_self, by rw [h4]; simp⟩
      · obtain ⟨b, hb, h3⟩ := ih hq
        exact ⟨b, List.mem_cons_of_mem _ hb, h3⟩

/-- C53: no obstacles, free path. -/
theorem C53_empty (h : Heap α) (a : Agent α) (t : V3 α) : a.existPath h t [] = .ok true := rfl

/-- C53: the answer is the same from the target to the agent. -/
theorem C53_symmetric {h : Heap α} {a b : Agent α} {l : List Ptr} {r : Bool} :
    a.existPath h b.state.position l = .ok r ↔ b.existPath h a.state.position l = .ok r := by
  have : ∀ a b : Agent α, a.existPath h b.state.position l = .ok r → b.existPath h a.state.position l = .ok r := by
    intro a b hr
    obtain ⟨bs, h1, h2⟩ := existPath_ok.mp hr
    refine existPath_ok.mpr ⟨bs, ?_, h2⟩
    rw [mapM_ok] at h1 ⊢
    refine h1.imp fun q c hq => ?_
    obtain ⟨o, ho, hp⟩ := pathOne_ok.mp hq
    exact pathOne_ok.mpr ⟨o, ho, pathTest_symm hp⟩
  exact ⟨this a b, this b a⟩

/-- C53: the order of the obstacles does not matter. -/
theorem C53_order {h : Heap α} {a : Agent α} {t : V3 α} {l l' : List Ptr} (hp : l.Perm l') {r : Bool} :
    a.existPath h t l = .ok r ↔ a.existPath h t l' = .ok r := by
  have : ∀ l l' : List Ptr, l.Perm l' → a.existPath h t l = .ok r → a.existPath h t l' = .ok r := by
    intro l l' hp hr
    obtain ⟨bs, h1, h2⟩ := existPath_ok.mp hr
    obtain ⟨bs', h3, h4⟩ := mapM_perm hp h1
    refine existPath_ok.mpr ⟨bs', h3, ?_⟩
    rw [h2, Bool.eq_iff_iff, List.all_eq_true, List.all_eq_true]
    exact ⟨fun h b hb => h b (h4.mem_iff.mpr hb), fun h b hb => h b (h4.mem_iff.mp hb)⟩
  exact ⟨this l l' hp, this l' l hp.symm⟩

/-- C53: the function returns for every list of live ellipsoids. -/
theorem C53_total (h : Heap α) (a : Agent α) (t : V3 α) (l : List Ptr)
    (hl : ∀ q ∈ l, ∃ e, h[q]? = some (.ellipsoid e)) : ∃ r, a.existPath h t l = .ok r := by
  obtain ⟨bs, hbs⟩ := mapM_total (f := pathOne h a.state.position t) (l := l) (by
    intro q hq
    obtain ⟨e, he⟩ := hl q hq
    simp only [pathOne, Heap.deref, he, Res.ok_bind, Agent.pathTest, Heap.pointIsInside, Heap.fuel,
      Heap.pointIsInsideAux, Obj.isClosed]
    split
    · exact ⟨_, rfl⟩
    · exact ⟨_, rfl⟩)
  exact ⟨_, existPath_ok.mpr ⟨bs, hbs, rfl⟩⟩

end

/-- Non-vacuity: a unit ball between the agent at its centre and a target outside. -/
example : (agentAt ⟨0, 0, 0⟩ V3.zero).existPath [.ellipsoid (ballAt ⟨0, 0, 0⟩)] ⟨5, 0, 0⟩ [0] = .ok false := by
  obtain ⟨r, hr⟩ := C53_total [.ellipsoid (ballAt ⟨0, 0, 0⟩)] (agentAt ⟨0, 0, 0⟩ V3.zero) ⟨5, 0, 0⟩ [0]
    (by intro q hq; simp only [List.mem_cons, List.not_mem_nil, or_false] at hq; subst hq; exact ⟨_, rfl⟩)
  have hrot : ZRotated (ballAt ⟨0, 0, 0⟩) := ⟨(ballAt_smooth ⟨0, 0, 0⟩).unit, rfl, rfl⟩
  have hlen : halfLengths (ballAt ⟨0, 0, 0⟩) V3.zero = ⟨1, 1, 1⟩ := by
    ext <;> simp [halfLengths, ballAt, Ellipsoid.ofBase, Base.mkRef, V3.zero, V3.const]
  have hin := circle_inside hrot 1 one_pos (by rw [hlen]) (by rw [hlen])
  have hpos : (ballAt ⟨0, 0, 0⟩).base.position = ⟨0, 0, 0⟩ := rfl
  rw [hpos] at hin
  have : r = false := (C53_exact hr).mpr ⟨0, by simp, _, rfl, false, true, by
      simp only [Heap.pointIsInside, Heap.fuel, Heap.pointIsInsideAux, Res.ok.injEq]
      rw [← Bool.not_eq_true, hin]; norm_num, by
      simp only [Heap.pointIsInside, Heap.fuel, Heap.pointIsInsideAux, Res.ok.injEq]
      rw [hin]; norm_num [agentAt, State.position, Pose.ofPosition], by simp, rfl⟩
  rw [hr, this]

end DOA.Props
