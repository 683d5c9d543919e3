import Verif.Lemmas.DblScene
import Verif.Lemmas.Library
import Verif.Props.Exceptional
import Verif.Props.AggregateTotal
import Verif.Props.HullDistance

/-!
# C101: no exceptional values in hulls and aggregates

C66 is about ellipsoids.  Here the aggregation (`update`, with the construction of the hulls) and `modulate_velocity` among
aggregates are compared with real arithmetic, failures included: both computations end in the same way.
-/

set_option linter.unusedSectionVars false
set_option linter.unusedSimpArgs false

namespace DOA.Props
open DOA DOA.Spec DOA.Modulation DOA.Hull DOA.Ellipsoid DOA.Dbl

/-! ## hulls -/

/-- C101: building a hull of an aggregate on ideal doubles gives the hull of real arithmetic, or the same failure. -/
theorem C101_hull {k : Hull ℝ} (hk : FitK k) {os : List (Obj ℝ)} (hos : ∀ o ∈ os, FitO o) (ref : V3 ℝ) :
    k.toD.compute ((os.map Obj.toD).map Obj.intersectionPoints) ref.toD =
      Hull.toD <$> k.compute (os.map Obj.intersectionPoints) ref :=
  compute_toD hk hos ref

/-- C101: the queries of a hull; only the distance divides. -/
theorem C101_hull_queries (k : Hull ℝ) (x : V3 ℝ) :
    k.toD.pointIsInside x.toD = k.pointIsInside x ∧ k.toD.normalToAgent x.toD = V3.toD <$> k.normalToAgent x ∧
    k.toD.isClosed = k.isClosed ∧
    (Clear k x → ∀ m : V3 ℝ, k.toD.distanceToPoint x.toD m.toD = fin <$> k.distanceToPoint x m) :=
  ⟨hullInside_toD k x, hullNormal_toD k x, hullClosed_toD k, fun c m => hullDistance_toD c.divides m m.toD⟩

/-- Hulls with a positive minimum radius can be divided by everywhere but in the centre. -/
theorem C101_clear {k k' : Hull ℝ} (hk : HullOK k) (hf : FitK k) {prims : List (Oracle ℝ)} {ref : V3 ℝ}
    (h : k.compute prims ref = .ok k') (hm : 0 < k.minRadius) (hold : ∀ q ∈ k.polar, 0 ≤ q.x) {x : V3 ℝ} (hx : x ≠ ref) :
    Clear k' x := by
  refine ⟨?_, fun q hq => ?_⟩
  · obtain ⟨k2, e, -, -, -, -, -, hpos, -⟩ := compute_ok hk prims ref
    rw [h] at e; cases e
    rw [inverse_apply_one (hf.compute h).axes]
    have hp : k'.base.pose.position = ref := hpos
    rw [hp]
    intro h0
    apply hx
    have h1 := congrArg V3.x h0
    have h2 := congrArg V3.y h0
    have h3 := congrArg V3.z h0
    simp only [V3.sub_x, V3.sub_y, V3.sub_z, V3.zero] at h1 h2 h3
    ext <;> linarith
  · have := C54_step_partial hk h hm.le (e := 1) zero_le_one (fun q hq => by simpa using hold q hq) q hq
    exact ne_of_gt (by linarith)

/-! ## the aggregation -/

/-- C101: `update` on ideal doubles — tests of overlap, grouping, names, means, hulls — ends as in real arithmetic, with the same
environment and the same (finite) obstacles in memory, for all environments in a memory of fit obstacles; and the memory is
again fit. -/
theorem C101_update {h : Heap ℝ} (hf : Fit h) (e : Env) :
    e.update h.toD = (fun r : Heap ℝ × Env => (r.1.toD, r.2)) <$> e.update h ∧
    ∀ r, e.update h = .ok r → Fit r.1 := by
  have h1 := update_toD ⟨rfl, hf⟩ e
  revert h1
  cases e.update h with
  | throw x =>
    cases e.update h.toD <;> intro h1 <;> simp only [Agree] at h1
    subst h1
    exact ⟨rfl, fun r hr => by cases hr⟩
  | ub u =>
    cases e.update h.toD <;> intro h1 <;> simp only [Agree] at h1
    subst h1
    exact ⟨rfl, fun r hr => by cases hr⟩
  | ok r =>
    cases e.update h.toD with
    | throw x => intro h1; cases h1
    | ub x => intro h1; cases h1
    | ok r' =>
      intro h1
      obtain ⟨⟨h2, h3⟩, h4⟩ := h1
      refine ⟨?_, fun s hs => by cases hs; exact h3⟩
      rw [Res.map_ok, ← h2, ← h4]

/-- C101: ellipsoids that are rotated about z by a rational multiple of `π` other than a quarter turn — in particular ellipsoids
that are not rotated — are fit, because `π` is irrational. -/
theorem C101_rotated {e : Ellipsoid ℝ} (hs : Solid e) (r : ℚ)
    (hq : e.base.pose.orientation = ⟨Real.cos (r * Real.pi / 2), 0, 0, Real.sin (r * Real.pi / 2)⟩)
    (hr : Real.cos (r * Real.pi) ≠ 0) : FitE e := by
  refine ⟨hs, fun f hf => ?_⟩
  obtain ⟨i, hi, hval⟩ := hf
  have hx : (e.base.pose.orientation.conjugate.rotate ⟨Real.cos f, Real.sin f, 0⟩).x = Real.cos (f - r * Real.pi) := by
    rw [hq, Real.cos_sub]
    have h2 : (r : ℝ) * Real.pi = 2 * (r * Real.pi / 2) := by ring
    rw [h2, Real.cos_two_mul, Real.sin_two_mul]
    generalize (r : ℝ) * Real.pi / 2 = g
    have hsq := Real.sin_sq_add_cos_sq g
    simp only [Quat.rotate, Quat.conjugate, Quat.vec, V3.cross, V3.smul, V3.add_x, V3.add_y, V3.add_z, neg_zero]
    have : Real.sin g ^ 2 = 1 - Real.cos g ^ 2 := by linarith
    ring_nf
    rw [this]
    ring
  rw [hx]
  intro hc
  obtain ⟨k, hk⟩ := Real.cos_eq_zero_iff.mp hc
  have key : Real.pi * (((2 * i : ℚ) / 499 - 1 - r - (2 * k + 1) / 2 : ℚ) : ℝ) = ((i : ℚ) / 499 / 10000 : ℚ) := by
    rw [hval] at hk
    push_cast
    linarith
  by_cases hi0 : i = 0
  · subst hi0
    apply hr
    have : (r : ℝ) * Real.pi = ((2 * ((-k - 2 : ℤ) : ℝ) + 1)) * Real.pi / 2 := by
      rw [hval] at hk
      push_cast at hk ⊢
      linarith
    rw [this]
    exact Real.cos_eq_zero_iff.mpr ⟨-k - 2, rfl⟩
  · have hne : ((2 * i : ℚ) / 499 - 1 - r - (2 * k + 1) / 2 : ℚ) ≠ 0 := by
      intro h0
      rw [h0] at key
      have : ((i : ℚ) / 499 / 10000 : ℚ) = 0 := by
        have : (((i : ℚ) / 499 / 10000 : ℚ) : ℝ) = ((0 : ℚ) : ℝ) := by rw [← key]; simp
        exact_mod_cast this
      have : (i : ℚ) = 0 := by linarith
      exact hi0 (by exact_mod_cast this)
    apply irrational_pi
    refine ⟨((i : ℚ) / 499 / 10000) / ((2 * i : ℚ) / 499 - 1 - r - (2 * k + 1) / 2), ?_⟩
    have hne' : (((2 * i : ℚ) / 499 - 1 - r - (2 * k + 1) / 2 : ℚ) : ℝ) ≠ 0 := by exact_mod_cast hne
    rw [Rat.cast_div, div_eq_iff hne', key]

theorem fit_unrotated {e : Ellipsoid ℝ} (hs : Solid e) (hq : e.base.pose.orientation = Quat.one) : FitE e :=
  C101_rotated hs 0 (by rw [hq]; simp [Quat.one]) (by simp)

/-- C101, why quarter turns are excluded: an ellipsoid turned by a quarter about z, with the hull centred on it.  The first ray
points along the negative x axis, that is along the y axis of the obstacle; the slope is infinite, no intersection is
reported, and the radius becomes the minimum radius `m` however far the obstacle reaches (the boundary is met at the half
length `L`). -/
theorem C101_quarter_turn {e : Ellipsoid ℝ} (hs : Solid e)
    (hq : e.base.pose.orientation = ⟨Real.cos (Real.pi / 4), 0, 0, Real.sin (Real.pi / 4)⟩) (inside : Bool) (m : ℝ) :
    surfacePoint inside (fin m) 0 (fin (-Real.pi)) (rayPoints (Pose.ofPosition e.base.pose.position).toD e.base.pose.position.toD
      [e.toD.intersectionPoints] (fin (-Real.pi))) = ⟨fin m, fin (Real.pi / 2), fin (-Real.pi)⟩ ∧
    let L := (e.axis + e.base.margin).y
    e.base.pose.inverse.apply (e.base.pose.position + ⟨-L, 0, 0⟩) = ⟨0, L, 0⟩ := by
  have hc : Real.cos (Real.pi / 4) * Real.cos (Real.pi / 4) = 1 / 2 := by
    rw [Real.cos_pi_div_four]
    have := Real.mul_self_sqrt (show (0 : ℝ) ≤ 2 by norm_num)
    linarith
  have hcs : Real.sin (Real.pi / 4) = Real.cos (Real.pi / 4) := by rw [Real.sin_pi_div_four, Real.cos_pi_div_four]
  have hrot : ∀ l : ℝ, e.base.pose.orientation.conjugate.rotate ⟨-l, 0, 0⟩ = ⟨0, l, 0⟩ := by
    intro l
    rw [hq, hcs]
    generalize Real.cos (Real.pi / 4) = c at hc
    ext <;> simp [Quat.rotate, Quat.conjugate, Quat.vec, V3.cross, V3.smul]
    · linear_combination (-4 * l) * (-hc) * (1 / 2)
    · linear_combination (2 * l) * hc
  have hadd : ∀ (l : ℝ), e.base.pose.inverse.apply (e.base.pose.position + ⟨-l, 0, 0⟩) = ⟨0, l, 0⟩ := by
    intro l
    have h1 := hrot l
    simp only [Pose.apply, Pose.inverse, Quat.rotate_add, Quat.rotate_neg, h1]
    generalize e.base.pose.orientation.conjugate.rotate e.base.pose.position = w
    ext <;> simp
  refine ⟨?_, hadd _⟩
  have hpts : rayPoints (Pose.ofPosition e.base.pose.position).toD e.base.pose.position.toD
      [e.toD.intersectionPoints] (fin (-Real.pi)) = [] := by
    simp only [rayPoints, dir_toD, Pose.toD_apply, List.flatMap_cons, List.flatMap_nil, List.append_nil]
    have hd : (Pose.ofPosition e.base.pose.position).apply (MathTools.polarToCartesian ⟨1, CMath.acos 0, -Real.pi⟩) =
        e.base.pose.position + ⟨-1, 0, 0⟩ := by
      ext <;> simp [MathTools.polarToCartesian, Pose.apply, Pose.ofPosition, Quat.rotate, Quat.one, Quat.vec, V3.cross, V3.smul]
      ring
    have hv : (e.base.pose.inverse.apply e.base.pose.position).x =
        (e.base.pose.inverse.apply (e.base.pose.position + ⟨-1, 0, 0⟩)).x := by
      rw [hadd 1]
      have := hadd 0
      have h0 : e.base.pose.position + ⟨-0, 0, 0⟩ = e.base.pose.position := by ext <;> simp
      rw [h0] at this
      rw [this]
    rw [hd, Ellipsoid.toD_intersection_vertical hs.1 hs.2 hv]
    simp
  rw [hpts]
  have hac : CMath.acos (0 : Dbl) = fin (Real.pi / 2) := by
    rw [zero_def, fin_acos (by norm_num) (by norm_num), Real.arccos_zero]
  have hz : fin m + 0 = fin m := by rw [zero_def, fin_add, add_zero]
  have hz' : fin m + -0 = fin m := by rw [zero_def, fin_neg, neg_zero, ← zero_def, hz]
  have hmax : maxS (fin m) (fin m) = fin m := by rw [fin_maxS]; simp [maxS]
  cases inside
  · simp only [surfacePoint, MathTools.sortBy, List.foldr, List.dropWhile_nil, Bool.false_eq_true, if_false, hac, hz, hmax]
  · simp only [surfacePoint, MathTools.sortBy, List.foldr, List.dropWhile_nil, if_true, hac, hz, hz', hmax]

/-- an ellipse with half lengths 1 and 10 (in its frame), rotated about z -/
noncomputable def turned (c s : ℝ) : Ellipsoid ℝ :=
  { Ellipsoid.ofBase (Base.mkPos "t" V3.zero (V3.const 0)) with
    base := { Base.mkPos "t" V3.zero (V3.const 0) with state := State.ofPose ⟨V3.zero, ⟨c, 0, 0, s⟩⟩ }, axis := ⟨1, 10, 1⟩ }

theorem turned_solid (c s : ℝ) : (turned c s).Solid := by
  constructor <;> norm_num [turned, Ellipsoid.ofBase, Base.mkPos, V3.const]

/-- Non-vacuity: turned by a third of `π` it is fit; turned by a quarter of the circle, the ray misses it although it reaches 10
units in that direction. -/
example : FitE (turned (Real.cos ((1 / 3 : ℚ) * Real.pi / 2)) (Real.sin ((1 / 3 : ℚ) * Real.pi / 2))) ∧
    surfacePoint false (fin (1 / 2)) 0 (fin (-Real.pi)) (rayPoints (Pose.ofPosition V3.zero).toD (V3.toD V3.zero)
      [(turned (Real.cos (Real.pi / 4)) (Real.sin (Real.pi / 4))).toD.intersectionPoints] (fin (-Real.pi))) =
        ⟨fin (1 / 2), fin (Real.pi / 2), fin (-Real.pi)⟩ ∧
    ((turned (Real.cos (Real.pi / 4)) (Real.sin (Real.pi / 4))).axis +
      (turned (Real.cos (Real.pi / 4)) (Real.sin (Real.pi / 4))).base.margin).y = 10 := by
  refine ⟨C101_rotated (turned_solid _ _) (1 / 3) rfl ?_, (C101_quarter_turn (turned_solid _ _) rfl false (1 / 2)).1, ?_⟩
  · have : ((1 / 3 : ℚ) : ℝ) * Real.pi = Real.pi / 3 := by push_cast; ring
    rw [this, Real.cos_pi_div_three]
    norm_num
  · norm_num [turned, Base.mkPos, V3.const]

theorem pair_fit : Fit pair := by
  intro p o hp
  have hc : ∀ n c r, r ≠ 0 → FitE (circ n c r) := by
    intro n c r hr
    refine fit_unrotated ⟨?_, ?_⟩ rfl <;>
      simpa [circ, Ellipsoid.ofBase, Base.mkPos, V3.const] using hr
  match p with
  | 0 => simp only [pair, List.getElem?_cons_zero, Option.some.injEq] at hp; subst hp; exact hc _ _ _ (by norm_num)
  | 1 =>
    simp only [pair, List.getElem?_cons_succ, List.getElem?_cons_zero, Option.some.injEq] at hp
    subst hp; exact hc _ _ _ (by norm_num)
  | n + 2 => simp [pair] at hp

/-- Non-vacuity: two overlapping circles are aggregated; so they are on doubles. -/
example : ∃ h1 a, Fit h1 ∧ (Env.mk [("a", 0), ("b", 1)] true []).update pair = .ok (h1, ⟨[("a", 0), ("b", 1)], true, [a]⟩) ∧
    (Env.mk [("a", 0), ("b", 1)] true []).update (Heap.toD pair) = .ok (h1.toD, ⟨[("a", 0), ("b", 1)], true, [a]⟩) := by
  obtain ⟨h1, a, h2, -⟩ := two_update pair_meet
  have h3 : (Env.mk [("a", 0), ("b", 1)] true []).update pair = .ok (h1, ⟨[("a", 0), ("b", 1)], true, [a]⟩) := by
    have h2' : Aggregation.aggregateObstacles pair [0, 1] = .ok (h1, [a]) := h2
    simp [Env.update, h2']
  obtain ⟨h4, h5⟩ := C101_update pair_fit ⟨[("a", 0), ("b", 1)], true, []⟩
  exact ⟨h1, a, h5 _ h3, h3, by rw [h4, h3, Res.map_ok]⟩

/-! ## velocities -/

/-- C101: `modulate_velocity` in an environment of ellipsoids, hulls and aggregates, with any combination of options: on ideal
doubles the same outcome as in real arithmetic, if every ellipsoid in memory has nonzero half lengths, and for each obstacle of
the list the reference basis is not singular and the condition of its kind holds (for hulls: the agent is not in the centre,
and no radius is zero). -/
theorem C101_velocity {h : Heap ℝ} (s : Solids h) (a : Agent ℝ) (e : Env) (loc rep planar : Bool) (critical power : ℝ)
    (hl : ∀ p ∈ e.list, ∀ o, h[p]? = some o → Kind planar a o ∧ Upright h a (stage planar a o) ∧ o.base.refPos ≠ none) :
    modulateVelocity h.toD a.toD e loc rep planar (fin critical) (fin power) =
      (fun r : Heap ℝ × V3 ℝ => (r.1.toD, r.2.toD)) <$> modulateVelocity h a e loc rep planar critical power := by
  refine modulateVelocity_toD s a e loc rep planar critical power fun p hp o ho => ?_
  obtain ⟨k, u, hr⟩ := hl p hp o ho
  refine ⟨k, u, fun el hel => ?_⟩
  have hk := k.stage
  rw [hel] at hk u
  have hr' : el.base.refPos ≠ none := by
    have : (Obj.ellipsoid el).base.refPos ≠ none := by
      rw [← hel]
      cases planar with
      | false => exact hr
      | true =>
        cases o with
        | ellipsoid e' =>
          simp only [stage, if_true, shifted]
          split
          · simp [Obj.base, Base.setRef]
          · exact hr
        | _ => exact hr
    exact this
  obtain ⟨ref, hr'⟩ := Option.ne_none_iff_exists'.mp hr'
  exact dist_ne_zero hk.1 (ref := ref) (u _ ref rfl hr')

/-- two surface points, at `(1, -1)` and `(1, 1)` -/
noncomputable def slab : Hull ℝ :=
  { base := Base.mkRef "" (State.ofPosition V3.zero) V3.zero (V3.const 0), isInside := false, resolution := 2, minRadius := 1,
    cart := [⟨1, -1, 0⟩, ⟨1, 1, 0⟩], polar := [⟨1, Real.pi / 2, -1⟩, ⟨1, Real.pi / 2, 1⟩] }

noncomputable def slabs : Aggregate ℝ :=
  { base := Base.mkRef "aggregate" (State.ofPosition V3.zero) V3.zero (V3.const 0),
    inside := { slab with isInside := true }, outside := slab, prims := [] }

private theorem slab_polar (b : Bool) : MathTools.cartesianToPolar (Pose.apply (Pose.inverse
    (Base.pose (Hull.base { slab with isInside := b }))) ⟨2, 0, 0⟩) = ⟨2, Real.pi / 2, 0⟩ := by
  rw [inverse_apply_one rfl]
  have h2 : √((2 : ℝ) * 2) = 2 := Real.sqrt_mul_self (by norm_num)
  have h0 : Complex.arg (⟨2, 0⟩ : ℂ) = 0 := by
    have : (⟨2, 0⟩ : ℂ) = ((2 : ℝ) : ℂ) := rfl
    rw [this, Complex.arg_ofReal_of_nonneg (by norm_num)]
  ext <;> simp [MathTools.cartesianToPolar, slab, Base.mkRef, Base.pose, State.ofPosition, Pose.ofPosition, V3.zero, h2, h0]

private theorem slab_column (b : Bool) : Hull.column { slab with isInside := b } ⟨2, 0, 0⟩ = 1 := by
  unfold Hull.column
  rw [slab_polar b]
  norm_num [slab, MathTools.lowerBound, MathTools.lowerBoundLoop]

private theorem slab_normal (b : Bool) : Hull.normalToAgent { slab with isInside := b } ⟨2, 0, 0⟩ = .ok ⟨2, 0, 0⟩ := by
  have h1 := closest_eq (k := { slab with isInside := b }) (by simp [slab]) ⟨2, 0, 0⟩
  rw [slab_column b, slab_polar b] at h1
  simp only [Hull.normalToAgent, h1, Res.ok_bind]
  simp [slab, Res.index, V3.cross, V3.unitZ]
  norm_num

private theorem slab_clear (b : Bool) : Clear { slab with isInside := b } ⟨2, 0, 0⟩ := by
  constructor
  · rw [inverse_apply_one rfl]
    intro h0
    have := congrArg V3.x h0
    simp [slab, Base.mkRef, Base.pose, State.ofPosition, Pose.ofPosition, V3.zero] at this
  · intro q hq
    simp only [slab, List.mem_cons, List.not_mem_nil, or_false] at hq
    rcases hq with rfl | rfl <;> simp

private theorem slab_ok (b : Bool) : HullOK { slab with isInside := b } := by
  simp [HullOK, slab]

/-- Non-vacuity: an agent in front of an aggregate and a ball. -/
example : ∃ h' v, modulateVelocity [.aggregate slabs, .ellipsoid (ballAt ⟨0, 4, 0⟩)] (agentAt ⟨2, 0, 0⟩ ⟨-1, 0, 0⟩) (envOf [0, 1])
      false true false 1 2 = .ok (h', v) ∧
    modulateVelocity (Heap.toD [.aggregate slabs, .ellipsoid (ballAt ⟨0, 4, 0⟩)]) (agentAt ⟨2, 0, 0⟩ ⟨-1, 0, 0⟩).toD (envOf [0, 1])
      false true false (fin 1) (fin 2) = .ok (h'.toD, v.toD) := by
  set h : Heap ℝ := [.aggregate slabs, .ellipsoid (ballAt ⟨0, 4, 0⟩)] with hh
  set a := agentAt ⟨2, 0, 0⟩ ⟨-1, 0, 0⟩ with ha
  have hpos : a.state.position = ⟨2, 0, 0⟩ := rfl
  have hmar : a.margin = 0 := rfl
  have hsolid : (ballAt ⟨0, 4, 0⟩).Solid := by
    constructor <;> norm_num [ballAt, Ellipsoid.ofBase, V3.const, V3.zero, Base.mkRef]
  have hout : slabs.outside.column ⟨2, 0, 0⟩ = 1 := slab_column false
  have hin : slabs.inside.column ⟨2, 0, 0⟩ = 1 := slab_column true
  have hsome : ∀ p ∈ (envOf [0, 1]).list, h[p]? = some (.aggregate slabs) ∨ h[p]? = some (.ellipsoid (ballAt ⟨0, 4, 0⟩)) := by
    intro p hp
    simp only [envOf, List.mem_cons, List.not_mem_nil, or_false] at hp
    rcases hp with rfl | rfl
    · exact .inl rfl
    · exact .inr rfl
  have hok : ∃ h' v, modulateVelocity h a (envOf [0, 1]) false true false 1 2 = .ok (h', v) := by
    refine (C87_exact h a (envOf [0, 1]) true false 1 2 fun p hp => ?_).1 (fun p hp o ho => ?_) false (by simp)
    · rcases hsome p hp with h1 | h1
      · exact ⟨_, h1, ⟨_, rfl⟩, slab_ok true, slab_ok false, by simp [slabs]⟩
      · exact ⟨_, h1, _, rfl⟩
    · rcases hsome p hp with h1 | h1 <;> rw [h1] at ho <;> cases ho
      · rw [hpos]
        exact ⟨by rw [hout]; simp [slabs, slab], fun _ => by rw [hin]; simp [slabs, slab]⟩
      · trivial
  obtain ⟨h', v, h1⟩ := hok
  refine ⟨h', v, h1, ?_⟩
  rw [C101_velocity, h1, Res.map_ok]
  · intro p o ho
    match p with
    | 0 => simp only [hh, List.getElem?_cons_zero, Option.some.injEq] at ho; subst ho; trivial
    | 1 =>
      simp only [hh, List.getElem?_cons_succ, List.getElem?_cons_zero, Option.some.injEq] at ho
      subst ho; exact hsolid
    | n + 2 => simp [hh] at ho
  · intro p hp o ho
    rcases hsome p hp with h1 | h1 <;> rw [h1] at ho <;> cases ho
    · refine ⟨⟨slab_clear true, slab_clear false⟩, ?_, by simp [slabs, Obj.base, Base.mkRef]⟩
      intro n ref hn hr
      have hn' : n = ⟨2, 0, 0⟩ := by
        simp only [stage, Bool.false_eq_true, if_false, Heap.normalToAgent, hpos] at hn
        obtain ⟨b, -, hn⟩ := Res.bind_eq_ok.mp hn
        cases b with
        | true => exact (Res.ok.inj ((slab_normal true).symm.trans hn)).symm
        | false => exact (Res.ok.inj ((slab_normal false).symm.trans hn)).symm
      have hr' : ref = V3.zero := (Option.some.inj hr).symm
      rw [hn', hr', hpos]
      have hd : referenceDirection slabs.base.pose ⟨2, 0, 0⟩ V3.zero = ⟨1, 0, 0⟩ := by
        unfold referenceDirection
        rw [inverse_apply_one rfl, inverse_apply_one rfl]
        have h4 : √((2 : ℝ) * 2) = 2 := Real.sqrt_mul_self (by norm_num)
        ext <;> simp [slabs, slab, Base.mkRef, Base.pose, State.ofPosition, Pose.ofPosition, V3.zero, V3.normalized, V3.sqNorm,
          V3.dot, V3.sdiv, h4]
      have hd' : referenceDirection (stage false a (.aggregate slabs)).base.pose ⟨2, 0, 0⟩ V3.zero = ⟨1, 0, 0⟩ := hd
      rw [hd']
      have ht : tangentVector (⟨2, 0, 0⟩ : V3 ℝ) = ⟨0, -2, 0⟩ := by
        have h4 : √((2 : ℝ) * 2) = 2 := Real.sqrt_mul_self (by norm_num)
        simp only [tangentVector]
        rw [if_neg]
        · ext <;> simp [V3.cross, V3.unitZ]
        · simp [V3.cross, V3.unitZ, V3.norm, V3.sqNorm, V3.dot, h4]
          norm_num
      simp only [referenceBasis, ht]
      simp [V3.cross, M3.det]
    · have sm := ballAt_smooth ⟨0, 4, 0⟩
      refine ⟨⟨⟨1, 1, 1, sm.curv⟩, hsolid, by simp⟩, ?_, by simp [ballAt, Obj.base, Base.mkRef, Ellipsoid.ofBase]⟩
      intro n ref hn hr
      have hr' : ref = ⟨0, 4, 0⟩ := (Option.some.inj hr).symm
      cases Res.ok.inj hn
      obtain ⟨y, w, c⟩ := coord sm (ref := ref) (x := a.state.position) (by rw [hr', hpos, ballAt_dist, ballAt_dist]; norm_num)
      exact coord_det sm c

end DOA.Props
