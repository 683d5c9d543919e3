import Verif.Lemmas.UnitsHull
import Verif.Props.Units
import Verif.Props.HullNeedle
import Verif.Props.Mirror

/-!
# C98 for hulls and aggregates
-/

namespace DOA.Props
open DOA DOA.Spec DOA.Modulation DOA.Ellipsoid DOA.Hull DOA.UnitsHull
set_option linter.unusedSectionVars false
set_option linter.unusedSimpArgs false

/-- C98, the hulls: `compute_from_primitives` in other units gives the same hull, for all hulls (whatever they held before),
all primitives and reference points, if the minimum radius and the margin are converted too. Undefined behaviour is the
same in all units. -/
theorem C98_hull {U : Units} (hU : U.Valid) (k : Hull ℝ) (os : List (Obj ℝ)) (ref : V3 ℝ) :
    (scaledHull U k).compute ((os.map (scaledObj U)).map Obj.intersectionPoints) (V3.smul U.k ref) =
      scaledHull U <$> k.compute (os.map Obj.intersectionPoints) ref := compute_scaled hU k os ref

/-- C98, the queries of a hull: the normal is a length (it is not normalised); whether the hull is closed does not depend on
the units. -/
theorem C98_hull_queries {U : Units} (hU : U.Valid) (k : Hull ℝ) (x : V3 ℝ) :
    (scaledHull U k).normalToAgent (V3.smul U.k x) = V3.smul U.k <$> k.normalToAgent x ∧
    (scaledHull U k).isClosed = k.isClosed :=
  ⟨hullNormal_scaled hU k x, isClosed_scaled hU k⟩

/-- C98, `update_hull` of an aggregate: the same in all units, with the same undefined behaviour. -/
theorem C98_update_hull {U : Units} (hU : U.Valid) (h : Heap ℝ) (p : Ptr) :
    (scaledHeap U h).updateHull p = scaledHeap U <$> h.updateHull p := updateHull_scaled hU h p

/-- C98, the queries: whether a point is inside is the same in all units, for all obstacles, nested aggregates included; so
is the distance, and the repulsion is a length, if the ellipsoids are not too thin. -/
theorem C98_queries {U : Units} (hU : U.Valid) (h : Heap ℝ) (o : Obj ℝ) (x : V3 ℝ) :
    (scaledHeap U h).pointIsInside (scaledObj U o) (V3.smul U.k x) = h.pointIsInside o x ∧
    ((∀ e, o = .ellipsoid e → ThickEll U e) → ∀ r : ℝ, 0 ≤ r →
      (scaledHeap U h).distanceToPoint (scaledObj U o) (V3.smul U.k x) (V3.const (U.k * r)) =
        h.distanceToPoint o x (V3.const r) ∧
      ∀ th, (scaledHeap U h).generateRepulsion (scaledObj U o) (V3.smul U.k x) (U.k * r) th =
        V3.smul U.k <$> h.generateRepulsion o x r th) :=
  ⟨inside_scaled hU h o x, fun ho _ hr => ⟨distance_scaled hU h o ho x hr, fun th => generate_scaled hU h o ho x hr th⟩⟩

/-- C98, the part that holds for the velocity among obstacles of all kinds: without repulsion, `is_local` and planar
modulation, any number of ellipsoids in any motion, and of hulls and aggregates at rest. Outcomes other than a velocity
(exceptions, undefined behaviour) are the same too.
Full statement (false, see the negations): for all options and all obstacles. -/
theorem C98_obstacles_partial {U : Units} (hU : U.Valid) {h : Heap ℝ} {a a' : Agent ℝ} {E : Env} (ha : ScaledAgent U a a')
    (hr : 0 ≤ a.margin) (ht : ThickListed U h E.list) (hs : SteadyHulls U h a E.list) (critical power : ℝ) :
    Agree (fun r r' => r.1 = h ∧ r'.1 = scaledHeap U h ∧ r'.2 = V3.smul U.m r.2)
      (modulateVelocity h a E false false false critical power)
      (modulateVelocity (scaledHeap U h) a' E false false false critical power) := by
  rw [modulateVelocity_eq, modulateVelocity_eq]
  split
  · exact ⟨rfl, rfl, ha.velocity⟩
  simp only [sightOf, Bool.false_eq_true, if_false, Res.ok_bind, if_true, repOf]
  refine Agree.bind (collect_scaled hU ha hr E.list ht hs) fun r r' _ _ ⟨q1, q2, q3⟩ => ?_
  rw [ha.position, ha.velocity, combine_scale hU a.state.position a.state.linearVelocity critical power q3]
  exact ⟨q1, q2, rfl⟩

theorem finish_units {k : ℝ} (hk : 0 < k) (v w : V3 ℝ) :
    V3.norm (finish (some (V3.smul k v)) (V3.smul k w) - V3.smul k (finish (some v) w)) ≤ max 1 k / 10000 := by
  have hself : ∀ v : V3 ℝ, v - v = V3.zero := fun v => by v3_ring
  have h0 : V3.norm (V3.zero : V3 ℝ) ≤ max 1 k / 10000 := by
    rw [V3.norm_eq_zero.mpr rfl]; positivity
  have hnan : ∀ v : V3 ℝ, v.hasNaN = false := fun v => by simp [V3.hasNaN]
  have hlit : (lit 1 10000 : ℝ) = 1 / 10000 := by simp [lit_real]
  unfold finish
  simp only [hnan, Bool.false_eq_true, if_false, V3.norm_smul_pos hk, hlit]
  have m1 := le_max_left 1 k
  have m2 := le_max_right 1 k
  by_cases c1 : 1 / 10000 < k * V3.norm v <;> by_cases c2 : 1 / 10000 < V3.norm v
  · rw [if_pos c1, if_pos c2, V3.smul_add', hself]; exact h0
  · rw [if_pos c1, if_neg c2]
    have : V3.smul k w + V3.smul k v - V3.smul k w = V3.smul k v := by v3_ring
    rw [this, V3.norm_smul_pos hk]
    have := mul_le_mul_of_nonneg_left (not_lt.mp c2) hk.le
    linarith
  · rw [if_neg c1, if_pos c2, V3.smul_add']
    have : V3.smul k w - (V3.smul k w + V3.smul k v) = -V3.smul k v := by v3_ring
    have hneg : ∀ u : V3 ℝ, V3.norm (-u) = V3.norm u := fun u => by
      simp only [V3.norm, V3.sqNorm, V3.dot, V3.neg_x, V3.neg_y, V3.neg_z, neg_mul_neg]
    rw [this, hneg, V3.norm_smul_pos hk]
    linarith
  · rw [if_neg c1, if_neg c2, hself]; exact h0

/-- C98, the same with the repulsion: the unit of time is kept, and the velocities agree except for the cut-off of repulsions
shorter than 1e-4. -/
theorem C98_obstacles_repulsion_partial {U : Units} (hU : U.Valid) (hkm : U.m = U.k) {h : Heap ℝ} {a a' : Agent ℝ} {E : Env}
    (ha : ScaledAgent U a a') (hr : 0 ≤ a.margin) (ht : ThickListed U h E.list) (hs : SteadyHulls U h a E.list)
    (critical power : ℝ) :
    Agree (fun r r' => r.1 = h ∧ r'.1 = scaledHeap U h ∧ V3.norm (r'.2 - V3.smul U.k r.2) ≤ max 1 U.k / 10000)
      (modulateVelocity h a E false true false critical power)
      (modulateVelocity (scaledHeap U h) a' E false true false critical power) := by
  have hk := hU.1
  have hself : ∀ v : V3 ℝ, v - v = V3.zero := fun v => by v3_ring
  have h0 : V3.norm (V3.zero : V3 ℝ) ≤ max 1 U.k / 10000 := by
    rw [V3.norm_eq_zero.mpr rfl]; positivity
  rw [modulateVelocity_eq, modulateVelocity_eq]
  split
  · refine ⟨rfl, rfl, ?_⟩
    show V3.norm (a'.state.linearVelocity - V3.smul U.k a.state.linearVelocity) ≤ _
    rw [ha.velocity, hkm, hself]; exact h0
  simp only [sightOf, Bool.false_eq_true, if_false, Res.ok_bind, if_true]
  refine Agree.bind (collect_scaled hU ha hr E.list ht hs) fun r r' _ _ ⟨q1, q2, q3⟩ => ?_
  have hcomb := combine_scale hU a.state.position a.state.linearVelocity critical power q3
  rw [ha.position, ha.velocity, hcomb, hkm]
  simp only [repOf, bind_assoc, Res.ok_bind, q1, q2, repulsionSum_scaled hU ha hr E.list ht]
  cases repulsionSum h a E.list with
  | throw x => exact rfl
  | ub u => exact rfl
  | ok v => exact ⟨rfl, rfl, finish_units hk v _⟩

/-! ### A case -/

/-- The kite has a normal of the length √5 at the place of the agent. -/
theorem kite_normal_left (h : Heap ℝ) (r : ℝ) :
    h.normalToAgent (.hull kite) ⟨4 / 5, 3 / 5, 0⟩ r = .ok ⟨1, -2, 0⟩ := by
  obtain ⟨-, -, c1, c2, g1, g2, g3⟩ := (C56_exact kite kite_flat.ok ⟨4 / 5, 3 / 5, 0⟩ V3.zero).1 (by
    rw [kite_column_left]; show 2 < 4; norm_num)
  rw [kite_column_left] at g1 g2
  have e1 : c1 = ⟨0, 1, 0⟩ := (Option.some.inj g1).symm
  have e2 : c2 = ⟨-2, 0, 0⟩ := (Option.some.inj g2).symm
  show kite.normalToAgent _ = _
  rw [g3, e1, e2]
  congr 1
  ext <;> norm_num [V3.cross, V3.unitZ]

/-- A hull and a ball that moves, from metres to millimetres. -/
example : (⟨1000, 1000⟩ : Units).Valid ∧
    ThickListed ⟨1000, 1000⟩ [.hull kite, .ellipsoid (ball ⟨5, 5, 0⟩)] [0, 1] ∧
    SteadyHulls ⟨1000, 1000⟩ [.hull kite, .ellipsoid (ball ⟨5, 5, 0⟩)] (agentAt ⟨4 / 5, 3 / 5, 0⟩ ⟨1, 0, 0⟩) [0, 1] := by
  refine ⟨⟨by norm_num, by norm_num⟩, ?_, ?_⟩
  · intro p hp e he
    rcases List.mem_cons.mp hp with rfl | hp
    · cases he
    · rw [List.mem_singleton.mp hp] at he
      cases he
      refine ⟨⟨1, (ball_smooth _).curv⟩, ?_, ?_⟩ <;>
        norm_num [AllGt, halfLengths, ball, Ellipsoid.ofBase, V3.const, V3.zero, V3.smul, Base.mkRef]
  · intro p hp o ho hne
    rcases List.mem_cons.mp hp with rfl | hp
    · cases ho
      refine ⟨⟨rfl, rfl⟩, fun n hn => ?_⟩
      have : n = ⟨1, -2, 0⟩ := Res.ok.inj (hn.symm.trans (kite_normal_left _ _))
      subst this
      have := norm_le_three (w := (⟨1, -2, 0⟩ : V3 ℝ)) (by norm_num [V3.sqNorm, V3.dot]) (by norm_num [V3.sqNorm, V3.dot])
      exact ⟨this.1, by linarith [this.1]⟩
    · rw [List.mem_singleton.mp hp] at ho
      cases ho
      exact absurd rfl (hne _)

/-! ### The minimum radius of aggregates -/

/-- A disc around the origin. -/
noncomputable def bead (c : ℝ) : Ellipsoid ℝ := { coin with axis := V3.const c }

theorem bead_half (c : ℝ) : halfLengths (bead c) V3.zero = ⟨c, c, c⟩ := by
  ext <;> simp [halfLengths, bead, coin, Base.mkPos, Ellipsoid.ofBase, V3.zero, V3.const]

theorem bead_apply (c u v : ℝ) : (bead c).base.pose.apply ⟨u, v, 0⟩ = ⟨u, v, 0⟩ := by
  rw [apply_one rfl]
  ext <;> simp [bead, coin, Ellipsoid.ofBase, Base.mkPos, State.ofPosition, Pose.ofPosition, Base.pose, V3.zero]

theorem on_bead {c : ℝ} (hc : 0 < c) (x y : ℝ) :
    OnEllipse (bead c) (halfLengths (bead c) V3.zero) x y ↔ x ^ 2 + y ^ 2 = c ^ 2 := by
  simp only [OnEllipse, bead_half, bead_apply, div_pow, ← add_div, div_eq_one_iff_eq (pow_ne_zero 2 hc.ne')]
  constructor
  · rintro ⟨u, v, h, rfl, rfl⟩; exact h
  · intro h; exact ⟨x, y, h, rfl, rfl⟩

theorem bead_ray {c : ℝ} (hc : 0 < c) {f : ℝ} (hf : Real.cos f ≠ 0) : RayOK (bead c) V3.zero f := by
  refine ⟨⟨?_, rfl, rfl⟩, by rw [bead_half]; exact hc, by rw [bead_half]; exact hc, rfl, ?_, ?_⟩
  · exact (Quat.isUnit_iff_norm _).mp Quat.isUnit_one
  · rw [inverse_apply_one rfl, inverse_apply_one rfl]
    simp only [V3.sub_x, V3.add_x]
    intro h; exact hf (by linarith)
  · rw [on_bead hc]
    have := pow_pos hc 2
    simp only [V3.zero]
    intro h; linarith

theorem bead_hits {c : ℝ} (hc : 0 < c) {f t : ℝ} (ht : t ∈ rayHits [bead c] V3.zero f) : t = c := by
  simp only [rayHits, Set.mem_ofPred_eq, List.mem_singleton, exists_eq_left] at ht
  obtain ⟨h0, h⟩ := ht
  rw [on_bead hc] at h
  have h1 : (V3.zero.x + t * Real.cos f) ^ 2 + (V3.zero.y + t * Real.sin f) ^ 2 = t ^ 2 := by
    simp only [V3.zero]
    have := Real.sin_sq_add_cos_sq f
    linear_combination (t ^ 2) * this
  rw [h1] at h
  nlinarith

theorem angle_cos {i : ℕ} (hi : i < 500) : Real.cos (columnAngle i) ≠ 0 := by
  obtain ⟨phi, e1, l1, e4⟩ := C13_linspace_even (-Real.pi) (Real.pi - 1 / 10000) 500 (by norm_num)
  have e1' : MathTools.linspace (-CMath.pi : ℝ) (CMath.pi - lit 1 10000) ((500 : ℕ) : Int) = .ok phi := by
    simpa [lit_real] using e1
  exact grid_cos (by norm_num) e1' (List.mem_of_getElem? (e4 i hi))

/-- The outside hull of one disc, on the positive x axis. -/
theorem bead_hull {c : ℝ} (hc : 0 < c) {o : Hull ℝ}
    (ho : (Hull.mk' false 500 (lit 1 2)).compute [(bead c).intersectionPoints] V3.zero = .ok o) {X : ℝ} (hX : 0 < X) :
    ∃ r, 9 / 20 ≤ r ∧ r ≤ max (1 / 2) c ∧ o.pointIsInside ⟨X, 0, 0⟩ = .ok (decide (X < r)) := by
  have hlit : (lit 1 2 : ℝ) = 1 / 2 := by simp [lit_real]
  have hk0 := hullOK_mk' (α := ℝ) false (n := 500) (by norm_num) (lit 1 2)
  have cols := ellipse_columns (es := [bead c]) hk0 rfl rfl rfl (by show (0 : ℝ) ≤ lit 1 2; rw [hlit]; norm_num) ho
    (fun i hi e he => by rw [List.mem_singleton.mp he]; exact bead_ray hc (angle_cos hi)) (B := max (1 / 2) c)
    (fun q hq => by
      have : q = V3.zero := List.eq_of_mem_replicate hq
      rw [this]
      exact ⟨le_refl _, le_trans (by norm_num [V3.zero]) (le_max_left _ _)⟩)
    (by show (lit 1 2 : ℝ) ≤ _; rw [hlit]; exact le_max_left _ _)
    (fun i hi t ht => by rw [bead_hits hc ht]; exact le_max_right _ _)
  have hcomp : Computed false o := .step .new ho
  obtain ⟨k1, k2, k3, k4, k5⟩ := hcomp.keeps
  have hor := (computed_nonneg hcomp).1
  obtain ⟨o', e, -, -, -, -, -, hpos, -⟩ := compute_ok hk0 [(bead c).intersectionPoints] (V3.zero : V3 ℝ)
  rw [ho] at e; cases e
  have hlen : o.polar.length = 500 := by rw [k1.2.1, k3]
  have hcol : o.column ⟨X, 0, 0⟩ = 250 := by
    unfold Hull.column
    have hang : (MathTools.cartesianToPolar (o.base.pose.inverse.apply ⟨X, 0, 0⟩)).z = 0 := by
      rw [inverse_apply_one hor]
      have hp0 : o.base.pose.position = V3.zero := hpos
      rw [hp0]
      show (⟨X - 0, 0 - 0⟩ : ℂ).arg = 0
      rw [sub_zero, sub_zero]
      exact Complex.arg_ofReal_of_nonneg hX.le
    rw [hang]
    unfold MathTools.lowerBound
    have hl : (o.polar.map (·.z)).length = 500 := by simpa using hlen
    have hget : ∀ i w, 1 ≤ i → (o.polar.map (·.z))[i]? = some w → w = columnAngle i ∧ i < 500 := by
      intro i w h1 hw
      have hi : i < 500 := by rw [← hl]; exact (List.getElem?_eq_some_iff.mp hw).1
      obtain ⟨q, R, e1, -, e2, -⟩ := cols i hi
      rw [List.getElem?_map, e1] at hw
      simp only [Option.map_some, Option.some.injEq] at hw
      exact ⟨hw ▸ e2 h1, hi⟩
    refine lowerBoundLoop_split _ 0 250 (by norm_num) ?_ ?_ _ _ _ (by omega) (by omega) (by omega) (by omega)
    · intro i w h1 h2 hw
      obtain ⟨rfl, -⟩ := hget i w h1 hw
      rw [columnAngle_eq]
      have hi : (i : ℝ) ≤ 249 := by exact_mod_cast (by omega : i ≤ 249)
      have hi0 : (0 : ℝ) ≤ i := Nat.cast_nonneg i
      have := Real.pi_pos
      apply div_neg_of_neg_of_pos _ (by norm_num)
      nlinarith
    · intro i w h1 hw
      obtain ⟨rfl, h2⟩ := hget i w (by omega) hw
      rw [columnAngle_eq, not_lt]
      have hi : (250 : ℝ) ≤ i := by exact_mod_cast h1
      have hi' : (i : ℝ) ≤ 499 := by exact_mod_cast (by omega : i ≤ 499)
      have := Real.pi_gt_three
      apply div_nonneg _ (by norm_num)
      nlinarith
  obtain ⟨q, R, p1, -, -, r1, r2, -, r3⟩ := cols 250 (by norm_num)
  have hR : 1 / 2 ≤ R := by
    have hm : (Hull.mk' false 500 (lit 1 2) : Hull ℝ).minRadius = 1 / 2 := hlit
    rw [hm] at r1
    rcases r1 with ⟨-, rfl⟩ | ⟨ρ, -, rfl⟩
    · exact le_refl _
    · exact le_max_left _ _
  refine ⟨q.x, by linarith, r3, ?_⟩
  have : V3.norm (⟨X, 0, 0⟩ - V3.zero : V3 ℝ) = X := by
    rw [V3.sub_zero', norm_on_axis, abs_of_pos hX]
  rw [inside_value o hor _ q (by rw [hcol]; exact p1), hpos, this]

/-- The aggregate of one disc, with the given hulls. -/
noncomputable def beadGroup (i o : Hull ℝ) : Aggregate ℝ :=
  { base := { (Base.mkName "aggregate_b" (V3.const 0)).setPosition V3.zero with refPos := some V3.zero },
    inside := i, outside := o, prims := [0] }

/-- The constructor `Aggregate(primitives)` with one disc. -/
theorem bead_aggregate (c : ℝ) : ∃ (ag : Aggregate ℝ),
    (Hull.mk' false 500 (lit 1 2)).compute [(bead c).intersectionPoints] V3.zero = .ok ag.outside ∧ ag.prims = [0] ∧
    Heap.mkAggregate [.ellipsoid (bead c)] [0] = .ok ([.ellipsoid (bead c), .aggregate ag], 1) := by
  have hk := fun b : Bool => hullOK_mk' (α := ℝ) b (n := 500) (by norm_num) (lit 1 2)
  obtain ⟨i, hi, -⟩ := compute_ok (hk true) [(bead c).intersectionPoints] V3.zero
  obtain ⟨o, ho, -⟩ := compute_ok (hk false) [(bead c).intersectionPoints] V3.zero
  refine ⟨beadGroup i o, ho, rfl, ?_⟩
  have hz : (V3.zero + V3.zero : V3 ℝ) = V3.zero := by ext <;> simp [V3.zero]
  obtain ⟨a0, ha0⟩ : ∃ a0 : Aggregate ℝ, a0 = Aggregate.default := ⟨_, rfl⟩
  have hin : a0.inside = Hull.mk' true 500 (lit 1 2) := by rw [ha0]; rfl
  have hout : a0.outside = Hull.mk' false 500 (lit 1 2) := by rw [ha0]; rfl
  have hbase : a0.base = Base.mkName "aggregate" (V3.const 0) := by rw [ha0]; rfl
  have hnew : Heap.newAggregate [.ellipsoid (bead c)] = ([.ellipsoid (bead c), .aggregate a0], 1) := by rw [ha0]; rfl
  have hsort : Heap.sortByName [.ellipsoid (bead c), .aggregate a0] [0] = .ok [(0, .ellipsoid (bead c))] := rfl
  have hpos : (([(0, Obj.ellipsoid (bead c))] : List (Ptr × Obj ℝ)).map (fun x => x.2.position)).foldl
      (fun acc v => acc + v) V3.zero = V3.zero := hz
  have hname : Heap.aggregateName (([(0, Obj.ellipsoid (bead c))] : List (Ptr × Obj ℝ)).map (fun x => x.2.name)) =
      "aggregate_b" := by
    show Heap.aggregateName ["b"] = _
    decide
  have hsd : ∀ x : ℝ, (V3.zero : V3 ℝ).sdiv x = V3.zero := fun x => by ext <;> simp [V3.sdiv, V3.zero]
  clear ha0
  unfold Heap.mkAggregate
  simp only [hnew]
  unfold Heap.installPrims
  have hdr : ∀ b : Aggregate ℝ, Heap.deref [.ellipsoid (bead c), .aggregate b] 1 = .ok (.aggregate b) ∧
    Heap.deref [.ellipsoid (bead c), .aggregate b] 0 = .ok (.ellipsoid (bead c)) := fun b => ⟨rfl, rfl⟩
  rw [(hdr a0).1, Res.ok_bind]
  simp only [hsort, Res.ok_bind, hpos, hname, hsd, if_true]
  have hset : ∀ a b : Aggregate ℝ, ([.ellipsoid (bead c), .aggregate a] : Heap ℝ).set 1 (.aggregate b) =
    [.ellipsoid (bead c), .aggregate b] := fun a b => rfl
  rw [hset]
  have hs1 : ∀ b : Aggregate ℝ, ([.ellipsoid (bead c), .aggregate b] : Heap ℝ).set 1
    ((Obj.aggregate b).mapBase (·.setRef V3.zero)) = [.ellipsoid (bead c), .aggregate { b with base := b.base.setRef V3.zero }] :=
    fun b => rfl
  have hs0 : ∀ b : Aggregate ℝ, ([.ellipsoid (bead c), .aggregate b] : Heap ℝ).set 0
    ((Obj.ellipsoid (bead c)).mapBase (·.setRef V3.zero)) = [.ellipsoid (bead c), .aggregate b] := fun b => rfl
  have href : ∀ b : Aggregate ℝ, b.prims = [0] → Heap.setRef [.ellipsoid (bead c), .aggregate b] 1 V3.zero =
      .ok [.ellipsoid (bead c), .aggregate { b with base := b.base.setRef V3.zero }] := by
    intro b hb
    show Heap.setRefAux 3 _ _ _ = _
    rw [Heap.setRefAux, (hdr b).1, Res.ok_bind]
    simp only [hs1]
    rw [hb, List.foldlM_cons, Heap.setRefAux, (hdr _).2, Res.ok_bind]
    simp only [hs0]
    rfl
  have hupd : ∀ b : Aggregate ℝ, b.prims = [0] → b.base.refPos = some V3.zero →
      b.inside.compute [(bead c).intersectionPoints] V3.zero = .ok i →
      b.outside.compute [(bead c).intersectionPoints] V3.zero = .ok o →
      Heap.updateHull [.ellipsoid (bead c), .aggregate b] 1 =
        .ok [.ellipsoid (bead c), .aggregate { b with inside := i, outside := o }] := by
    intro b hb1 hb2 hb3 hb4
    have hm : b.prims.mapM (Heap.deref [.ellipsoid (bead c), .aggregate b]) = .ok [.ellipsoid (bead c)] := by
      rw [hb1, mapM_ok]; exact .cons rfl .nil
    have hq : ([.ellipsoid (bead c)] : List (Obj ℝ)).map Obj.intersectionPoints = [(bead c).intersectionPoints] := rfl
    unfold Heap.updateHull
    rw [(hdr b).1, Res.ok_bind]
    simp only [hm, Res.ok_bind, Base.ref, hb2, hq, hb3, hb4]
    rfl
  rw [href _ rfl, Res.ok_bind, hupd _ rfl rfl (by rw [← hin] at hi; exact hi) (by rw [← hout] at ho; exact ho), Res.ok_bind]
  rw [show beadGroup i o = { a0 with
    base := ((a0.base.setName "aggregate_b").setPosition V3.zero).setRef V3.zero, inside := i, outside := o, prims := [0] } by
    rw [hbase]; rfl]
  rfl

theorem bead_scaled (U : Units) : scaledHeap U [.ellipsoid (bead 1)] = [.ellipsoid (bead U.k)] := by
  have hz : ∀ c : ℝ, V3.smul c V3.zero = V3.zero := V3.smul_zero'
  have hb : scaledBase U coin.base = coin.base := by
    simp only [scaledBase, coin, Ellipsoid.ofBase, Base.mkPos, State.ofPosition, Pose.ofPosition, Option.map_some, hz]
  have ha : V3.smul U.k (V3.const 1) = V3.const U.k := by ext <;> simp [V3.const, V3.smul]
  show [scaledObj U (.ellipsoid (bead 1))] = _
  have : scaledEll U (bead 1) = bead U.k := by
    show ({ (bead 1) with base := scaledBase U coin.base, axis := V3.smul U.k (V3.const 1) } : Ellipsoid ℝ) = _
    rw [hb, ha]; rfl
  rw [show scaledObj U (.ellipsoid (bead 1)) = .ellipsoid (scaledEll U (bead 1)) from rfl, this]

/-- C98 is false for the construction of aggregates: the minimum radius 1/2 of their hulls is the same number in all units.
The agent at the distance 2 from the centre of a disc of radius 1 is outside the aggregate that consists of this disc; in
units five times as long it is inside. -/
theorem C98_negation_aggregate : ∃ (U : Units) (h g g' : Heap ℝ) (o o' : Obj ℝ) (x : V3 ℝ), U.Valid ∧
    h.mkAggregate [0] = .ok (g, 1) ∧ (scaledHeap U h).mkAggregate [0] = .ok (g', 1) ∧
    g[1]? = some o ∧ g'[1]? = some o' ∧
    g.pointIsInside o x = .ok false ∧ g'.pointIsInside o' (V3.smul U.k x) = .ok true := by
  obtain ⟨ag, h1, h2, h3⟩ := bead_aggregate 1
  obtain ⟨ag', h1', -, h3'⟩ := bead_aggregate (1 / 5)
  refine ⟨⟨1 / 5, 1 / 5⟩, [.ellipsoid (bead 1)], _, _, _, _, ⟨2, 0, 0⟩, ⟨by norm_num, by norm_num⟩, h3, (by rw [bead_scaled]; exact h3'), rfl, rfl, ?_, ?_⟩
  · refine aggregate_outside _ ag (fun _ => bead 1) _ (by simp) ?_ ?_ ?_
    · intro q hq
      rw [h2, List.mem_singleton] at hq
      subst hq; rfl
    · obtain ⟨r, -, r2, r3⟩ := bead_hull one_pos h1 two_pos
      rw [r3, decide_eq_false]
      rw [max_eq_right (by norm_num)] at r2
      linarith
    · intro q _
      simp only [Ellipsoid.pointIsInside]
      rw [inverse_apply_one rfl, decide_eq_false]
      norm_num [bead, coin, Ellipsoid.ofBase, Base.mkPos, State.ofPosition, Pose.ofPosition, Base.pose, V3.zero, V3.const]
  · refine aggregate_within _ ag' _ ?_
    have e : V3.smul (1 / 5) (⟨2, 0, 0⟩ : V3 ℝ) = ⟨2 / 5, 0, 0⟩ := by ext <;> norm_num [V3.smul]
    obtain ⟨r, r1, -, r3⟩ := bead_hull (by norm_num) h1' (show (0 : ℝ) < 2 / 5 by norm_num)
    show ag'.outside.pointIsInside (V3.smul (1 / 5) (⟨2, 0, 0⟩ : V3 ℝ)) = _
    rw [e, r3, decide_eq_true]
    linarith

/-! ### Moving hulls -/

theorem basis_of_matrix {h : Heap ℝ} {a : Agent ℝ} {o : Obj ℝ} {n : V3 ℝ} {M B : M3 ℝ} {d : ℝ}
    (hn : h.normalToAgent o a.state.position a.margin = .ok n) (hm : modulationMatrix h a o = .ok (M, B, d)) :
    B = orthogonalBasis n := by
  unfold modulationMatrix at hm
  rw [hn, Res.ok_bind] at hm
  obtain ⟨d', -, hm⟩ := Res.bind_eq_ok.1 hm
  obtain ⟨b, hb, hm⟩ := Res.bind_eq_ok.1 hm
  unfold basisMatrices at hb
  obtain ⟨q, -, hb⟩ := Res.bind_eq_ok.1 hb
  cases hb
  cases hm
  rfl

theorem basis_twice {w : V3 ℝ} (hw : w.z = 0) (hlong : 1 / 10000 ≤ w.norm) (r : V3 ℝ) (hr : r.z = 0) :
    (orthogonalBasis ⟨-w.y, w.x, 0⟩).mulVec ((orthogonalBasis ⟨-w.y, w.x, 0⟩).transpose.mulVec r) =
      V3.smul w.sqNorm r := by
  have ht : tangentVector (⟨-w.y, w.x, 0⟩ : V3 ℝ) = V3.cross ⟨-w.y, w.x, 0⟩ V3.unitZ := by
    apply tangent_horizontal rfl
    have : V3.norm (⟨-w.y, w.x, 0⟩ : V3 ℝ) = w.norm := by
      simp only [V3.norm, V3.sqNorm, V3.dot, hw]; congr 1; ring
    rw [this]; exact hlong
  unfold orthogonalBasis
  rw [ht]
  ext <;> simp only [M3.mulVec, M3.transpose, V3.cross, V3.unitZ, V3.smul, V3.sqNorm, V3.dot, hr, hw] <;> ring

/-- An agent at rest on the surface of a hull that moves in the direction to the agent: the commanded velocity is that of
the hull multiplied by the squared length of the chord. -/
theorem pushed (h : Heap ℝ) (a : Agent ℝ) (o : Obj ℝ) (c w : V3 ℝ) (s critical power : ℝ) (h0 : h[0]? = some o)
    (hor : o.base.pose.orientation = Quat.one) (href : o.base.refPos = some c)
    (hn : h.normalToAgent o a.state.position a.margin = .ok ⟨-w.y, w.x, 0⟩)
    (hd : h.distanceToAgent o a.state.position a.margin = .ok 1)
    (hz : a.state.position.z = c.z) (hw : w.z = 0) (hlong : 1 / 10000 ≤ w.norm)
    (hs : DOA.Props.turn (a.state.position - c) w ≠ 0) (hrest : a.state.linearVelocity = V3.zero)
    (hlin : o.base.state.linearVelocity = V3.smul s (a.state.position - c)) (hang : o.base.state.angularVelocity = V3.zero) :
    modulateVelocity h a (envOf [0]) false false false critical power =
      .ok (h, V3.smul (w.sqNorm * s) (a.state.position - c)) := by
  obtain ⟨M, B, hm, hM⟩ := chord_matrix h a o c w 1 hor href hn hd one_pos hz hw hlong hs
  have hB := basis_of_matrix hn hm
  have hits : (envOf [0]).list.mapM (itemOf h a) = .ok [⟨o.base, M, B, 1⟩] := by
    show ([0] : List Ptr).mapM _ = _
    rw [mapM_ok]; exact .cons (itemOf_ok h0 hm) .nil
  rw [modulate_plain h a (envOf [0]) false critical power _ (by simp [envOf]) (by intro h; cases h) hits]
  congr 2
  have hz0 : (a.state.position - c).z = 0 := by simp [hz]
  have hov : ∀ r : V3 ℝ, r.z = 0 → B.mulVec (B.transpose.mulVec r) = V3.smul w.sqNorm r := by
    rw [hB]; exact basis_twice hw hlong
  have hvel : obstacleVelocity a.state.position o.base 1 1 B = V3.smul (w.sqNorm * s) (a.state.position - c) := by
    unfold obstacleVelocity
    simp only [hlin, hang]
    have e1 : V3.cross V3.zero (a.state.position - o.base.position) = V3.zero := by ext <;> simp [V3.cross, V3.zero]
    have e2 : CMath.exp (-(maxS (1 : ℝ) 1 - 1)) = 1 := by simp [maxS_real]
    simp only [e1, V3.add_zero', e2, V3.smul_smul', one_mul]
    rw [hov _ (by simp [V3.smul, hz0]), V3.smul_smul']
    ext <;> simp
  have hobs : obsVel a.state.position [⟨o.base, M, B, 1⟩] critical power =
      V3.smul (w.sqNorm * s) (a.state.position - c) := by
    rw [← hvel]
    simp [obsVel, weightOf_single, V3.lsum]
  rw [combine_eq, hobs, hrest]
  have hM0 : M.mulVec (V3.zero - V3.smul (w.sqNorm * s) (a.state.position - c)) = V3.zero := by
    rw [hM _ (by simp [V3.smul, hz0, V3.zero])]
    have t0 : DOA.Props.turn (a.state.position - c) (V3.zero - V3.smul (w.sqNorm * s) (a.state.position - c)) = 0 := by
      simp [DOA.Props.turn, V3.smul, V3.zero]; ring
    rw [t0]
    ext <;> simp [V3.smul, V3.zero]
  have hc : core (V3.zero - V3.smul (w.sqNorm * s) (a.state.position - c)) (pairs [⟨o.base, M, B, 1⟩] critical power) =
      V3.zero := by
    simp only [core, pairs, List.map_cons, List.map_nil, List.sum_cons, List.sum_nil, angleTerm, hM0,
      V3.norm_eq_zero.mpr rfl]
    ext <;> simp [V3.smul, V3.zero]
  rw [hc, V3.zero_add']

/-- The kite moving in the direction (4/5, 3/5, 0). -/
noncomputable def movingKite : Hull ℝ :=
  { kite with base := { kite.base with state := { kite.base.state with linearVelocity := ⟨4 / 5, 3 / 5, 0⟩ } } }

theorem moving_kite_run (U : Units) (hU : U.Valid) (hk : 1 ≤ U.k) (critical power : ℝ) :
    modulateVelocity (scaledHeap U [.hull movingKite]) (agentAt (V3.smul U.k ⟨4 / 5, 3 / 5, 0⟩) V3.zero) (envOf [0]) false
      false false critical power =
      .ok (scaledHeap U [.hull movingKite], V3.smul (5 * U.k ^ 2 * U.m) ⟨4 / 5, 3 / 5, 0⟩) := by
  have hk0 := hU.1
  have hx : (agentAt (V3.smul U.k ⟨4 / 5, 3 / 5, 0⟩) V3.zero).state.position = V3.smul U.k ⟨4 / 5, 3 / 5, 0⟩ := rfl
  have hp := pushed (scaledHeap U [.hull movingKite]) (agentAt (V3.smul U.k ⟨4 / 5, 3 / 5, 0⟩) V3.zero)
    (.hull (scaledHull U movingKite)) V3.zero (V3.smul U.k ⟨-2, -1, 0⟩) (U.m / U.k) critical power rfl rfl
    (by show some (V3.smul U.k V3.zero) = _; congr 1; ext <;> simp [V3.smul, V3.zero])
    (by
      show (scaledHull U movingKite).normalToAgent (V3.smul U.k _) = _
      rw [hullNormal_scaled hU, show movingKite.normalToAgent ⟨4 / 5, 3 / 5, 0⟩ = .ok ⟨1, -2, 0⟩ from
        kite_normal_left [] 0, Res.map_ok]
      congr 1
      ext <;> simp [V3.smul])
    (by
      show (scaledHull U movingKite).distanceToPoint (V3.smul U.k ⟨4 / 5, 3 / 5, 0⟩) (V3.const 0) = _
      rw [hullDistance_scaled hU _ _ V3.zero]
      show kite.distanceToPoint ⟨4 / 5, 3 / 5, 0⟩ V3.zero = _
      have hne : kite.polar ≠ [] := by simp [kite]
      simp only [Hull.distanceToPoint, closest_eq hne, Res.ok_bind, kite_column_left]
      rw [show Res.index kite.polar 2 = .ok ⟨1, Real.pi / 2, Real.pi / 2⟩ from rfl, Res.ok_bind, if_neg (by simp [kite])]
      rw [inverse_apply_one rfl]
      show Res.ok (V3.norm (⟨4 / 5, 3 / 5, 0⟩ - kite.base.position : V3 ℝ) / 1) = _
      rw [kite_sub, norm_three_four (3 / 5) (by norm_num), div_one])
    (by rw [hx]; simp [V3.smul, V3.zero]) (by simp [V3.smul])
    (by
      rw [V3.norm_smul_pos hk0]
      have := (norm_le_three (w := (⟨-2, -1, 0⟩ : V3 ℝ)) (by norm_num [V3.sqNorm, V3.dot]) (by norm_num [V3.sqNorm, V3.dot])).1
      nlinarith)
    (by
      rw [hx]
      have : DOA.Props.turn (V3.smul U.k ⟨4 / 5, 3 / 5, 0⟩ - V3.zero) (V3.smul U.k ⟨-2, -1, 0⟩) = U.k ^ 2 * (2 / 5) := by
        simp [DOA.Props.turn, V3.smul, V3.zero]; ring
      rw [this]; positivity)
    rfl
    (by
      show V3.smul U.m ⟨4 / 5, 3 / 5, 0⟩ = _
      rw [hx]
      ext <;> simp [V3.smul, V3.zero] <;> field_simp)
    (by show V3.smul (U.m / U.k) V3.zero = _; ext <;> simp [V3.smul, V3.zero])
  rw [hp, hx]
  congr 2
  ext <;> simp [V3.smul, V3.zero, V3.sqNorm, V3.dot] <;> field_simp <;> ring

/-- C98 is false for a hull that moves: in millimetres the velocity that the code commands to an agent at rest on the
surface of the hull is not that in metres, but a million times as large, because the code multiplies the velocity of the
hull by the squared length of its normal. -/
theorem C98_negation_moving_hull : ∃ (U : Units) (h : Heap ℝ) (a a' : Agent ℝ) (out : V3 ℝ), U.Valid ∧
    ScaledAgent U a a' ∧ out ≠ V3.zero ∧ ∀ critical power : ℝ,
      modulateVelocity h a (envOf [0]) false false false critical power = .ok (h, out) ∧
      modulateVelocity (scaledHeap U h) a' (envOf [0]) false false false critical power =
        .ok (scaledHeap U h, V3.smul (10 ^ 6) (V3.smul U.m out)) := by
  refine ⟨⟨1000, 1000⟩, scaledHeap ⟨1, 1⟩ [.hull movingKite], agentAt (V3.smul 1 ⟨4 / 5, 3 / 5, 0⟩) V3.zero,
    agentAt (V3.smul 1000 ⟨4 / 5, 3 / 5, 0⟩) V3.zero, V3.smul (5 * 1 ^ 2 * 1) ⟨4 / 5, 3 / 5, 0⟩,
    ⟨by norm_num, by norm_num⟩, ⟨?_, ?_, ?_⟩, ?_, fun critical power => ⟨?_, ?_⟩⟩
  · ext <;> simp [agentAt, V3.smul, Pose.ofPosition, State.position]
  · ext <;> simp [agentAt, V3.smul, V3.zero]
  · simp [agentAt]
  · intro h; have := congrArg V3.x h; norm_num [V3.smul, V3.zero] at this
  · exact moving_kite_run ⟨1, 1⟩ ⟨one_pos, one_pos⟩ le_rfl critical power
  · have h1 : scaledHeap ⟨1000, 1000⟩ (scaledHeap ⟨1, 1⟩ [.hull movingKite]) = scaledHeap ⟨1000, 1000⟩ [.hull movingKite] := by
      simp [scaledHeap, scaledObj, scaledHull, scaledBase, scaledPolar, V3.smul, Function.comp_def]
      rfl
    rw [h1, moving_kite_run ⟨1000, 1000⟩ ⟨by norm_num, by norm_num⟩ (by norm_num) critical power]
    congr 2
    ext <;> norm_num [V3.smul]

end DOA.Props
