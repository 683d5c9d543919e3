import Verif.Props.HullEnclosure
import Verif.Props.AggregationHistory
import Mathlib.Analysis.Real.Pi.Bounds

/-!
# C86: the counterexample, a needle and a disc
-/

set_option linter.unusedSectionVars false
set_option linter.unusedSimpArgs false

namespace DOA.Props
open DOA DOA.Spec DOA.Hull DOA.Ellipsoid DOA.Modulation

/-- A thin ellipse around the origin, half lengths 10 and 1/10. -/
noncomputable def needle : Ellipsoid ℝ :=
  { Ellipsoid.ofBase (Base.mkPos "a" V3.zero V3.zero) with axis := ⟨10, 1 / 10, 1⟩ }

/-- The unit disc around the origin. -/
noncomputable def coin : Ellipsoid ℝ := Ellipsoid.ofBase (Base.mkPos "b" V3.zero V3.zero)

noncomputable def needleScene : Heap ℝ := [.ellipsoid needle, .ellipsoid coin]

/-- The aggregate of both, with the given hulls. -/
noncomputable def needleGroup (i o : Hull ℝ) : Aggregate ℝ :=
  { base := { (Base.mkName "aggregate_a_b" (V3.const 0)).setPosition V3.zero with refPos := some V3.zero },
    inside := i, outside := o, prims := [0, 1] }

/-- The aggregate before the disc is added. -/
noncomputable def needleOnly (i o : Hull ℝ) : Aggregate ℝ :=
  { base := { (Base.mkName "aggregate_a" (V3.const 0)).setPosition V3.zero with refPos := some V3.zero },
    inside := i, outside := o, prims := [0] }

theorem needle_meets : needle.isIntersectingEllipsoid coin = .ok true := by
  apply C29_detects_centres
  · exact ⟨by simp [needle, Ellipsoid.ofBase, Base.mkPos, Base.orientation, State.orientation, State.ofPosition,
      Pose.ofPosition, Quat.norm, Quat.sqNorm, Quat.one], rfl, rfl⟩
  · exact ⟨by simp [coin, Ellipsoid.ofBase, Base.mkPos, Base.orientation, State.orientation, State.ofPosition,
      Pose.ofPosition, Quat.norm, Quat.sqNorm, Quat.one], rfl, rfl⟩
  · left
    refine ⟨0, 0, by norm_num, ?_, ?_⟩ <;> rw [apply_one rfl] <;> simp [needle, coin, Ellipsoid.ofBase, Base.mkPos,
      Base.position, State.position, State.ofPosition, Pose.ofPosition, Base.pose, V3.zero]

private theorem sdiv_zero (x : ℝ) : (V3.zero : V3 ℝ).sdiv x = V3.zero := by
  ext <;> simp [V3.sdiv, V3.zero]

private theorem zero_add_zero : (V3.zero : V3 ℝ) + V3.zero = V3.zero := by
  ext <;> simp [V3.zero]

/-- The heap with both obstacles and an aggregate. -/
private noncomputable def with3 (a : Aggregate ℝ) : Heap ℝ := [.ellipsoid needle, .ellipsoid coin, .aggregate a]

private theorem upd (a : Aggregate ℝ) (os : List (Oracle ℝ)) (i o : Hull ℝ) (hr : a.base.refPos = some V3.zero)
    (hp : (a.prims = [0] ∧ os = [needle.intersectionPoints]) ∨
      (a.prims = [0, 1] ∧ os = [needle.intersectionPoints, coin.intersectionPoints]))
    (hi : a.inside.compute os V3.zero = .ok i) (ho : a.outside.compute os V3.zero = .ok o) :
    (with3 a).updateHull 2 = .ok (with3 { a with inside := i, outside := o }) := by
  have hm : ∃ l, a.prims.mapM (with3 a).deref = .ok l ∧ l.map Obj.intersectionPoints = os := by
    rcases hp with ⟨h1, h2⟩ | ⟨h1, h2⟩
    · refine ⟨[.ellipsoid needle], ?_, by rw [h2]; rfl⟩
      rw [h1, mapM_ok]; exact .cons rfl .nil
    · refine ⟨[.ellipsoid needle, .ellipsoid coin], ?_, by rw [h2]; rfl⟩
      rw [h1, mapM_ok]; exact .cons rfl (.cons rfl .nil)
  obtain ⟨l, h1, h2⟩ := hm
  unfold Heap.updateHull
  have hd : (with3 a).deref 2 = .ok (.aggregate a) := rfl
  rw [hd, Res.ok_bind]
  simp only [h1, Res.ok_bind, Base.ref, hr, h2, hi, ho]
  rfl

private theorem setRef3 (a : Aggregate ℝ) (hp : a.prims = [0] ∨ a.prims = [0, 1]) :
    (with3 a).setRef 2 V3.zero = .ok (with3 { a with base := a.base.setRef V3.zero }) := by
  have hd : ∀ (b : Aggregate ℝ), (with3 b).deref 0 = .ok (.ellipsoid needle) ∧ (with3 b).deref 1 = .ok (.ellipsoid coin) ∧
    (with3 b).deref 2 = .ok (.aggregate b) := fun b => ⟨rfl, rfl, rfl⟩
  have s0 : ∀ (b : Aggregate ℝ), (with3 b).set 0 ((Obj.ellipsoid needle).mapBase (·.setRef V3.zero)) = with3 b := fun b => rfl
  have s1 : ∀ (b : Aggregate ℝ), (with3 b).set 1 ((Obj.ellipsoid coin).mapBase (·.setRef V3.zero)) = with3 b := fun b => rfl
  have s2 : (with3 a).set 2 ((Obj.aggregate a).mapBase (·.setRef V3.zero)) = with3 { a with base := a.base.setRef V3.zero } := rfl
  show Heap.setRefAux 4 _ _ _ = _
  rw [Heap.setRefAux, (hd a).2.2, Res.ok_bind]
  simp only [s2]
  rcases hp with hp | hp
  · rw [hp, List.foldlM_cons, Heap.setRefAux, (hd _).1, Res.ok_bind]
    simp only [s0]
    rfl
  · rw [hp, List.foldlM_cons, Heap.setRefAux, (hd _).1, Res.ok_bind]
    simp only [s0, Res.ok_bind]
    rw [List.foldlM_cons, Heap.setRefAux, (hd _).2.1, Res.ok_bind]
    simp only [s1]
    rfl

private theorem add_needle (i0 o0 i1 o1 : Hull ℝ) (hi : i0.compute [needle.intersectionPoints] V3.zero = .ok i1)
    (ho : o0.compute [needle.intersectionPoints] V3.zero = .ok o1) :
    (with3 { base := Base.mkName "aggregate" (V3.const 0), inside := i0, outside := o0, prims := [] }).addPrimitive 2 0 true =
      .ok (with3 (needleOnly i1 o1)) := by
  generalize ha : ({ base := Base.mkName "aggregate" (V3.const 0), inside := i0, outside := o0, prims := [] } : Aggregate ℝ) = a
  have hsort : (with3 a).sortByName [0] = .ok [(0, .ellipsoid needle)] := rfl
  have hd : (with3 a).deref 2 = .ok (.aggregate a) := rfl
  have hpos : (([(0, Obj.ellipsoid needle)] : List (Ptr × Obj ℝ)).map (fun x => x.2.position)).foldl (fun acc v => acc + v)
      V3.zero = V3.zero := zero_add_zero
  have hname : Heap.aggregateName (([(0, Obj.ellipsoid needle)] : List (Ptr × Obj ℝ)).map (fun x => x.2.name)) =
    "aggregate_a" := by
    show Heap.aggregateName ["a"] = _
    decide
  unfold Heap.addPrimitive
  rw [hd, Res.ok_bind]
  simp only [← ha, List.nil_append]
  simp only [ha]
  unfold Heap.installPrims
  rw [hd, Res.ok_bind]
  simp only [hsort, Res.ok_bind, hpos, hname, sdiv_zero, if_true]
  have hs : ∀ b : Aggregate ℝ, (with3 a).set 2 (.aggregate b) = with3 b := fun b => rfl
  rw [hs, setRef3 _ (.inl rfl), Res.ok_bind, upd _ [needle.intersectionPoints] i1 o1 rfl (.inl ⟨rfl, rfl⟩)
    (by rw [← ha]; exact hi) (by rw [← ha]; exact ho)]
  rw [← ha]
  rfl

private theorem add_coin (i1 o1 i2 o2 : Hull ℝ)
    (hi : i1.compute [needle.intersectionPoints, coin.intersectionPoints] V3.zero = .ok i2)
    (ho : o1.compute [needle.intersectionPoints, coin.intersectionPoints] V3.zero = .ok o2) :
    (with3 (needleOnly i1 o1)).addPrimitive 2 1 true = .ok (with3 (needleGroup i2 o2)) := by
  generalize ha : needleOnly i1 o1 = a
  have hsort : (with3 a).sortByName [0, 1] = .ok [(0, .ellipsoid needle), (1, .ellipsoid coin)] := by
    have : ([0, 1] : List Ptr).mapM (fun p => (with3 a).deref p >>= fun o => Res.ok (p, o)) =
        .ok [(0, .ellipsoid needle), (1, .ellipsoid coin)] := rfl
    unfold Heap.sortByName
    rw [this, Res.ok_bind]
    have hnn : (Obj.ellipsoid needle).name = "a" := rfl
    have hnd : (Obj.ellipsoid coin).name = "b" := rfl
    have hlt : decide (("b" : String) < "a") = false := by decide
    simp only [MathTools.sortBy, MathTools.insertBy, List.foldr, Heap.namedBefore, hnn, hnd, hlt, Bool.false_eq_true, if_false]
  have hd : (with3 a).deref 2 = .ok (.aggregate a) := rfl
  have hpos : (([(0, Obj.ellipsoid needle), (1, Obj.ellipsoid coin)] : List (Ptr × Obj ℝ)).map (fun x => x.2.position)).foldl
      (fun acc v => acc + v) V3.zero = V3.zero := by
    show V3.zero + V3.zero + V3.zero = _
    rw [zero_add_zero, zero_add_zero]
  have hname : Heap.aggregateName (([(0, Obj.ellipsoid needle), (1, Obj.ellipsoid coin)] : List (Ptr × Obj ℝ)).map
      (fun x => x.2.name)) = "aggregate_a_b" := by
    show Heap.aggregateName ["a", "b"] = _
    decide
  have hprims : a.prims ++ [1] = [0, 1] := by rw [← ha]; rfl
  unfold Heap.addPrimitive
  rw [hd, Res.ok_bind]
  simp only [hprims]
  unfold Heap.installPrims
  rw [hd, Res.ok_bind]
  simp only [hsort, Res.ok_bind, hpos, hname, sdiv_zero, if_true]
  have hs : ∀ b : Aggregate ℝ, (with3 a).set 2 (.aggregate b) = with3 b := fun b => rfl
  rw [hs, setRef3 _ (.inr rfl), Res.ok_bind, upd _ [needle.intersectionPoints, coin.intersectionPoints] i2 o2 rfl
    (.inr ⟨rfl, rfl⟩) (by rw [← ha]; exact hi) (by rw [← ha]; exact ho)]
  rw [← ha]
  rfl

private theorem link_new (obs : List Ptr) (i j : ℕ) (pi pj : Ptr) (s : Aggregation.St ℝ) (ha hb : Heap ℝ)
    (hi : Res.index s.idx i = .ok (-1)) (hj : Res.index s.idx j = .ok (-1))
    (h1 : s.heap.newAggregate.1.addPrimitive s.heap.newAggregate.2 pi true = .ok ha)
    (h2 : ha.addPrimitive s.heap.newAggregate.2 pj true = .ok hb) :
    Aggregation.link obs i j pi pj s = .ok ⟨hb, s.aggs ++ [s.heap.newAggregate.2],
      (s.idx.set i s.aggs.length).set j s.aggs.length⟩ := by
  unfold Aggregation.link
  simp only [hi, hj, Res.ok_bind]
  rw [if_neg (by simp), if_neg (by simp), if_pos (by simp)]
  simp only [h1, h2, Res.ok_bind]

/-- The run: three computations of each hull, first with the needle alone, always around the origin. -/
theorem needle_run : ∃ i1 i2 i3 o1 o2 o3 : Hull ℝ,
    (Hull.mk' true 500 (lit 1 2)).compute [needle.intersectionPoints] V3.zero = .ok i1 ∧
    i1.compute [needle.intersectionPoints, coin.intersectionPoints] V3.zero = .ok i2 ∧
    i2.compute [needle.intersectionPoints, coin.intersectionPoints] V3.zero = .ok i3 ∧
    (Hull.mk' false 500 (lit 1 2)).compute [needle.intersectionPoints] V3.zero = .ok o1 ∧
    o1.compute [needle.intersectionPoints, coin.intersectionPoints] V3.zero = .ok o2 ∧
    o2.compute [needle.intersectionPoints, coin.intersectionPoints] V3.zero = .ok o3 ∧
    Aggregation.aggregateObstacles needleScene [0, 1] =
      .ok ([.ellipsoid needle, .ellipsoid coin, .aggregate (needleGroup i3 o3)], [2]) := by
  have hc := fun b : Bool => hullOK_mk' (α := ℝ) b (n := 500) (by norm_num) (lit 1 2)
  obtain ⟨i1, hi1, hi1', -⟩ := compute_ok (hc true) [needle.intersectionPoints] V3.zero
  obtain ⟨i2, hi2, hi2', -⟩ := compute_ok hi1' [needle.intersectionPoints, coin.intersectionPoints] V3.zero
  obtain ⟨i3, hi3, hi3', -⟩ := compute_ok hi2' [needle.intersectionPoints, coin.intersectionPoints] V3.zero
  obtain ⟨o1, ho1, ho1', -⟩ := compute_ok (hc false) [needle.intersectionPoints] V3.zero
  obtain ⟨o2, ho2, ho2', -⟩ := compute_ok ho1' [needle.intersectionPoints, coin.intersectionPoints] V3.zero
  obtain ⟨o3, ho3, ho3', -⟩ := compute_ok ho2' [needle.intersectionPoints, coin.intersectionPoints] V3.zero
  refine ⟨i1, i2, i3, o1, o2, o3, hi1, hi2, hi3, ho1, ho2, ho3, ?_⟩
  have h1 := add_needle _ _ _ _ hi1 ho1
  have h2 := add_coin _ _ _ _ hi2 ho2
  have h3 := upd (needleGroup i2 o2) _ i3 o3 rfl (.inr ⟨rfl, rfl⟩) hi3 ho3
  have hI : Heap.isIntersecting needleScene (.ellipsoid needle) (.ellipsoid coin) = .ok true := by
    have hf : needleScene.fuel = 2 + 1 := rfl
    unfold Heap.isIntersecting
    rw [hf, Heap.isIntersectingAux]
    show Heap.isIntersectingEllipsoid (.ellipsoid needle) coin = _
    unfold Heap.isIntersectingEllipsoid
    exact needle_meets
  have hd0 : needleScene.deref 0 = .ok (.ellipsoid needle) := rfl
  have hd1 : needleScene.deref 1 = .ok (.ellipsoid coin) := rfl
  have hnew : needleScene.newAggregate = (with3
    { base := Base.mkName "aggregate" (V3.const 0), inside := Hull.mk' true 500 (lit 1 2),
      outside := Hull.mk' false 500 (lit 1 2), prims := [] }, 2) := rfl
  have hlink : Aggregation.link [0, 1] 0 1 0 1 (⟨needleScene, [], [-1, -1]⟩ : Aggregation.St ℝ) =
      .ok ⟨with3 (needleGroup i2 o2), [2], [0, 0]⟩ := by
    rw [link_new [0, 1] 0 1 0 1 _ (with3 (needleOnly i1 o1)) (with3 (needleGroup i2 o2)) rfl rfl (by rw [hnew]; exact h1)
      (by rw [hnew]; exact h2), hnew]
    rfl
  have hpair : Aggregation.pairStep [0, 1] 0 0 1 1 (⟨needleScene, [], [-1, -1]⟩ : Aggregation.St ℝ) =
      .ok ⟨with3 (needleGroup i2 o2), [2], [0, 0]⟩ := by
    unfold Aggregation.pairStep
    simp only [hd0, hd1, hI, Res.ok_bind, if_true, hlink]
  unfold Aggregation.aggregateObstacles
  have hidx : Aggregation.indexed [0, 1] = [(0, 0), (1, 1)] := rfl
  have hrep : List.replicate ([0, 1] : List Ptr).length (-1 : Int) = [-1, -1] := rfl
  have hout : Aggregation.outerLoop [0, 1] [(0, 0), (1, 1)] (⟨needleScene, [], [-1, -1]⟩ : Aggregation.St ℝ) =
      .ok ⟨with3 (needleGroup i2 o2), [2], [0, 0]⟩ := by
    rw [Aggregation.outerLoop, Aggregation.innerLoop, hpair, Res.ok_bind]
    rfl
  rw [hidx, hrep, hout, Res.ok_bind]
  unfold Aggregation.updateHulls
  rw [List.foldlM_cons, h3, Res.ok_bind]
  rfl

/-! ## The columns of the hull -/

private theorem needle_half : halfLengths needle V3.zero = ⟨10, 1 / 10, 1⟩ := by
  ext <;> simp [halfLengths, needle, Base.mkPos, Ellipsoid.ofBase, V3.zero]

private theorem coin_half : halfLengths coin V3.zero = ⟨1, 1, 1⟩ := by
  ext <;> simp [halfLengths, coin, Base.mkPos, Ellipsoid.ofBase, V3.zero, V3.const]

private theorem needle_apply (u v : ℝ) : needle.base.pose.apply ⟨u, v, 0⟩ = ⟨u, v, 0⟩ := by
  rw [apply_one rfl]
  ext <;> simp [needle, Ellipsoid.ofBase, Base.mkPos, State.ofPosition, Pose.ofPosition, Base.pose, V3.zero]

private theorem coin_apply (u v : ℝ) : coin.base.pose.apply ⟨u, v, 0⟩ = ⟨u, v, 0⟩ := by
  rw [apply_one rfl]
  ext <;> simp [coin, Ellipsoid.ofBase, Base.mkPos, State.ofPosition, Pose.ofPosition, Base.pose, V3.zero]

private theorem zrot_of (e : Ellipsoid ℝ) (h : e.base.orientation = Quat.one) : ZRotated e := by
  refine ⟨?_, ?_, ?_⟩ <;> rw [h]
  · exact (Quat.isUnit_iff_norm _).mp Quat.isUnit_one
  · rfl
  · rfl

private theorem on_needle (x y : ℝ) : OnEllipse needle (halfLengths needle V3.zero) x y ↔
    (x / 10) ^ 2 + (10 * y) ^ 2 = 1 := by
  simp only [OnEllipse, needle_half, needle_apply]
  constructor
  · rintro ⟨u, v, h, rfl, rfl⟩
    rw [← h]; ring
  · intro h
    exact ⟨x, y, by linarith [show (x / 10) ^ 2 + (y / (1 / 10)) ^ 2 = (x / 10) ^ 2 + (10 * y) ^ 2 by ring], rfl, rfl⟩

private theorem in_needle (x y : ℝ) : InEllipse needle (halfLengths needle V3.zero) x y ↔
    (x / 10) ^ 2 + (10 * y) ^ 2 ≤ 1 := by
  simp only [InEllipse, needle_half, needle_apply]
  constructor
  · rintro ⟨u, v, h, rfl, rfl⟩
    linarith [show (x / 10) ^ 2 + (y / (1 / 10)) ^ 2 = (x / 10) ^ 2 + (10 * y) ^ 2 by ring]
  · intro h
    exact ⟨x, y, by linarith [show (x / 10) ^ 2 + (y / (1 / 10)) ^ 2 = (x / 10) ^ 2 + (10 * y) ^ 2 by ring], rfl, rfl⟩

private theorem on_coin (x y : ℝ) : OnEllipse coin (halfLengths coin V3.zero) x y ↔ x ^ 2 + y ^ 2 = 1 := by
  simp only [OnEllipse, coin_half, coin_apply]
  constructor
  · rintro ⟨u, v, h, rfl, rfl⟩
    rw [← h]; ring
  · intro h
    exact ⟨x, y, by simpa using h, rfl, rfl⟩

private theorem in_coin (x y : ℝ) : InEllipse coin (halfLengths coin V3.zero) x y ↔ x ^ 2 + y ^ 2 ≤ 1 := by
  simp only [InEllipse, coin_half, coin_apply, div_one]
  constructor
  · rintro ⟨u, v, h, rfl, rfl⟩; exact h
  · intro h; exact ⟨x, y, h, rfl, rfl⟩

private theorem needle_ray {f : ℝ} (hf : Real.cos f ≠ 0) : RayOK needle V3.zero f := by
  refine ⟨zrot_of _ rfl, by rw [needle_half]; norm_num, by rw [needle_half]; norm_num, rfl, ?_, ?_⟩
  · rw [inverse_apply_one rfl, inverse_apply_one rfl]
    simp only [V3.sub_x, V3.add_x]
    intro h; exact hf (by linarith)
  · rw [on_needle]; simp [V3.zero]

private theorem coin_ray {f : ℝ} (hf : Real.cos f ≠ 0) : RayOK coin V3.zero f := by
  refine ⟨zrot_of _ rfl, by rw [coin_half]; norm_num, by rw [coin_half]; norm_num, rfl, ?_, ?_⟩
  · rw [inverse_apply_one rfl, inverse_apply_one rfl]
    simp only [V3.sub_x, V3.add_x]
    intro h; exact hf (by linarith)
  · rw [on_coin]; simp [V3.zero]

private theorem column_cos {i : ℕ} (hi : i < 500) : Real.cos (columnAngle i) ≠ 0 := by
  obtain ⟨phi, e1, l1, e4⟩ := C13_linspace_even (-Real.pi) (Real.pi - 1 / 10000) 500 (by norm_num)
  have e1' : MathTools.linspace (-CMath.pi : ℝ) (CMath.pi - lit 1 10000) ((500 : ℕ) : Int) = .ok phi := by
    simpa [lit_real] using e1
  exact grid_cos (by norm_num) e1' (List.mem_of_getElem? (e4 i hi))

private theorem hits_iff (es : List (Ellipsoid ℝ)) (hes : es = [needle] ∨ es = [needle, coin]) (f t : ℝ) :
    t ∈ rayHits es V3.zero f ↔
      0 < t ∧ (t ^ 2 * (1 / 100 + (100 - 1 / 100) * Real.sin f ^ 2) = 1 ∨ (es = [needle, coin] ∧ t = 1)) := by
  have hn : OnEllipse needle (halfLengths needle V3.zero) (V3.zero.x + t * Real.cos f) (V3.zero.y + t * Real.sin f) ↔
      t ^ 2 * (1 / 100 + (100 - 1 / 100) * Real.sin f ^ 2) = 1 := by
    rw [on_needle]
    have : ((V3.zero.x + t * Real.cos f) / 10) ^ 2 + (10 * (V3.zero.y + t * Real.sin f)) ^ 2 =
        t ^ 2 * (1 / 100 + (100 - 1 / 100) * Real.sin f ^ 2) := by
      simp only [V3.zero]
      have := Real.sin_sq_add_cos_sq f
      linear_combination (t ^ 2 / 100) * this
    rw [this]
  have hc : 0 < t → (OnEllipse coin (halfLengths coin V3.zero) (V3.zero.x + t * Real.cos f) (V3.zero.y + t * Real.sin f) ↔
      t = 1) := by
    intro ht
    rw [on_coin]
    have : (V3.zero.x + t * Real.cos f) ^ 2 + (V3.zero.y + t * Real.sin f) ^ 2 = t ^ 2 := by
      simp only [V3.zero]
      have := Real.sin_sq_add_cos_sq f
      linear_combination (t ^ 2) * this
    rw [this]
    constructor
    · intro h; nlinarith
    · rintro rfl; norm_num
  simp only [rayHits, Set.mem_ofPred_eq]
  refine and_congr_right fun ht => ?_
  rcases hes with rfl | rfl
  · simp [hn]
  · simp [hn, hc ht]

private theorem hits_le (es : List (Ellipsoid ℝ)) (hes : es = [needle] ∨ es = [needle, coin]) (f t : ℝ)
    (ht : t ∈ rayHits es V3.zero f) : t ≤ 10 := by
  obtain ⟨h0, h | ⟨-, h⟩⟩ := (hits_iff es hes f t).mp ht
  · by_contra hn
    have h1 : 100 < t ^ 2 := by nlinarith
    have h2 : 0 ≤ t ^ 2 * ((100 - 1 / 100) * Real.sin f ^ 2) := by positivity
    nlinarith
  · rw [h]; norm_num

/-- The binary search only needs the values it looks at; it never looks at the first one if the result is at least 2. -/
theorem lowerBoundLoop_split (l : List ℝ) (v : ℝ) (c : ℕ) (hc : 2 ≤ c) (hlo : ∀ i w, 1 ≤ i → i < c → l[i]? = some w → w < v)
    (hhi : ∀ i w, c ≤ i → l[i]? = some w → ¬ w < v) : ∀ fuel first count, count < fuel → first ≤ c → c ≤ first + count →
    first + count ≤ l.length → MathTools.lowerBoundLoop l v fuel first count = c := by
  intro fuel
  induction fuel with
  | zero => intro first count h; omega
  | succ fuel ih =>
    intro first count h1 h2 h3 h4
    unfold MathTools.lowerBoundLoop
    by_cases h0 : count = 0
    · rw [if_pos h0]; omega
    · rw [if_neg h0]
      have hlt : first + count / 2 < l.length := by omega
      simp only [List.getElem?_eq_getElem hlt]
      have hget : l[first + count / 2]? = some l[first + count / 2] := List.getElem?_eq_getElem hlt
      by_cases hm : first + count / 2 < c
      · rw [if_pos (hlo _ _ (by omega) hm hget)]
        exact ih _ _ (by omega) (by omega) (by omega) (by omega)
      · rw [if_neg (hhi _ _ (by omega) hget)]
        exact ih _ _ (by omega) (by omega) (by omega) (by omega)

theorem columnAngle_eq (i : ℕ) : columnAngle i = ((2 * i - 499) * Real.pi - i / 10000) / 499 := by
  unfold columnAngle evenPoint
  push_cast
  ring

/-- The columns of the outside hull of the needle and the disc. -/
private theorem needle_columns {o1 o2 o3 : Hull ℝ}
    (h1 : (Hull.mk' false 500 (lit 1 2)).compute [needle.intersectionPoints] V3.zero = .ok o1)
    (h2 : o1.compute [needle.intersectionPoints, coin.intersectionPoints] V3.zero = .ok o2)
    (h3 : o2.compute [needle.intersectionPoints, coin.intersectionPoints] V3.zero = .ok o3) :
    ∀ i < 500, ∃ q R, o3.polar[i]? = some q ∧
      o3.cart[i]? = some ⟨q.x * Real.cos (columnAngle i), q.x * Real.sin (columnAngle i), 0⟩ ∧
      (1 ≤ i → q.z = columnAngle i) ∧ IsGreatest (rayHits [needle, coin] V3.zero (columnAngle i)) R ∧
      9 / 10 * R ≤ q.x ∧ q.x ≤ 9 / 10 * R + 1 ∧ 0 < q.x := by
  have hm : ((lit 1 2 : ℝ)) = 1 / 2 := by rw [lit_real]; norm_num
  have step : ∀ {k k' : Hull ℝ} {es : List (Ellipsoid ℝ)}, Computed false k → (es = [needle] ∨ es = [needle, coin]) →
      k.compute (es.map (·.intersectionPoints)) V3.zero = .ok k' → (∀ q ∈ k.polar, q.x ≤ 10) →
      ∀ i < 500, ∃ q R, k'.polar[i]? = some q ∧
        k'.cart[i]? = some (V3.zero + ⟨q.x * Real.cos (columnAngle i), q.x * Real.sin (columnAngle i), 0⟩) ∧
        (1 ≤ i → q.z = columnAngle i) ∧ Extent k.isInside k.minRadius (rayHits es V3.zero (columnAngle i)) R ∧
        9 / 10 * R ≤ q.x ∧ q.x ≤ 9 / 10 * R + 10 / 10 ∧ q.x ≤ 10 := by
    intro k k' es hk hes hc hold
    obtain ⟨g1, g2, g3, g4, g5⟩ := hk.keeps
    obtain ⟨g6, g7⟩ := computed_nonneg hk
    refine ellipse_columns g1 g3 g6 (by rw [g5]; rfl) (by rw [g4, hm]; norm_num) hc ?_ (fun q hq => ⟨g7 q hq, hold q hq⟩)
      (by rw [g4, hm]; norm_num) fun i _ t ht => hits_le es hes _ t ht
    intro i hi e he
    have hcos := column_cos hi
    rcases hes with rfl | rfl
    · rw [List.mem_singleton.mp he]; exact needle_ray hcos
    · rcases List.mem_cons.mp he with rfl | he
      · exact needle_ray hcos
      · rw [List.mem_singleton.mp he]; exact coin_ray hcos
  have all : ∀ {k : Hull ℝ}, HullOK k → k.resolution = 500 → (∀ i < 500, ∃ q R, k.polar[i]? = some q ∧ q.x ≤ 10 ∧ R = (0 : ℝ)) →
      ∀ q ∈ k.polar, q.x ≤ 10 := by
    intro k hk hr h q hq
    obtain ⟨i, hi⟩ := List.mem_iff_getElem?.mp hq
    have hlt : i < 500 := by
      have := (List.getElem?_eq_some_iff.mp hi).1
      rw [hk.2.1, hr] at this; exact this
    obtain ⟨q', R, e1, e2, -⟩ := h i hlt
    rw [hi] at e1; cases e1; exact e2
  have c0 : Computed false (Hull.mk' false 500 (lit 1 2) : Hull ℝ) := .new
  have c1 := Computed.step c0 h1
  have c2 := Computed.step c1 h2
  have s1 := step (es := [needle]) c0 (.inl rfl) h1 (by
    intro q hq
    have : q = V3.zero := List.eq_of_mem_replicate hq
    rw [this]; simp [V3.zero])
  have b1 := all c1.keeps.1 c1.keeps.2.2.1 fun i hi => by
    obtain ⟨q, R, e1, -, -, -, -, -, e2⟩ := s1 i hi
    exact ⟨q, 0, e1, e2, rfl⟩
  have s2 := step (es := [needle, coin]) c1 (.inr rfl) h2 b1
  have b2 := all c2.keeps.1 c2.keeps.2.2.1 fun i hi => by
    obtain ⟨q, R, e1, -, -, -, -, -, e2⟩ := s2 i hi
    exact ⟨q, 0, e1, e2, rfl⟩
  have s3 := step (es := [needle, coin]) c2 (.inr rfl) h3 b2
  intro i hi
  obtain ⟨q, R, e1, e2, e3, e4, e5, e6, -⟩ := s3 i hi
  have hin : o2.isInside = false := c2.keeps.2.1
  have hmr : o2.minRadius = 1 / 2 := by rw [c2.keeps.2.2.2.1, hm]
  have hone : (1 : ℝ) ∈ rayHits [needle, coin] V3.zero (columnAngle i) :=
    (hits_iff _ (.inr rfl) _ _).mpr ⟨one_pos, .inr ⟨rfl, rfl⟩⟩
  rcases e4 with ⟨he, -⟩ | ⟨ρ, hρ, hR⟩
  · rw [he] at hone; cases hone
  · rw [hin] at hρ
    have hρ' : IsGreatest (rayHits [needle, coin] V3.zero (columnAngle i)) ρ := hρ
    have h1ρ : 1 ≤ ρ := hρ'.2 hone
    have hRρ : R = ρ := by rw [hR, hmr]; exact max_eq_right (by linarith)
    subst hRρ
    refine ⟨q, R, e1, ?_, e3, hρ', e5, by linarith, by linarith⟩
    rw [e2, V3.zero_add']

private theorem sin_250 : 0 < columnAngle 250 ∧ 624 / 100000 ≤ Real.sin (columnAngle 250) ∧
    Real.sin (columnAngle 250) ≤ 6247 / 1000000 := by
  have e := columnAngle_eq 250
  have p1 := Real.pi_gt_d4
  have p2 := Real.pi_lt_d4
  push_cast at e
  have l1 : 62444 / 10000000 ≤ columnAngle 250 := by rw [e]; linarith
  have l2 : columnAngle 250 ≤ 62462 / 10000000 := by rw [e]; linarith
  refine ⟨by linarith, ?_, le_trans (Real.sin_le (by linarith)) (by linarith)⟩
  have := Real.sin_gt_sub_cube (x := columnAngle 250) (by linarith)
  have h3 : columnAngle 250 ^ 3 ≤ (1 / 100) ^ 3 := pow_le_pow_left₀ (by linarith) (by linarith) 3
  linarith

private theorem sin_251 : 0 < columnAngle 251 ∧ 188 / 10000 ≤ Real.sin (columnAngle 251) ∧
    Real.sin (columnAngle 251) ≤ 1884 / 100000 := by
  have e := columnAngle_eq 251
  have p1 := Real.pi_gt_d4
  have p2 := Real.pi_lt_d4
  push_cast at e
  have l1 : 18835 / 1000000 ≤ columnAngle 251 := by rw [e]; linarith
  have l2 : columnAngle 251 ≤ 18838 / 1000000 := by rw [e]; linarith
  refine ⟨by linarith, ?_, le_trans (Real.sin_le (by linarith)) (by linarith)⟩
  have := Real.sin_gt_sub_cube (x := columnAngle 251) (by linarith)
  have h3 : columnAngle 251 ^ 3 ≤ (2 / 100) ^ 3 := pow_le_pow_left₀ (by linarith) (by linarith) 3
  linarith

/-- The tip of the needle is cut off. -/
private theorem radius_250 {R : ℝ} (h : IsGreatest (rayHits [needle, coin] V3.zero (columnAngle 250)) R) : R ≤ 17 / 2 := by
  obtain ⟨h0, h | ⟨-, h⟩⟩ := (hits_iff _ (.inr rfl) _ _).mp h.1
  · obtain ⟨-, h1, -⟩ := sin_250
    by_contra hn
    have h2 : (17 / 2) ^ 2 ≤ R ^ 2 := pow_le_pow_left₀ (by norm_num) (by linarith) 2
    have h3 : (624 / 100000) ^ 2 ≤ Real.sin (columnAngle 250) ^ 2 := pow_le_pow_left₀ (by norm_num) h1 2
    have h4 : (17 / 2) ^ 2 * (1 / 100 + (100 - 1 / 100) * (624 / 100000) ^ 2) ≤
        R ^ 2 * (1 / 100 + (100 - 1 / 100) * Real.sin (columnAngle 250) ^ 2) :=
      mul_le_mul h2 (by linarith) (by norm_num) (by positivity)
    norm_num at h4
    linarith
  · rw [h]; norm_num

private theorem radius_251 {R : ℝ} (h : IsGreatest (rayHits [needle, coin] V3.zero (columnAngle 251)) R) : 23 / 5 ≤ R := by
  obtain ⟨h1, h2, h3⟩ := sin_251
  set s := Real.sin (columnAngle 251) with hs
  have hpos : 0 < 1 / 100 + (100 - 1 / 100) * s ^ 2 := by positivity
  have hsq : s ^ 2 ≤ (1884 / 100000) ^ 2 := pow_le_pow_left₀ (by linarith) h3 2
  have hmem : Real.sqrt (1 / (1 / 100 + (100 - 1 / 100) * s ^ 2)) ∈ rayHits [needle, coin] V3.zero (columnAngle 251) := by
    refine (hits_iff _ (.inr rfl) _ _).mpr ⟨Real.sqrt_pos.mpr (by positivity), .inl ?_⟩
    rw [Real.sq_sqrt (by positivity), ← hs]
    field_simp
  refine le_trans ?_ (h.2 hmem)
  apply Real.le_sqrt_of_sq_le
  rw [le_div_iff₀ hpos]
  nlinarith

/-- C86, the negation: the hull of an aggregate does not keep the agent out of its members. The environment contains a
needle and a disc around the origin and is updated with aggregation. An agent outside of the aggregate and of both
members, in front of the tip of the needle and moving towards it, is slowed down to a speed that is still at least a tenth
of what it was, whatever the parameters, with and without repulsion; so a step of a suitable duration (arbitrarily short if
the agent is close to the tip) leads into the needle. -/
theorem C86_negation : ∃ (h' : Heap ℝ) (e : Env) (ag : Aggregate ℝ),
    Env.update needleScene ⟨[("a", 0), ("b", 1)], true, []⟩ = .ok (h', e) ∧ e.list = [2] ∧
    h'[0]? = some (.ellipsoid needle) ∧ h'[1]? = some (.ellipsoid coin) ∧ h'[2]? = some (.aggregate ag) ∧
    ag.prims = [0, 1] ∧ ag.base.refPos = some V3.zero ∧ h'.length = 3 ∧
    ∀ (a : Agent ℝ) (X : ℝ), 10 < X → a.state.position = ⟨X, 0, 0⟩ → a.state.linearVelocity = ⟨-1, 0, 0⟩ →
      h'.pointIsInside (.aggregate ag) a.state.position = .ok false ∧
      ∀ (rep : Bool) (critical power : ℝ), ∃ s, 1 / 10 ≤ s ∧ s ≤ 1 ∧
        modulateVelocity h' a e false rep false critical power = .ok (h', ⟨-s, 0, 0⟩) ∧
        ∀ dt, 10 * (X - 10) ≤ dt → dt ≤ 1 →
          needle.pointIsInside (a.state.position + V3.smul dt ⟨-s, 0, 0⟩) = true := by
  obtain ⟨i1, i2, i3, o1, o2, o3, hi1, hi2, hi3, ho1, ho2, ho3, hrun⟩ := needle_run
  refine ⟨[.ellipsoid needle, .ellipsoid coin, .aggregate (needleGroup i3 o3)],
    ⟨[("a", 0), ("b", 1)], true, [2]⟩, needleGroup i3 o3, ?_, rfl, rfl, rfl, rfl, rfl, rfl, rfl, ?_⟩
  · unfold Env.update
    simp only [List.map_cons, List.map_nil, if_true, hrun, Res.ok_bind]
  intro a X hX hpos hvel
  set h' : Heap ℝ := [.ellipsoid needle, .ellipsoid coin, .aggregate (needleGroup i3 o3)] with hh'
  have ci3 : Computed true i3 := .step (.step (.step .new hi1) hi2) hi3
  have co3 : Computed false o3 := .step (.step (.step .new ho1) ho2) ho3
  obtain ⟨k1, k2, k3, k4, k5⟩ := co3.keeps
  obtain ⟨g1, g2, g3, g4, g5⟩ := ci3.keeps
  have hor := (computed_nonneg co3).1
  obtain ⟨o3', e, -, -, -, -, hrefp, hposo, -⟩ := compute_ok (Computed.step (.step .new ho1) ho2).keeps.1
    [needle.intersectionPoints, coin.intersectionPoints] (V3.zero : V3 ℝ)
  rw [ho3] at e; cases e
  have cols := needle_columns ho1 ho2 ho3
  have hlen : o3.polar.length = 500 := by rw [k1.2.1, k3]
  have hclen : o3.cart.length = 500 := by rw [k1.2.2, k3]
  have hradii : ∀ q ∈ o3.polar, 0 < q.x := by
    intro q hq
    obtain ⟨i, hi⟩ := List.mem_iff_getElem?.mp hq
    obtain ⟨q', R, e1, -, -, -, -, -, e2⟩ := cols i (by rw [← hlen]; exact (List.getElem?_eq_some_iff.mp hi).1)
    rw [hi] at e1; cases e1; exact e2
  have hflat : FlatHull o3 := by
    refine ⟨k1, hor, by rw [hrefp, hposo], ?_, hradii⟩
    intro s hs
    obtain ⟨i, hi⟩ := List.mem_iff_getElem?.mp hs
    obtain ⟨q', R, -, e1, -⟩ := cols i (by rw [← hclen]; exact (List.getElem?_eq_some_iff.mp hi).1)
    rw [hi] at e1; cases e1
    rw [hposo]; rfl
  have hG : Hulls (needleGroup i3 o3) := ⟨⟨g1, k1⟩, g2, k2, hradii⟩
  -- the column
  have hcol : o3.column a.state.position = 250 := by
    unfold Hull.column
    have hang : (MathTools.cartesianToPolar (o3.base.pose.inverse.apply a.state.position)).z = 0 := by
      rw [inverse_apply_one hor, hpos]
      have hp0 : o3.base.pose.position = V3.zero := hposo
      rw [hp0]
      show (⟨X - 0, 0 - 0⟩ : ℂ).arg = 0
      rw [sub_zero, sub_zero]
      exact Complex.arg_ofReal_of_nonneg (by linarith)
    rw [hang]
    unfold MathTools.lowerBound
    have hl : (o3.polar.map (·.z)).length = 500 := by simpa using hlen
    have hget : ∀ i w, 1 ≤ i → (o3.polar.map (·.z))[i]? = some w → w = columnAngle i ∧ i < 500 := by
      intro i w h1 hw
      have hi : i < 500 := by rw [← hl]; exact (List.getElem?_eq_some_iff.mp hw).1
      obtain ⟨q, R, e1, -, e2, -⟩ := cols i hi
      rw [List.getElem?_map, e1] at hw
      simp only [Option.map_some, Option.some.injEq] at hw
      exact ⟨hw ▸ e2 h1, hi⟩
    refine lowerBoundLoop_split _ 0 250 (by norm_num) ?_ ?_ _ _ _ (by omega) (by omega) (by omega) (by omega)
    · intro i w h1 h2 hw
      obtain ⟨rfl, -⟩ := hget i w h1 hw
      rw [columnAngle_eq]
      have hi : (i : ℝ) ≤ 249 := by exact_mod_cast (by omega : i ≤ 249)
      have hi0 : (0 : ℝ) ≤ i := Nat.cast_nonneg i
      have := Real.pi_pos
      apply div_neg_of_neg_of_pos _ (by norm_num)
      nlinarith
    · intro i w h1 hw
      obtain ⟨rfl, h2⟩ := hget i w (by omega) hw
      rw [columnAngle_eq, not_lt]
      have hi : (250 : ℝ) ≤ i := by exact_mod_cast h1
      have hi' : (i : ℝ) ≤ 499 := by exact_mod_cast (by omega : i ≤ 499)
      have := Real.pi_gt_three
      apply div_nonneg _ (by norm_num)
      nlinarith
  obtain ⟨q1, R1, p1, c1, -, r1, -, u1, -⟩ := cols 250 (by norm_num)
  obtain ⟨q2, R2, p2, c2, -, r2, l2, -, -⟩ := cols 251 (by norm_num)
  have hR1 := radius_250 r1
  have hR2 := radius_251 r2
  have hq1 : q1.x ≤ 865 / 100 := by linarith
  have hq1p : 0 < q1.x := hradii q1 (List.mem_of_getElem? p1)
  have hq2 : 414 / 100 ≤ q2.x := by linarith
  have hp : o3.polar[o3.column a.state.position]? = some q1 := by rw [hcol]; exact p1
  have hxc : a.state.position - V3.zero = ⟨X, 0, 0⟩ := by rw [hpos]; ext <;> simp [V3.zero]
  have hnorm : (a.state.position - V3.zero).norm = X := by
    rw [hxc]
    show Real.sqrt (X * X + 0 * 0 + 0 * 0) = X
    rw [show X * X + 0 * 0 + 0 * 0 = X * X by ring]
    exact Real.sqrt_mul_self (by linarith)
  have hinv := inside_value o3 hor _ q1 hp
  rw [hposo, hnorm, decide_eq_false (by linarith)] at hinv
  have hout : h'.pointIsInside (.aggregate (needleGroup i3 o3)) a.state.position = .ok false := by
    refine aggregate_outside h' (needleGroup i3 o3) (fun q => if q = 0 then needle else coin) _ (by rw [hh']; simp) ?_ hinv ?_
    · intro q hq
      rcases List.mem_cons.mp hq with rfl | hq
      · rfl
      · rw [List.mem_singleton.mp hq]; rfl
    · have hn : needle.pointIsInside a.state.position = false := by
        rw [← Bool.not_eq_true, inside_iff_inEllipse (zrot_of _ rfl), in_needle, hpos]
        simp only
        nlinarith
      have hc : coin.pointIsInside a.state.position = false := by
        rw [← Bool.not_eq_true, inside_iff_inEllipse (zrot_of _ rfl), in_coin, hpos]
        simp only
        nlinarith
      intro q hq
      rcases List.mem_cons.mp hq with rfl | hq
      · simpa using hn
      · rw [List.mem_singleton.mp hq]; simpa using hc
  refine ⟨hout, fun rep critical power => ?_⟩
  -- chord and distance
  obtain ⟨w, hw, hwz, hnrm⟩ := chord_of o3 hflat _ hinv
  have hw' : w = ⟨q2.x * Real.cos (columnAngle 251) - q1.x * Real.cos (columnAngle 250),
      q2.x * Real.sin (columnAngle 251) - q1.x * Real.sin (columnAngle 250), 0⟩ := by
    obtain ⟨s1, s2, m1, m2, rfl⟩ := hw
    rw [hcol] at m1 m2
    rw [hclen] at m2
    rw [c1] at m1
    rw [show (250 + 1) % 500 = 251 by norm_num, c2] at m2
    cases m1; cases m2
    ext <;> simp
  have hwy : 2 / 100 ≤ w.y := by
    rw [hw']
    show 2 / 100 ≤ q2.x * Real.sin (columnAngle 251) - q1.x * Real.sin (columnAngle 250)
    obtain ⟨-, a1, -⟩ := sin_251
    obtain ⟨-, b0, b1⟩ := sin_250
    have m1 : 414 / 100 * (188 / 10000) ≤ q2.x * Real.sin (columnAngle 251) :=
      mul_le_mul hq2 a1 (by norm_num) (by linarith)
    have m2 : q1.x * Real.sin (columnAngle 250) ≤ 865 / 100 * (6247 / 1000000) :=
      mul_le_mul hq1 b1 (by linarith) (by norm_num)
    linarith
  have hlong : 1 / 10000 ≤ w.norm := by
    have : w.y ≤ w.norm := by
      show w.y ≤ Real.sqrt (w.x * w.x + w.y * w.y + w.z * w.z)
      apply Real.le_sqrt_of_sq_le
      nlinarith [mul_self_nonneg w.x, mul_self_nonneg w.z]
    linarith
  obtain ⟨d, s, hd, hcs, hd1, hds⟩ := (C78_distance h' (needleGroup i3 o3) hG a.state.position (V3.const a.margin) false hout).1 rfl
  have hcs' : o3.polar[o3.column a.state.position]? = some s := hcs
  rw [hp] at hcs'
  cases hcs'
  have hds' : d * q1.x = X := by
    have : (needleGroup i3 o3).outside = o3 := rfl
    rw [this, inverse_apply_one hor] at hds
    have hp0 : o3.base.pose.position = V3.zero := hposo
    rw [hp0, hnorm] at hds
    exact hds
  have hdbig : 1156 / 1000 ≤ d := by
    by_contra hn
    have : d * q1.x ≤ 1156 / 1000 * (865 / 100) := mul_le_mul (by linarith) hq1 hq1p.le (by norm_num)
    linarith
  have hturn : turn (a.state.position - V3.zero) w ≠ 0 := by
    rw [hxc]
    have : turn ⟨X, 0, 0⟩ w = X * w.y := by simp [turn]
    rw [this]
    exact mul_ne_zero (by linarith) (by linarith)
  have hn' : h'.normalToAgent (.aggregate (needleGroup i3 o3)) a.state.position a.margin = .ok ⟨-w.y, w.x, 0⟩ := by
    simp only [Heap.normalToAgent, hout, Res.ok_bind, Bool.false_eq_true, if_false]
    exact hnrm
  obtain ⟨M, B, hM, hMv⟩ := chord_matrix h' a (.aggregate (needleGroup i3 o3)) V3.zero w d rfl rfl hn' hd (by linarith)
    (by rw [hpos]; rfl) hwz hlong hturn
  have hdi : 1 / d ≤ 9 / 10 := by
    rw [div_le_iff₀ (by linarith)]; linarith
  have hdi0 : 0 < 1 / d := by positivity
  have hMv' : M.mulVec a.state.linearVelocity = ⟨-(1 - 1 / d), 0, 0⟩ := by
    rw [hMv _ (by rw [hvel]), hxc, hvel, max_eq_right (by linarith)]
    have t1 : turn (⟨-1, 0, 0⟩ : V3 ℝ) w = -w.y := by simp [turn]
    have t2 : turn (⟨X, 0, 0⟩ : V3 ℝ) w = X * w.y := by simp [turn]
    have t3 : turn (⟨X, 0, 0⟩ : V3 ℝ) ⟨-1, 0, 0⟩ = 0 := by simp [turn]
    rw [t1, t2, t3]
    have hw0 : w.y ≠ 0 := by linarith
    have hX0 : X ≠ 0 := by linarith
    ext
    · simp only [V3.smul, V3.add_x]
      field_simp
      ring
    · simp [V3.smul]
    · simp [V3.smul]
  have hunit : (Obj.aggregate (needleGroup i3 o3)).base.orientation.norm = 1 :=
    (Quat.isUnit_iff_norm _).mp Quat.isUnit_one
  obtain ⟨mv, m1, m2, -⟩ := C39_single h' a ⟨[("a", 0), ("b", 1)], true, [2]⟩ false critical power 2
    (.aggregate (needleGroup i3 o3)) M B d rfl rfl ⟨rfl, rfl⟩ hunit hM (by rw [hvel]) (by intro h; cases h)
  have hmv : mv = ⟨-(1 - 1 / d), 0, 0⟩ := by
    rw [m2 (.inl (by rw [hMv', hvel]; exact angle_axis (by linarith) (by norm_num))), hMv']
  refine ⟨1 - 1 / d, by linarith, by linarith, ?_, ?_⟩
  · rw [← hmv]
    cases rep with
    | false => exact m1
    | true =>
      have hfar := C42_far h' (.aggregate (needleGroup i3 o3)) a.state.position a.margin (11 / 10) d hd (by linarith)
      have := C42_added h' h' a ⟨[("a", 0), ("b", 1)], true, [2]⟩ false false critical power mv [V3.zero] (by simp)
        (by intro h; cases h) m1 (.cons ⟨_, rfl, hfar⟩ .nil)
      rw [this]
      have e1 : V3.lsum [(V3.zero : V3 ℝ)] = V3.zero := by rw [V3.lsum_cons, V3.lsum_nil, V3.add_zero']
      rw [e1, V3.add_zero']
      simp
  · intro dt hdt1 hdt2
    rw [inside_iff_inEllipse (zrot_of _ rfl), in_needle, hpos]
    simp only [V3.smul, V3.add_x, V3.add_y]
    have hs1 : dt * (1 / 10) ≤ dt * (1 - 1 / d) := mul_le_mul_of_nonneg_left (by linarith) (by linarith)
    have hs2 : dt * (1 - 1 / d) ≤ 1 := by
      have : dt * (1 - 1 / d) ≤ 1 * 1 := mul_le_mul hdt2 (by linarith) (by linarith) (by norm_num)
      linarith
    have e1 : X + dt * -(1 - 1 / d) = X - dt * (1 - 1 / d) := by ring
    have h1 : (X - dt * (1 - 1 / d)) / 10 ≤ 1 := by linarith
    have h2 : 0 ≤ (X - dt * (1 - 1 / d)) / 10 := by linarith
    rw [e1]
    have h3 : ((X - dt * (1 - 1 / d)) / 10) ^ 2 ≤ 1 := pow_le_one₀ h2 h1
    have h4 : (10 * (0 + dt * 0) : ℝ) ^ 2 = 0 := by ring
    linarith

/-- The hypotheses of `C86_current` and `C86_enclose_partial` can be met: in the scene above. -/
example : ∃ (h' : Heap ℝ) (l : List Ptr) (ag : Aggregate ℝ) (es : List (Ellipsoid ℝ)), Acyclic needleScene ∧
    (∀ (p : Ptr) o, needleScene[p]? = some o → Drawable o) ∧ (∀ p ∈ [0, 1], p < needleScene.length) ∧
    Aggregation.aggregateObstacles needleScene [0, 1] = .ok (h', l) ∧ 2 ∈ l ∧ needleScene.length ≤ 2 ∧
    h'[2]? = some (.aggregate ag) ∧ ag.base.refPos = some V3.zero ∧
    List.Forall₂ (fun (q : Ptr) e => needleScene[q]? = some (.ellipsoid e)) ag.prims es ∧
    ∀ i < 500, ∀ e ∈ es, RayOK e V3.zero (columnAngle i) := by
  obtain ⟨i1, i2, i3, o1, o2, o3, -, -, -, -, -, -, hrun⟩ := needle_run
  have hget : ∀ (p : Ptr) o, needleScene[p]? = some o → o = .ellipsoid needle ∨ o = .ellipsoid coin := by
    intro p o ho
    have := List.mem_of_getElem? ho
    simpa [needleScene] using this
  refine ⟨_, _, needleGroup i3 o3, [needle, coin], acyclic_flat ?_, ?_, by simp [needleScene], hrun, by simp,
    by simp [needleScene], rfl, rfl, .cons rfl (.cons rfl .nil), ?_⟩
  · intro p a ha
    rcases hget p _ ha with h | h <;> cases h
  · intro p o ho
    rcases hget p o ho with rfl | rfl <;> exact ⟨_, rfl⟩
  · intro i hi e he
    rcases List.mem_cons.mp he with rfl | he
    · exact needle_ray (column_cos hi)
    · rw [List.mem_singleton.mp he]; exact coin_ray (column_cos hi)

end DOA.Props
