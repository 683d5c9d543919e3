import Verif.Spec.UnitsHull
import Verif.Lemmas.Units
import Verif.Lemmas.Origin

/-!
# Helper lemmas for the change of units with hulls and aggregates
-/

namespace DOA.UnitsHull
open DOA DOA.Spec DOA.Modulation DOA.Ellipsoid
set_option linter.unnecessarySeqFocus false
set_option linter.unusedSectionVars false
set_option linter.unusedSimpArgs false

variable {U : Units}

theorem inv_scaled (b : Base ℝ) (x : V3 ℝ) :
    (scaledBase U b).pose.inverse.apply (V3.smul U.k x) = V3.smul U.k (b.pose.inverse.apply x) := by
  have h1 : (scaledBase U b).pose.position = V3.smul U.k b.pose.position := rfl
  have h2 : (scaledBase U b).pose.orientation = b.pose.orientation := rfl
  simp only [Pose.inverse, Pose.apply, h1, h2, V3.smul_add', Quat.rotate_smul, ← V3.smul_sub']
  congr 1
  rw [← Quat.rotate_smul]
  congr 1
  ext <;> simp [V3.smul]

theorem apply_scaled (b : Base ℝ) (x : V3 ℝ) :
    (scaledBase U b).pose.apply (V3.smul U.k x) = V3.smul U.k (b.pose.apply x) := by
  have h1 : (scaledBase U b).pose.position = V3.smul U.k b.pose.position := rfl
  have h2 : (scaledBase U b).pose.orientation = b.pose.orientation := rfl
  simp only [Pose.apply, h1, h2, V3.smul_add', Quat.rotate_smul]

theorem arg_scaled {k : ℝ} (hk : 0 < k) (x y : ℝ) : CMath.atan2 (k * y) (k * x) = CMath.atan2 y x := by
  simp only [atan2_real]
  have : (⟨k * x, k * y⟩ : ℂ) = (k : ℂ) * ⟨x, y⟩ := by
    apply Complex.ext <;> simp
  rw [this, Complex.arg_real_mul _ hk]

theorem toPolar_scaled (hU : U.Valid) (x : V3 ℝ) :
    MathTools.cartesianToPolar (V3.smul U.k x) = scaledPolar U (MathTools.cartesianToPolar x) := by
  have hk := hU.1
  have hn : Real.sqrt (U.k * x.x * (U.k * x.x) + U.k * x.y * (U.k * x.y) + U.k * x.z * (U.k * x.z)) =
      U.k * Real.sqrt (x.x * x.x + x.y * x.y + x.z * x.z) := by
    rw [show U.k * x.x * (U.k * x.x) + U.k * x.y * (U.k * x.y) + U.k * x.z * (U.k * x.z) =
      (U.k * U.k) * (x.x * x.x + x.y * x.y + x.z * x.z) by ring, Real.sqrt_mul (by positivity), Real.sqrt_mul_self hk.le]
  simp only [MathTools.cartesianToPolar, scaledPolar, V3.smul, sqrt_real, hn, arg_scaled hk]
  rw [mul_div_mul_left _ _ hk.ne']

theorem ofPolar_scaled (q : V3 ℝ) :
    MathTools.polarToCartesian (scaledPolar U q) = V3.smul U.k (MathTools.polarToCartesian q) := by
  ext <;> simp only [MathTools.polarToCartesian, scaledPolar, V3.smul] <;> ring

/-! ## queries of hulls -/

theorem coord_two (q : V3 ℝ) : MathTools.coord q 2 = .ok q.z := rfl

theorem findClosest_scaled (l : List (V3 ℝ)) (q : V3 ℝ) :
    MathTools.findClosestPoints (l.map (scaledPolar U)) (scaledPolar U q) 2 = MathTools.findClosestPoints l q 2 := by
  have : ∀ l : List (V3 ℝ), (l.map (scaledPolar U)).mapM (fun c => MathTools.coord c 2) = l.mapM (fun c => MathTools.coord c 2) := by
    intro l
    induction l with
    | nil => rfl
    | cons c l ih =>
      rw [List.map_cons, List.mapM_cons, List.mapM_cons, ih]
      rfl
  unfold MathTools.findClosestPoints
  rw [this]
  rfl

theorem closest_scaled (hU : U.Valid) (k : Hull ℝ) (x : V3 ℝ) :
    (scaledHull U k).closest (V3.smul U.k x) = (fun r => (scaledPolar U r.1, r.2)) <$> k.closest x := by
  simp only [Hull.closest, scaledHull, inv_scaled, toPolar_scaled hU, findClosest_scaled]
  cases MathTools.findClosestPoints k.polar (MathTools.cartesianToPolar (k.base.pose.inverse.apply x)) 2 <;> rfl

theorem hullNormal_scaled (hU : U.Valid) (k : Hull ℝ) (x : V3 ℝ) :
    (scaledHull U k).normalToAgent (V3.smul U.k x) = V3.smul U.k <$> k.normalToAgent x := by
  simp only [Hull.normalToAgent, closest_scaled hU]
  simp only [scaledHull, Origin.index_map]
  cases k.closest x with
  | throw x => rfl
  | ub u => rfl
  | ok r =>
    simp only [Res.ok_bind, Res.map_ok]
    cases Res.index k.cart r.2.1 with
    | throw x => rfl
    | ub u => rfl
    | ok s1 =>
      cases Res.index k.cart r.2.2 with
      | throw x => rfl
      | ub u => rfl
      | ok s2 =>
        simp only [Res.map_ok, Res.ok_bind]
        congr 1
        ext <;> simp [V3.cross, V3.smul, V3.unitZ] <;> ring

theorem hullDistance_scaled (hU : U.Valid) (k : Hull ℝ) (x m m' : V3 ℝ) :
    (scaledHull U k).distanceToPoint (V3.smul U.k x) m' = k.distanceToPoint x m := by
  have hk := hU.1.ne'
  simp only [Hull.distanceToPoint, closest_scaled hU]
  simp only [scaledHull, Origin.index_map]
  cases k.closest x with
  | throw x => rfl
  | ub u => rfl
  | ok r =>
    simp only [Res.ok_bind, Res.map_ok]
    cases Res.index k.polar r.2.1 with
    | throw x => rfl
    | ub u => rfl
    | ok s =>
      simp only [Res.map_ok, Res.ok_bind, scaledPolar, mul_div_mul_left _ _ hk]

theorem hullInside_scaled (hU : U.Valid) (k : Hull ℝ) (x : V3 ℝ) :
    (scaledHull U k).pointIsInside (V3.smul U.k x) = k.pointIsInside x := by
  have hk := hU.1
  simp only [Hull.pointIsInside, closest_scaled hU]
  simp only [scaledHull, Origin.index_map]
  cases k.closest x with
  | throw x => rfl
  | ub u => rfl
  | ok r =>
    simp only [Res.ok_bind, Res.map_ok]
    cases Res.index k.polar r.2.1 with
    | throw x => rfl
    | ub u => rfl
    | ok s =>
      simp only [Res.map_ok, Res.ok_bind, scaledPolar, mul_lt_mul_iff_right₀ hk]

theorem isClosed_scaled (hU : U.Valid) (k : Hull ℝ) : (scaledHull U k).isClosed = k.isClosed := by
  have hk := hU.1
  unfold Hull.isClosed
  simp only [scaledHull]
  cases k.polar with
  | nil => rfl
  | cons q qs =>
    simp only [List.map_cons]
    have : ∀ (qs : List (V3 ℝ)) (m : ℝ), (qs.map (scaledPolar U)).foldl (fun m c => if c.x < m then c.x else m) (U.k * m) =
        U.k * qs.foldl (fun m c => if c.x < m then c.x else m) m := by
      intro qs
      induction qs with
      | nil => intro m; rfl
      | cons c qs ih =>
        intro m
        simp only [List.map_cons, List.foldl_cons, scaledPolar, mul_lt_mul_iff_right₀ hk]
        split
        · exact ih _
        · exact ih _
    rw [show (scaledPolar U q).x = U.k * q.x from rfl, this]
    congr 1
    refine decide_eq_decide.2 ?_
    rw [show lit 12 10 * (U.k * k.minRadius) = U.k * (lit 12 10 * k.minRadius) by ring]
    exact mul_lt_mul_iff_right₀ hk

/-! ## construction of hulls -/

/-- Everything the line intersection reads of an ellipsoid scales, whatever its exponents and lengths. -/
theorem points_scaled (hU : U.Valid) (e : Ellipsoid ℝ) (x v : V3 ℝ) :
    ((scaledEll U e).intersectionPoints (V3.smul U.k x) (V3.smul U.k x + v)).1 = (e.intersectionPoints x (x + v)).1 ∧
    ((e.intersectionPoints x (x + v)).1 = true →
      ((scaledEll U e).intersectionPoints (V3.smul U.k x) (V3.smul U.k x + v)).2.1 =
        V3.smul U.k (e.intersectionPoints x (x + v)).2.1 ∧
      ((scaledEll U e).intersectionPoints (V3.smul U.k x) (V3.smul U.k x + v)).2.2 =
        V3.smul U.k (e.intersectionPoints x (x + v)).2.2) := by
  obtain ⟨r, h1, h2⟩ : ∃ r : ℝ, AllGt (halfLengths e (V3.const r)) (1 / 10000) ∧
      AllGt (V3.smul U.k (halfLengths e (V3.const r))) (1 / 10000) := by
    have hk := hU.1
    refine ⟨|(e.axis + e.base.margin).x| + |(e.axis + e.base.margin).y| + |(e.axis + e.base.margin).z| + 1 + 1 / U.k, ?_, ?_⟩
    all_goals
      have a1 := neg_abs_le (e.axis + e.base.margin).x
      have a2 := neg_abs_le (e.axis + e.base.margin).y
      have a3 := neg_abs_le (e.axis + e.base.margin).z
      have b1 := abs_nonneg (e.axis + e.base.margin).x
      have b2 := abs_nonneg (e.axis + e.base.margin).y
      have b3 := abs_nonneg (e.axis + e.base.margin).z
      have hi : 0 < 1 / U.k := by positivity
      have hki : U.k * (1 / U.k) = 1 := by field_simp
      simp only [AllGt, halfLengths, V3.const, V3.smul, V3.add_x, V3.add_y, V3.add_z] at *
    · refine ⟨?_, ?_, ?_⟩ <;> linarith
    · have key : ∀ t : ℝ, 1 / U.k ≤ t → 1 / 10000 < U.k * t := by
        intro t ht
        have := mul_le_mul_of_nonneg_left ht hk.le
        rw [hki] at this
        linarith [show (1 / 10000 : ℝ) < 1 by norm_num]
      refine ⟨key _ ?_, key _ ?_, key _ ?_⟩ <;> linarith
  have s : ScaledEllipsoid ⟨U.k, 1⟩ r { e with curv := V3.const 1 } (scaledEll ⟨U.k, 1⟩ { e with curv := V3.const 1 }) := by
    refine ⟨rfl, rfl, rfl, rfl, rfl, rfl, rfl, rfl, ⟨1, ?_⟩, h1, ?_⟩
    · exact ⟨by simp [V3.const], le_rfl, le_rfl, le_rfl⟩
    · obtain ⟨g1, g2, g3⟩ := h2
      simp only [V3.smul, halfLengths, V3.const, mul_add] at g1 g2 g3
      exact ⟨g1, g2, g3⟩
  have := intersection_scale (U := ⟨U.k, 1⟩) ⟨hU.1, one_pos⟩ s x v
  have hv : V3.smul (1 : ℝ) v = v := by ext <;> simp [V3.smul]
  rw [hv] at this
  exact this

theorem objPoints_scaled (hU : U.Valid) (o : Obj ℝ) (x v : V3 ℝ) :
    ((scaledObj U o).intersectionPoints (V3.smul U.k x) (V3.smul U.k x + v)).1 = (o.intersectionPoints x (x + v)).1 ∧
    ((o.intersectionPoints x (x + v)).1 = true →
      ((scaledObj U o).intersectionPoints (V3.smul U.k x) (V3.smul U.k x + v)).2.1 =
        V3.smul U.k (o.intersectionPoints x (x + v)).2.1 ∧
      ((scaledObj U o).intersectionPoints (V3.smul U.k x) (V3.smul U.k x + v)).2.2 =
        V3.smul U.k (o.intersectionPoints x (x + v)).2.2) := by
  cases o with
  | ellipsoid e => exact points_scaled hU e x v
  | plain b => exact ⟨rfl, fun h => by cases h⟩
  | hull b => exact ⟨rfl, fun h => by cases h⟩
  | aggregate b => exact ⟨rfl, fun h => by cases h⟩

theorem ray_scaled (hU : U.Valid) (b : Base ℝ) (os : List (Obj ℝ)) (phi : ℝ) :
    Hull.rayPoints (scaledBase U b).pose (V3.smul U.k b.position) ((os.map (scaledObj U)).map Obj.intersectionPoints) phi =
      (Hull.rayPoints b.pose b.position (os.map Obj.intersectionPoints) phi).map (scaledPolar U) := by
  unfold Hull.rayPoints
  simp only [List.flatMap_map, List.map_flatMap]
  congr 1
  funext o
  set v := MathTools.polarToCartesian (⟨1, CMath.acos 0, phi⟩ : V3 ℝ) with hv
  have e1 : (scaledBase U b).pose.apply v = V3.smul U.k b.position + b.pose.orientation.rotate v := by
    show b.pose.orientation.rotate v + V3.smul U.k b.position = _
    v3_ring
  have e2 : b.pose.apply v = b.position + b.pose.orientation.rotate v := by
    show b.pose.orientation.rotate v + b.position = _
    v3_ring
  obtain ⟨h1, h2⟩ := objPoints_scaled hU o b.position (b.pose.orientation.rotate v)
  rw [e1, e2]
  simp only [h1]
  cases h : (o.intersectionPoints b.position (b.position + b.pose.orientation.rotate v)).1
  · simp
  · obtain ⟨h3, h4⟩ := h2 h
    simp only [if_true, h3, h4, inv_scaled, toPolar_scaled hU, List.map_cons, List.map_nil]

theorem insertBy_map {β γ : Type} (f : β → γ) (lt : β → β → Bool) (lt' : γ → γ → Bool) (h : ∀ a b, lt' (f a) (f b) = lt a b)
    (b : β) : ∀ l : List β, MathTools.insertBy lt' (f b) (l.map f) = (MathTools.insertBy lt b l).map f
  | [] => rfl
  | c :: l => by
    simp only [List.map_cons, MathTools.insertBy, h]
    split
    · rw [List.map_cons, insertBy_map f lt lt' h b l]
    · rfl

theorem sortBy_map {β γ : Type} (f : β → γ) (lt : β → β → Bool) (lt' : γ → γ → Bool) (h : ∀ a b, lt' (f a) (f b) = lt a b) :
    ∀ l : List β, MathTools.sortBy lt' (l.map f) = (MathTools.sortBy lt l).map f
  | [] => rfl
  | c :: l => by
    simp only [List.map_cons, MathTools.sortBy]
    rw [sortBy_map f lt lt' h l, insertBy_map f lt lt' h]

theorem surface_scaled (hU : U.Valid) (inside : Bool) (r m phi : ℝ) (pts : List (V3 ℝ)) :
    Hull.surfacePoint inside (U.k * r) (U.k * m) phi (pts.map (scaledPolar U)) =
      scaledPolar U (Hull.surfacePoint inside r m phi pts) := by
  have hk := hU.1
  have hmax : ∀ a b : ℝ, maxS (U.k * a) (U.k * b) = U.k * maxS a b := by
    intro a b
    unfold maxS
    simp only [mul_lt_mul_iff_right₀ hk]
    split <;> rfl
  have hsort : (if inside then MathTools.sortBy Hull.nearerFirst (pts.map (scaledPolar U))
      else MathTools.sortBy Hull.fartherFirst (pts.map (scaledPolar U))) =
      (if inside then MathTools.sortBy Hull.nearerFirst pts else MathTools.sortBy Hull.fartherFirst pts).map (scaledPolar U) := by
    cases inside
    · simp only [Bool.false_eq_true, if_false]
      exact sortBy_map _ _ _ (fun a b => by simp only [Hull.fartherFirst, scaledPolar, mul_lt_mul_iff_right₀ hk]) _
    · simp only [if_true]
      exact sortBy_map _ _ _ (fun a b => by simp only [Hull.nearerFirst, scaledPolar, mul_lt_mul_iff_right₀ hk]) _
  unfold Hull.surfacePoint
  simp only [hsort]
  have hdrop : ∀ l : List (V3 ℝ), (l.map (scaledPolar U)).dropWhile (Hull.offRay phi) =
      (l.dropWhile (Hull.offRay phi)).map (scaledPolar U) := by
    intro l
    induction l with
    | nil => rfl
    | cons q l ih =>
      simp only [List.map_cons, List.dropWhile_cons]
      rw [show Hull.offRay phi (scaledPolar U q) = Hull.offRay phi q from rfl]
      split
      · exact ih
      · rfl
  rw [hdrop]
  cases (if inside then MathTools.sortBy Hull.nearerFirst pts else MathTools.sortBy Hull.fartherFirst pts).dropWhile
      (Hull.offRay phi) with
  | nil =>
    simp only [List.map_nil, scaledPolar]
    congr 1
    rw [← hmax]
    congr 1
    split <;> ring
  | cons q l =>
    simp only [List.map_cons, scaledPolar]
    congr 1
    rw [← hmax]
    congr 1
    split <;> ring

theorem smooth_scaled (l : List (V3 ℝ)) (i j k : Nat) :
    Hull.smoothCol (l.map (scaledPolar U)) i j k = (List.map (scaledPolar U)) <$> Hull.smoothCol l i j k := by
  unfold Hull.smoothCol
  simp only [Origin.index_map]
  cases Res.index l i with
  | throw x => rfl
  | ub u => rfl
  | ok ci =>
    cases Res.index l j with
    | throw x => rfl
    | ub u => rfl
    | ok cj =>
      cases Res.index l k with
      | throw x => rfl
      | ub u => rfl
      | ok ck =>
        simp only [Res.map_ok, Res.ok_bind, List.map_set]
        congr 2
        simp only [scaledPolar]
        congr 1
        ring

theorem step_scaled (i : Nat) (sp : V3 ℝ) (l : List (V3 ℝ)) :
    Hull.computeStep i (scaledPolar U sp) (l.map (scaledPolar U)) = (List.map (scaledPolar U)) <$> Hull.computeStep i sp l := by
  have fin : ∀ p : List (V3 ℝ), (if i < (p.map (scaledPolar U)).length then Res.ok ((p.map (scaledPolar U)).set i (scaledPolar U sp))
      else .ub .indexOOB) = (List.map (scaledPolar U)) <$> (if i < p.length then Res.ok (p.set i sp) else .ub .indexOOB) := by
    intro p
    rw [List.length_map]
    split
    · simp only [Res.map_ok, List.map_set]
    · rfl
  unfold Hull.computeStep
  split
  · rw [smooth_scaled]
    cases Hull.smoothCol l (i - 1) (i - 2) i with
    | throw x => rfl
    | ub u => rfl
    | ok p => exact fin p
  · exact fin l

theorem loop_scaled : ∀ (sps : List (V3 ℝ)) (i : Nat) (l : List (V3 ℝ)),
    Hull.computeLoop i (sps.map (scaledPolar U)) (l.map (scaledPolar U)) =
      (List.map (scaledPolar U)) <$> Hull.computeLoop i sps l
  | [], _, _ => rfl
  | sp :: sps, i, l => by
    simp only [List.map_cons, Hull.computeLoop]
    rw [step_scaled]
    cases Hull.computeStep i sp l with
    | throw x => rfl
    | ub u => rfl
    | ok p => exact loop_scaled sps (i + 1) p

theorem compute_scaled (hU : U.Valid) (k : Hull ℝ) (os : List (Obj ℝ)) (ref : V3 ℝ) :
    (scaledHull U k).compute ((os.map (scaledObj U)).map Obj.intersectionPoints) (V3.smul U.k ref) =
      scaledHull U <$> k.compute (os.map Obj.intersectionPoints) ref := by
  unfold Hull.compute
  have hb : ((scaledHull U k).base.setRef (V3.smul U.k ref)).setPosition (V3.smul U.k ref) =
      scaledBase U ((k.base.setRef ref).setPosition ref) := rfl
  have hr : ref = ((k.base.setRef ref).setPosition ref).position := rfl
  simp only [hb]
  generalize hbb : (k.base.setRef ref).setPosition ref = b at *
  subst hr
  simp only [ray_scaled hU]
  simp only [show (scaledBase U b).margin.x = U.k * b.margin.x from rfl]
  simp only [scaledHull, surface_scaled hU]
  cases MathTools.linspace (-CMath.pi : ℝ) (CMath.pi - lit 1 10000) (k.resolution : Int) with
  | throw x => rfl
  | ub u => rfl
  | ok phi =>
    simp only [Res.ok_bind]
    have hm : (phi.map fun p => scaledPolar U (Hull.surfacePoint k.isInside k.minRadius b.margin.x p
        (Hull.rayPoints b.pose b.position (os.map Obj.intersectionPoints) p))) =
        (phi.map fun p => Hull.surfacePoint k.isInside k.minRadius b.margin.x p
        (Hull.rayPoints b.pose b.position (os.map Obj.intersectionPoints) p)).map (scaledPolar U) := by
      rw [List.map_map]; rfl
    rw [hm, loop_scaled]
    cases Hull.computeLoop 0 (phi.map fun p => Hull.surfacePoint k.isInside k.minRadius b.margin.x p
        (Hull.rayPoints b.pose b.position (os.map Obj.intersectionPoints) p)) k.polar with
    | throw x => rfl
    | ub u => rfl
    | ok p1 =>
      simp only [Res.ok_bind, Res.map_ok, smooth_scaled]
      cases Hull.smoothCol p1 0 (k.resolution - 1) 1 with
      | throw x => rfl
      | ub u => rfl
      | ok p2 =>
        simp only [Res.ok_bind, Res.map_ok, smooth_scaled]
        cases Hull.smoothCol p2 (k.resolution - 1) (k.resolution - 2) 0 with
        | throw x => rfl
        | ub u => rfl
        | ok p3 =>
          simp only [Res.ok_bind, Res.map_ok, scaledHull, List.map_map, Function.comp_def, ofPolar_scaled, apply_scaled]

/-! ## heaps -/

theorem get_scaled (h : Heap ℝ) (p : Ptr) : (scaledHeap U h)[p]? = (h[p]?).map (scaledObj U) := by
  simp [scaledHeap]

theorem deref_scaled (h : Heap ℝ) (p : Ptr) : (scaledHeap U h).deref p = scaledObj U <$> h.deref p := by
  unfold Heap.deref
  rw [get_scaled]
  cases h[p]? <;> rfl

theorem heapset_scaled (h : Heap ℝ) (p : Ptr) (o : Obj ℝ) :
    scaledHeap U (h.set p o) = (scaledHeap U h).set p (scaledObj U o) := by
  unfold scaledHeap
  rw [List.map_set]

theorem fuel_scaled (h : Heap ℝ) : (scaledHeap U h).fuel = h.fuel := by simp [Heap.fuel, scaledHeap]

theorem ref_scaled (b : Base ℝ) : (scaledBase U b).ref = V3.smul U.k <$> b.ref := by
  unfold Base.ref
  have : (scaledBase U b).refPos = b.refPos.map (V3.smul U.k) := rfl
  rw [this]
  cases b.refPos <;> rfl

theorem objBase_scaled (o : Obj ℝ) : (scaledObj U o).base = scaledBase U o.base := by cases o <;> rfl

theorem mapM_deref_scaled (h : Heap ℝ) (ps : List Ptr) :
    ps.mapM (scaledHeap U h).deref = (fun os => os.map (scaledObj U)) <$> ps.mapM h.deref := by
  induction ps with
  | nil => rfl
  | cons p ps ih =>
    simp only [List.mapM_cons, deref_scaled, ih]
    cases h.deref p with
    | throw x => rfl
    | ub u => rfl
    | ok o =>
      cases ps.mapM h.deref with
      | throw x => rfl
      | ub u => rfl
      | ok os => rfl

theorem updateHull_scaled (hU : U.Valid) (h : Heap ℝ) (p : Ptr) :
    (scaledHeap U h).updateHull p = scaledHeap U <$> h.updateHull p := by
  unfold Heap.updateHull
  rw [deref_scaled]
  cases h.deref p with
  | throw x => rfl
  | ub u => rfl
  | ok o =>
    simp only [Res.map_ok, Res.ok_bind]
    cases o with
    | plain b => rfl
    | ellipsoid b => rfl
    | hull b => rfl
    | aggregate a =>
      simp only [scaledObj, mapM_deref_scaled, ref_scaled]
      cases a.prims.mapM h.deref with
      | throw x => rfl
      | ub u => rfl
      | ok os =>
        simp only [Res.map_ok, Res.ok_bind]
        cases a.base.ref with
        | throw x => rfl
        | ub u => rfl
        | ok r =>
          simp only [Res.map_ok, Res.ok_bind, compute_scaled hU]
          cases a.inside.compute (os.map Obj.intersectionPoints) r with
          | throw x => rfl
          | ub u => rfl
          | ok i =>
            simp only [Res.map_ok, Res.ok_bind]
            cases a.outside.compute (os.map Obj.intersectionPoints) r with
            | throw x => rfl
            | ub u => rfl
            | ok j =>
              simp only [Res.map_ok, Res.ok_bind]
              rw [heapset_scaled]
              rfl

/-! ## queries -/

theorem thick_ell (hU : U.Valid) {e : Ellipsoid ℝ} (t : ThickEll U e) {r : ℝ} (hr : 0 ≤ r) :
    ScaledEllipsoid U r e (scaledEll U e) := by
  obtain ⟨h1, h2, h3⟩ := t.long
  obtain ⟨g1, g2, g3⟩ := t.long'
  have hk := hU.1
  have hkr : 0 ≤ U.k * r := by positivity
  simp only [halfLengths, V3.zero, V3.smul] at h1 h2 h3 g1 g2 g3
  refine ⟨rfl, rfl, rfl, rfl, rfl, rfl, rfl, rfl, t.exponent, ?_, ?_⟩
  · simp only [AllGt, halfLengths, V3.const]
    exact ⟨by linarith, by linarith, by linarith⟩
  · simp only [AllGt, halfLengths, V3.const, scaledEll, scaledBase, V3.smul]
    exact ⟨by linarith, by linarith, by linarith⟩

theorem insideEll_scaled (hU : U.Valid) (e : Ellipsoid ℝ) (x : V3 ℝ) :
    (scaledEll U e).pointIsInside (V3.smul U.k x) = e.pointIsInside x := by
  have hk : U.k * U.k ≠ 0 := by have := hU.1; positivity
  have key : ∀ a b : ℝ, U.k * a * (U.k * a) / (U.k * b * (U.k * b)) = a * a / (b * b) := by
    intro a b
    rw [show U.k * a * (U.k * a) = U.k * U.k * (a * a) by ring, show U.k * b * (U.k * b) = U.k * U.k * (b * b) by ring,
      mul_div_mul_left _ _ hk]
  have hl : (scaledEll U e).axis + (scaledEll U e).base.margin = V3.smul U.k (e.axis + e.base.margin) := (V3.smul_add' _ _ _).symm
  unfold Ellipsoid.pointIsInside
  rw [hl, show (scaledEll U e).base.pose.inverse.apply (V3.smul U.k x) = _ from inv_scaled e.base x]
  simp only [V3.smul, key]

theorem insideAux_scaled (hU : U.Valid) (h : Heap ℝ) (x : V3 ℝ) : ∀ (n : Nat) (o : Obj ℝ),
    Heap.pointIsInsideAux n (scaledHeap U h) (scaledObj U o) (V3.smul U.k x) = Heap.pointIsInsideAux n h o x := by
  intro n
  induction n with
  | zero => intros; rfl
  | succ n ih =>
    intro o
    cases o with
    | plain b => rfl
    | ellipsoid e =>
      simp only [scaledObj, Heap.pointIsInsideAux]
      congr 1
      exact insideEll_scaled hU e x
    | hull k => exact hullInside_scaled hU k x
    | aggregate a =>
      simp only [scaledObj, Heap.pointIsInsideAux, hullInside_scaled hU]
      congr 1
      funext b
      split
      · rfl
      · generalize false = acc
        induction a.prims generalizing acc with
        | nil => rfl
        | cons q l ihl =>
          simp only [List.foldlM_cons]
          rw [deref_scaled]
          cases h.deref q with
          | throw x => rfl
          | ub u => rfl
          | ok oq =>
            simp only [Res.map_ok, Res.ok_bind]
            rw [ih oq]
            congr 1
            funext s
            exact ihl s

theorem inside_scaled (hU : U.Valid) (h : Heap ℝ) (o : Obj ℝ) (x : V3 ℝ) : (scaledHeap U h).pointIsInside (scaledObj U o) (V3.smul U.k x) = h.pointIsInside o x := by
  unfold Heap.pointIsInside
  rw [fuel_scaled, insideAux_scaled hU h x _ o]

theorem distance_scaled (hU : U.Valid) (h : Heap ℝ) (o : Obj ℝ) (ho : ∀ e, o = .ellipsoid e → ThickEll U e)
    (x : V3 ℝ) {r : ℝ} (hr : 0 ≤ r) :
    (scaledHeap U h).distanceToPoint (scaledObj U o) (V3.smul U.k x) (V3.const (U.k * r)) =
      h.distanceToPoint o x (V3.const r) := by
  cases o with
  | plain b => rfl
  | ellipsoid e => exact congrArg Res.ok ((thick_ell hU (ho e rfl) hr).distance hU x)
  | hull k => exact hullDistance_scaled hU k x (V3.const r) (V3.const (U.k * r))
  | aggregate a =>
    have := inside_scaled hU h (.aggregate a) x
    simp only [scaledObj] at this ⊢
    simp only [Heap.distanceToPoint, this, fun k => hullDistance_scaled hU k x (V3.const r) (V3.const (U.k * r))]

/-- The normal of an ellipsoid is a direction, that of a hull or an aggregate has the length of a chord. -/
theorem normal_scaled (hU : U.Valid) (h : Heap ℝ) (o : Obj ℝ) (ho : ∀ e, o = .ellipsoid e → ThickEll U e)
    (x : V3 ℝ) {r : ℝ} (hr : 0 ≤ r) :
    (scaledHeap U h).normalToAgent (scaledObj U o) (V3.smul U.k x) (U.k * r) =
      (match o with
        | .ellipsoid _ => h.normalToAgent o x r
        | _ => V3.smul U.k <$> h.normalToAgent o x r) := by
  cases o with
  | plain b => rfl
  | ellipsoid e => exact congrArg Res.ok ((thick_ell hU (ho e rfl) hr).normal hU x)
  | hull k => exact hullNormal_scaled hU k x
  | aggregate a =>
    have := inside_scaled hU h (.aggregate a) x
    simp only [scaledObj] at this ⊢
    simp only [Heap.normalToAgent, this, hullNormal_scaled hU]
    cases h.pointIsInside (.aggregate a) x with
    | throw x => rfl
    | ub u => rfl
    | ok b => cases b <;> rfl

theorem repulsionVec_scaled (hU : U.Valid) (h : Heap ℝ) (o : Obj ℝ) (ho : ∀ e, o = .ellipsoid e → ThickEll U e)
    (x : V3 ℝ) {r : ℝ} (hr : 0 ≤ r) :
    (scaledHeap U h).repulsionVector (scaledObj U o) (V3.smul U.k x) (U.k * r) =
      V3.smul U.k <$> h.repulsionVector o x r := by
  cases o with
  | plain b => simp only [scaledObj, Heap.repulsionVector, Res.map_ok, V3.smul_zero']
  | ellipsoid e =>
    have hd := (thick_ell hU (ho e rfl) hr).distance hU x
    simp only [scaledObj, Heap.repulsionVector, Ellipsoid.repulsionVector, Ellipsoid.repulsionFactor, hd]
    rw [show (scaledEll U e).base.ref = V3.smul U.k <$> e.base.ref from ref_scaled e.base]
    cases e.base.ref with
    | throw x => rfl
    | ub u => rfl
    | ok q =>
      simp only [Res.map_ok, Res.ok_bind]
      congr 1
      v3_ring
  | hull k => simp only [scaledObj, Heap.repulsionVector, Res.map_ok, V3.smul_zero']
  | aggregate a =>
    have h1 := inside_scaled hU h (.aggregate a) x
    have h2 := distance_scaled hU h (.aggregate a) ho x hr
    simp only [scaledObj] at h1 h2 ⊢
    simp only [Heap.repulsionVector, Heap.repulsionFactor, h1, h2, ref_scaled]
    cases h.distanceToPoint (.aggregate a) x (V3.const r) with
    | throw x => rfl
    | ub u => rfl
    | ok d =>
      simp only [Res.ok_bind]
      cases a.base.ref with
      | throw x => rfl
      | ub u => rfl
      | ok q =>
        simp only [Res.map_ok, Res.ok_bind]
        cases h.pointIsInside (.aggregate a) x with
        | throw x => rfl
        | ub u => rfl
        | ok b =>
          simp only [Res.map_ok, Res.ok_bind]
          cases b
          · simp only [Bool.false_eq_true, if_false]; congr 1; v3_ring
          · simp only [if_true]; congr 1; v3_ring

theorem generate_scaled (hU : U.Valid) (h : Heap ℝ) (o : Obj ℝ) (ho : ∀ e, o = .ellipsoid e → ThickEll U e)
    (x : V3 ℝ) {r : ℝ} (hr : 0 ≤ r) (th : ℝ) :
    (scaledHeap U h).generateRepulsion (scaledObj U o) (V3.smul U.k x) (U.k * r) th =
      V3.smul U.k <$> h.generateRepulsion o x r th := by
  simp only [Heap.generateRepulsion, Heap.distanceToAgent, distance_scaled hU h o ho x hr, repulsionVec_scaled hU h o ho x hr]
  cases h.distanceToPoint o x (V3.const r) with
  | throw x => rfl
  | ub u => rfl
  | ok d =>
    simp only [Res.ok_bind]
    split
    · rfl
    · simp only [Res.map_ok, V3.smul_zero']

/-! ## the modulation -/

theorem product_stretched {k : ℝ} (hk : k ≠ 0) (q : Quat ℝ) (r t s d : V3 ℝ) :
    modulationProduct q ⟨r, V3.smul k t, V3.smul k s⟩ d = modulationProduct q ⟨r, t, s⟩ d := by
  have hdet : M3.det ⟨r, V3.smul k t, V3.smul k s⟩ = (k * k) * M3.det ⟨r, t, s⟩ := by
    simp only [M3.det, V3.smul]; ring
  have hcore : M3.mul (M3.mulDiag (M3.mul q.toM3 ⟨r, V3.smul k t, V3.smul k s⟩) d) (M3.inverse ⟨r, V3.smul k t, V3.smul k s⟩) =
      M3.mul (M3.mulDiag (M3.mul q.toM3 ⟨r, t, s⟩) d) (M3.inverse ⟨r, t, s⟩) := by
    have hinv : M3.inverse ⟨r, V3.smul k t, V3.smul k s⟩ = (let m := M3.inverse ⟨r, t, s⟩
        ⟨⟨m.c0.x, (1 / k) * m.c0.y, (1 / k) * m.c0.z⟩, ⟨m.c1.x, (1 / k) * m.c1.y, (1 / k) * m.c1.z⟩,
          ⟨m.c2.x, (1 / k) * m.c2.y, (1 / k) * m.c2.z⟩⟩ : M3 ℝ) := by
      simp only [M3.inverse, hdet]
      rw [show 1 / (k * k * M3.det ⟨r, t, s⟩) = (1 / M3.det ⟨r, t, s⟩) * (1 / k) * (1 / k) by
        rw [one_div_mul_one_div_rev, one_div_mul_one_div_rev]; ring_nf]
      generalize 1 / M3.det ⟨r, t, s⟩ = i
      ext <;> simp only [V3.smul] <;> field_simp
    rw [hinv]
    generalize M3.inverse ⟨r, t, s⟩ = m
    generalize q.toM3 = Q
    ext <;> simp only [M3.mul, M3.mulVec, M3.mulDiag, V3.smul] <;> field_simp
  unfold modulationProduct
  rw [hcore]

theorem tangent_horizontal {n : V3 ℝ} (hz : n.z = 0) (hn : 1 / 10000 ≤ n.norm) : tangentVector n = V3.cross n V3.unitZ := by
  have h1 : (V3.cross n V3.unitZ).norm = n.norm := by
    have : (V3.cross n V3.unitZ).sqNorm = n.sqNorm := by
      simp only [V3.cross, V3.unitZ, V3.sqNorm, V3.dot, hz]; ring
    simp only [V3.norm, this]
  have hlit : (lit 1 10000 : ℝ) = 1 / 10000 := by simp [lit_real]
  unfold tangentVector
  simp only [h1, hlit]
  rw [if_neg (not_lt.2 hn)]

theorem tangent_stretched {k : ℝ} (hk : 0 < k) {n : V3 ℝ} (hz : n.z = 0) (hn : 1 / 10000 ≤ n.norm) (hn' : 1 / 10000 ≤ k * n.norm) :
    tangentVector (V3.smul k n) = V3.smul k (tangentVector n) := by
  rw [tangent_horizontal hz hn, tangent_horizontal (n := V3.smul k n) (by simp [V3.smul, hz]) (by rw [V3.norm_smul_pos hk]; exact hn')]
  ext <;> simp [V3.cross, V3.smul, V3.unitZ]

theorem hullNormal_z {k : Hull ℝ} {x n : V3 ℝ} (h : k.normalToAgent x = .ok n) : n.z = 0 := by
  unfold Hull.normalToAgent at h
  obtain ⟨r, -, h⟩ := Res.bind_eq_ok.1 h
  obtain ⟨s1, -, h⟩ := Res.bind_eq_ok.1 h
  obtain ⟨s2, -, h⟩ := Res.bind_eq_ok.1 h
  cases h
  simp [V3.cross, V3.unitZ]

theorem normal_z {h : Heap ℝ} {o : Obj ℝ} (ho : ∀ e, o ≠ .ellipsoid e) {x n : V3 ℝ} {r : ℝ} (hn : h.normalToAgent o x r = .ok n) :
    n.z = 0 := by
  cases o with
  | plain b => cases hn
  | ellipsoid e => exact absurd rfl (ho e)
  | hull k => exact hullNormal_z hn
  | aggregate a =>
    unfold Heap.normalToAgent at hn
    obtain ⟨b, -, hn⟩ := Res.bind_eq_ok.1 hn
    cases b
    · exact hullNormal_z hn
    · exact hullNormal_z hn

theorem still_velocity (x : V3 ℝ) {b : Base ℝ} (hl : b.state.linearVelocity = V3.zero) (ha : b.state.angularVelocity = V3.zero)
    (d w : ℝ) (m : M3 ℝ) : obstacleVelocity x b d w m = V3.zero := by
  unfold obstacleVelocity
  rw [hl, ha]
  ext <;> simp [V3.cross, V3.smul, V3.zero, M3.mulVec, M3.transpose]

theorem item_scaled (hU : U.Valid) {h : Heap ℝ} {a a' : Agent ℝ} (ha : ScaledAgent U a a') (hr : 0 ≤ a.margin) (o : Obj ℝ)
    (ho : ∀ e, o = .ellipsoid e → ThickEll U e)
    (hs : (∀ e, o ≠ .ellipsoid e) → (o.base.state.linearVelocity = V3.zero ∧ o.base.state.angularVelocity = V3.zero) ∧
      ∀ n, h.normalToAgent o a.state.position a.margin = .ok n → 1 / 10000 ≤ n.norm ∧ 1 / 10000 ≤ U.k * n.norm) :
    Agree (fun m m' => ScaledItem U a.state.position
        { base := o.base, matrix := m.1, basis := m.2.1, dist := m.2.2 }
        { base := (scaledObj U o).base, matrix := m'.1, basis := m'.2.1, dist := m'.2.2 })
      (modulationMatrix h a o) (modulationMatrix (scaledHeap U h) a' (scaledObj U o)) := by
  by_cases he : ∃ e, o = .ellipsoid e
  · obtain ⟨e, rfl⟩ := he
    exact item_scale hU (thick_ell hU (ho e rfl) hr) ha
  have he' : ∀ e, o ≠ .ellipsoid e := fun e h => he ⟨e, h⟩
  obtain ⟨⟨hl, hw⟩, hlen⟩ := hs he'
  have hn := normal_scaled hU h o ho a.state.position hr
  have hd := distance_scaled hU h o ho a.state.position hr
  have hn' : (scaledHeap U h).normalToAgent (scaledObj U o) (V3.smul U.k a.state.position) (U.k * a.margin) =
      V3.smul U.k <$> h.normalToAgent o a.state.position a.margin := by
    rw [hn]
    cases o with
    | ellipsoid e => exact absurd rfl (he' e)
    | plain b => rfl
    | hull b => rfl
    | aggregate b => rfl
  unfold modulationMatrix Heap.distanceToAgent
  rw [ha.position, ha.margin, hn', hd]
  cases hx : h.normalToAgent o a.state.position a.margin with
  | throw x => exact rfl
  | ub u => exact rfl
  | ok n =>
    simp only [Res.map_ok, Res.ok_bind]
    cases h.distanceToPoint o a.state.position (V3.const a.margin) with
    | throw x => exact rfl
    | ub u => exact rfl
    | ok d =>
      simp only [Res.ok_bind, basisMatrices, objBase_scaled, ref_scaled]
      cases o.base.ref with
      | throw x => exact rfl
      | ub u => exact rfl
      | ok q =>
        simp only [Res.map_ok, Res.ok_bind]
        obtain ⟨g1, g2⟩ := hlen n hx
        refine ⟨?_, rfl, fun w => ?_⟩
        · show modulationProduct o.base.orientation (referenceBasis (V3.smul U.k n) _) _ = modulationProduct o.base.orientation _ _
          have hdir : referenceDirection (scaledBase U o.base).pose (V3.smul U.k a.state.position) (V3.smul U.k q) =
              referenceDirection o.base.pose a.state.position q := by
            simp only [referenceDirection, inv_scaled, ← V3.smul_sub', V3.normalized_smul_pos hU.1]
          rw [hdir]
          unfold referenceBasis
          rw [tangent_stretched hU.1 (normal_z he' hx) g1 g2]
          have : ∀ t r : V3 ℝ, V3.cross (V3.smul U.k t) r = V3.smul U.k (V3.cross t r) := by
            intro t r; ext <;> simp only [V3.cross, V3.smul] <;> ring
          simp only [this]
          exact product_stretched hU.1.ne' _ _ _ _ _
        · show obstacleVelocity _ (scaledBase U o.base) _ _ _ = _
          rw [still_velocity _ hl hw, still_velocity, V3.smul_zero']
          · show V3.smul U.m o.base.state.linearVelocity = _
            rw [hl, V3.smul_zero']
          · show V3.smul (U.m / U.k) o.base.state.angularVelocity = _
            rw [hw, V3.smul_zero']

theorem collect_scaled (hU : U.Valid) {h : Heap ℝ} {a a' : Agent ℝ} (ha : ScaledAgent U a a') (hr : 0 ≤ a.margin) :
    ∀ l : List Ptr, ThickListed U h l → SteadyHulls U h a l →
    Agree (fun r r' => r.1 = h ∧ r'.1 = scaledHeap U h ∧ List.Forall₂ (ScaledItem U a.state.position) r.2 r'.2)
      (collect false a h l) (collect false a' (scaledHeap U h) l)
  | [], _, _ => ⟨rfl, rfl, .nil⟩
  | p :: l, ht, hs => by
    unfold collect
    simp only [Bool.false_eq_true, if_false, Res.ok_bind, deref_scaled]
    cases hp : h.deref p with
    | throw x => exact rfl
    | ub u => exact rfl
    | ok o =>
      have hg := Origin.get_of_deref hp
      simp only [Res.map_ok, Res.ok_bind]
      refine Agree.bind (item_scaled hU ha hr o (fun e he => ht p List.mem_cons_self e (he ▸ hg))
        (fun he => hs p List.mem_cons_self o hg he)) fun m m' _ _ hm => ?_
      refine Agree.bind (collect_scaled hU ha hr l (fun q hq => ht q (List.mem_cons_of_mem _ hq))
        (fun q hq => hs q (List.mem_cons_of_mem _ hq))) fun r r' _ _ ⟨q1, q2, q3⟩ => ?_
      exact ⟨q1, q2, .cons hm q3⟩

theorem repulsionSum_scaled (hU : U.Valid) {h : Heap ℝ} {a a' : Agent ℝ} (ha : ScaledAgent U a a') (hr : 0 ≤ a.margin)
    (l : List Ptr) (ht : ThickListed U h l) :
    repulsionSum (scaledHeap U h) a' l = V3.smul U.k <$> repulsionSum h a l := by
  unfold repulsionSum
  rw [← V3.smul_zero' U.k]
  rw [V3.smul_zero' U.k]
  have : ∀ acc : V3 ℝ, l.foldlM (fun acc p => do
        let o ← (scaledHeap U h).deref p
        let v ← (scaledHeap U h).generateRepulsion o a'.state.position a'.margin (lit 11 10)
        Res.ok (acc + v)) (V3.smul U.k acc) = V3.smul U.k <$> l.foldlM (fun acc p => do
        let o ← h.deref p
        let v ← h.generateRepulsion o a.state.position a.margin (lit 11 10)
        Res.ok (acc + v)) acc := by
    induction l with
    | nil => intro acc; rfl
    | cons p l ih =>
      intro acc
      simp only [List.foldlM_cons, deref_scaled]
      cases hp : h.deref p with
      | throw x => rfl
      | ub u => rfl
      | ok o =>
        have hg := Origin.get_of_deref hp
        simp only [Res.map_ok, Res.ok_bind]
        rw [ha.position, ha.margin, generate_scaled hU h o (fun e he => ht p List.mem_cons_self e (he ▸ hg)) _ hr]
        cases h.generateRepulsion o a.state.position a.margin (lit 11 10) with
        | throw x => rfl
        | ub u => rfl
        | ok v =>
          simp only [Res.map_ok, Res.ok_bind, ← V3.smul_add']
          have := ih (fun q hq => ht q (List.mem_cons_of_mem _ hq)) (acc + v)
          simp only [ha.position, ha.margin, deref_scaled] at this
          exact this
  have h0 := this V3.zero
  rw [V3.smul_zero'] at h0
  exact h0

end DOA.UnitsHull
