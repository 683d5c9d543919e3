import Verif.Props.HullDistance

/-!
# C78 an aggregate as an obstacle: distance, normal and repulsion, from outside and from inside
-/

set_option linter.unusedSectionVars false
set_option linter.unusedSimpArgs false

namespace DOA.Props
open DOA DOA.Spec DOA.Hull DOA.Ellipsoid

/-- The two hulls of an aggregate are what their names say. -/
structure Hulls (a : Aggregate ℝ) : Prop where
  ok : AggHullsOK a
  inner : a.inside.isInside = true
  outer : a.outside.isInside = false
  pos : ∀ q ∈ a.outside.polar, 0 < q.x

/-- C78, distance: from outside it is the distance of the outside hull, never below 1; from inside it is the distance
of the inside hull, above 1 exactly within the inside hull.  So the distance is at most 1 exactly in the wall between the
hulls (and on the outer surface). -/
theorem C78_distance (h : Heap ℝ) (a : Aggregate ℝ) (ha : Hulls a) (p margin : V3 ℝ) (b : Bool)
    (hb : h.pointIsInside (.aggregate a) p = .ok b) :
    (b = false → ∃ d s, h.distanceToPoint (.aggregate a) p margin = .ok d ∧ a.outside.polar[a.outside.column p]? = some s ∧
      1 ≤ d ∧ d * s.x = (a.outside.base.pose.inverse.apply p).norm) ∧
    (b = true → a.inside.base.pose.inverse.apply p ≠ V3.zero → ∀ bi, a.inside.pointIsInside p = .ok bi →
      ∃ d s, h.distanceToPoint (.aggregate a) p margin = .ok d ∧ a.inside.polar[a.inside.column p]? = some s ∧
        (1 < d ↔ bi = true) ∧ d * (a.inside.base.pose.inverse.apply p).norm = s.x) := by
  refine ⟨?_, ?_⟩
  · rintro rfl
    have hout : ∃ bo, a.outside.pointIsInside p = .ok bo := by
      unfold Heap.pointIsInside at hb
      rw [show h.fuel = h.length + 1 from rfl, Heap.pointIsInsideAux] at hb
      obtain ⟨i, hi, -⟩ := Res.bind_eq_ok.mp hb
      exact ⟨i, hi⟩
    obtain ⟨bo, hbo⟩ := hout
    have hbf : bo = false := by
      cases bo with
      | false => rfl
      | true => exact absurd ((C63_aggregate_inside h a p false hb).mpr (Or.inl hbo)) (by simp)
    subst hbf
    obtain ⟨s, hs, hcol, hiff, hd⟩ := hull_distance_eq a.outside ha.ok.2 p margin hbo
    have hs' := ha.pos s hs
    rw [ha.outer] at hd
    refine ⟨(a.outside.base.pose.inverse.apply p).norm / s.x, s, ?_, hcol, ?_, div_mul_cancel₀ _ hs'.ne'⟩
    · simpa [Heap.distanceToPoint, hb] using hd
    · rw [one_le_div hs']
      by_contra hn
      exact absurd (hiff.mpr (not_le.mp hn)) (by simp)
  · rintro rfl hp bi hbi
    obtain ⟨s, hs, hcol, hiff, hd⟩ := hull_distance_eq a.inside ha.ok.1 p margin hbi
    have hn := V3.norm_pos hp
    rw [ha.inner] at hd
    refine ⟨s.x / (a.inside.base.pose.inverse.apply p).norm, s, ?_, hcol, ?_, div_mul_cancel₀ _ hn.ne'⟩
    · simpa [Heap.distanceToPoint, hb] using hd
    · rw [one_lt_div hn, hiff]

/-- The normal of a hull: perpendicular to the chord between two neighbouring surface points, as long as the chord. -/
theorem hull_normal (k : Hull ℝ) (hk : HullOK k) (p : V3 ℝ) {b : Bool} (h : k.pointIsInside p = .ok b) :
    ∃ N s1 s2, k.normalToAgent p = .ok N ∧ k.cart[k.column p]? = some s1 ∧
      k.cart[(k.column p + 1) % k.cart.length]? = some s2 ∧ V3.dot N (s1 - s2) = 0 ∧ N.z = 0 ∧
      N.x = (s1 - s2).y ∧ N.y = -(s1 - s2).x := by
  obtain ⟨s, -, hcol, -, -⟩ := hull_distance_eq k hk p V3.zero h
  have hne : k.polar ≠ [] := by
    intro he
    rw [he] at hcol
    simp at hcol
  have hlt : k.column p < k.cart.length := by
    have h1 := (List.getElem?_eq_some_iff.mp hcol).1
    rw [hk.2.2, ← hk.2.1]
    exact h1
  have hlen : k.polar.length = k.cart.length := by rw [hk.2.1, hk.2.2]
  have hlt2 : (k.column p + 1) % k.cart.length < k.cart.length := Nat.mod_lt _ (by omega)
  refine ⟨V3.cross (k.cart[k.column p] - k.cart[(k.column p + 1) % k.cart.length]) V3.unitZ, k.cart[k.column p],
    k.cart[(k.column p + 1) % k.cart.length], ?_, List.getElem?_eq_getElem hlt, List.getElem?_eq_getElem hlt2, ?_, ?_, ?_, ?_⟩
  · unfold Hull.normalToAgent
    rw [closest_eq hne p, Res.ok_bind]
    simp only [Res.index, hlen, List.getElem?_eq_getElem hlt, List.getElem?_eq_getElem hlt2, Res.ok_bind]
  all_goals simp only [V3.cross, V3.unitZ, V3.dot, V3.sub_x, V3.sub_y, V3.sub_z]
  all_goals ring

/-- C78, normal: that of the hull the agent is at: of the outside hull from outside, of the inside hull from inside. -/
theorem C78_normal (h : Heap ℝ) (a : Aggregate ℝ) (ha : Hulls a) (p : V3 ℝ) (m : ℝ) (b : Bool)
    (hb : h.pointIsInside (.aggregate a) p = .ok b) (hi : b = true → ∃ bi, a.inside.pointIsInside p = .ok bi) :
    ∃ N s1 s2, h.normalToAgent (.aggregate a) p m = .ok N ∧
      s1 ∈ (if b then a.inside.cart else a.outside.cart) ∧ s2 ∈ (if b then a.inside.cart else a.outside.cart) ∧
      V3.dot N (s1 - s2) = 0 ∧ N.z = 0 ∧ N.x = (s1 - s2).y ∧ N.y = -(s1 - s2).x := by
  cases b with
  | true =>
    obtain ⟨bi, hbi⟩ := hi rfl
    obtain ⟨N, s1, s2, h1, h2, h3, h4⟩ := hull_normal a.inside ha.ok.1 p hbi
    exact ⟨N, s1, s2, by simpa [Heap.normalToAgent, hb] using h1, List.mem_of_getElem? h2, List.mem_of_getElem? h3, h4⟩
  | false =>
    have hout : ∃ bo, a.outside.pointIsInside p = .ok bo := by
      unfold Heap.pointIsInside at hb
      rw [show h.fuel = h.length + 1 from rfl, Heap.pointIsInsideAux] at hb
      obtain ⟨i, hi, -⟩ := Res.bind_eq_ok.mp hb
      exact ⟨i, hi⟩
    obtain ⟨bo, hbo⟩ := hout
    obtain ⟨N, s1, s2, h1, h2, h3, h4⟩ := hull_normal a.outside ha.ok.2 p hbo
    exact ⟨N, s1, s2, by simpa [Heap.normalToAgent, hb] using h1, List.mem_of_getElem? h2, List.mem_of_getElem? h3, h4⟩

/-- C78, direction of the normal: it points to the centre of the hull, whichever kind of hull it is: from outside an
outside hull it points into the obstacle, contrary to the normal of an ellipsoid. -/
theorem C78_negation_outward (k : Hull ℝ) (hk : HullOK k) (p : V3 ℝ) {b : Bool} (h : k.pointIsInside p = .ok b)
    (hor : k.base.pose.orientation = Quat.one)
    (hcart : k.cart = k.polar.map fun q => k.base.pose.apply (MathTools.polarToCartesian q))
    (hlast : k.column p + 1 < k.polar.length) (q1 q2 : V3 ℝ) (h1 : k.polar[k.column p]? = some q1)
    (h2 : k.polar[k.column p + 1]? = some q2) (r1 : 0 < q1.x) (r2 : 0 < q2.x) (t1 : 0 < Real.sin q1.y)
    (t2 : 0 < Real.sin q2.y) (p0 : 0 < q2.z - q1.z) (pp : q2.z - q1.z < Real.pi) :
    ∃ N s, k.normalToAgent p = .ok N ∧ k.cart[k.column p]? = some s ∧ V3.dot N (s - k.base.position) < 0 := by
  obtain ⟨N, s1, s2, e1, e2, e3, -, ez, ex, ey⟩ := hull_normal k hk p h
  refine ⟨N, s1, e1, e2, ?_⟩
  have hlen : k.polar.length = k.cart.length := by rw [hk.2.1, hk.2.2]
  rw [Nat.mod_eq_of_lt (by omega)] at e3
  rw [hcart, List.getElem?_map, h1] at e2
  rw [hcart, List.getElem?_map, h2] at e3
  simp only [Option.map_some, Option.some.injEq, apply_one hor] at e2 e3
  have hpos : k.base.pose.position = k.base.position := rfl
  rw [hpos] at e2 e3
  subst e2 e3
  have hs := Real.sin_pos_of_pos_of_lt_pi p0 pp
  rw [Real.sin_sub] at hs
  have hprod : 0 < (q1.x * Real.sin q1.y) * (q2.x * Real.sin q2.y) *
      (Real.sin q2.z * Real.cos q1.z - Real.cos q2.z * Real.sin q1.z) := by positivity
  simp only [MathTools.polarToCartesian, V3.dot, V3.sub_x, V3.sub_y, V3.sub_z, V3.add_x, V3.add_y, V3.add_z, ez,
    sin_real, cos_real, zero_mul, add_zero] at ex ey ⊢
  rw [ex, ey]
  nlinarith

/-- C78, repulsion: below the threshold it has the strength `20/d` per distance from the reference point; it points away
from the reference point outside and towards it inside. -/
theorem C78_repulsion (h : Heap ℝ) (a : Aggregate ℝ) (ref x : V3 ℝ) (m threshold d : ℝ) (b : Bool)
    (href : a.base.refPos = some ref) (hd : h.distanceToAgent (.aggregate a) x m = .ok d) (hn : d < threshold)
    (hb : h.pointIsInside (.aggregate a) x = .ok b) :
    ∃ r, h.generateRepulsion (.aggregate a) x m threshold = .ok r ∧
      (b = false → r = V3.smul (20 / d) (x - ref)) ∧ (b = true → r = V3.smul (20 / d) (ref - x)) := by
  have hd' : h.distanceToPoint (.aggregate a) x (V3.const m) = .ok d := hd
  refine ⟨if b then -V3.smul (20 / d) (x - ref) else V3.smul (20 / d) (x - ref), ?_, ?_, ?_⟩
  · simp only [Heap.generateRepulsion, hd, Res.ok_bind, hn, if_true, Heap.repulsionVector, Heap.repulsionFactor, hd',
      Base.ref, href, hb, lit_real]
    norm_num
  · rintro rfl; rfl
  · rintro rfl
    rw [if_pos rfl]
    ext <;> simp only [V3.smul, V3.neg_x, V3.neg_y, V3.neg_z, V3.sub_x, V3.sub_y, V3.sub_z] <;> ring

/-- C78: `update_hull` leaves the two hulls of their kinds, both about the reference point of the aggregate; with a
positive minimum radius the other theorems apply afterwards. -/
theorem C78_update (h : Heap ℝ) (p : Ptr) (a : Aggregate ℝ) (ref : V3 ℝ) (hp : h[p]? = some (.aggregate a))
    (hps : ∀ q ∈ a.prims, q < h.length) (href : a.base.refPos = some ref) (hh : AggHullsOK a)
    (hi : a.inside.isInside = true) (ho : a.outside.isInside = false) (hm : 0 < a.outside.minRadius)
    (hold : ∀ q ∈ a.outside.polar, 0 ≤ q.x) :
    ∃ a', h.updateHull p = .ok (h.set p (.aggregate a')) ∧ Hulls a' ∧ a'.prims = a.prims ∧ a'.base = a.base ∧
      a'.inside.base.position = ref ∧ a'.outside.base.position = ref ∧
      a.inside.compute (oracles h a.prims) ref = .ok a'.inside ∧
      a.outside.compute (oracles h a.prims) ref = .ok a'.outside := by
  obtain ⟨i, o, h1, h2, h3, h4, h5⟩ := updateHull_ok hp hps href hh
  obtain ⟨i', e1, -, -, f1, -, -, g1, -⟩ := compute_ok hh.1 (oracles h a.prims) ref
  obtain ⟨o', e2, -, -, f2, -, -, g2, -⟩ := compute_ok hh.2 (oracles h a.prims) ref
  rw [h1] at e1; cases e1
  rw [h2] at e2; cases e2
  refine ⟨_, h5, ⟨⟨h3, h4⟩, by rw [f1, hi], by rw [f2, ho], fun q hq => ?_⟩, rfl, rfl, g1, g2, h1, h2⟩
  have := C54_step_partial hh.2 h2 hm.le (e := 1) zero_le_one (fun q hq => by simpa using hold q hq) q hq
  linarith

/-! ### Concrete cases -/

/-- A hull with two surface points at the radius `R`. -/
noncomputable def disc (inside : Bool) (R : ℝ) : Hull ℝ :=
  ⟨Base.mkName "" V3.zero, inside, 2, 1, [⟨R, 0, 0⟩, ⟨R * Real.cos 1, R * Real.sin 1, 0⟩],
    [⟨R, Real.pi / 2, 0⟩, ⟨R, Real.pi / 2, 1⟩]⟩

theorem disc_frame (inside : Bool) (R t : ℝ) : (disc inside R).base.pose.inverse.apply ⟨t, 0, 0⟩ = ⟨t, 0, 0⟩ := by
  rw [inverse_apply_one rfl]
  ext <;> simp [disc, Base.mkName, State.ofPosition, Pose.ofPosition, Base.pose, V3.zero]

theorem disc_column (inside : Bool) (R t : ℝ) (ht : 0 < t) : (disc inside R).column ⟨t, 0, 0⟩ = 0 := by
  have harg : (⟨t, 0⟩ : ℂ).arg = 0 := by
    rw [Complex.arg_eq_zero_iff]; exact ⟨ht.le, rfl⟩
  rw [column, disc_frame]
  simp only [MathTools.cartesianToPolar, atan2_real, harg]
  norm_num [disc, MathTools.lowerBound, MathTools.lowerBoundLoop]

theorem norm_axis {t : ℝ} (ht : 0 < t) : V3.norm (⟨t, 0, 0⟩ : V3 ℝ) = t := by
  simp only [V3.norm, V3.sqNorm, V3.dot, sqrt_real, mul_zero, add_zero]
  exact Real.sqrt_mul_self ht.le

theorem disc_inside (inside : Bool) (R t : ℝ) (ht : 0 < t) :
    (disc inside R).pointIsInside ⟨t, 0, 0⟩ = .ok (decide (t < R)) := by
  unfold Hull.pointIsInside
  rw [closest_eq (by simp [disc]), disc_column inside R t ht, Res.ok_bind, disc_frame]
  simp only [polar_radius, norm_axis ht]
  rfl

/-- An aggregate with a wall between the radii 1 and 2, no primitives. -/
noncomputable def ring : Aggregate ℝ :=
  { (Aggregate.default : Aggregate ℝ) with
    base := Base.mkRef "ring" (State.ofPosition V3.zero) V3.zero V3.zero
    inside := disc true 1
    outside := disc false 2 }

theorem ring_hulls : Hulls ring := by
  refine ⟨⟨⟨by norm_num [ring, disc], rfl, rfl⟩, ⟨by norm_num [ring, disc], rfl, rfl⟩⟩, rfl, rfl, ?_⟩
  intro q hq
  simp only [ring, disc, List.mem_cons, List.not_mem_nil, or_false] at hq
  rcases hq with rfl | rfl <;> norm_num

theorem ring_inside (t : ℝ) (ht : 0 < t) :
    Heap.pointIsInside [] (.aggregate ring) ⟨t, 0, 0⟩ = .ok (decide (t < 2)) := by
  have h1 : ring.outside.pointIsInside ⟨t, 0, 0⟩ = .ok (decide (t < 2)) := disc_inside false 2 t ht
  rw [Heap.pointIsInside, show Heap.fuel ([] : Heap ℝ) = 0 + 1 from rfl, Heap.pointIsInsideAux, h1, Res.ok_bind]
  split
  · rename_i h; rw [h]
  · rename_i h
    rw [Bool.not_eq_true] at h
    rw [h]
    rfl

/-- Outside: the distance of the outside hull. -/
theorem ring_out (t : ℝ) (ht : 2 ≤ t) (m : V3 ℝ) :
    Heap.distanceToPoint [] (.aggregate ring) ⟨t, 0, 0⟩ m = .ok (t / 2) := by
  have hin := ring_inside t (by linarith)
  rw [decide_eq_false (not_lt.mpr ht)] at hin
  obtain ⟨d, s, h1, h2, -, h4⟩ := (C78_distance [] ring ring_hulls ⟨t, 0, 0⟩ m false hin).1 rfl
  have hs : s = ⟨2, Real.pi / 2, 0⟩ := by
    rw [show ring.outside = disc false 2 from rfl, disc_column false 2 t (by linarith)] at h2
    simpa [disc] using h2.symm
  rw [show ring.outside = disc false 2 from rfl, disc_frame, norm_axis (by linarith), hs] at h4
  rw [h1, show d = t / 2 by simp only at h4; linarith]

/-- Inside: the distance of the inside hull. -/
theorem ring_in (t : ℝ) (ht : 0 < t) (h2 : t < 2) (m : V3 ℝ) :
    Heap.distanceToPoint [] (.aggregate ring) ⟨t, 0, 0⟩ m = .ok (1 / t) := by
  have hin := ring_inside t ht
  rw [decide_eq_true h2] at hin
  have hz : ring.inside.base.pose.inverse.apply ⟨t, 0, 0⟩ ≠ V3.zero := by
    rw [show ring.inside = disc true 1 from rfl, disc_frame]
    intro h
    have := congrArg V3.x h
    simp only [V3.zero] at this
    linarith
  obtain ⟨d, s, h1, h2, -, h4⟩ := (C78_distance [] ring ring_hulls ⟨t, 0, 0⟩ m true hin).2 rfl hz _ (disc_inside true 1 t ht)
  have hs : s = ⟨1, Real.pi / 2, 0⟩ := by
    rw [show ring.inside = disc true 1 from rfl, disc_column true 1 t ht] at h2
    simpa [disc] using h2.symm
  rw [show ring.inside = disc true 1 from rfl, disc_frame, norm_axis ht, hs] at h4
  rw [h1, show d = 1 / t by rw [eq_div_iff ht.ne']; exact h4]

/-- Outside, in the wall, in the free interior. -/
example (m : V3 ℝ) : Heap.distanceToPoint [] (.aggregate ring) ⟨3, 0, 0⟩ m = .ok (3 / 2) ∧
    Heap.distanceToPoint [] (.aggregate ring) ⟨3 / 2, 0, 0⟩ m = .ok (1 / (3 / 2)) ∧
    Heap.distanceToPoint [] (.aggregate ring) ⟨1 / 2, 0, 0⟩ m = .ok (1 / (1 / 2)) :=
  ⟨ring_out _ (by norm_num) m, ring_in _ (by norm_num) (by norm_num) m, ring_in _ (by norm_num) (by norm_num) m⟩

/-- The push away from the outer surface, and from the inner surface back to the middle. -/
example : ∃ r r', Heap.generateRepulsion [] (.aggregate ring) ⟨21 / 10, 0, 0⟩ 0 (11 / 10) = .ok r ∧ r.x = 40 ∧
    Heap.generateRepulsion [] (.aggregate ring) ⟨20 / 21, 0, 0⟩ 0 (11 / 10) = .ok r' ∧ r'.x = -(20 * 20 * 20 / (21 * 21)) := by
  obtain ⟨r, h1, h2, -⟩ := C78_repulsion [] ring V3.zero ⟨21 / 10, 0, 0⟩ 0 (11 / 10) _ false rfl
    (ring_out (21 / 10) (by norm_num) (V3.const 0)) (by norm_num)
    (by rw [ring_inside _ (by norm_num)]; norm_num)
  obtain ⟨r', h3, -, h4⟩ := C78_repulsion [] ring V3.zero ⟨20 / 21, 0, 0⟩ 0 (11 / 10) _ true rfl
    (ring_in (20 / 21) (by norm_num) (by norm_num) (V3.const 0)) (by norm_num)
    (by rw [ring_inside _ (by norm_num)]; norm_num)
  refine ⟨r, r', h1, ?_, h3, ?_⟩
  · rw [h2 rfl]; norm_num [V3.smul, V3.sub_x, V3.zero]
  · rw [h4 rfl]; norm_num [V3.smul, V3.sub_x, V3.zero]

/-- The normal at (3,0,0), outside the wall, points into it. -/
example : ∃ N s, (disc false 2).normalToAgent ⟨3, 0, 0⟩ = .ok N ∧ (disc false 2).cart[0]? = some s ∧
    V3.dot N (s - V3.zero) < 0 := by
  have hc := disc_column false 2 3 (by norm_num)
  have h := C78_negation_outward (disc false 2) ring_hulls.ok.2 ⟨3, 0, 0⟩ (disc_inside false 2 3 (by norm_num)) rfl ?_
    (by rw [hc]; norm_num [disc]) ⟨2, Real.pi / 2, 0⟩ ⟨2, Real.pi / 2, 1⟩ (by rw [hc]; rfl) (by rw [hc]; rfl) (by norm_num)
    (by norm_num) (by simp) (by simp) (by norm_num) ?_
  · rw [hc] at h; exact h
  · simp only [disc, List.map_cons, List.map_nil]
    rw [apply_one rfl, apply_one rfl]
    simp [MathTools.polarToCartesian, Base.mkName, State.ofPosition, Pose.ofPosition, Base.pose, V3.zero, sin_real, cos_real]
    constructor <;> ext <;> simp
  · have := Real.two_le_pi
    simp only []
    linarith

/-- The hulls of a new aggregate are of the right kinds and usable. -/
example : AggHullsOK (Aggregate.default : Aggregate ℝ) ∧ (Aggregate.default : Aggregate ℝ).inside.isInside = true ∧
    (Aggregate.default : Aggregate ℝ).outside.isInside = false ∧ 0 < (Aggregate.default : Aggregate ℝ).outside.minRadius ∧
    ∀ q ∈ (Aggregate.default : Aggregate ℝ).outside.polar, 0 ≤ q.x := by
  refine ⟨⟨hullOK_mk' _ (by norm_num) _, hullOK_mk' _ (by norm_num) _⟩, rfl, rfl, by norm_num [Aggregate.default, Hull.mk'], ?_⟩
  intro q hq
  have : q = V3.zero := List.eq_of_mem_replicate hq
  rw [this]; simp [V3.zero]

end DOA.Props
