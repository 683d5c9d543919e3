import Verif.Lemmas.Modulation
import Verif.Lemmas.Convex
import Verif.Spec.Modulation
import Verif.Props.Ellipsoid

/-! Geometry of the modulation matrix of an ellipsoid. -/

set_option linter.unusedSectionVars false
set_option linter.unusedSimpArgs false

namespace DOA.Modulation
open DOA.Spec DOA.Props DOA.Ellipsoid

theorem unit' {e : Ellipsoid ℝ} {m : ℝ} {k : ℕ} (h : Smooth e m k) : e.base.pose.orientation.IsUnit :=
  (Quat.isUnit_iff_norm _).mpr h.unit

theorem dist_nonneg {e : Ellipsoid ℝ} {m : ℝ} {k : ℕ} (h : Smooth e m k) (x : V3 ℝ) : 0 ≤ gdist e m x := by
  rw [gdist, distance_frame e _ x k k k h.curv h.long]
  exact level_nonneg _ _ _ _ _

/-- the distance is the level of the frame coordinates -/
theorem dist_apply {e : Ellipsoid ℝ} {m : ℝ} {k : ℕ} (h : Smooth e m k) (y : V3 ℝ) :
    gdist e m (e.base.pose.apply y) = level (halfLengths e (V3.const m)) k k k y :=
  distance_eq e _ y k k k h.curv (unit' h) h.long

theorem allGt_zero {l : V3 ℝ} (h : AllGt l (1 / 10000)) : AllGt l 0 :=
  ⟨lt_trans (by norm_num) h.1, lt_trans (by norm_num) h.2.1, lt_trans (by norm_num) h.2.2⟩

/-- everything known about the normal at a point with positive distance -/
theorem normal_facts {e : Ellipsoid ℝ} {m : ℝ} {k : ℕ} (h : Smooth e m k) {y : V3 ℝ} (hy : y ≠ V3.zero) :
    V3.norm (e.normalToAgent (e.base.pose.apply y) m) = 1 ∧
    ∃ c : ℝ, 0 < c ∧
      (∀ u : V3 ℝ, Slope e m (e.base.pose.apply y) (e.base.pose.orientation.rotate u)
        (c * V3.dot (e.normalToAgent (e.base.pose.apply y) m) u)) ∧
      ∀ w : V3 ℝ, c * V3.dot (e.normalToAgent (e.base.pose.apply y) m) (w - y) ≤
        gdist e m (e.base.pose.apply w) - gdist e m (e.base.pose.apply y) := by
  refine ⟨(C25_normal_unit_outward e y m k k k h.curv h.unit h.long hy).1, ?_⟩
  obtain ⟨c, hc, hu⟩ := C25_normal_gradient_partial e y m k h.curv h.unit h.long hy h.exact_
  refine ⟨c, hc, fun u => ?_, fun w => ?_⟩
  · have := hu u
    unfold Slope
    convert this using 3 with t
    unfold gdist
    congr 1
    simp only [Pose.apply, Quat.rotate_add, Quat.rotate_smul]
    v3_ring
  · have h1 := hu (w - y)
    have hd : (fun y => e.distanceToPoint (e.base.pose.apply y) (V3.const m)) =
        level (halfLengths e (V3.const m)) k k k := by
      funext y; exact distance_eq e _ y k k k h.curv (unit' h) h.long
    rw [hd] at h1
    have h2 := hasDerivAt_level (halfLengths e (V3.const m)) k k k y (w - y)
    rw [h1.unique h2, dist_apply h, dist_apply h]
    exact level_tangent _ _ _ _ _ _

theorem slope_world {e : Ellipsoid ℝ} {m : ℝ} {k : ℕ} (h : Smooth e m k) {y : V3 ℝ} (hy : y ≠ V3.zero) :
    ∃ c : ℝ, 0 < c ∧ ∀ u : V3 ℝ, ∀ s, Slope e m (e.base.pose.apply y) (e.base.pose.orientation.rotate u) s ↔
      s = c * V3.dot (e.normalToAgent (e.base.pose.apply y) m) u := by
  obtain ⟨-, c, hc, hu, -⟩ := normal_facts h hy
  exact ⟨c, hc, fun u s => ⟨fun hs => hs.unique (hu u), fun hs => hs ▸ hu u⟩⟩

theorem diag_eq (d : ℝ) (hd : 0 < d) :
    diagonalEigenvalues d 1 = ⟨max 0 (1 - 1 / d), 1 + min 1 (1 / d), 1 + min 1 (1 / d)⟩ := by
  unfold diagonalEigenvalues
  by_cases h : d ≤ 1
  · have h1 : 1 ≤ 1 / d := by rw [le_div_iff₀ hd]; linarith
    simp only [if_pos h, max_eq_left (show 1 - 1 / d ≤ 0 by linarith), min_eq_left h1]
    norm_num
  · have h1 : 1 / d ≤ 1 := by rw [div_le_iff₀ hd]; linarith
    simp only [if_neg h, max_eq_right (show 0 ≤ 1 - 1 / d by linarith), min_eq_right h1, pow_real,
      div_one, Real.rpow_one]

/-- the modulation matrix of an ellipsoid -/
theorem matrix_ellipsoid (h : Heap ℝ) (a : Agent ℝ) (e : Ellipsoid ℝ) {ref : V3 ℝ}
    (href : e.base.refPos = some ref) :
    modulationMatrix h a (.ellipsoid e) =
      .ok (modulationProduct e.base.pose.orientation
          (referenceBasis (e.normalToAgent a.state.position a.margin)
            (referenceDirection e.base.pose a.state.position ref))
          (diagonalEigenvalues (gdist e a.margin a.state.position) 1),
        orthogonalBasis (e.normalToAgent a.state.position a.margin), gdist e a.margin a.state.position) := by
  simp [modulationMatrix, Heap.normalToAgent, Heap.distanceToAgent, Heap.distanceToPoint, basisMatrices,
    Obj.base, Base.ref, href, gdist]
  rfl

/-- frame coordinates of agent and reference point -/
structure Coord (e : Ellipsoid ℝ) (m : ℝ) (x ref : V3 ℝ) (y w : V3 ℝ) : Prop where
  hx : x = e.base.pose.apply y
  href : ref = e.base.pose.apply w
  y0 : y ≠ V3.zero
  r_eq : ∃ s, 0 < s ∧ referenceDirection e.base.pose x ref = V3.smul s (y - w)
  nr : 0 < V3.dot (e.normalToAgent x m) (referenceDirection e.base.pose x ref)
  pos : 0 < gdist e m x

theorem coord {e : Ellipsoid ℝ} {m : ℝ} {k : ℕ} (h : Smooth e m k) {x ref : V3 ℝ}
    (hin : gdist e m ref < gdist e m x) :
    ∃ y w, Coord e m x ref y w := by
  have hq := unit' h
  refine ⟨e.base.pose.inverse.apply x, e.base.pose.inverse.apply ref, ?_⟩
  have hx := (Pose.apply_apply_inverse hq x).symm
  have hr := (Pose.apply_apply_inverse hq ref).symm
  generalize e.base.pose.inverse.apply x = y at *
  generalize e.base.pose.inverse.apply ref = w at *
  have hpos : 0 < gdist e m x := lt_of_le_of_lt (dist_nonneg h ref) hin
  have y0 : y ≠ V3.zero := by
    intro h0
    rw [hx, dist_apply h, (level_eq_zero _ k k k y (allGt_zero h.long) h.curv.2.1 h.curv.2.1
      h.curv.2.1).mpr h0] at hpos
    exact lt_irrefl _ hpos
  have hyw : y - w ≠ V3.zero := by
    intro h0
    have : y = w := by
      have e1 : y = (y - w) + w := by v3_ring
      rw [e1, h0]; v3_ring
    rw [hx, hr, this] at hin
    exact lt_irrefl _ hin
  have hdir : referenceDirection e.base.pose x ref = V3.smul (1 / V3.norm (y - w)) (y - w) := by
    unfold referenceDirection
    rw [hx, hr, Pose.apply_inverse_apply hq, Pose.apply_inverse_apply hq, V3.normalized_of_ne hyw]
  have hs : 0 < 1 / V3.norm (y - w) := by have := V3.norm_pos hyw; positivity
  refine ⟨hx, hr, y0, ⟨_, hs, hdir⟩, ?_, hpos⟩
  rw [hdir, V3.dot_smul]
  obtain ⟨-, c, hc, -, ht⟩ := normal_facts h y0
  have := ht w
  rw [← hx, ← hr] at this
  have e1 : V3.dot (e.normalToAgent x m) (w - y) = - V3.dot (e.normalToAgent x m) (y - w) := by
    simp only [V3.dot, V3.sub_x, V3.sub_y, V3.sub_z]; ring
  rw [e1] at this
  have hneg : 0 < c * V3.dot (e.normalToAgent x m) (y - w) := by linarith
  exact mul_pos hs ((mul_pos_iff_of_pos_left hc).mp hneg)

/-- regularity: the reference basis is invertible -/
theorem coord_det {e : Ellipsoid ℝ} {m : ℝ} {k : ℕ} (h : Smooth e m k) {x ref y w : V3 ℝ}
    (c : Coord e m x ref y w) :
    (referenceBasis (e.normalToAgent x m) (referenceDirection e.base.pose x ref)).det ≠ 0 := by
  have hn1 : V3.norm (e.normalToAgent x m) = 1 := by
    rw [c.hx]; exact (normal_facts h c.y0).1
  have hnr := c.nr
  have ht := tangent_ne_zero hn1
  have hdt := dot_tangent (e.normalToAgent x m)
  generalize e.normalToAgent x m = n at *
  generalize referenceDirection e.base.pose x ref = r at *
  rw [det_referenceBasis, neg_ne_zero]
  intro h0
  have hz := V3.sqNorm_eq_zero.mp h0
  -- `t × r = 0` gives `t (n·r) = r (n·t) = 0`
  set t := tangentVector n
  have hx : t.y * r.z - t.z * r.y = 0 := congrArg V3.x hz
  have hy : t.z * r.x - t.x * r.z = 0 := congrArg V3.y hz
  have hzz : t.x * r.y - t.y * r.x = 0 := congrArg V3.z hz
  apply ht
  simp only [V3.dot] at hdt hnr
  have e1 : t.x * (n.x * r.x + n.y * r.y + n.z * r.z) = 0 := by
    linear_combination r.x * hdt + n.y * hzz - n.z * hy
  have e2 : t.y * (n.x * r.x + n.y * r.y + n.z * r.z) = 0 := by
    linear_combination r.y * hdt - n.x * hzz + n.z * hx
  have e3 : t.z * (n.x * r.x + n.y * r.y + n.z * r.z) = 0 := by
    linear_combination r.z * hdt + n.x * hy - n.y * hx
  have f1 := (mul_eq_zero.mp e1).resolve_right hnr.ne'
  have f2 := (mul_eq_zero.mp e2).resolve_right hnr.ne'
  have f3 := (mul_eq_zero.mp e3).resolve_right hnr.ne'
  simp [V3.sqNorm, V3.dot, f1, f2, f3]

/-- frame coordinates are unique -/
theorem apply_inj {p : Pose ℝ} (h : p.orientation.IsUnit) {u v : V3 ℝ} (e : p.apply u = p.apply v) : u = v := by
  rw [← Pose.apply_inverse_apply h u, e, Pose.apply_inverse_apply h]

/-- planar configurations have planar normals -/
theorem normal_planar {e : Ellipsoid ℝ} {m : ℝ} {k : ℕ} (h : Smooth e m k) {y : V3 ℝ} (hz : y.z = 0) :
    (e.normalToAgent (e.base.pose.apply y) m).z = 0 := by
  rw [normal_frame e _ m k k k h.curv h.long, Pose.apply_inverse_apply (unit' h)]
  have hk := h.curv.2.1
  have h0 : (2 * k * y.z / ((halfLengths e (V3.const m)).z * (halfLengths e (V3.const m)).z)) ^ (2 * k - 1) = 0 := by
    rw [hz]; simp; omega
  unfold V3.normalized
  rw [h0]
  split <;> simp [V3.sdiv]

/-- the normal of a ball is radial -/
theorem normal_ball {e : Ellipsoid ℝ} {m : ℝ} {k : ℕ} (h : Smooth e m k) {x ref y w : V3 ℝ}
    (c : Coord e m x ref y w) (hb : CentredBall e m ref) :
    referenceDirection e.base.pose x ref = e.normalToAgent x m := by
  obtain ⟨hcurv, hxy, hyz, hpos⟩ := hb
  have hk : k = 1 := by
    have := h.curv.1; rw [hcurv] at this
    have h1 := congrArg V3.x this
    simp at h1
    exact_mod_cast h1.symm
  subst hk
  have hw : e.base.pose.inverse.apply ref = V3.zero := (frame_zero_iff e (unit' h) ref).mpr hpos
  unfold referenceDirection
  rw [hw, V3.sub_zero', normal_frame e _ m 1 1 1 h.curv h.long, c.hx, Pose.apply_inverse_apply (unit' h)]
  rw [← hyz, ← hxy]
  have hl := h.long.1
  generalize (halfLengths e (V3.const m)).x = l at *
  have hl0 : 0 < l := by linarith
  have hs : (0 : ℝ) < 2 / (l * l) := by positivity
  have e1 : (⟨(2 * ((1 : ℕ) : ℝ) * y.x / (l * l)) ^ (2 * 1 - 1), (2 * ((1 : ℕ) : ℝ) * y.y / (l * l)) ^ (2 * 1 - 1),
      (2 * ((1 : ℕ) : ℝ) * y.z / (l * l)) ^ (2 * 1 - 1)⟩ : V3 ℝ) = V3.smul (2 / (l * l)) y := by
    ext <;> simp [V3.smul] <;> ring
  rw [e1]
  have hne : V3.smul (2 / (l * l)) y ≠ V3.zero := by
    intro h0
    apply c.y0
    have h1 := V3.norm_smul (2 / (l * l)) y
    rw [h0, V3.norm_eq_zero.mpr rfl, abs_of_pos hs] at h1
    exact V3.norm_eq_zero.mp ((mul_eq_zero.mp h1.symm).resolve_left hs.ne')
  rw [V3.normalized_of_ne c.y0, V3.normalized_of_ne hne, V3.norm_smul, abs_of_pos hs]
  have := V3.norm_pos c.y0
  ext <;> simp only [V3.smul] <;> field_simp

/-- in both situations the third column is tangent -/
theorem h3_of {e : Ellipsoid ℝ} {m : ℝ} {k : ℕ} (h : Smooth e m k) {x ref y w : V3 ℝ}
    (c : Coord e m x ref y w) (hs : InPlane e x ref ∨ CentredBall e m ref) :
    V3.dot (e.normalToAgent x m)
      (V3.cross (tangentVector (e.normalToAgent x m)) (referenceDirection e.base.pose x ref)) = 0 := by
  rcases hs with ⟨⟨a, b, h1⟩, ⟨a', b', h2⟩⟩ | hb
  · have hy : y = ⟨a, b, 0⟩ := apply_inj (unit' h) (c.hx.symm.trans h1)
    have hw : w = ⟨a', b', 0⟩ := apply_inj (unit' h) (c.href.symm.trans h2)
    apply h3_planar
    · rw [c.hx]; exact (normal_facts h c.y0).1
    · rw [c.hx]; exact normal_planar h (by rw [hy])
    · obtain ⟨s, -, hr⟩ := c.r_eq
      rw [hr, hy, hw]; simp [V3.smul]
  · rw [normal_ball h c hb]; exact h3_radial _

end DOA.Modulation
