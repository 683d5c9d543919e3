import Verif.Lemmas.Order

/-! Motion in the plane z = 0. -/

set_option linter.unusedSectionVars false
set_option linter.unusedSimpArgs false

namespace DOA.Modulation
open DOA.Spec

theorem flat_normalized {v : V3 ℝ} (h : v.z = 0) : v.normalized.z = 0 := by
  unfold V3.normalized
  split
  · simp [V3.sdiv, h]
  · exact h

theorem flat_rotate {q : Quat ℝ} (hx : q.x = 0) (hy : q.y = 0) {v : V3 ℝ} (h : v.z = 0) : (q.rotate v).z = 0 := by
  simp [Quat.rotate, V3.cross, Quat.vec, V3.smul, hx, hy, h]

theorem flat_conj {q : Quat ℝ} (hx : q.x = 0) (hy : q.y = 0) : q.conjugate.x = 0 ∧ q.conjugate.y = 0 := by
  simp [Quat.conjugate, hx, hy]

theorem flat_inverse {q : Quat ℝ} (hx : q.x = 0) (hy : q.y = 0) : q.inverse.x = 0 ∧ q.inverse.y = 0 := by
  unfold Quat.inverse
  split <;> simp [hx, hy]

theorem flat_toM3 {q : Quat ℝ} (hx : q.x = 0) (hy : q.y = 0) {v : V3 ℝ} (h : v.z = 0) :
    (q.toM3.mulVec v).z = 0 := by
  simp [Quat.toM3, M3.mulVec, hx, hy, h]

/-- the tangent is in the plane or vertical -/
theorem flat_tangent {n : V3 ℝ} (h : n.z = 0) :
    (tangentVector n).z = 0 ∨ ((tangentVector n).x = 0 ∧ (tangentVector n).y = 0) := by
  unfold tangentVector
  simp only []
  split
  · right; simp [V3.cross, V3.unitY, h]
  · left; simp [V3.cross, V3.unitZ, h]

theorem flat_frameAct {n r : V3 ℝ} (hn : n.z = 0) (hr : r.z = 0) (d : V3 ℝ) {v : V3 ℝ} (hv : v.z = 0) :
    (frameAct (referenceBasis n r) d v).z = 0 := by
  unfold frameAct referenceBasis
  simp only []
  rcases flat_tangent hn with ht | ⟨ht1, ht2⟩
  · simp [M3.mulVec, M3.inverse, M3.had, V3.cross, hr, ht, hv]
  · simp [M3.mulVec, M3.inverse, M3.had, V3.cross, hr, ht1, ht2, hv]

theorem flat_product {q : Quat ℝ} (hx : q.x = 0) (hy : q.y = 0) {n r : V3 ℝ} (hn : n.z = 0) (hr : r.z = 0)
    (d : V3 ℝ) {v : V3 ℝ} (hv : v.z = 0) : ((modulationProduct q (referenceBasis n r) d).mulVec v).z = 0 := by
  obtain ⟨h1, h2⟩ := flat_inverse hx hy
  simp only [modulationProduct, M3.mul_mulVec, M3.mulDiag_mulVec]
  exact flat_toM3 hx hy (flat_frameAct hn hr d (flat_toM3 h1 h2 hv))

theorem flat_basis {n : V3 ℝ} (hn : n.z = 0) {v : V3 ℝ} (hv : v.z = 0) :
    ((orthogonalBasis n).mulVec ((orthogonalBasis n).transpose.mulVec v)).z = 0 := by
  unfold orthogonalBasis
  simp only []
  rcases flat_tangent hn with ht | ⟨ht1, ht2⟩
  · simp [M3.mulVec, M3.transpose, V3.cross, hn, ht, hv]
  · simp [M3.mulVec, M3.transpose, V3.cross, hn, ht1, ht2, hv]

/-- The pose of a flat object. -/
def FlatPose (p : Pose ℝ) : Prop := p.orientation.x = 0 ∧ p.orientation.y = 0 ∧ p.position.z = 0

theorem flat_apply {p : Pose ℝ} (hp : FlatPose p) {v : V3 ℝ} (hv : v.z = 0) : (p.apply v).z = 0 := by
  obtain ⟨h1, h2, h3⟩ := hp
  simp [Pose.apply, flat_rotate h1 h2 hv, h3]

theorem flat_inversePose {p : Pose ℝ} (hp : FlatPose p) : FlatPose p.inverse := by
  obtain ⟨h1, h2, h3⟩ := hp
  obtain ⟨h4, h5⟩ := flat_conj h1 h2
  refine ⟨h4, h5, ?_⟩
  exact flat_rotate h4 h5 (by simp [h3])

theorem flat_direction {p : Pose ℝ} (hp : FlatPose p) {x ref : V3 ℝ} (hx : x.z = 0) (hr : ref.z = 0) :
    (referenceDirection p x ref).z = 0 := by
  unfold referenceDirection
  apply flat_normalized
  simp [flat_apply (flat_inversePose hp) hx, flat_apply (flat_inversePose hp) hr]

theorem flat_ellipsoid_normal {e : Ellipsoid ℝ} (hp : FlatPose e.base.pose) (hc : e.curv.z ≠ 1 / 2) {x : V3 ℝ}
    (hx : x.z = 0) (m : ℝ) : (e.normalToAgent x m).z = 0 := by
  unfold Ellipsoid.normalToAgent
  simp only []
  apply flat_normalized
  simp only [flat_apply (flat_inversePose hp) hx, mul_zero, Ellipsoid.scaledSq, zero_div, ite_self]
  have h2 : (lit 2 1 * e.curv.z - 1 : ℝ) ≠ 0 := by
    intro h
    apply hc
    simp at h
    linarith
  rw [pow_real]
  exact Real.zero_rpow h2

theorem flat_hull_normal {k : Hull ℝ} {x n : V3 ℝ} (h : k.normalToAgent x = .ok n) : n.z = 0 := by
  unfold Hull.normalToAgent at h
  obtain ⟨r, -, h⟩ := Res.bind_eq_ok.mp h
  obtain ⟨s1, -, h⟩ := Res.bind_eq_ok.mp h
  obtain ⟨s2, -, h⟩ := Res.bind_eq_ok.mp h
  cases h
  simp [V3.cross, V3.unitZ]

theorem flat_lsum {l : List (V3 ℝ)} (h : ∀ v ∈ l, v.z = 0) : (V3.lsum l).z = 0 := by
  induction l with
  | nil => simp [V3.lsum_nil, V3.zero]
  | cons v l ih =>
    rw [V3.lsum_cons, V3.add_z, h v List.mem_cons_self, ih fun w hw => h w (List.mem_cons_of_mem _ hw), add_zero]

/-- the velocity-space computation stays in the plane -/
theorem flat_core {rv : V3 ℝ} (hrv : rv.z = 0) {l : List (M3 ℝ × ℝ)} (hl : ∀ x ∈ l, (x.1.mulVec rv).z = 0) :
    (core rv l).z = 0 := by
  have hn := flat_normalized hrv
  have hterm : ∀ x ∈ l, (angleTerm (dsFrame rv.normalized).transpose rv.normalized rv x.1 x.2).2.y = 0 := by
    intro x hx
    have hm := flat_normalized (hl x hx)
    have ht : (M3.mulVec (dsFrame rv.normalized).transpose (x.1.mulVec rv).normalized).z = 0 := by
      generalize (x.1.mulVec rv).normalized = w at hm
      simp [dsFrame, M3.transpose, M3.mulVec, V3.cross, V3.unitZ, hn, hm]
    simp only [angleTerm, V2.scale, V2.normalized, ht]
    split <;> simp
  have hy : ((l.map fun x => angleTerm (dsFrame rv.normalized).transpose rv.normalized rv x.1 x.2).map (·.2.y)).sum = 0 := by
    apply List.sum_eq_zero
    intro y hy
    simp only [List.map_map, List.mem_map, Function.comp] at hy
    obtain ⟨x, hx, rfl⟩ := hy
    exact hterm x hx
  simp only [core, hy]
  generalize ((l.map fun x => angleTerm (dsFrame rv.normalized).transpose rv.normalized rv x.1 x.2).map (·.2.x)).sum = s
  have hr : (reconstruct (⟨s, 0⟩ : V2 ℝ)).z = 0 := by
    unfold reconstruct
    simp only []
    split <;> simp
  simp [V3.smul, dsFrame, M3.mulVec, V3.cross, V3.unitZ, hn, hr]

end DOA.Modulation
