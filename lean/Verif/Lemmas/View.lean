import Verif.Spec.View
import Verif.Lemmas.AddressLoop
import Verif.Lemmas.Ellipsoid
import Verif.Lemmas.ModulationGeom
import Verif.Lemmas.Combine
import Verif.Props.Ellipsoid

/-!
# Helper lemmas for the change of coordinates
-/

namespace DOA
open DOA.Spec DOA.Modulation DOA.Ellipsoid
set_option linter.unnecessarySeqFocus false
set_option linter.unusedSectionVars false
set_option linter.unusedSimpArgs false

namespace Spec.View
variable {V : View}

theorem vector_add (V : View) (u v : V3 ℝ) : V.vector (u + v) = V.vector u + V.vector v := by
  ext <;> simp [vector] <;> ring
theorem vector_sub (V : View) (u v : V3 ℝ) : V.vector (u - v) = V.vector u - V.vector v := by
  ext <;> simp [vector] <;> ring
theorem vector_smul (V : View) (k : ℝ) (v : V3 ℝ) : V.vector (V3.smul k v) = V3.smul k (V.vector v) := by
  ext <;> simp [vector, V3.smul] <;> ring
theorem vector_zero (V : View) : V.vector V3.zero = V3.zero := by
  ext <;> simp [vector, V3.zero]
theorem flip_add (V : View) (u v : V3 ℝ) : V.flip (u + v) = V.flip u + V.flip v := by
  ext <;> simp [flip] <;> ring
theorem flip_sub (V : View) (u v : V3 ℝ) : V.flip (u - v) = V.flip u - V.flip v := by
  ext <;> simp [flip] <;> ring
theorem flip_smul (V : View) (k : ℝ) (v : V3 ℝ) : V.flip (V3.smul k v) = V3.smul k (V.flip v) := by
  ext <;> simp [flip, V3.smul] <;> ring
theorem flip_zero (V : View) : V.flip V3.zero = V3.zero := by
  ext <;> simp [flip, V3.zero]
theorem point_sub (V : View) (x y : V3 ℝ) : V.point x - V.point y = V.vector (x - y) := by
  ext <;> simp [point, vector] <;> ring
theorem point_add (V : View) (x v : V3 ℝ) : V.point (x + v) = V.point x + V.vector v := by
  ext <;> simp [point, vector] <;> ring

theorem Valid.side_cases (hV : V.Valid) : V.side = 1 ∨ V.side = -1 := by
  have h := hV.2
  have : (V.side - 1) * (V.side + 1) = 0 := by linear_combination h
  rcases mul_eq_zero.mp this with h | h
  · exact .inl (by linarith)
  · exact .inr (by linarith)

theorem flip_flip (hV : V.Valid) (u : V3 ℝ) : V.flip (V.flip u) = u := by
  have h := hV.2
  ext <;> simp [flip]
  linear_combination u.y * h

theorem dot_vector (hV : V.Valid) (u v : V3 ℝ) : V3.dot (V.vector u) (V.vector v) = V3.dot u v := by
  obtain ⟨h1, h2⟩ := hV
  simp only [V3.dot, vector]
  linear_combination (u.x * v.x + V.side * V.side * u.y * v.y) * h1 + u.y * v.y * h2

theorem dot_flip (hV : V.Valid) (u v : V3 ℝ) : V3.dot (V.flip u) (V.flip v) = V3.dot u v := by
  obtain ⟨h1, h2⟩ := hV
  simp only [V3.dot, flip]
  linear_combination u.y * v.y * h2

theorem cross_vector (hV : V.Valid) (u v : V3 ℝ) :
    V3.cross (V.vector u) (V.vector v) = V3.smul V.side (V.vector (V3.cross u v)) := by
  obtain ⟨h1, h2⟩ := hV
  ext <;> simp only [V3.cross, vector, V3.smul]
  · linear_combination V.s * (u.z * v.x - u.x * v.z) * h2
  · linear_combination (-V.c * (u.z * v.x - u.x * v.z)) * h2
  · linear_combination (V.side * (u.x * v.y - u.y * v.x)) * h1

theorem cross_flip (hV : V.Valid) (u v : V3 ℝ) :
    V3.cross (V.flip u) (V.flip v) = V3.smul V.side (V.flip (V3.cross u v)) := by
  obtain ⟨h1, h2⟩ := hV
  ext <;> simp only [V3.cross, flip, V3.smul]
  · ring
  · linear_combination (-(u.z * v.x - u.x * v.z)) * h2
  · ring

theorem norm_vector (hV : V.Valid) (u : V3 ℝ) : V3.norm (V.vector u) = V3.norm u := by
  simp only [V3.norm, V3.sqNorm, dot_vector hV]

theorem norm_flip (hV : V.Valid) (u : V3 ℝ) : V3.norm (V.flip u) = V3.norm u := by
  simp only [V3.norm, V3.sqNorm, dot_flip hV]

theorem sqNorm_vector (hV : V.Valid) (u : V3 ℝ) : V3.sqNorm (V.vector u) = V3.sqNorm u := by
  simp only [V3.sqNorm, dot_vector hV]

theorem sqNorm_flip (hV : V.Valid) (u : V3 ℝ) : V3.sqNorm (V.flip u) = V3.sqNorm u := by
  simp only [V3.sqNorm, dot_flip hV]

theorem normalized_vector (hV : V.Valid) (u : V3 ℝ) : V3.normalized (V.vector u) = V.vector (V3.normalized u) := by
  simp only [V3.normalized, sqNorm_vector hV]
  split
  · ext <;> simp [V3.sdiv, vector] <;> ring
  · rfl

theorem normalized_flip (hV : V.Valid) (u : V3 ℝ) : V3.normalized (V.flip u) = V.flip (V3.normalized u) := by
  simp only [V3.normalized, sqNorm_flip hV]
  split
  · ext <;> simp [V3.sdiv, flip] <;> ring
  · rfl

theorem vector_unitZ (V : View) : V.vector V3.unitZ = V3.unitZ := by ext <;> simp [vector, V3.unitZ]
theorem flip_unitZ (V : View) : V.flip V3.unitZ = V3.unitZ := by ext <;> simp [flip, V3.unitZ]
theorem flip_unitY (V : View) : V.flip V3.unitY = V3.smul V.side V3.unitY := by
  ext <;> simp [flip, V3.unitY, V3.smul]

end Spec.View

/-! ## matrices -/

/-- the columns with signs -/
def M3.signs (b : M3 ℝ) (k1 k2 : ℝ) : M3 ℝ := ⟨b.c0, V3.smul k1 b.c1, V3.smul k2 b.c2⟩

/-- the columns flipped -/
def M3.flipped (V : View) (b : M3 ℝ) : M3 ℝ := ⟨V.flip b.c0, V.flip b.c1, V.flip b.c2⟩

theorem M3.flipped_mulVec (V : View) (b : M3 ℝ) (u : V3 ℝ) : (b.flipped V).mulVec u = V.flip (b.mulVec u) := by
  ext <;> simp [M3.flipped, M3.mulVec, View.flip] <;> ring

theorem M3.signs_mulVec (b : M3 ℝ) (k1 k2 : ℝ) (u : V3 ℝ) :
    (b.signs k1 k2).mulVec u = b.mulVec ⟨u.x, k1 * u.y, k2 * u.z⟩ := by
  ext <;> simp [M3.signs, M3.mulVec, V3.smul] <;> ring

theorem M3.det_signs (V : View) (b : M3 ℝ) (k1 k2 : ℝ) :
    ((b.flipped V).signs k1 k2).det = V.side * k1 * k2 * b.det := by
  simp only [M3.det, M3.signs, M3.flipped, View.flip, V3.smul]; ring

theorem M3.inverse_signs {V : View} (hV : V.Valid) (b : M3 ℝ) {k1 k2 : ℝ} (h1 : k1 * k1 = 1) (h2 : k2 * k2 = 1)
    (v : V3 ℝ) : ((b.flipped V).signs k1 k2).inverse.mulVec (V.flip v) =
      ⟨(b.inverse.mulVec v).x, k1 * (b.inverse.mulVec v).y, k2 * (b.inverse.mulVec v).z⟩ := by
  have hi : 1 / ((b.flipped V).signs k1 k2).det = V.side * k1 * k2 * (1 / b.det) := by
    rw [M3.det_signs]
    have hs : (V.side)⁻¹ = V.side := by
      rcases hV.side_cases with h | h <;> rw [h] <;> norm_num
    have hk1 : k1⁻¹ = k1 := by
      rcases mul_self_eq_one_iff.mp h1 with h | h <;> rw [h] <;> norm_num
    have hk2 : k2⁻¹ = k2 := by
      rcases mul_self_eq_one_iff.mp h2 with h | h <;> rw [h] <;> norm_num
    rw [one_div, mul_inv, mul_inv, mul_inv, hs, hk1, hk2, one_div]
  unfold M3.inverse
  simp only [hi]
  generalize 1 / b.det = i
  have hs := hV.2
  rcases mul_self_eq_one_iff.mp h1 with h | h <;> rcases mul_self_eq_one_iff.mp h2 with h' | h' <;>
    rcases hV.side_cases with h3 | h3 <;> subst h <;> subst h' <;>
    ext <;> simp only [M3.mulVec, M3.signs, M3.flipped, View.flip, V3.smul, h3] <;> ring

/-- The matrix between the frames. -/
theorem frameAct_signs {V : View} (hV : V.Valid) (b : M3 ℝ) {k1 k2 : ℝ} (h1 : k1 * k1 = 1) (h2 : k2 * k2 = 1)
    (d v : V3 ℝ) : frameAct ((b.flipped V).signs k1 k2) d (V.flip v) = V.flip (frameAct b d v) := by
  unfold frameAct
  rw [M3.signs_mulVec, M3.flipped_mulVec, M3.inverse_signs hV b h1 h2]
  congr 2
  ext <;> simp only [M3.had]
  · linear_combination (d.y * (b.inverse.mulVec v).y) * h1
  · linear_combination (d.z * (b.inverse.mulVec v).z) * h2

/-! ## one obstacle -/

namespace Spec.SameEllipsoid
variable {V : View} {e e' : Ellipsoid ℝ}

theorem isUnit (s : SameEllipsoid V e e') : e.base.pose.orientation.IsUnit := (Quat.isUnit_iff_norm _).mpr s.unit
theorem isUnit' (s : SameEllipsoid V e e') : e'.base.pose.orientation.IsUnit := (Quat.isUnit_iff_norm _).mpr s.unit'

/-- coordinates in the frame of the obstacle -/
theorem inv (s : SameEllipsoid V e e') (x : V3 ℝ) :
    e'.base.pose.inverse.apply (V.point x) = V.flip (e.base.pose.inverse.apply x) := by
  have h := s.pose (e.base.pose.inverse.apply x)
  rw [Pose.apply_apply_inverse s.isUnit] at h
  rw [← h, Pose.apply_inverse_apply s.isUnit']

theorem position (s : SameEllipsoid V e e') : e'.base.position = V.point e.base.position := by
  have h := s.pose V3.zero
  rw [View.flip_zero] at h
  simp only [Pose.apply, Quat.rotate_zero, V3.zero_add'] at h
  exact h

theorem rotate (s : SameEllipsoid V e e') (u : V3 ℝ) :
    e'.base.pose.orientation.rotate (V.flip u) = V.vector (e.base.pose.orientation.rotate u) := by
  have h := s.pose u
  have h0 : e'.base.pose.position = V.point e.base.pose.position := s.position
  simp only [Pose.apply, h0] at h
  have h2 : ∀ a b c : V3 ℝ, a + b = c → a = c - b := by
    intro a b c h; rw [← h]; v3_ring
  rw [h2 _ _ _ h, View.point_sub, V3.add_sub_cancel']

theorem conj (s : SameEllipsoid V e e') (u : V3 ℝ) :
    e'.base.pose.orientation.conjugate.rotate (V.vector u) = V.flip (e.base.pose.orientation.conjugate.rotate u) := by
  have h := s.rotate (e.base.pose.orientation.conjugate.rotate u)
  rw [Quat.rotate_rotate_conjugate s.isUnit] at h
  rw [← h, Quat.rotate_conjugate_rotate s.isUnit']

/-- whole exponents do not see the sign -/
theorem pow_even (s : SameEllipsoid V e e') (hV : V.Valid) (x : ℝ) :
    (V.side * x) ^ (2 * e.curv.y) = x ^ (2 * e.curv.y) := by
  rcases hV.side_cases with h | h
  · rw [h, one_mul]
  · obtain ⟨k1, k2, k3, hk, -, -, -⟩ := s.whole h
    rw [hk, h]
    have e1 : (2 * (k2 : ℝ)) = ((2 * k2 : ℕ) : ℝ) := by push_cast; ring
    simp only [e1, Real.rpow_natCast, neg_mul, one_mul]
    rw [Even.neg_pow (even_two_mul k2)]

theorem pow_odd (s : SameEllipsoid V e e') (hV : V.Valid) (x : ℝ) :
    (V.side * x) ^ (2 * e.curv.y - 1) = V.side * x ^ (2 * e.curv.y - 1) := by
  rcases hV.side_cases with h | h
  · rw [h, one_mul, one_mul]
  · obtain ⟨k1, k2, k3, hk, -, h2, -⟩ := s.whole h
    rw [hk, h]
    have e1 : (2 * (k2 : ℝ) - 1) = ((2 * (k2 - 1) + 1 : ℕ) : ℝ) := by
      push_cast [Nat.cast_sub h2]; ring
    simp only [e1, Real.rpow_natCast, neg_mul, one_mul]
    rw [Odd.neg_pow (odd_two_mul_add_one _)]

theorem scaled_side (s l : ℝ) (x : ℝ) : Ellipsoid.scaled (s * x) l = s * Ellipsoid.scaled x l := by
  unfold Ellipsoid.scaled; split <;> ring

theorem scaledSq_side (s l : ℝ) (x : ℝ) : Ellipsoid.scaledSq (s * x) l = s * Ellipsoid.scaledSq x l := by
  unfold Ellipsoid.scaledSq; split <;> ring

theorem distance (s : SameEllipsoid V e e') (hV : V.Valid) (x m : V3 ℝ) :
    e'.distanceToPoint (V.point x) m = e.distanceToPoint x m := by
  unfold Ellipsoid.distanceToPoint
  simp only [s.inv, s.axis, s.margin, s.curv, View.flip, scaled_side, pow_real, lit_two, s.pow_even hV]

theorem inside (s : SameEllipsoid V e e') (hV : V.Valid) (x : V3 ℝ) :
    e'.pointIsInside (V.point x) = e.pointIsInside x := by
  unfold Ellipsoid.pointIsInside
  simp only [s.inv, s.axis, s.margin, View.flip]
  have h := hV.2
  have : ∀ y : ℝ, V.side * y * (V.side * y) = y * y := fun y => by linear_combination y * y * h
  rw [this]

theorem normal (s : SameEllipsoid V e e') (hV : V.Valid) (x : V3 ℝ) (m : ℝ) :
    e'.normalToAgent (V.point x) m = V.flip (e.normalToAgent x m) := by
  unfold Ellipsoid.normalToAgent
  simp only [s.inv, s.axis, s.margin, s.curv]
  rw [← View.normalized_flip hV]
  congr 1
  have hy : ∀ y l : ℝ, 2 * e.curv.y * (V.side * y) = V.side * (2 * e.curv.y * y) := fun y l => by ring
  ext <;> simp only [View.flip, lit_two, pow_real]
  rw [hy _ 0, scaledSq_side, s.pow_odd hV]

end Spec.SameEllipsoid

theorem Heap.deref_ok' {h : Heap ℝ} {p : Ptr} {o : Obj ℝ} (hp : h[p]? = some o) : h.deref p = .ok o := by
  simp [Heap.deref, hp]

/-! ## the bases -/

theorem tangent_flip {V : View} (hV : V.Valid) (n : V3 ℝ) :
    ∃ k, k * k = 1 ∧ tangentVector (V.flip n) = V3.smul k (V.flip (tangentVector n)) := by
  have h1 : V3.cross (V.flip n) V3.unitZ = V3.smul V.side (V.flip (V3.cross n V3.unitZ)) := by
    conv_lhs => rw [← View.flip_unitZ V]
    rw [View.cross_flip hV]
  have habs : |V.side| = 1 := by
    rcases hV.side_cases with h | h <;> rw [h] <;> norm_num
  have h2 : V3.norm (V3.cross (V.flip n) V3.unitZ) = V3.norm (V3.cross n V3.unitZ) := by
    rw [h1, V3.norm_smul, View.norm_flip hV, habs, one_mul]
  unfold tangentVector
  simp only [h2]
  split
  · refine ⟨1, by norm_num, ?_⟩
    ext <;> simp [V3.cross, View.flip, V3.unitY, V3.smul]
  · exact ⟨V.side, hV.2, h1⟩

theorem referenceBasis_flip {V : View} (hV : V.Valid) (n r : V3 ℝ) :
    ∃ k1 k2, k1 * k1 = 1 ∧ k2 * k2 = 1 ∧
      referenceBasis (V.flip n) (V.flip r) = ((referenceBasis n r).flipped V).signs k1 k2 := by
  obtain ⟨k, hk, ht⟩ := tangent_flip hV n
  refine ⟨k, k * V.side, hk, by linear_combination V.side * V.side * hk + hV.2, ?_⟩
  unfold referenceBasis M3.signs M3.flipped
  simp only [ht]
  congr 1
  have : V3.cross (V3.smul k (V.flip (tangentVector n))) (V.flip r) =
      V3.smul k (V3.cross (V.flip (tangentVector n)) (V.flip r)) := by
    ext <;> simp [V3.cross, V3.smul] <;> ring
  rw [this, View.cross_flip hV]
  ext <;> simp [V3.smul] <;> ring

/-- The projection on the orthogonal basis of a horizontal unit vector does nothing. -/
theorem basis_level {n : V3 ℝ} (hz : n.z = 0) (hn : V3.norm n = 1) (v : V3 ℝ) :
    (orthogonalBasis n).mulVec ((orthogonalBasis n).transpose.mulVec v) = v := by
  have hsq := (V3.norm_eq_one_iff n).mp hn
  have hs : n.x * n.x + n.y * n.y = 1 := by
    simp only [V3.sqNorm, V3.dot, hz] at hsq; linarith
  have ht : tangentVector n = ⟨n.y, -n.x, 0⟩ := by
    have h1 : V3.cross n V3.unitZ = ⟨n.y, -n.x, 0⟩ := by
      ext <;> simp [V3.cross, V3.unitZ]
    have h2 : V3.norm (⟨n.y, -n.x, 0⟩ : V3 ℝ) = 1 := by
      rw [V3.norm_eq_one_iff]; simp only [V3.sqNorm, V3.dot]; linarith
    unfold tangentVector
    simp only [h1, h2]
    rw [if_neg]
    rw [show (lit 1 10000 : ℝ) = 1 / 10000 from by simp [lit_real]]
    norm_num
  unfold orthogonalBasis
  simp only [ht]
  ext <;> simp only [M3.mulVec, M3.transpose, V3.cross, hz]
  · linear_combination v.x * hs
  · linear_combination v.y * hs
  · linear_combination v.z * (n.x * n.x + n.y * n.y + 1) * hs

theorem basis_zero (v : V3 ℝ) :
    (orthogonalBasis (V3.zero : V3 ℝ)).mulVec ((orthogonalBasis (V3.zero : V3 ℝ)).transpose.mulVec v) = V3.zero := by
  have ht : tangentVector (V3.zero : V3 ℝ) = V3.zero := by
    unfold tangentVector
    simp only []
    split <;> ext <;> simp [V3.cross, V3.zero]
  unfold orthogonalBasis
  simp only [ht]
  ext <;> simp [M3.mulVec, M3.transpose, V3.cross, V3.zero]

/-- The same obstacle as stored by the first loop. -/
structure SameItem (V : View) (x : V3 ℝ) (i i' : Item ℝ) : Prop where
  matrix : ∀ u, i'.matrix.mulVec (V.vector u) = V.vector (i.matrix.mulVec u)
  dist : i'.dist = i.dist
  velocity : ∀ w, obstacleVelocity (V.point x) i'.base i'.dist w i'.basis =
    V.vector (obstacleVelocity x i.base i.dist w i.basis)

theorem normal_unit_or_zero (e : Ellipsoid ℝ) (x : V3 ℝ) (m : ℝ) :
    V3.norm (e.normalToAgent x m) = 1 ∨ e.normalToAgent x m = V3.zero := by
  unfold Ellipsoid.normalToAgent
  simp only []
  generalize (⟨_, _, _⟩ : V3 ℝ) = n
  by_cases hn : n = V3.zero
  · right; rw [hn, V3.normalized_zero]
  · left; exact V3.norm_normalized hn

theorem obstacleVelocity_view {V : View} (hV : V.Valid) {e e' : Ellipsoid ℝ} (s : SameEllipsoid V e e') (x : V3 ℝ)
    (m d w : ℝ)
    (hr : (e.base.state.linearVelocity = V3.zero ∧ e.base.state.angularVelocity = V3.zero) ∨
      (e.normalToAgent x m).z = 0) :
    obstacleVelocity (V.point x) e'.base d w (orthogonalBasis (V.flip (e.normalToAgent x m))) =
      V.vector (obstacleVelocity x e.base d w (orthogonalBasis (e.normalToAgent x m))) := by
  have hvel : e'.base.state.linearVelocity + V3.cross e'.base.state.angularVelocity (V.point x - e'.base.position) =
      V.vector (e.base.state.linearVelocity + V3.cross e.base.state.angularVelocity (x - e.base.position)) := by
    rw [s.position, View.point_sub, s.linear, s.angular, View.vector_add]
    congr 1
    have : ∀ a b : V3 ℝ, V3.cross (V3.smul V.side a) b = V3.smul V.side (V3.cross a b) := by
      intro a b; ext <;> simp [V3.cross, V3.smul] <;> ring
    rw [this, View.cross_vector hV]
    ext <;> simp only [V3.smul]
    · linear_combination (V.vector (V3.cross e.base.state.angularVelocity (x - e.base.position))).x * hV.2
    · linear_combination (V.vector (V3.cross e.base.state.angularVelocity (x - e.base.position))).y * hV.2
    · linear_combination (V.vector (V3.cross e.base.state.angularVelocity (x - e.base.position))).z * hV.2
  have hw : ∀ u : V3 ℝ, (⟨(V.vector u).x * w, (V.vector u).y * w, (V.vector u).z * w⟩ : V3 ℝ) =
      V.vector ⟨u.x * w, u.y * w, u.z * w⟩ := by
    intro u; ext <;> simp [View.vector] <;> ring
  unfold obstacleVelocity
  simp only [hvel, ← View.vector_smul]
  rcases hr with ⟨h1, h2⟩ | hz
  · have h0 : e.base.state.linearVelocity + V3.cross e.base.state.angularVelocity (x - e.base.position) = V3.zero := by
      rw [h1, h2]; ext <;> simp [V3.cross, V3.zero]
    have hm : ∀ (b : M3 ℝ) (k : ℝ), b.mulVec (b.transpose.mulVec (V3.smul k V3.zero)) = V3.zero := by
      intro b k; ext <;> simp [M3.mulVec, M3.transpose, V3.smul, V3.zero]
    simp only [h0, View.vector_smul, View.vector_zero, hm]
    ext <;> simp [View.vector, V3.zero]
  · rcases normal_unit_or_zero e x m with hn | hn
    · have hz' : (V.flip (e.normalToAgent x m)).z = 0 := hz
      rw [basis_level hz hn, basis_level hz' (by rw [View.norm_flip hV, hn])]
      exact hw _
    · rw [hn, View.flip_zero]
      simp only [basis_zero]
      ext <;> simp [View.vector, V3.zero]

theorem referenceDirection_view {V : View} (hV : V.Valid) {e e' : Ellipsoid ℝ} (s : SameEllipsoid V e e')
    (x r : V3 ℝ) : referenceDirection e'.base.pose (V.point x) (V.point r) =
      V.flip (referenceDirection e.base.pose x r) := by
  unfold referenceDirection
  rw [s.inv, s.inv, ← View.flip_sub, View.normalized_flip hV]

theorem product_view {V : View} (hV : V.Valid) {e e' : Ellipsoid ℝ} (s : SameEllipsoid V e e') (n r d u : V3 ℝ) :
    (modulationProduct e'.base.orientation (referenceBasis (V.flip n) (V.flip r)) d).mulVec (V.vector u) =
      V.vector ((modulationProduct e.base.orientation (referenceBasis n r) d).mulVec u) := by
  obtain ⟨k1, k2, h1, h2, hb⟩ := referenceBasis_flip hV n r
  have u1 : e.base.orientation.IsUnit := s.isUnit
  have u2 : e'.base.orientation.IsUnit := s.isUnit'
  rw [modulationProduct_mulVec u1, modulationProduct_mulVec u2, hb]
  have hc : e'.base.orientation.conjugate.rotate (V.vector u) = V.flip (e.base.orientation.conjugate.rotate u) :=
    s.conj u
  rw [hc]
  have hf := frameAct_signs hV (referenceBasis n r) h1 h2 d (e.base.orientation.conjugate.rotate u)
  unfold frameAct at hf
  rw [hf]
  exact s.rotate _

/-! ## the arithmetic core -/

/-- left and right exchanged in the angle space -/
def V2.flip (V : View) (a : V2 ℝ) : V2 ℝ := ⟨V.side * a.x, a.y⟩

theorem V2.sqNorm_flip {V : View} (hV : V.Valid) (a : V2 ℝ) : (V2.flip V a).sqNorm = a.sqNorm := by
  simp only [V2.sqNorm, V2.flip]; linear_combination a.x * a.x * hV.2

theorem V2.normalized_flip {V : View} (hV : V.Valid) (a : V2 ℝ) :
    (V2.flip V a).normalized = V2.flip V a.normalized := by
  unfold V2.normalized
  simp only [V2.sqNorm_flip hV]
  split
  · simp only [V2.flip, mul_div_assoc]
  · rfl

theorem V2.scale_flip (V : View) (a : V2 ℝ) (k : ℝ) : (V2.flip V a).scale k = V2.flip V (a.scale k) := by
  simp only [V2.flip, V2.scale, mul_assoc]

theorem dsFrame_view {V : View} (hV : V.Valid) (v : V3 ℝ) :
    dsFrame (V.vector v) = ⟨V.vector (dsFrame v).c0, V3.smul V.side (V.vector (dsFrame v).c1), V.vector (dsFrame v).c2⟩ := by
  have h1 : V3.cross (V.vector v) V3.unitZ = V3.smul V.side (V.vector (V3.cross v V3.unitZ)) := by
    conv_lhs => rw [← View.vector_unitZ V]
    rw [View.cross_vector hV]
  unfold dsFrame
  simp only [ite_self, h1]
  congr 1
  have : V3.cross (V3.smul V.side (V.vector (V3.cross v V3.unitZ))) (V.vector v) =
      V3.smul V.side (V3.cross (V.vector (V3.cross v V3.unitZ)) (V.vector v)) := by
    ext <;> simp [V3.cross, V3.smul] <;> ring
  rw [this, View.cross_vector hV]
  ext <;> simp only [V3.smul]
  · linear_combination (V.vector (V3.cross (V3.cross v V3.unitZ) v)).x * hV.2
  · linear_combination (V.vector (V3.cross (V3.cross v V3.unitZ) v)).y * hV.2
  · linear_combination (V.vector (V3.cross (V3.cross v V3.unitZ) v)).z * hV.2

theorem angleTerm_view {V : View} (hV : V.Valid) (v nrv rv : V3 ℝ) {m m' : M3 ℝ} (w : ℝ)
    (hm : ∀ u, m'.mulVec (V.vector u) = V.vector (m.mulVec u)) :
    angleTerm (dsFrame (V.vector v)).transpose (V.vector nrv) (V.vector rv) m' w =
      ((angleTerm (dsFrame v).transpose nrv rv m w).1, V2.flip V (angleTerm (dsFrame v).transpose nrv rv m w).2) := by
  unfold angleTerm
  simp only [hm, View.norm_vector hV, View.normalized_vector hV, View.dot_vector hV, ← V2.scale_flip, ← V2.normalized_flip hV]
  have ht : ∀ u : V3 ℝ, ((dsFrame (V.vector v)).transpose.mulVec (V.vector u)).y =
        V.side * ((dsFrame v).transpose.mulVec u).y ∧
      ((dsFrame (V.vector v)).transpose.mulVec (V.vector u)).z = ((dsFrame v).transpose.mulVec u).z := by
    intro u
    have d1 := View.dot_vector hV (dsFrame v).c1 u
    have d2 := View.dot_vector hV (dsFrame v).c2 u
    rw [dsFrame_view hV]
    simp only [V3.dot] at d1 d2
    simp only [M3.transpose, M3.mulVec, V3.smul]
    constructor
    · linear_combination V.side * d1
    · linear_combination d2
  simp only [(ht _).1, (ht _).2]
  rfl

theorem reconstruct_view {V : View} (hV : V.Valid) (a : V2 ℝ) :
    reconstruct (V2.flip V a) = V.flip (reconstruct a) := by
  have hn : (V2.flip V a).norm = a.norm := by simp only [V2.norm, V2.sqNorm_flip hV]
  unfold reconstruct
  simp only [hn]
  split
  · rfl
  · ext <;> simp [View.flip, V2.flip] <;> ring

theorem combine_view {V : View} (hV : V.Valid) (x v : V3 ℝ) {its its' : List (Item ℝ)} (critical power : ℝ)
    (h : List.Forall₂ (SameItem V x) its its') :
    combine (V.point x) (V.vector v) its' critical power = V.vector (combine x v its critical power) := by
  have hd : its'.map (·.dist) = its.map (·.dist) := by
    induction h with
    | nil => rfl
    | cons h1 _ ih => simp only [List.map_cons, h1.dist, ih]
  have hov : ∀ (ws : List ℝ) (acc : V3 ℝ),
      (its'.zip ws).foldl (fun acc y => acc + obstacleVelocity (V.point x) y.1.base y.1.dist y.2 y.1.basis) (V.vector acc) =
      V.vector ((its.zip ws).foldl (fun acc y => acc + obstacleVelocity x y.1.base y.1.dist y.2 y.1.basis) acc) := by
    clear hd
    induction h with
    | nil => intro ws acc; rfl
    | cons h1 _ ih =>
      intro ws acc
      cases ws with
      | nil => rfl
      | cons w ws =>
        simp only [List.zip_cons_cons, List.foldl_cons]
        rw [h1.velocity, ← View.vector_add]
        exact ih ws _
  unfold combine
  simp only [hd]
  generalize weightObstacles (its.map (·.dist)) critical power = ws
  have hrel : relativeVelocities (V.point x) (V.vector v) its' ws =
      (V.vector (relativeVelocities x v its ws).1, V.vector (relativeVelocities x v its ws).2) := by
    unfold relativeVelocities
    have := hov ws V3.zero
    rw [View.vector_zero] at this
    simp only [this, View.vector_sub]
  simp only [hrel]
  generalize relativeVelocities x v its ws = rvs
  simp only [View.normalized_vector hV]
  have hacc : ∀ (ws : List ℝ) (acc : ℝ × V2 ℝ),
      (its'.zip ws).foldl (fun (acc : ℝ × V2 ℝ) y =>
        let t := angleTerm (dsFrame (V.vector rvs.1.normalized)).transpose (V.vector rvs.1.normalized) (V.vector rvs.1) y.1.matrix y.2
        (acc.1 + t.1, acc.2.add t.2)) (acc.1, V2.flip V acc.2) =
      (((its.zip ws).foldl (fun (acc : ℝ × V2 ℝ) y =>
        let t := angleTerm (dsFrame rvs.1.normalized).transpose rvs.1.normalized rvs.1 y.1.matrix y.2
        (acc.1 + t.1, acc.2.add t.2)) acc).1,
       V2.flip V ((its.zip ws).foldl (fun (acc : ℝ × V2 ℝ) y =>
        let t := angleTerm (dsFrame rvs.1.normalized).transpose rvs.1.normalized rvs.1 y.1.matrix y.2
        (acc.1 + t.1, acc.2.add t.2)) acc).2) := by
    clear hd hov hrel
    induction h with
    | nil => intro ws acc; rfl
    | cons h1 _ ih =>
      intro ws acc
      cases ws with
      | nil => rfl
      | cons w ws =>
        simp only [List.zip_cons_cons, List.foldl_cons]
        rw [angleTerm_view hV _ _ _ _ h1.matrix]
        have hadd : ∀ a b : V2 ℝ, (V2.flip V a).add (V2.flip V b) = V2.flip V (a.add b) := by
          intro a b; simp only [V2.flip, V2.add, mul_add]
        simp only [hadd]
        exact ih ws (_, _)
  have h0 : (V2.zero : V2 ℝ) = V2.flip V V2.zero := by simp [V2.flip, V2.zero]
  have h1 := hacc ws (0, V2.zero)
  simp only [← h0] at h1
  simp only [h1, reconstruct_view hV]
  generalize (its.zip ws).foldl _ _ = acc
  have hm : ∀ u : V3 ℝ, (dsFrame (V.vector rvs.1.normalized)).mulVec (V.flip u) =
      V.vector ((dsFrame rvs.1.normalized).mulVec u) := by
    intro u
    rw [dsFrame_view hV]
    have h2 := hV.2
    ext <;> simp only [M3.mulVec, View.flip, V3.smul, View.vector]
    · linear_combination (u.y * (V.c * (dsFrame rvs.1.normalized).c1.x - V.s * (V.side * (dsFrame rvs.1.normalized).c1.y))) * h2
    · linear_combination (u.y * (V.s * (dsFrame rvs.1.normalized).c1.x + V.c * (V.side * (dsFrame rvs.1.normalized).c1.y))) * h2
    · linear_combination (u.y * (dsFrame rvs.1.normalized).c1.z) * h2
  rw [hm, View.vector_add]
  congr 1
  ext <;> simp only [View.vector] <;> ring

/-! ## the loops over the obstacles -/

theorem item_view {V : View} (hV : V.Valid) {e e' : Ellipsoid ℝ} (s : SameEllipsoid V e e') {h h' : Heap ℝ}
    {a a' : Agent ℝ} (ha : SameView V a a')
    (hr : (e.base.state.linearVelocity = V3.zero ∧ e.base.state.angularVelocity = V3.zero) ∨
      (e.normalToAgent a.state.position a.margin).z = 0) :
    Agree (fun m m' => SameItem V a.state.position
        { base := e.base, matrix := m.1, basis := m.2.1, dist := m.2.2 }
        { base := e'.base, matrix := m'.1, basis := m'.2.1, dist := m'.2.2 })
      (modulationMatrix h a (.ellipsoid e)) (modulationMatrix h' a' (.ellipsoid e')) := by
  unfold modulationMatrix Heap.distanceToAgent Heap.normalToAgent Heap.distanceToPoint basisMatrices
  simp only [Res.ok_bind, Obj.base, ha.position, ha.margin, s.normal hV, s.distance hV, Base.ref, s.ref]
  cases hx : e.base.refPos with
  | none => exact rfl
  | some r =>
    simp only [Option.map_some, Res.ok_bind]
    refine ⟨fun u => ?_, rfl, fun w => ?_⟩
    · simp only [referenceDirection_view hV s]
      exact product_view hV s _ _ _ _
    · exact obstacleVelocity_view hV s _ _ _ _ hr

/-- `compute_interesection_points` -/
theorem intersection_view {V : View} (hV : V.Valid) {e e' : Ellipsoid ℝ} (s : SameEllipsoid V e e') (x y : V3 ℝ) :
    (e'.intersectionPoints (V.point x) (V.point y)).1 = (e.intersectionPoints x y).1 ∧
    ((e.intersectionPoints x y).1 = true →
      (e'.intersectionPoints (V.point x) (V.point y)).2.1 = V.point (e.intersectionPoints x y).2.1 ∧
      (e'.intersectionPoints (V.point x) (V.point y)).2.2 = V.point (e.intersectionPoints x y).2.2) := by
  have h2 := hV.2
  unfold Ellipsoid.intersectionPoints
  simp only [s.inv, s.axis, s.margin]
  generalize e.base.pose.inverse.apply x = u
  generalize e.base.pose.inverse.apply y = v
  have ha : ((V.flip v).y - (V.flip u).y) / ((V.flip v).x - (V.flip u).x) =
      V.side * ((v.y - u.y) / (v.x - u.x)) := by
    simp only [View.flip]; ring
  simp only [ha]
  generalize (v.y - u.y) / (v.x - u.x) = k
  have hb : (V.flip u).y - V.side * k * (V.flip u).x = V.side * (u.y - k * u.x) := by
    simp only [View.flip]; ring
  simp only [hb]
  generalize u.y - k * u.x = b
  have e1 : V.side * k * (V.side * k) = k * k := by linear_combination k * k * h2
  have e2 : lit 2 1 * (V.side * k) * (V.side * b) = lit 2 1 * k * b := by linear_combination lit 2 1 * k * b * h2
  have e3 : V.side * b * (V.side * b) = b * b := by linear_combination b * b * h2
  simp only [e1, e2, e3]
  have hp : ∀ t : ℝ, e'.base.pose.apply ⟨t, V.side * k * t + V.side * b, 0⟩ = V.point (e.base.pose.apply ⟨t, k * t + b, 0⟩) := by
    intro t
    rw [← s.pose]
    congr 1
    ext <;> simp only [View.flip]
    ring
  split
  · exact ⟨rfl, fun _ => ⟨hp _, hp _⟩⟩
  · exact ⟨rfl, fun h => by cases h⟩

theorem shifted_view {V : View} (hV : V.Valid) {e e' : Ellipsoid ℝ} (s : SameEllipsoid V e e') {a a' : Agent ℝ}
    (ha : SameView V a a') :
    ∃ k k', shifted a.state.position a.state.linearVelocity (.ellipsoid e) = .ellipsoid k ∧
      shifted a'.state.position a'.state.linearVelocity (.ellipsoid e') = .ellipsoid k' ∧ SameEllipsoid V k k' ∧
      k.base.state = e.base.state ∧ ∀ x m, k.normalToAgent x m = e.normalToAgent x m := by
  obtain ⟨h1, h2⟩ := intersection_view hV s a.state.position (a.state.position + a.state.linearVelocity)
  rw [View.point_add] at h1 h2
  simp only [shifted, ha.position, ha.velocity, h1]
  by_cases hc : (e.intersectionPoints a.state.position (a.state.position + a.state.linearVelocity)).1 = true
  · obtain ⟨h3, h4⟩ := h2 hc
    rw [if_pos hc, if_pos hc, h3, h4]
    refine ⟨_, _, rfl, rfl, ⟨s.unit, s.unit', s.pose, s.axis, s.curv, s.margin, ?_, s.linear, s.angular, s.whole⟩, rfl,
      fun _ _ => rfl⟩
    simp only [Base.setRef, Option.map_some]
    congr 1
    ext <;> simp [View.point, View.vector, V3.sdiv, lit_two] <;> ring
  · rw [if_neg hc, if_neg hc]
    exact ⟨e, e', rfl, rfl, s, rfl, fun _ _ => rfl⟩

theorem set_view {V : View} {h h' : Heap ℝ} {L : List Ptr} (hs : SameObstacles V h h' L) {p : Ptr} (hp : p ∈ L)
    {k k' : Ellipsoid ℝ} (s : SameEllipsoid V k k') :
    SameObstacles V (h.set p (.ellipsoid k)) (h'.set p (.ellipsoid k')) L := by
  intro r hr
  by_cases hpr : p = r
  · subst hpr
    obtain ⟨e, e', h1, h2, -⟩ := hs p hp
    refine ⟨k, k', ?_, ?_, s⟩
    · rw [List.getElem?_set, if_pos rfl, if_pos (List.getElem?_eq_some_iff.mp h1).1]
    · rw [List.getElem?_set, if_pos rfl, if_pos (List.getElem?_eq_some_iff.mp h2).1]
  · obtain ⟨e, e', h1, h2, h3⟩ := hs r hr
    exact ⟨e, e', by rw [List.getElem?_set, if_neg hpr, h1], by rw [List.getElem?_set, if_neg hpr, h2], h3⟩

theorem collect_view {V : View} (hV : V.Valid) {a a' : Agent ℝ} (ha : SameView V a a') (planar : Bool) {L : List Ptr} :
    ∀ (l : List Ptr) (h h' : Heap ℝ), l ⊆ L → SameObstacles V h h' L → RestOrLevel h a L →
    Agree (fun r r' => SameObstacles V r.1 r'.1 L ∧ List.Forall₂ (SameItem V a.state.position) r.2 r'.2)
      (collect planar a h l) (collect planar a' h' l)
  | [], _, _, _, hs, _ => ⟨hs, .nil⟩
  | p :: l, h, h', hl, hs, hr => by
    have hp : p ∈ L := hl List.mem_cons_self
    obtain ⟨e, e', h1, h2, s⟩ := hs p hp
    have step : ∀ (k k' : Heap ℝ), SameObstacles V k k' L → RestOrLevel k a L →
        Agree (fun r r' => SameObstacles V r.1 r'.1 L ∧ List.Forall₂ (SameItem V a.state.position) r.2 r'.2)
          (do let o ← k.deref p
              let m ← modulationMatrix k a o
              let r ← collect planar a k l
              .ok (r.1, { base := o.base, matrix := m.1, basis := m.2.1, dist := m.2.2 } :: r.2))
          (do let o ← k'.deref p
              let m ← modulationMatrix k' a' o
              let r ← collect planar a' k' l
              .ok (r.1, { base := o.base, matrix := m.1, basis := m.2.1, dist := m.2.2 } :: r.2)) := by
      intro k k' hk hkr
      obtain ⟨f, f', g1, g2, sf⟩ := hk p hp
      rw [Heap.deref_ok' g1, Heap.deref_ok' g2, Res.ok_bind, Res.ok_bind]
      refine Agree.bind (item_view hV sf ha (hkr p hp f g1)) fun m m' _ _ hm => ?_
      refine Agree.bind (collect_view hV ha planar l k k' (fun x hx => hl (List.mem_cons_of_mem _ hx)) hk hkr)
        fun r r' _ _ ⟨q1, q2⟩ => ?_
      exact ⟨q1, .cons hm q2⟩
    unfold collect
    cases planar with
    | false =>
      simp only [Bool.false_eq_true, if_false, Res.ok_bind]
      exact step h h' hs hr
    | true =>
      simp only [if_true, shiftReferencePoint_eq, Heap.deref_ok' h1, Heap.deref_ok' h2, Res.ok_bind]
      obtain ⟨k, k', e1, e2, sk, e3, e4⟩ := shifted_view hV s ha
      rw [e1, e2]
      refine step _ _ (set_view hs hp sk) ?_
      intro r hrL f hf
      rw [List.getElem?_set] at hf
      by_cases hpr : p = r
      · subst hpr
        rw [if_pos rfl, if_pos (List.getElem?_eq_some_iff.mp h1).1] at hf
        obtain rfl : k = f := by injection hf with hf; injection hf
        rw [e3, e4]
        exact hr p hp e h1
      · rw [if_neg hpr] at hf
        exact hr r hrL f hf

theorem repulsion_view {V : View} (hV : V.Valid) {a a' : Agent ℝ} (ha : SameView V a a') {h h' : Heap ℝ}
    {L : List Ptr} (hs : SameObstacles V h h' L) :
    ∀ (l : List Ptr), l ⊆ L → ∀ acc : V3 ℝ,
    Agree (fun v v' => v' = V.vector v)
      (l.foldlM (fun acc p => do
        let o ← h.deref p
        let v ← h.generateRepulsion o a.state.position a.margin (lit 11 10)
        .ok (acc + v)) acc)
      (l.foldlM (fun acc p => do
        let o ← h'.deref p
        let v ← h'.generateRepulsion o a'.state.position a'.margin (lit 11 10)
        .ok (acc + v)) (V.vector acc)) := by
  intro l
  induction l with
  | nil => intro _ acc; exact rfl
  | cons p l ih =>
    intro hl acc
    obtain ⟨e, e', h1, h2, s⟩ := hs p (hl List.mem_cons_self)
    simp only [List.foldlM_cons, Heap.deref_ok' h1, Heap.deref_ok' h2, Res.ok_bind]
    have key : Agree (fun v v' => v' = V.vector v)
        (h.generateRepulsion (.ellipsoid e) a.state.position a.margin (lit 11 10))
        (h'.generateRepulsion (.ellipsoid e') a'.state.position a'.margin (lit 11 10)) := by
      unfold Heap.generateRepulsion Heap.distanceToAgent Heap.distanceToPoint Heap.repulsionVector
        Ellipsoid.repulsionVector Ellipsoid.repulsionFactor
      simp only [Res.ok_bind, ha.position, ha.margin, s.distance hV]
      split
      · simp only [Base.ref, s.ref]
        cases e.base.refPos with
        | none => exact rfl
        | some r =>
          simp only [Option.map_some, Res.ok_bind]
          show _ = _
          rw [View.point_sub, View.vector_smul]
      · exact (View.vector_zero V).symm
    rw [bind_assoc, bind_assoc]
    refine Agree.bind key fun v v' _ _ hv => ?_
    rw [Res.ok_bind, Res.ok_bind, hv, ← View.vector_add]
    exact ih (fun x hx => hl (List.mem_cons_of_mem _ hx)) _

/-! ## the local sight -/

theorem upright_view {V : View} {e e' : Ellipsoid ℝ} (s : SameEllipsoid V e e') (h : ZRotated e) : ZRotated e' := by
  have hz : e.base.pose.orientation.rotate V3.unitZ = V3.unitZ := by
    have h0 := zrot_apply h V3.unitZ
    have h1 : e.base.pose.apply V3.unitZ = e.base.pose.orientation.rotate V3.unitZ + e.base.position := rfl
    rw [h1] at h0
    have : ∀ a b c : V3 ℝ, a + b = c → a = c - b := by
      intro a b c h; rw [← h]; v3_ring
    rw [this _ _ _ h0]
    ext <;> simp [V3.unitZ]
  have h1 := s.rotate V3.unitZ
  rw [hz, View.flip_unitZ, View.vector_unitZ] at h1
  have h2 : (e'.base.pose.orientation.rotate V3.unitZ).z = 1 := by rw [h1]; rfl
  have h3 : e'.base.orientation = e'.base.pose.orientation := rfl
  have h4 : e'.base.pose.orientation.x * e'.base.pose.orientation.x +
      e'.base.pose.orientation.y * e'.base.pose.orientation.y = 0 := by
    simp only [Quat.rotate, Quat.vec, V3.cross, V3.unitZ, V3.smul, lit_two] at h2
    simp at h2
    linarith
  refine ⟨s.unit', ?_, ?_⟩
  · rw [h3]; nlinarith [mul_self_nonneg e'.base.pose.orientation.x, mul_self_nonneg e'.base.pose.orientation.y]
  · rw [h3]; nlinarith [mul_self_nonneg e'.base.pose.orientation.x, mul_self_nonneg e'.base.pose.orientation.y]

theorem inside_xy {e : Ellipsoid ℝ} (h : ZRotated e) {p q : V3 ℝ} (hx : p.x = q.x) (hy : p.y = q.y) :
    e.pointIsInside p = e.pointIsInside q := by
  rw [Bool.eq_iff_iff, inside_iff_inEllipse h, inside_iff_inEllipse h, hx, hy]

theorem sampled {e o : Ellipsoid ℝ} (he : ZRotated e) (ho : ZRotated o) :
    ∃ s, o.samples 100 true = .ok s ∧
      (s.any e.pointIsInside = true ↔ ∃ i : ℕ, i < 100 ∧ e.pointIsInside (o.base.pose.apply
        ⟨(halfLengths o V3.zero).x * Real.cos (2 * Real.pi * i / 99),
          (halfLengths o V3.zero).y * Real.sin (2 * Real.pi * i / 99), 0⟩) = true) := by
  obtain ⟨s, h1, h2, h3⟩ := Props.C28_samples o ho 100 (by norm_num) true
  refine ⟨s, h1, ?_⟩
  have h100 : ((100 : ℕ) : ℝ) - 1 = 99 := by norm_num
  simp only [if_true, h100] at h3
  rw [List.any_eq_true]
  constructor
  · rintro ⟨p, hp, hin⟩
    obtain ⟨i, hi, rfl⟩ := List.getElem_of_mem hp
    rw [h2] at hi
    obtain ⟨q, q1, -, q3, q4⟩ := h3 i hi
    refine ⟨i, hi, ?_⟩
    rw [← inside_xy he q3 q4]
    rw [List.getElem?_eq_getElem (by omega)] at q1
    injection q1 with q1
    rw [← q1]; exact hin
  · rintro ⟨i, hi, hin⟩
    obtain ⟨q, q1, -, q3, q4⟩ := h3 i hi
    exact ⟨q, List.mem_of_getElem? q1, by rw [inside_xy he q3 q4]; exact hin⟩

theorem intersecting_view {V : View} (hV : V.Valid) {e e' o o' : Ellipsoid ℝ} (se : SameEllipsoid V e e')
    (so : SameEllipsoid V o o') (he : ZRotated e) (ho : ZRotated o) :
    e'.isIntersectingEllipsoid o' = e.isIntersectingEllipsoid o := by
  unfold Ellipsoid.isIntersectingEllipsoid
  rw [so.position, se.position, se.inside hV, so.inside hV]
  split
  · rfl
  split
  · rfl
  obtain ⟨s, h1, h2⟩ := sampled he ho
  obtain ⟨s', h1', h2'⟩ := sampled (upright_view se he) (upright_view so ho)
  rw [h1, h1', Res.ok_bind, Res.ok_bind]
  congr 1
  rw [Bool.eq_iff_iff, h2, h2']
  have hl : halfLengths o' V3.zero = halfLengths o V3.zero := by
    unfold halfLengths; rw [so.axis, so.margin]
  rw [hl]
  have hpt : ∀ c t : ℝ, e'.pointIsInside (o'.base.pose.apply ⟨c, V.side * t, 0⟩) = e.pointIsInside (o.base.pose.apply ⟨c, t, 0⟩) := by
    intro c t
    have := so.pose ⟨c, t, 0⟩
    simp only [View.flip] at this
    rw [this, se.inside hV]
  rcases hV.side_cases with hs | hs
  · refine exists_congr fun i => and_congr_right fun _ => ?_
    rw [← hpt, hs, one_mul]
  · have hback : ∀ i < 100, Real.cos (2 * Real.pi * ((99 - i : ℕ) : ℝ) / 99) = Real.cos (2 * Real.pi * i / 99) ∧
        Real.sin (2 * Real.pi * ((99 - i : ℕ) : ℝ) / 99) = -Real.sin (2 * Real.pi * i / 99) := by
      intro i hi
      have : 2 * Real.pi * ((99 - i : ℕ) : ℝ) / 99 = 2 * Real.pi - 2 * Real.pi * i / 99 := by
        rw [Nat.cast_sub (by omega)]; push_cast; ring
      rw [this]
      exact ⟨Real.cos_two_pi_sub _, Real.sin_two_pi_sub _⟩
    constructor
    · rintro ⟨i, hi, hin⟩
      refine ⟨99 - i, by omega, ?_⟩
      rw [← hpt, (hback i hi).1, (hback i hi).2, hs]
      have : -1 * ((halfLengths o V3.zero).y * -Real.sin (2 * Real.pi * i / 99)) =
        (halfLengths o V3.zero).y * Real.sin (2 * Real.pi * i / 99) := by ring
      rw [this]; exact hin
    · rintro ⟨i, hi, hin⟩
      refine ⟨99 - i, by omega, ?_⟩
      rw [(hback i hi).1, (hback i hi).2]
      rw [← hpt, hs] at hin
      have : (halfLengths o V3.zero).y * -Real.sin (2 * Real.pi * i / 99) =
        -1 * ((halfLengths o V3.zero).y * Real.sin (2 * Real.pi * i / 99)) := by ring
      rw [this]; exact hin

theorem sight_view {V : View} (hV : V.Valid) {h h' : Heap ℝ} {a a' : Agent ℝ} {l : List Ptr}
    (hs : SameObstacles V h h' l) (loc : Bool) (hl : loc = true → SameSight V h h' a a' l) :
    sightOf h' a' loc l = sightOf h a loc l := by
  cases loc with
  | false => rfl
  | true =>
    obtain ⟨⟨q, q', e, e', h1, h2, h3, h4, s, hz⟩, hup⟩ := hl rfl
    simp only [sightOf, Agent.getEnvelope, h1, h2, Heap.deref_ok' h3, Heap.deref_ok' h4, Res.ok_bind]
    unfold Heap.isIntersectingList
    generalize false = acc
    induction l generalizing acc with
    | nil => rfl
    | cons p l ih =>
      obtain ⟨o, o', g1, g2, so⟩ := hs p List.mem_cons_self
      have ih' := ih (fun r hr => hs r (List.mem_cons_of_mem _ hr))
        (fun _ => ⟨⟨q, q', e, e', h1, h2, h3, h4, s, hz⟩, fun r hr => hup r (List.mem_cons_of_mem _ hr)⟩)
        (fun r hr => hup r (List.mem_cons_of_mem _ hr))
      simp only [List.foldlM_cons, Heap.deref_ok' g1, Heap.deref_ok' g2, Res.ok_bind]
      have : h'.isIntersecting (.ellipsoid e') (.ellipsoid o') = h.isIntersecting (.ellipsoid e) (.ellipsoid o) := by
        simp only [Heap.isIntersecting, Heap.fuel, Heap.isIntersectingAux, Heap.isIntersectingEllipsoid]
        exact intersecting_view hV s so hz (hup p List.mem_cons_self o g1)
      rw [this]
      congr 1
      funext b
      exact ih' b

end DOA
