import Verif.Spec.Units
import Verif.Lemmas.View

/-!
# Helper lemmas for the change of units
-/

namespace DOA
open DOA.Spec DOA.Modulation DOA.Ellipsoid
set_option linter.unnecessarySeqFocus false
set_option linter.unusedSectionVars false
set_option linter.unusedSimpArgs false

theorem V3.smul_add' (k : ℝ) (u v : V3 ℝ) : V3.smul k (u + v) = V3.smul k u + V3.smul k v := by
  ext <;> simp [V3.smul] <;> ring
theorem V3.smul_sub' (k : ℝ) (u v : V3 ℝ) : V3.smul k (u - v) = V3.smul k u - V3.smul k v := by
  ext <;> simp [V3.smul] <;> ring
theorem V3.smul_zero' (k : ℝ) : V3.smul k (V3.zero : V3 ℝ) = V3.zero := by
  ext <;> simp [V3.smul, V3.zero]
theorem V3.smul_smul' (k m : ℝ) (v : V3 ℝ) : V3.smul k (V3.smul m v) = V3.smul (k * m) v := by
  ext <;> simp [V3.smul] <;> ring

theorem V3.norm_smul_pos {k : ℝ} (hk : 0 < k) (v : V3 ℝ) : V3.norm (V3.smul k v) = k * V3.norm v := by
  rw [V3.norm_smul, abs_of_pos hk]

theorem V3.normalized_smul_pos {k : ℝ} (hk : 0 < k) (v : V3 ℝ) :
    V3.normalized (V3.smul k v) = V3.normalized v := by
  by_cases hv : v = V3.zero
  · rw [hv, V3.smul_zero']
  · have hn : V3.norm v ≠ 0 := fun h => hv (V3.norm_eq_zero.mp h)
    have hkv : V3.smul k v ≠ V3.zero := by
      intro h
      have := congrArg V3.norm h
      rw [V3.norm_smul_pos hk, V3.norm_eq_zero.mpr rfl] at this
      exact hn ((mul_eq_zero.mp this).resolve_left hk.ne')
    rw [V3.normalized_of_ne hkv, V3.normalized_of_ne hv, V3.norm_smul_pos hk, V3.smul_smul']
    congr 1
    field_simp

namespace Spec.ScaledEllipsoid
variable {U : Units} {r : ℝ} {e e' : Ellipsoid ℝ}

theorem inv (s : ScaledEllipsoid U r e e') (x : V3 ℝ) :
    e'.base.pose.inverse.apply (V3.smul U.k x) = V3.smul U.k (e.base.pose.inverse.apply x) := by
  have h1 : e'.base.pose.position = V3.smul U.k e.base.pose.position := s.position
  have h2 : e'.base.pose.orientation = e.base.pose.orientation := s.orientation
  simp only [Pose.inverse, Pose.apply, h1, h2, V3.smul_add', Quat.rotate_smul, ← V3.smul_sub']
  congr 1
  rw [← Quat.rotate_smul]
  congr 1
  ext <;> simp [V3.smul]

theorem apply (s : ScaledEllipsoid U r e e') (x : V3 ℝ) :
    e'.base.pose.apply (V3.smul U.k x) = V3.smul U.k (e.base.pose.apply x) := by
  have h1 : e'.base.pose.position = V3.smul U.k e.base.pose.position := s.position
  have h2 : e'.base.pose.orientation = e.base.pose.orientation := s.orientation
  simp only [Pose.apply, h1, h2, V3.smul_add', Quat.rotate_smul]

theorem half (s : ScaledEllipsoid U r e e') (q : ℝ) :
    e'.axis + e'.base.margin + V3.const (U.k * q) = V3.smul U.k (e.axis + e.base.margin + V3.const q) := by
  rw [s.axis, s.margin]
  ext <;> simp [V3.smul, V3.const] <;> ring

theorem half0 (s : ScaledEllipsoid U r e e') :
    e'.axis + e'.base.margin = V3.smul U.k (e.axis + e.base.margin) := by
  rw [s.axis, s.margin, V3.smul_add']

theorem long_iff (s : ScaledEllipsoid U r e e') :
    (epsilon < (e.axis + e.base.margin + V3.const r).x ∧ epsilon < (e.axis + e.base.margin + V3.const r).y ∧
      epsilon < (e.axis + e.base.margin + V3.const r).z) ∧
    (epsilon < U.k * (e.axis + e.base.margin + V3.const r).x ∧ epsilon < U.k * (e.axis + e.base.margin + V3.const r).y ∧
      epsilon < U.k * (e.axis + e.base.margin + V3.const r).z) := by
  have he : (epsilon : ℝ) = 1 / 10000 := by simp [epsilon, lit_real]
  rw [he]
  have h := s.half r
  refine ⟨s.long, ?_⟩
  have hx := congrArg V3.x h
  have hy := congrArg V3.y h
  have hz := congrArg V3.z h
  simp only [V3.smul] at hx hy hz
  rw [← hx, ← hy, ← hz]
  exact s.long'

theorem distance (hU : U.Valid) (s : ScaledEllipsoid U r e e') (x : V3 ℝ) :
    e'.distanceToPoint (V3.smul U.k x) (V3.const (U.k * r)) = e.distanceToPoint x (V3.const r) := by
  have hk := hU.1.ne'
  obtain ⟨⟨a1, a2, a3⟩, b1, b2, b3⟩ := s.long_iff
  unfold Ellipsoid.distanceToPoint
  simp only [s.inv, s.half, s.curv]
  have key : ∀ p l : ℝ, epsilon < l → epsilon < U.k * l → Ellipsoid.scaled (U.k * p) (U.k * l) = Ellipsoid.scaled p l := by
    intro p l h1 h2
    unfold Ellipsoid.scaled
    rw [if_pos h1, if_pos h2, mul_div_mul_left _ _ hk]
  simp only [V3.smul, key _ _ a1 b1, key _ _ a2 b2, key _ _ a3 b3]

theorem normal (hU : U.Valid) (s : ScaledEllipsoid U r e e') (x : V3 ℝ) :
    e'.normalToAgent (V3.smul U.k x) (U.k * r) = e.normalToAgent x r := by
  have hk := hU.1
  obtain ⟨⟨a1, a2, a3⟩, b1, b2, b3⟩ := s.long_iff
  obtain ⟨c, hc, hc1, -, -⟩ := s.exponent
  unfold Ellipsoid.normalToAgent
  simp only [s.inv, s.half, s.curv, hc]
  have e1 : (2 * (c : ℝ) - 1) = ((2 * (c - 1) + 1 : ℕ) : ℝ) := by
    push_cast [Nat.cast_sub hc1]; ring
  have key : ∀ p l : ℝ, epsilon < l → epsilon < U.k * l →
      (Ellipsoid.scaledSq (2 * (c : ℝ) * (U.k * p)) (U.k * l)) ^ (2 * (c - 1) + 1) =
        (1 / U.k) ^ (2 * (c - 1) + 1) * (Ellipsoid.scaledSq (2 * (c : ℝ) * p) l) ^ (2 * (c - 1) + 1) := by
    intro p l h1 h2
    have hl : l ≠ 0 := by
      have he : (epsilon : ℝ) = 1 / 10000 := by simp [epsilon, lit_real]
      rw [he] at h1; intro h; rw [h] at h1; norm_num at h1
    unfold Ellipsoid.scaledSq
    rw [if_pos h1, if_pos h2, ← mul_pow]
    congr 1
    field_simp
  simp only [V3.smul, lit_two, pow_real, e1, Real.rpow_natCast, key _ _ a1 b1, key _ _ a2 b2, key _ _ a3 b3]
  show V3.normalized (V3.smul ((1 / U.k) ^ (2 * (c - 1) + 1)) ⟨_, _, _⟩) = _
  exact V3.normalized_smul_pos (by positivity) _

end Spec.ScaledEllipsoid

/-! ## the arithmetic core -/

/-- The same obstacle as stored by the first loop. -/
structure ScaledItem (U : Units) (x : V3 ℝ) (i i' : Item ℝ) : Prop where
  matrix : i'.matrix = i.matrix
  dist : i'.dist = i.dist
  velocity : ∀ w, obstacleVelocity (V3.smul U.k x) i'.base i'.dist w i'.basis =
    V3.smul U.m (obstacleVelocity x i.base i.dist w i.basis)

theorem obstacleVelocity_scale {U : Units} (hU : U.Valid) {r : ℝ} {e e' : Ellipsoid ℝ} (s : ScaledEllipsoid U r e e')
    (x : V3 ℝ) (d w : ℝ) (b : M3 ℝ) :
    obstacleVelocity (V3.smul U.k x) e'.base d w b = V3.smul U.m (obstacleVelocity x e.base d w b) := by
  have hk := hU.1.ne'
  have hp : e'.base.position = V3.smul U.k e.base.position := s.position
  have hvel : e'.base.state.linearVelocity + V3.cross e'.base.state.angularVelocity (V3.smul U.k x - e'.base.position) =
      V3.smul U.m (e.base.state.linearVelocity + V3.cross e.base.state.angularVelocity (x - e.base.position)) := by
    rw [hp, s.linear, s.angular, V3.smul_add', ← V3.smul_sub']
    congr 1
    ext <;> simp only [V3.cross, V3.smul] <;> field_simp
  unfold obstacleVelocity
  simp only [hvel]
  generalize e.base.state.linearVelocity + _ = v
  have hsw : ∀ k : ℝ, V3.smul k (V3.smul U.m v) = V3.smul U.m (V3.smul k v) := by
    intro k; rw [V3.smul_smul', V3.smul_smul', mul_comm]
  simp only [hsw, M3.mulVec_smul]
  ext <;> simp only [V3.smul] <;> ring

theorem angleTerm_scale {U : Units} (hU : U.Valid) (f : M3 ℝ) (nrv rv : V3 ℝ) (m : M3 ℝ) (w : ℝ) :
    angleTerm f nrv (V3.smul U.m rv) m w = (U.m * (angleTerm f nrv rv m w).1, (angleTerm f nrv rv m w).2) := by
  unfold angleTerm
  simp only [M3.mulVec_smul, V3.norm_smul_pos hU.2, V3.normalized_smul_pos hU.2, mul_assoc]

theorem combine_scale {U : Units} (hU : U.Valid) (x v : V3 ℝ) {its its' : List (Item ℝ)} (critical power : ℝ)
    (h : List.Forall₂ (ScaledItem U x) its its') :
    combine (V3.smul U.k x) (V3.smul U.m v) its' critical power = V3.smul U.m (combine x v its critical power) := by
  have hd : its'.map (·.dist) = its.map (·.dist) := by
    induction h with
    | nil => rfl
    | cons h1 _ ih => simp only [List.map_cons, h1.dist, ih]
  have hov : ∀ (ws : List ℝ) (acc : V3 ℝ),
      (its'.zip ws).foldl (fun acc y => acc + obstacleVelocity (V3.smul U.k x) y.1.base y.1.dist y.2 y.1.basis)
        (V3.smul U.m acc) =
      V3.smul U.m ((its.zip ws).foldl (fun acc y => acc + obstacleVelocity x y.1.base y.1.dist y.2 y.1.basis) acc) := by
    clear hd
    induction h with
    | nil => intro ws acc; rfl
    | cons h1 _ ih =>
      intro ws acc
      cases ws with
      | nil => rfl
      | cons w ws =>
        simp only [List.zip_cons_cons, List.foldl_cons]
        rw [h1.velocity, ← V3.smul_add']
        exact ih ws _
  unfold combine
  simp only [hd]
  generalize weightObstacles (its.map (·.dist)) critical power = ws
  have hrel : relativeVelocities (V3.smul U.k x) (V3.smul U.m v) its' ws =
      (V3.smul U.m (relativeVelocities x v its ws).1, V3.smul U.m (relativeVelocities x v its ws).2) := by
    unfold relativeVelocities
    have := hov ws V3.zero
    rw [V3.smul_zero'] at this
    simp only [this, V3.smul_sub']
  simp only [hrel]
  generalize relativeVelocities x v its ws = rvs
  simp only [V3.normalized_smul_pos hU.2]
  have hacc : ∀ (ws : List ℝ) (acc : ℝ × V2 ℝ),
      (its'.zip ws).foldl (fun (acc : ℝ × V2 ℝ) y =>
        let t := angleTerm (dsFrame rvs.1.normalized).transpose rvs.1.normalized (V3.smul U.m rvs.1) y.1.matrix y.2
        (acc.1 + t.1, acc.2.add t.2)) (U.m * acc.1, acc.2) =
      (U.m * ((its.zip ws).foldl (fun (acc : ℝ × V2 ℝ) y =>
        let t := angleTerm (dsFrame rvs.1.normalized).transpose rvs.1.normalized rvs.1 y.1.matrix y.2
        (acc.1 + t.1, acc.2.add t.2)) acc).1,
       ((its.zip ws).foldl (fun (acc : ℝ × V2 ℝ) y =>
        let t := angleTerm (dsFrame rvs.1.normalized).transpose rvs.1.normalized rvs.1 y.1.matrix y.2
        (acc.1 + t.1, acc.2.add t.2)) acc).2) := by
    clear hd hov hrel
    induction h with
    | nil => intro ws acc; rfl
    | cons h1 _ ih =>
      intro ws acc
      cases ws with
      | nil => rfl
      | cons w ws =>
        simp only [List.zip_cons_cons, List.foldl_cons]
        rw [h1.matrix, angleTerm_scale hU]
        simp only [← mul_add]
        exact ih ws (_, _)
  have h1 := hacc ws (0, V2.zero)
  simp only [mul_zero] at h1
  simp only [h1]
  generalize (its.zip ws).foldl _ _ = acc
  rw [V3.smul_add']
  congr 1
  ext <;> simp only [V3.smul] <;> ring

/-! ## the loops over the obstacles -/

theorem item_scale {U : Units} (hU : U.Valid) {e e' : Ellipsoid ℝ} {h h' : Heap ℝ}
    {a a' : Agent ℝ} (s : ScaledEllipsoid U a.margin e e') (ha : ScaledAgent U a a') :
    Agree (fun m m' => ScaledItem U a.state.position
        { base := e.base, matrix := m.1, basis := m.2.1, dist := m.2.2 }
        { base := e'.base, matrix := m'.1, basis := m'.2.1, dist := m'.2.2 })
      (modulationMatrix h a (.ellipsoid e)) (modulationMatrix h' a' (.ellipsoid e')) := by
  unfold modulationMatrix Heap.distanceToAgent Heap.normalToAgent Heap.distanceToPoint basisMatrices
  simp only [Res.ok_bind, Obj.base, ha.position, ha.margin, s.normal hU, s.distance hU, Base.ref, s.ref]
  have ho : e'.base.orientation = e.base.orientation := s.orientation
  cases hx : e.base.refPos with
  | none => exact rfl
  | some r =>
    simp only [Option.map_some, Res.ok_bind]
    refine ⟨?_, rfl, fun w => ?_⟩
    · simp only [referenceDirection, s.inv, ← V3.smul_sub', V3.normalized_smul_pos hU.1, ho]
    · exact obstacleVelocity_scale hU s _ _ _ _

/-- `compute_interesection_points` -/
theorem intersection_scale {U : Units} (hU : U.Valid) {r : ℝ} {e e' : Ellipsoid ℝ} (s : ScaledEllipsoid U r e e')
    (x v : V3 ℝ) :
    (e'.intersectionPoints (V3.smul U.k x) (V3.smul U.k x + V3.smul U.m v)).1 = (e.intersectionPoints x (x + v)).1 ∧
    ((e.intersectionPoints x (x + v)).1 = true →
      (e'.intersectionPoints (V3.smul U.k x) (V3.smul U.k x + V3.smul U.m v)).2.1 =
        V3.smul U.k (e.intersectionPoints x (x + v)).2.1 ∧
      (e'.intersectionPoints (V3.smul U.k x) (V3.smul U.k x + V3.smul U.m v)).2.2 =
        V3.smul U.k (e.intersectionPoints x (x + v)).2.2) := by
  have hk := hU.1
  have hm := hU.2
  have hadd : ∀ (P : Pose ℝ) (y u : V3 ℝ), P.apply (y + u) = P.apply y + P.orientation.rotate u := by
    intro P y u
    simp only [Pose.apply, Quat.rotate_add]
    v3_ring
  have ho : e'.base.pose.inverse.orientation = e.base.pose.inverse.orientation := by
    show e'.base.pose.orientation.conjugate = _
    rw [show e'.base.pose.orientation = e.base.pose.orientation from s.orientation]
    rfl
  unfold Ellipsoid.intersectionPoints
  simp only [hadd, s.inv, s.half0, ho, Quat.rotate_smul]
  generalize e.base.pose.inverse.apply x = u
  generalize e.base.pose.inverse.orientation.rotate v = w
  have hsl : ((V3.smul U.k u + V3.smul U.m w).y - (V3.smul U.k u).y) /
      ((V3.smul U.k u + V3.smul U.m w).x - (V3.smul U.k u).x) = w.y / w.x := by
    simp only [V3.add_x, V3.add_y, V3.smul, add_sub_cancel_left]
    rw [mul_div_mul_left _ _ hm.ne']
  have hsl' : ((u + w).y - u.y) / ((u + w).x - u.x) = w.y / w.x := by
    simp only [V3.add_x, V3.add_y, add_sub_cancel_left]
  simp only [hsl, hsl']
  generalize w.y / w.x = k
  have hb : (V3.smul U.k u).y - k * (V3.smul U.k u).x = U.k * (u.y - k * u.x) := by
    simp only [V3.smul]; ring
  simp only [hb]
  generalize u.y - k * u.x = b
  simp only [V3.smul]
  obtain ⟨l1, hl1⟩ : ∃ l, l = (e.axis + e.base.margin).x := ⟨_, rfl⟩
  obtain ⟨l2, hl2⟩ : ∃ l, l = (e.axis + e.base.margin).y := ⟨_, rfl⟩
  simp only [← hl1, ← hl2]
  have hkk : U.k * U.k ≠ 0 := by positivity
  have hA : 1 / (U.k * l1 * (U.k * l1)) + k * k / (U.k * l2 * (U.k * l2)) =
      (1 / (l1 * l1) + k * k / (l2 * l2)) / (U.k * U.k) := by
    rw [show U.k * l1 * (U.k * l1) = (l1 * l1) * (U.k * U.k) by ring,
      show U.k * l2 * (U.k * l2) = (l2 * l2) * (U.k * U.k) by ring, add_div,
      div_div, div_div]
  have hB : lit 2 1 * k * (U.k * b) / (U.k * l2 * (U.k * l2)) = lit 2 1 * k * b / (l2 * l2) / U.k := by
    rw [show U.k * l2 * (U.k * l2) = U.k * ((l2 * l2) * U.k) by ring,
      show lit 2 1 * k * (U.k * b) = U.k * (lit 2 1 * k * b) by ring, mul_div_mul_left _ _ hk.ne', ← div_div]
  have hC : U.k * b * (U.k * b) / (U.k * l2 * (U.k * l2)) - 1 = b * b / (l2 * l2) - 1 := by
    rw [show U.k * l2 * (U.k * l2) = (U.k * U.k) * (l2 * l2) by ring,
      show U.k * b * (U.k * b) = (U.k * U.k) * (b * b) by ring, mul_div_mul_left _ _ hkk]
  simp only [hA, hB, hC]
  obtain ⟨A, hA'⟩ : ∃ A, A = 1 / (l1 * l1) + k * k / (l2 * l2) := ⟨_, rfl⟩
  obtain ⟨B, hB'⟩ : ∃ B, B = lit 2 1 * k * b / (l2 * l2) := ⟨_, rfl⟩
  obtain ⟨C, hC'⟩ : ∃ C, C = b * b / (l2 * l2) - 1 := ⟨_, rfl⟩
  simp only [← hA', ← hB', ← hC']
  have hD : B / U.k * (B / U.k) - lit 4 1 * (A / (U.k * U.k)) * C = (B * B - lit 4 1 * A * C) / (U.k * U.k) := by
    field_simp
  simp only [hD]
  obtain ⟨D, hD'⟩ : ∃ D, D = B * B - lit 4 1 * A * C := ⟨_, rfl⟩
  simp only [← hD']
  have hsq : Real.sqrt (D / (U.k * U.k)) = Real.sqrt D / U.k := by
    rw [Real.sqrt_div' _ (by positivity), Real.sqrt_mul_self hk.le]
  have hdiv : ∀ t : ℝ, t / U.k / (lit 2 1 * (A / (U.k * U.k))) = U.k * (t / (lit 2 1 * A)) := by
    intro t
    rw [show lit 2 1 * (A / (U.k * U.k)) = (lit 2 1 * A) / (U.k * U.k) by ring, div_div_div_eq,
      show t * (U.k * U.k) = U.k * (U.k * t) by ring, mul_div_mul_left _ _ hk.ne', mul_div_assoc]
  have hp : ∀ t : ℝ, e'.base.pose.apply ⟨U.k * t, k * (U.k * t) + U.k * b, 0⟩ =
      V3.smul U.k (e.base.pose.apply ⟨t, k * t + b, 0⟩) := by
    intro t
    rw [← s.apply]
    congr 1
    ext <;> simp only [V3.smul] <;> ring
  have hiff : 0 ≤ D / (U.k * U.k) ↔ 0 ≤ D := by
    rw [le_div_iff₀ (by positivity), zero_mul]
  simp only [hiff, sqrt_real, hsq]
  split
  · refine ⟨rfl, fun _ => ⟨?_, ?_⟩⟩
    · rw [show -(B / U.k) - Real.sqrt D / U.k = (-B - Real.sqrt D) / U.k by ring, hdiv]
      exact hp _
    · rw [show -(B / U.k) + Real.sqrt D / U.k = (-B + Real.sqrt D) / U.k by ring, hdiv]
      exact hp _
  · exact ⟨rfl, fun h => by cases h⟩

theorem shifted_scale {U : Units} (hU : U.Valid) {r : ℝ} {e e' : Ellipsoid ℝ} (s : ScaledEllipsoid U r e e')
    {a a' : Agent ℝ} (ha : ScaledAgent U a a') :
    ∃ k k', shifted a.state.position a.state.linearVelocity (.ellipsoid e) = .ellipsoid k ∧
      shifted a'.state.position a'.state.linearVelocity (.ellipsoid e') = .ellipsoid k' ∧ ScaledEllipsoid U r k k' := by
  obtain ⟨h1, h2⟩ := intersection_scale hU s a.state.position a.state.linearVelocity
  simp only [shifted, ha.position, ha.velocity, h1]
  by_cases hc : (e.intersectionPoints a.state.position (a.state.position + a.state.linearVelocity)).1 = true
  · obtain ⟨h3, h4⟩ := h2 hc
    rw [if_pos hc, if_pos hc, h3, h4]
    refine ⟨_, _, rfl, rfl, ⟨s.position, s.orientation, s.axis, s.margin, s.curv, ?_, s.linear, s.angular, s.exponent,
      s.long, s.long'⟩⟩
    simp only [Base.setRef, Option.map_some]
    congr 1
    ext <;> simp [V3.smul, V3.sdiv, lit_two] <;> ring
  · rw [if_neg hc, if_neg hc]
    exact ⟨e, e', rfl, rfl, s⟩

theorem set_scale {U : Units} {m : ℝ} {h h' : Heap ℝ} {L : List Ptr} (hs : ScaledObstacles U m h h' L) {p : Ptr} (hp : p ∈ L)
    {k k' : Ellipsoid ℝ} (s : ScaledEllipsoid U m k k') :
    ScaledObstacles U m (h.set p (.ellipsoid k)) (h'.set p (.ellipsoid k')) L := by
  intro r hr
  by_cases hpr : p = r
  · subst hpr
    obtain ⟨e, e', h1, h2, -⟩ := hs p hp
    refine ⟨k, k', ?_, ?_, s⟩
    · rw [List.getElem?_set, if_pos rfl, if_pos (List.getElem?_eq_some_iff.mp h1).1]
    · rw [List.getElem?_set, if_pos rfl, if_pos (List.getElem?_eq_some_iff.mp h2).1]
  · obtain ⟨e, e', h1, h2, h3⟩ := hs r hr
    exact ⟨e, e', by rw [List.getElem?_set, if_neg hpr, h1], by rw [List.getElem?_set, if_neg hpr, h2], h3⟩

theorem collect_scale {U : Units} (hU : U.Valid) {a a' : Agent ℝ} (ha : ScaledAgent U a a') (planar : Bool) {L : List Ptr} :
    ∀ (l : List Ptr) (h h' : Heap ℝ), l ⊆ L → ScaledObstacles U a.margin h h' L →
    Agree (fun r r' => ScaledObstacles U a.margin r.1 r'.1 L ∧ List.Forall₂ (ScaledItem U a.state.position) r.2 r'.2)
      (collect planar a h l) (collect planar a' h' l)
  | [], _, _, _, hs => ⟨hs, .nil⟩
  | p :: l, h, h', hl, hs => by
    have hp : p ∈ L := hl List.mem_cons_self
    obtain ⟨e, e', h1, h2, s⟩ := hs p hp
    have step : ∀ (k k' : Heap ℝ), ScaledObstacles U a.margin k k' L →
        Agree (fun r r' => ScaledObstacles U a.margin r.1 r'.1 L ∧ List.Forall₂ (ScaledItem U a.state.position) r.2 r'.2)
          (do let o ← k.deref p
              let m ← modulationMatrix k a o
              let r ← collect planar a k l
              .ok (r.1, { base := o.base, matrix := m.1, basis := m.2.1, dist := m.2.2 } :: r.2))
          (do let o ← k'.deref p
              let m ← modulationMatrix k' a' o
              let r ← collect planar a' k' l
              .ok (r.1, { base := o.base, matrix := m.1, basis := m.2.1, dist := m.2.2 } :: r.2)) := by
      intro k k' hk
      obtain ⟨f, f', g1, g2, sf⟩ := hk p hp
      rw [Heap.deref_ok' g1, Heap.deref_ok' g2, Res.ok_bind, Res.ok_bind]
      refine Agree.bind (item_scale hU sf ha) fun m m' _ _ hm => ?_
      refine Agree.bind (collect_scale hU ha planar l k k' (fun x hx => hl (List.mem_cons_of_mem _ hx)) hk)
        fun r r' _ _ ⟨q1, q2⟩ => ?_
      exact ⟨q1, .cons hm q2⟩
    unfold collect
    cases planar with
    | false =>
      simp only [Bool.false_eq_true, if_false, Res.ok_bind]
      exact step h h' hs
    | true =>
      simp only [if_true, shiftReferencePoint_eq, Heap.deref_ok' h1, Heap.deref_ok' h2, Res.ok_bind]
      obtain ⟨k, k', e1, e2, sk⟩ := shifted_scale hU s ha
      rw [e1, e2]
      exact step _ _ (set_scale hs hp sk)

theorem repulsion_scale {U : Units} (hU : U.Valid) {a a' : Agent ℝ} (ha : ScaledAgent U a a') {h h' : Heap ℝ}
    {L : List Ptr} (hs : ScaledObstacles U a.margin h h' L) :
    ∀ (l : List Ptr), l ⊆ L → ∀ acc : V3 ℝ,
    Agree (fun v v' => v' = V3.smul U.k v)
      (l.foldlM (fun acc p => do
        let o ← h.deref p
        let v ← h.generateRepulsion o a.state.position a.margin (lit 11 10)
        .ok (acc + v)) acc)
      (l.foldlM (fun acc p => do
        let o ← h'.deref p
        let v ← h'.generateRepulsion o a'.state.position a'.margin (lit 11 10)
        .ok (acc + v)) (V3.smul U.k acc)) := by
  intro l
  induction l with
  | nil => intro _ acc; exact rfl
  | cons p l ih =>
    intro hl acc
    obtain ⟨e, e', h1, h2, s⟩ := hs p (hl List.mem_cons_self)
    simp only [List.foldlM_cons, Heap.deref_ok' h1, Heap.deref_ok' h2, Res.ok_bind]
    have key : Agree (fun v v' => v' = V3.smul U.k v)
        (h.generateRepulsion (.ellipsoid e) a.state.position a.margin (lit 11 10))
        (h'.generateRepulsion (.ellipsoid e') a'.state.position a'.margin (lit 11 10)) := by
      unfold Heap.generateRepulsion Heap.distanceToAgent Heap.distanceToPoint Heap.repulsionVector
        Ellipsoid.repulsionVector Ellipsoid.repulsionFactor
      simp only [Res.ok_bind, ha.position, ha.margin, s.distance hU]
      split
      · simp only [Base.ref, s.ref]
        cases e.base.refPos with
        | none => exact rfl
        | some r =>
          simp only [Option.map_some, Res.ok_bind]
          show _ = _
          rw [← V3.smul_sub', V3.smul_smul', V3.smul_smul', mul_comm]
      · exact (V3.smul_zero' _).symm
    rw [bind_assoc, bind_assoc]
    refine Agree.bind key fun v v' _ _ hv => ?_
    rw [Res.ok_bind, Res.ok_bind, hv, ← V3.smul_add']
    exact ih (fun x hx => hl (List.mem_cons_of_mem _ hx)) _

end DOA
