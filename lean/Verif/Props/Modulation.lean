import Verif.Lemmas.ModulationGeom
import Mathlib.Algebra.BigOperators.Group.List.Basic
import Mathlib.Algebra.Order.BigOperators.Group.List
import Mathlib.Analysis.SpecialFunctions.Pow.Asymptotics

/-!
# Properties of the building blocks of the modulation (C33–C37)
-/

set_option linter.unusedSectionVars false
set_option linter.unusedSimpArgs false

namespace DOA.Props
open DOA DOA.Spec DOA.Modulation

/-! ## C33 weights -/

theorem sum_eq (l : List ℝ) : Modulation.sum l = l.sum := by
  have : ∀ (l : List ℝ) (a : ℝ), l.foldl (· + ·) a = a + l.sum := by
    intro l
    induction l with
    | nil => intro a; simp
    | cons b l ih => intro a; rw [List.foldl_cons, ih, List.sum_cons]; ring
  rw [Modulation.sum, this, zero_add]

theorem sumInt_eq (l : List Int) : l.foldl (· + ·) 0 = l.sum := by
  have : ∀ (l : List Int) (a : Int), l.foldl (· + ·) a = a + l.sum := by
    intro l
    induction l with
    | nil => intro a; simp
    | cons b l ih => intro a; rw [List.foldl_cons, ih, List.sum_cons]; ring
  rw [this, zero_add]

theorem crit_sum (ds : List ℝ) (c : ℝ) :
    ((ds.map fun d => if d ≤ c then (1 : Int) else 0)).foldl (· + ·) 0 =
      ((ds.filter fun d => decide (d ≤ c)).length : Int) := by
  rw [sumInt_eq]
  induction ds with
  | nil => simp
  | cons d ds ih =>
    simp only [List.map_cons, List.sum_cons, ih, List.filter_cons]
    by_cases h : d ≤ c
    · simp [h]; ring
    · simp [h]

/-- the weights as a function of the distance -/
noncomputable def weightOf (ds : List ℝ) (c p : ℝ) (d : ℝ) : ℝ :=
  let n := (ds.filter fun d => decide (d ≤ c)).length
  if 0 < n then (if d ≤ c then 1 / (n : ℝ) else 0)
  else (d - c) ^ (-p) / (ds.map fun d => (d - c) ^ (-p)).sum

theorem weight_eq (ds : List ℝ) (c p : ℝ) :
    weightObstacles ds c p = ds.map (weightOf ds c p) := by
  unfold weightObstacles
  simp only [crit_sum]
  by_cases h : 0 < (ds.filter fun d => decide (d ≤ c)).length
  · rw [if_pos (by exact_mod_cast h), List.map_map]
    apply List.map_congr_left
    intro d _
    simp only [Function.comp, weightOf, if_pos h, MathTools.ofInt, lit_real]
    split <;> simp
  · rw [if_neg (by exact_mod_cast h), List.map_map]
    apply List.map_congr_left
    intro d _
    simp only [Function.comp, weightOf, if_neg h, pow_real, sum_eq]

theorem no_crit {ds : List ℝ} {c : ℝ} (h : ¬ 0 < (ds.filter fun d => decide (d ≤ c)).length) :
    ∀ d ∈ ds, c < d := by
  intro d hd
  by_contra hlt
  apply h
  rw [List.length_pos_iff_exists_mem]
  exact ⟨d, List.mem_filter.mpr ⟨hd, by simpa using not_lt.mp hlt⟩⟩

theorem list_sum_pos {l : List ℝ} (h : l ≠ []) (hp : ∀ x ∈ l, 0 < x) : 0 < l.sum := by
  cases l with
  | nil => exact absurd rfl h
  | cons a l =>
    rw [List.sum_cons]
    have h1 := hp a (by simp)
    have h2 : 0 ≤ l.sum := List.sum_nonneg fun x hx => (hp x (by simp [hx])).le
    linarith

theorem sum_ite (ds : List ℝ) (c r : ℝ) :
    (ds.map fun d => if d ≤ c then r else 0).sum = (ds.filter fun d => decide (d ≤ c)).length * r := by
  induction ds with
  | nil => simp
  | cons d ds ih =>
    simp only [List.map_cons, List.sum_cons, ih, List.filter_cons]
    by_cases h : d ≤ c
    · simp [h]; ring
    · simp [h]

theorem sum_div (l : List ℝ) (s : ℝ) : (l.map fun x => x / s).sum = l.sum / s := by
  induction l with
  | nil => simp
  | cons a l ih => simp only [List.map_cons, List.sum_cons, ih]; ring

/-- C33: one weight per obstacle, none negative, sum 1. -/
theorem C33_convex (ds : List ℝ) (c p : ℝ) (hne : ds ≠ []) :
    (weightObstacles ds c p).length = ds.length ∧ (∀ w ∈ weightObstacles ds c p, 0 ≤ w) ∧
      (weightObstacles ds c p).sum = 1 := by
  rw [weight_eq]
  refine ⟨by simp, ?_, ?_⟩
  · intro w hw
    obtain ⟨d, hd, rfl⟩ := List.mem_map.mp hw
    unfold weightOf
    simp only
    split
    · split
      · positivity
      · exact le_refl _
    · rename_i h
      have hpos := no_crit h
      apply div_nonneg (Real.rpow_nonneg (by linarith [hpos d hd]) _)
      apply List.sum_nonneg
      intro x hx
      obtain ⟨d', hd', rfl⟩ := List.mem_map.mp hx
      exact Real.rpow_nonneg (by linarith [hpos d' hd']) _
  · by_cases h : 0 < (ds.filter fun d => decide (d ≤ c)).length
    · have e : ds.map (weightOf ds c p) =
          ds.map fun d => if d ≤ c then 1 / ((ds.filter fun d => decide (d ≤ c)).length : ℝ) else 0 := by
        apply List.map_congr_left; intro d _; simp only [weightOf, if_pos h]
      rw [e, sum_ite]
      have : ((ds.filter fun d => decide (d ≤ c)).length : ℝ) ≠ 0 := by exact_mod_cast h.ne'
      field_simp
    · have e : ds.map (weightOf ds c p) =
          (ds.map fun d => (d - c) ^ (-p)).map fun x => x / (ds.map fun d => (d - c) ^ (-p)).sum := by
        rw [List.map_map]; apply List.map_congr_left; intro d _
        simp only [weightOf, if_neg h, Function.comp]
      rw [e, sum_div]
      apply div_self
      apply ne_of_gt
      apply list_sum_pos (by simpa using hne)
      intro x hx
      obtain ⟨d', hd', rfl⟩ := List.mem_map.mp hx
      exact Real.rpow_pos_of_pos (by linarith [no_crit h d' hd']) _

/-- C33: if some obstacle is critical, the critical ones share the weight equally and the others get
none. -/
theorem C33_critical (ds : List ℝ) (c p : ℝ) (hc : ∃ d ∈ ds, d ≤ c) (i : ℕ) (d : ℝ) (hd : ds[i]? = some d) :
    (weightObstacles ds c p)[i]? =
      some (if d ≤ c then 1 / ((ds.filter fun d => decide (d ≤ c)).length : ℝ) else 0) := by
  rw [weight_eq, List.getElem?_map, hd]
  have h : 0 < (ds.filter fun d => decide (d ≤ c)).length := by
    obtain ⟨d', h1, h2⟩ := hc
    rw [List.length_pos_iff_exists_mem]
    exact ⟨d', List.mem_filter.mpr ⟨h1, by simpa using h2⟩⟩
  simp only [Option.map_some, weightOf, if_pos h]

/-- C33: if none is critical, all weights are positive, equal distances have equal weights and
smaller distances have larger weights (`weight_power > 0`). -/
theorem C33_free (ds : List ℝ) (c p : ℝ) (hp : 0 < p) (hc : ∀ d ∈ ds, c < d) (i j : ℕ) (di dj : ℝ)
    (hi : ds[i]? = some di) (hj : ds[j]? = some dj) :
    ∃ wi wj, (weightObstacles ds c p)[i]? = some wi ∧ (weightObstacles ds c p)[j]? = some wj ∧
      0 < wi ∧ 0 < wj ∧ (di = dj → wi = wj) ∧ (di < dj → wj < wi) := by
  rw [weight_eq]
  have h : ¬ 0 < (ds.filter fun d => decide (d ≤ c)).length := by
    rw [List.length_pos_iff_exists_mem]
    rintro ⟨d, hd⟩
    obtain ⟨h1, h2⟩ := List.mem_filter.mp hd
    have h3 := hc d h1
    have h4 : d ≤ c := by simpa using h2
    linarith
  have hne : ds ≠ [] := by rintro rfl; simp at hi
  have hs : 0 < (ds.map fun d => (d - c) ^ (-p)).sum := by
    apply list_sum_pos (by simpa using hne)
    intro x hx
    obtain ⟨d', hd', rfl⟩ := List.mem_map.mp hx
    exact Real.rpow_pos_of_pos (by linarith [hc d' hd']) _
  have mi := hc di (List.mem_of_getElem? hi)
  have mj := hc dj (List.mem_of_getElem? hj)
  refine ⟨weightOf ds c p di, weightOf ds c p dj, by rw [List.getElem?_map, hi]; rfl,
    by rw [List.getElem?_map, hj]; rfl, ?_, ?_, ?_, ?_⟩
  · simp only [weightOf, if_neg h]
    exact div_pos (Real.rpow_pos_of_pos (by linarith) _) hs
  · simp only [weightOf, if_neg h]
    exact div_pos (Real.rpow_pos_of_pos (by linarith) _) hs
  · rintro rfl; rfl
  · intro hlt
    simp only [weightOf, if_neg h]
    apply div_lt_div_of_pos_right _ hs
    exact Real.rpow_lt_rpow_of_neg (by linarith) (by linarith) (by linarith)

example : weightObstacles [1 / 2, 3, 1, (2 : ℝ)] 1 2 = [1 / 2, 0, 1 / 2, 0] := by
  rw [weight_eq]
  norm_num [weightOf]

/-! ## C34 eigenvalues -/

/-- C34: on and inside the obstacle the eigenvalues are (0,2,2). -/
theorem C34_inside (d ρ : ℝ) (hd : d ≤ 1) : diagonalEigenvalues d ρ = ⟨0, 2, 2⟩ := by
  simp only [diagonalEigenvalues, if_pos hd]; norm_num

/-- C34: outside the reference eigenvalue is in (0,1), the tangent eigenvalues are equal and in (1,2),
they add up to 2. -/
theorem C34_outside (d ρ : ℝ) (hρ : 0 < ρ) (hd : 1 < d) :
    let ev := diagonalEigenvalues d ρ
    0 < ev.x ∧ ev.x < 1 ∧ 1 < ev.y ∧ ev.y < 2 ∧ ev.y = ev.z ∧ ev.x + ev.y = 2 := by
  have h1 : 1 < d ^ (1 / ρ) := Real.one_lt_rpow hd (by positivity)
  have h2 : 1 / d ^ (1 / ρ) < 1 := by rw [div_lt_one (by linarith)]; exact h1
  have h3 : 0 < 1 / d ^ (1 / ρ) := by positivity
  simp only [diagonalEigenvalues, if_neg (not_le.mpr hd), pow_real]
  refine ⟨by linarith, by linarith, by linarith, by linarith, trivial, by ring⟩

/-- C34: further away the reference eigenvalue is larger and the tangent eigenvalues are smaller. -/
theorem C34_monotone (d d' ρ : ℝ) (hρ : 0 < ρ) (hd : 1 < d) (hdd : d < d') :
    (diagonalEigenvalues d ρ).x < (diagonalEigenvalues d' ρ).x ∧
    (diagonalEigenvalues d' ρ).y < (diagonalEigenvalues d ρ).y := by
  have h1 : d ^ (1 / ρ) < d' ^ (1 / ρ) := Real.rpow_lt_rpow (by linarith) hdd (by positivity)
  have h0 : 0 < d ^ (1 / ρ) := Real.rpow_pos_of_pos (by linarith) _
  have h2 : 1 / d' ^ (1 / ρ) < 1 / d ^ (1 / ρ) := one_div_lt_one_div_of_lt h0 h1
  simp only [diagonalEigenvalues, if_neg (not_le.mpr hd), if_neg (not_le.mpr (hd.trans hdd)), pow_real]
  constructor <;> linarith

/-- C34: far away both tend to 1. -/
theorem C34_limit (ρ : ℝ) (hρ : 0 < ρ) :
    Filter.Tendsto (fun d => (diagonalEigenvalues d ρ).x) Filter.atTop (nhds 1) ∧
    Filter.Tendsto (fun d => (diagonalEigenvalues d ρ).y) Filter.atTop (nhds 1) := by
  have h : Filter.Tendsto (fun d : ℝ => 1 / d ^ (1 / ρ)) Filter.atTop (nhds 0) := by
    have := tendsto_rpow_atTop (show 0 < 1 / ρ by positivity)
    have h2 := this.inv_tendsto_atTop
    simp only [one_div] at h2 ⊢
    exact h2
  have hev : ∀ᶠ d : ℝ in Filter.atTop, 1 < d := Filter.eventually_gt_atTop 1
  constructor
  · have := h.const_sub 1
    rw [sub_zero] at this
    apply this.congr'
    filter_upwards [hev] with d hd
    simp only [diagonalEigenvalues, if_neg (not_le.mpr hd), pow_real]
  · have := h.const_add 1
    rw [add_zero] at this
    apply this.congr'
    filter_upwards [hev] with d hd
    simp only [diagonalEigenvalues, if_neg (not_le.mpr hd), pow_real]

/-! ## C35 the orthogonal basis -/

/-- Three vectors of length one, pairwise perpendicular. -/
def Orthonormal (m : M3 ℝ) : Prop :=
  V3.norm m.c0 = 1 ∧ V3.norm m.c1 = 1 ∧ V3.norm m.c2 = 1 ∧
    V3.dot m.c0 m.c1 = 0 ∧ V3.dot m.c0 m.c2 = 0 ∧ V3.dot m.c1 m.c2 = 0

theorem orthogonal_orthonormal {n : V3 ℝ} (hn : V3.norm n = 1) (ht : V3.norm (tangentVector n) = 1) :
    Orthonormal (orthogonalBasis n) := by
  have hnt := dot_tangent n
  refine ⟨hn, ht, ?_, hnt, V3.dot_cross_self' _ _, V3.dot_cross_self _ _⟩
  rw [V3.norm_eq_one_iff]
  simp only [orthogonalBasis]
  rw [V3.sqNorm_cross, (V3.norm_eq_one_iff _).mp ht, (V3.norm_eq_one_iff _).mp hn, V3.dot_comm, hnt]
  ring

/-- C35, the part that holds: for every unit normal the first column is the normal, the columns are
pairwise perpendicular and not zero, and the second and third have the same length; they form an
orthonormal basis if the normal is horizontal or vertical (in the obstacle frame).
Full statement (false, see `C35_negation`): orthonormal for every unit normal. -/
theorem C35_orthogonal_partial (n : V3 ℝ) (hn : n.norm = 1) :
    let b := orthogonalBasis n
    b.c0 = n ∧ V3.dot b.c0 b.c1 = 0 ∧ V3.dot b.c0 b.c2 = 0 ∧ V3.dot b.c1 b.c2 = 0 ∧
      0 < b.c1.norm ∧ b.c2.norm = b.c1.norm ∧
      (n.z = 0 ∨ (n.x = 0 ∧ n.y = 0) → Orthonormal b) := by
  have hnt := dot_tangent n
  have hsq : V3.sqNorm (V3.cross (tangentVector n) n) = V3.sqNorm (tangentVector n) := by
    rw [V3.sqNorm_cross, (V3.norm_eq_one_iff _).mp hn, V3.dot_comm, hnt]; ring
  refine ⟨rfl, hnt, V3.dot_cross_self' _ _, V3.dot_cross_self _ _, ?_, ?_, ?_⟩
  · exact V3.norm_pos (fun h0 => tangent_ne_zero hn (V3.sqNorm_eq_zero.mpr h0))
  · simp only [orthogonalBasis, V3.norm]
    rw [hsq]
  · intro h
    apply orthogonal_orthonormal hn
    have hs := (V3.norm_eq_one_iff _).mp hn
    rcases h with h | ⟨h1, h2⟩
    · rw [tangent_planar hn h, V3.norm_eq_one_iff]
      simp only [V3.sqNorm, V3.dot, h] at hs ⊢
      linarith
    · have e : tangentVector n = V3.cross n V3.unitY := by
        have h0 : V3.norm (V3.cross n V3.unitZ) = 0 := by
          rw [V3.norm_eq_zero]; ext <;> simp [V3.cross, V3.unitZ, V3.zero, h1, h2]
        simp only [tangentVector, h0, lit_real]
        rw [if_pos (by norm_num)]
      rw [e, V3.norm_eq_one_iff]
      simp only [V3.sqNorm, V3.dot, V3.cross, V3.unitY, h1, h2] at hs ⊢
      linarith

/-- C35 is false: for the unit normal (3/5, 0, 4/5) the second column is (0, -3/5, 0). -/
theorem C35_negation : ∃ n : V3 ℝ, n.norm = 1 ∧ ¬ Orthonormal (orthogonalBasis n) := by
  have hc : V3.cross (⟨3 / 5, 0, 4 / 5⟩ : V3 ℝ) V3.unitZ = ⟨0, -(3 / 5), 0⟩ := by
    ext <;> simp [V3.cross, V3.unitZ]
  have hnorm : V3.norm (⟨0, -(3 / 5), 0⟩ : V3 ℝ) = 3 / 5 := by
    have : V3.sqNorm (⟨0, -(3 / 5), 0⟩ : V3 ℝ) = (3 / 5) ^ 2 := by simp [V3.sqNorm, V3.dot]; norm_num
    rw [V3.norm, this, sqrt_real, Real.sqrt_sq (by norm_num)]
  refine ⟨⟨3 / 5, 0, 4 / 5⟩, ?_, ?_⟩
  · rw [V3.norm_eq_one_iff]; simp [V3.sqNorm, V3.dot]; norm_num
  · rintro ⟨-, h, -⟩
    simp only [orthogonalBasis, tangentVector, hc, hnorm, lit_real] at h
    rw [if_neg (by norm_num), hnorm] at h
    norm_num at h

/-! ## C36, C37: the modulation matrix -/

section
variable (h : Heap ℝ) (a : Agent ℝ) (e : Ellipsoid ℝ) (k : ℕ) (sm : Smooth e a.margin k) (ref : V3 ℝ)
  (href : e.base.refPos = some ref) (hin : gdist e a.margin ref < gdist e a.margin a.state.position)
include sm href hin

/-- C36: the direction from the reference point to the agent is scaled by `1 - 1/d` (by 0 on and inside
the obstacle), for every ellipsoid and every reference point that is nearer to the centre than the
agent (in terms of the distance function). -/
theorem C36_reference :
    ∃ M B, modulationMatrix h a (.ellipsoid e) = .ok (M, B, gdist e a.margin a.state.position) ∧
      M.mulVec (a.state.position - ref) =
        V3.smul (max 0 (1 - 1 / gdist e a.margin a.state.position)) (a.state.position - ref) := by
  obtain ⟨y, w, c⟩ := coord sm hin
  refine ⟨_, _, matrix_ellipsoid h a e href, ?_⟩
  have hdet := coord_det sm c
  obtain ⟨s, hs, hr⟩ := c.r_eq
  rw [diag_eq _ c.pos]
  have e1 : a.state.position - ref = e.base.pose.orientation.rotate (y - w) := by
    have h1 := c.hx
    have h2 := c.href
    rw [h1, h2]
    show e.base.pose.apply y - e.base.pose.apply w = e.base.pose.orientation.rotate (y - w)
    rw [Quat.rotate_sub]
    simp only [Pose.apply]
    v3_ring
  have e2 : y - w = V3.smul (1 / s) (referenceBasis (e.normalToAgent a.state.position a.margin)
      (referenceDirection e.base.pose a.state.position ref)).c0 := by
    simp only [referenceBasis, hr]
    ext <;> simp only [V3.smul] <;> field_simp
  rw [e1, modulationProduct_frame (unit' sm), e2, frameAct_c0 hdet, Quat.rotate_smul]

/-- C36, tangent directions: in planar situations and for balls with centred reference point, every
direction in which the distance does not change is scaled by `1 + 1/d` (by 2 on and inside the
obstacle).  Full statement (false, see `C36_negation`): in every situation. -/
theorem C36_tangent_partial (hs : InPlane e a.state.position ref ∨ CentredBall e a.margin ref) :
    ∃ M B, modulationMatrix h a (.ellipsoid e) = .ok (M, B, gdist e a.margin a.state.position) ∧
      ∀ u, Slope e a.margin a.state.position u 0 →
        M.mulVec u = V3.smul (1 + min 1 (1 / gdist e a.margin a.state.position)) u := by
  obtain ⟨y, w, c⟩ := coord sm hin
  refine ⟨_, _, matrix_ellipsoid h a e href, fun u hu => ?_⟩
  have hdet := coord_det sm c
  have h3 := h3_of sm c hs
  rw [diag_eq _ c.pos]
  obtain ⟨c0, hc0, hsl⟩ := slope_world sm c.y0
  obtain ⟨u', rfl⟩ : ∃ u', e.base.pose.orientation.rotate u' = u :=
    ⟨_, Quat.rotate_rotate_conjugate (unit' sm) u⟩
  rw [c.hx, hsl] at hu
  have hu0 : V3.dot (e.normalToAgent a.state.position a.margin) u' = 0 := by
    rw [c.hx]; exact (mul_eq_zero.mp hu.symm).resolve_left hc0.ne'
  rw [modulationProduct_frame (unit' sm)]
  have := frameAct_tangent (d := ⟨max 0 (1 - 1 / gdist e a.margin a.state.position),
      1 + min 1 (1 / gdist e a.margin a.state.position), 1 + min 1 (1 / gdist e a.margin a.state.position)⟩)
    hdet h3 c.nr.ne' rfl hu0
  rw [this, Quat.rotate_smul]

/-- C36: outside the obstacle the matrix is invertible, and it differs from the identity by `1/d` times
a matrix that is its own inverse. -/
theorem C36_regular (hd : 1 < gdist e a.margin a.state.position) :
    ∃ (M B K N : M3 ℝ), modulationMatrix h a (.ellipsoid e) = .ok (M, B, gdist e a.margin a.state.position) ∧
      (∀ v, M.mulVec v = v + V3.smul (1 / gdist e a.margin a.state.position) (K.mulVec v)) ∧
      (∀ v, K.mulVec (K.mulVec v) = v) ∧
      ∀ v, M.mulVec (N.mulVec v) = v ∧ N.mulVec (M.mulVec v) = v := by
  obtain ⟨y, w, c⟩ := coord sm hin
  have hdet := coord_det sm c
  set d := gdist e a.margin a.state.position with hdd
  set b := referenceBasis (e.normalToAgent a.state.position a.margin)
    (referenceDirection e.base.pose a.state.position ref) with hb
  have hd1 : 1 / d < 1 := by rw [div_lt_one c.pos]; exact hd
  have hd0 : 0 < 1 / d := by have := c.pos; positivity
  have hq : e.base.pose.orientation.IsUnit := unit' sm
  have act : ∀ D v, (modulationProduct e.base.pose.orientation b D).mulVec v =
      e.base.pose.orientation.rotate (frameAct b D (e.base.pose.orientation.conjugate.rotate v)) := by
    intro D v
    rw [← modulationProduct_frame hq, Quat.rotate_rotate_conjugate hq]
  have comp : ∀ D D' v, frameAct b D (frameAct b D' v) = frameAct b (M3.had D D') v := by
    intro D D' v
    unfold frameAct
    rw [M3.inverse_mulVec_mulVec hdet]
    congr 1
    ext <;> simp only [M3.had] <;> ring
  have one : ∀ v, frameAct b ⟨1, 1, 1⟩ v = v := by
    intro v
    have : M3.had ⟨1, 1, 1⟩ (b.inverse.mulVec v) = b.inverse.mulVec v := by
      ext <;> simp [M3.had]
    rw [frameAct, this, M3.mulVec_inverse_mulVec hdet]
  refine ⟨_, _, modulationProduct e.base.pose.orientation b ⟨-1, 1, 1⟩,
    modulationProduct e.base.pose.orientation b ⟨1 / (1 - 1 / d), 1 / (1 + 1 / d), 1 / (1 + 1 / d)⟩,
    matrix_ellipsoid h a e href, ?_, ?_, ?_⟩
  · intro v
    rw [diag_eq _ c.pos, max_eq_right (by linarith), min_eq_right (by linarith), act, act, ← Quat.rotate_smul]
    conv_rhs => rw [← Quat.rotate_rotate_conjugate hq v]
    rw [Quat.rotate_conjugate_rotate hq, ← Quat.rotate_add]
    congr 1
    generalize e.base.pose.orientation.conjugate.rotate v = v'
    conv_rhs => rw [← one v']
    rw [one]
    conv_rhs => enter [1]; rw [← one v']
    unfold frameAct
    rw [← M3.mulVec_smul, ← M3.mulVec_add]
    congr 1
    ext <;> simp [M3.had, V3.smul] <;> ring
  · intro v
    rw [act, act, Quat.rotate_conjugate_rotate hq, comp]
    have : M3.had ⟨-1, 1, 1⟩ (⟨-1, 1, 1⟩ : V3 ℝ) = ⟨1, 1, 1⟩ := by ext <;> simp [M3.had]
    rw [this, one, Quat.rotate_rotate_conjugate hq]
  · intro v
    rw [diag_eq _ c.pos, max_eq_right (by linarith), min_eq_right (by linarith), act, act, act, act,
      Quat.rotate_conjugate_rotate hq, Quat.rotate_conjugate_rotate hq, comp, comp]
    have n1 : 1 - 1 / d ≠ 0 := by linarith
    have n2 : 1 + 1 / d ≠ 0 := by linarith
    constructor
    · have : M3.had ⟨1 - 1 / d, 1 + 1 / d, 1 + 1 / d⟩
          (⟨1 / (1 - 1 / d), 1 / (1 + 1 / d), 1 / (1 + 1 / d)⟩ : V3 ℝ) = ⟨1, 1, 1⟩ := by
        ext <;> simp only [M3.had] <;> exact mul_one_div_cancel (by assumption)
      rw [this, one, Quat.rotate_rotate_conjugate hq]
    · have : M3.had ⟨1 / (1 - 1 / d), 1 / (1 + 1 / d), 1 / (1 + 1 / d)⟩
          (⟨1 - 1 / d, 1 + 1 / d, 1 + 1 / d⟩ : V3 ℝ) = ⟨1, 1, 1⟩ := by
        ext <;> simp only [M3.had] <;> exact one_div_mul_cancel (by assumption)
      rw [this, one, Quat.rotate_rotate_conjugate hq]

/-- C37: in planar situations and for balls with centred reference point, the rate at which the distance
changes under the modulated velocity `M v` is the rate under `v` times `1 - 1/d`, and 0 on and inside the
obstacle, for every velocity and every reference point nearer than the agent.
Full statement (false, see `C37_negation`): in every situation. -/
theorem C37_impenetrable_partial (hs : InPlane e a.state.position ref ∨ CentredBall e a.margin ref) :
    ∃ M B, modulationMatrix h a (.ellipsoid e) = .ok (M, B, gdist e a.margin a.state.position) ∧
      ∀ v s, Slope e a.margin a.state.position v s →
        Slope e a.margin a.state.position (M.mulVec v)
          (max 0 (1 - 1 / gdist e a.margin a.state.position) * s) := by
  obtain ⟨y, w, c⟩ := coord sm hin
  refine ⟨_, _, matrix_ellipsoid h a e href, fun v s hv => ?_⟩
  have hdet := coord_det sm c
  have h3 := h3_of sm c hs
  rw [diag_eq _ c.pos]
  obtain ⟨c0, hc0, hsl⟩ := slope_world sm c.y0
  obtain ⟨v', rfl⟩ : ∃ v', e.base.pose.orientation.rotate v' = v :=
    ⟨_, Quat.rotate_rotate_conjugate (unit' sm) v⟩
  have key := dot_frameAct (d := ⟨max 0 (1 - 1 / gdist e a.margin a.state.position),
      1 + min 1 (1 / gdist e a.margin a.state.position), 1 + min 1 (1 / gdist e a.margin a.state.position)⟩)
    (v := v') hdet h3
  have hmp := modulationProduct_frame (unit' sm) (referenceBasis (e.normalToAgent a.state.position a.margin)
        (referenceDirection e.base.pose a.state.position ref))
      ⟨max 0 (1 - 1 / gdist e a.margin a.state.position),
        1 + min 1 (1 / gdist e a.margin a.state.position),
        1 + min 1 (1 / gdist e a.margin a.state.position)⟩ v'
  rw [hmp]
  have hv1 : s = c0 * V3.dot (e.normalToAgent a.state.position a.margin) v' := by
    have := c.hx ▸ hv
    rw [hsl] at this
    rw [this, ← c.hx]
  have goal := (hsl (frameAct (referenceBasis (e.normalToAgent a.state.position a.margin)
        (referenceDirection e.base.pose a.state.position ref))
      ⟨max 0 (1 - 1 / gdist e a.margin a.state.position),
        1 + min 1 (1 / gdist e a.margin a.state.position),
        1 + min 1 (1 / gdist e a.margin a.state.position)⟩ v')
      (max 0 (1 - 1 / gdist e a.margin a.state.position) * s)).mpr (by
        rw [← c.hx, key, hv1]; ring)
  rw [← c.hx] at goal
  exact goal

end

/-- C36: far away the modulation matrix tends to the identity: agent moving away from the centre on any
ray, reference point at the centre. -/
theorem C36_far (h : Heap ℝ) (e : Ellipsoid ℝ) (m : ℝ) (k : ℕ) (sm : Smooth e m k)
    (href : e.base.refPos = some e.base.position) (y : V3 ℝ) (hy : y ≠ ⟨0, 0, 0⟩) (a : ℝ → Agent ℝ)
    (ha : ∀ t, (a t).state.position = e.base.pose.apply (V3.smul t y) ∧ (a t).margin = m) :
    ∃ M : ℝ → M3 ℝ, (∀ t, 0 < t → ∃ B d, modulationMatrix h (a t) (.ellipsoid e) = .ok (M t, B, d)) ∧
      ∀ v, Filter.Tendsto (fun t => ((M t).mulVec v).x) Filter.atTop (nhds v.x) ∧
        Filter.Tendsto (fun t => ((M t).mulVec v).y) Filter.atTop (nhds v.y) ∧
        Filter.Tendsto (fun t => ((M t).mulVec v).z) Filter.atTop (nhds v.z) := by
  have hq := unit' sm
  have hk := sm.curv.2.1
  have hl0 := allGt_zero sm.long
  have hzero : e.base.pose.inverse.apply e.base.position = V3.zero :=
    (Ellipsoid.frame_zero_iff e hq _).mpr rfl
  have hc0 : e.base.pose.apply V3.zero = e.base.position := by
    rw [← hzero, Pose.apply_apply_inverse hq]
  have hlvl : 0 < level (halfLengths e (V3.const m)) k k k y := by
    refine lt_of_le_of_ne (Ellipsoid.level_nonneg _ _ _ _ _) (fun h0 => hy ?_)
    exact (Ellipsoid.level_eq_zero _ k k k y hl0 hk hk hk).mp h0.symm
  have hd : ∀ t, gdist e m (e.base.pose.apply (V3.smul t y)) =
      t ^ (2 * k) * level (halfLengths e (V3.const m)) k k k y := by
    intro t
    rw [dist_apply sm]
    simp only [level, V3.smul, mul_div_assoc, mul_pow]
    ring
  have hr : ∀ t, 0 < t → referenceDirection e.base.pose (e.base.pose.apply (V3.smul t y)) e.base.position
      = V3.normalized y := by
    intro t ht
    unfold referenceDirection
    rw [hzero, Pose.apply_inverse_apply hq, V3.sub_zero']
    have hne : V3.smul t y ≠ V3.zero := by
      intro h0
      have h1 := V3.norm_smul t y
      rw [h0, V3.norm_eq_zero.mpr rfl, abs_of_pos ht] at h1
      exact hy (V3.norm_eq_zero.mp ((mul_eq_zero.mp h1.symm).resolve_left ht.ne'))
    rw [V3.normalized_of_ne hne, V3.normalized_of_ne hy, V3.norm_smul, abs_of_pos ht]
    have := V3.norm_pos hy
    ext <;> simp only [V3.smul] <;> field_simp
  have hn : ∀ t, 0 < t → e.normalToAgent (e.base.pose.apply (V3.smul t y)) m =
      e.normalToAgent (e.base.pose.apply y) m := by
    intro t ht
    rw [Ellipsoid.normal_frame e _ m k k k sm.curv sm.long, Ellipsoid.normal_frame e _ m k k k sm.curv sm.long,
      Pose.apply_inverse_apply hq, Pose.apply_inverse_apply hq]
    generalize halfLengths e (V3.const m) = l at *
    have e1 : ∀ c d : ℝ, (2 * k * (t * c) / d) ^ (2 * k - 1) = t ^ (2 * k - 1) * (2 * k * c / d) ^ (2 * k - 1) := by
      intro c d; rw [← mul_pow]; congr 1; ring
    simp only [V3.smul, e1]
    generalize (2 * k * y.x / (l.x * l.x)) ^ (2 * k - 1) = p1
    generalize (2 * k * y.y / (l.y * l.y)) ^ (2 * k - 1) = p2
    generalize (2 * k * y.z / (l.z * l.z)) ^ (2 * k - 1) = p3
    have hT : 0 < t ^ (2 * k - 1) := by positivity
    generalize t ^ (2 * k - 1) = T at hT
    have e2 : (⟨T * p1, T * p2, T * p3⟩ : V3 ℝ) = V3.smul T ⟨p1, p2, p3⟩ := rfl
    rw [e2]
    generalize (⟨p1, p2, p3⟩ : V3 ℝ) = p
    by_cases hp : p = V3.zero
    · subst hp
      have : V3.smul T V3.zero = V3.zero := by ext <;> simp [V3.smul, V3.zero]
      rw [this]
    · have hne : V3.smul T p ≠ V3.zero := by
        intro h0
        have h1 := V3.norm_smul T p
        rw [h0, V3.norm_eq_zero.mpr rfl, abs_of_pos hT] at h1
        exact hp (V3.norm_eq_zero.mp ((mul_eq_zero.mp h1.symm).resolve_left hT.ne'))
      rw [V3.normalized_of_ne hne, V3.normalized_of_ne hp, V3.norm_smul, abs_of_pos hT]
      have := V3.norm_pos hp
      ext <;> simp only [V3.smul] <;> field_simp
  set b := referenceBasis (e.normalToAgent (e.base.pose.apply y) m) (V3.normalized y) with hb
  have hdet : b.det ≠ 0 := by
    have hin : gdist e m e.base.position < gdist e m (e.base.pose.apply (V3.smul 1 y)) := by
      rw [hd 1, ← hc0, dist_apply sm]
      have : level (halfLengths e (V3.const m)) k k k V3.zero = 0 :=
        (Ellipsoid.level_eq_zero _ k k k _ hl0 hk hk hk).mpr rfl
      rw [this]; simpa using hlvl
    obtain ⟨y', w', c⟩ := coord sm hin
    have := coord_det sm c
    rwa [hn 1 one_pos, hr 1 one_pos] at this
  let D : ℝ → V3 ℝ := fun t => diagonalEigenvalues (t ^ (2 * k) * level (halfLengths e (V3.const m)) k k k y) 1
  have hlim : Filter.Tendsto (fun t : ℝ => t ^ (2 * k) * level (halfLengths e (V3.const m)) k k k y)
      Filter.atTop Filter.atTop :=
    (Filter.tendsto_pow_atTop (by omega)).atTop_mul_const hlvl
  have hDx : Filter.Tendsto (fun t => (D t).x) Filter.atTop (nhds 1) := (C34_limit 1 one_pos).1.comp hlim
  have hDy : Filter.Tendsto (fun t => (D t).y) Filter.atTop (nhds 1) := (C34_limit 1 one_pos).2.comp hlim
  have hDz : Filter.Tendsto (fun t => (D t).z) Filter.atTop (nhds 1) := hDy
  refine ⟨fun t => modulationProduct e.base.pose.orientation b (D t), ?_, ?_⟩
  · intro t ht
    have hm := matrix_ellipsoid h (a t) e href
    rw [(ha t).1, (ha t).2, hd t, hr t ht, hn t ht] at hm
    exact ⟨_, _, hm⟩
  · intro v
    obtain ⟨c, hc⟩ : ∃ c, b.mulVec c = e.base.pose.orientation.conjugate.rotate v :=
      ⟨_, M3.mulVec_inverse_mulVec hdet _⟩
    have act : ∀ t, (modulationProduct e.base.pose.orientation b (D t)).mulVec v =
        (M3.mul e.base.pose.orientation.toM3 b).mulVec (M3.had (D t) c) := by
      intro t
      rw [modulationProduct_mulVec hq, ← hc, M3.inverse_mulVec_mulVec hdet, M3.mul_mulVec, Quat.toM3_mulVec]
    have hv : v = (M3.mul e.base.pose.orientation.toM3 b).mulVec c := by
      rw [M3.mul_mulVec, Quat.toM3_mulVec, hc, Quat.rotate_rotate_conjugate hq]
    have lim : ∀ f0 f1 f2 : ℝ, Filter.Tendsto (fun t => f0 * ((D t).x * c.x) + f1 * ((D t).y * c.y) +
        f2 * ((D t).z * c.z)) Filter.atTop (nhds (f0 * c.x + f1 * c.y + f2 * c.z)) := by
      intro f0 f1 f2
      have h1 := ((hDx.mul_const c.x).const_mul f0)
      have h2 := ((hDy.mul_const c.y).const_mul f1)
      have h3 := ((hDz.mul_const c.z).const_mul f2)
      have := (h1.add h2).add h3
      simpa only [one_mul] using this
    simp only [act]
    conv => 
      rw [hv]
    exact ⟨lim _ _ _, lim _ _ _, lim _ _ _⟩

/-! ### Counterexamples and concrete cases -/

/-- The unit ball at the origin with reference point `ref`. -/
def ball (ref : V3 ℝ) : Ellipsoid ℝ := Ellipsoid.ofBase (Base.mkRef "ball" (State.ofPosition V3.zero) ref V3.zero)

/-- An agent without safety margin. -/
def agentAt (x v : V3 ℝ) : Agent ℝ := ⟨⟨Pose.ofPosition x, v, V3.zero⟩, 0, none, 0⟩

theorem ball_smooth (ref : V3 ℝ) : Smooth (ball ref) 0 1 := by
  refine ⟨by simp [HasCurv, ball, Ellipsoid.ofBase, V3.const], ?_, ?_, Or.inl rfl⟩
  · simp [ball, Ellipsoid.ofBase, Base.orientation, State.orientation, Base.mkRef, State.ofPosition,
      Pose.ofPosition, Quat.norm, Quat.sqNorm, Quat.one]
  · norm_num [AllGt, halfLengths, ball, Ellipsoid.ofBase, V3.const, V3.zero, Base.mkRef]

theorem ball_inv (ref x : V3 ℝ) : (ball ref).base.pose.inverse.apply x = x := by
  ext <;> simp [ball, Ellipsoid.ofBase, Base.mkRef, State.ofPosition, Pose.ofPosition, Base.pose,
    Pose.inverse, Pose.apply, Quat.one, Quat.conjugate, Quat.rotate, Quat.vec, V3.cross, V3.smul, V3.zero]

theorem ball_apply (ref x : V3 ℝ) : (ball ref).base.pose.apply x = x := by
  ext <;> simp [ball, Ellipsoid.ofBase, Base.mkRef, State.ofPosition, Pose.ofPosition, Base.pose,
    Pose.apply, Quat.one, Quat.rotate, Quat.vec, V3.cross, V3.smul, V3.zero]

theorem ball_rotate (ref x : V3 ℝ) : (ball ref).base.pose.orientation.rotate x = x := by
  ext <;> simp [ball, Ellipsoid.ofBase, Base.mkRef, State.ofPosition, Pose.ofPosition, Base.pose,
    Quat.one, Quat.rotate, Quat.vec, V3.cross, V3.smul]

theorem ball_dist (ref x : V3 ℝ) : gdist (ball ref) 0 x = x.x ^ 2 + x.y ^ 2 + x.z ^ 2 := by
  have := dist_apply (ball_smooth ref) x
  rw [ball_apply] at this
  rw [this]
  simp [level, halfLengths, ball, Ellipsoid.ofBase, V3.const, V3.zero, Base.mkRef]

theorem ball_normal (ref x : V3 ℝ) (hx : V3.norm x = 1) : (ball ref).normalToAgent x 0 = x := by
  rw [Ellipsoid.normal_frame (ball ref) x 0 1 1 1 (ball_smooth ref).curv (ball_smooth ref).long, ball_inv]
  have e1 : (⟨(2 * ((1 : ℕ) : ℝ) * x.x / ((halfLengths (ball ref) (V3.const 0)).x * (halfLengths (ball ref) (V3.const 0)).x)) ^ (2 * 1 - 1),
      (2 * ((1 : ℕ) : ℝ) * x.y / ((halfLengths (ball ref) (V3.const 0)).y * (halfLengths (ball ref) (V3.const 0)).y)) ^ (2 * 1 - 1),
      (2 * ((1 : ℕ) : ℝ) * x.z / ((halfLengths (ball ref) (V3.const 0)).z * (halfLengths (ball ref) (V3.const 0)).z)) ^ (2 * 1 - 1)⟩ : V3 ℝ)
      = V3.smul 2 x := by
    ext <;> simp [V3.smul, halfLengths, ball, Ellipsoid.ofBase, V3.const, V3.zero, Base.mkRef]
  rw [e1]
  have hn : V3.norm (V3.smul 2 x) = 2 := by rw [V3.norm_smul, hx]; norm_num
  have hne : V3.smul 2 x ≠ V3.zero := by
    intro h0; rw [h0, V3.norm_eq_zero.mpr rfl] at hn; norm_num at hn
  rw [V3.normalized_of_ne hne, hn]
  ext <;> simp [V3.smul]

theorem ball_slope (ref x v : V3 ℝ) (hx : V3.norm x = 1) (s : ℝ) :
    Slope (ball ref) 0 x v s ↔ s = 2 * V3.dot x v := by
  have hne : x ≠ V3.zero := by
    intro h0; rw [h0, V3.norm_eq_zero.mpr rfl] at hx; norm_num at hx
  obtain ⟨c, hc, h⟩ := slope_world (ball_smooth ref) hne
  simp only [ball_apply, ball_rotate, ball_normal ref x hx] at h
  have hxx : V3.dot x x = 1 := (V3.norm_eq_one_iff x).mp hx
  -- find `c` from the derivative along `x` itself
  have h1 : Slope (ball ref) 0 x x (c * V3.dot x x) := (h x _).mpr rfl
  have h2 : HasDerivAt (fun t : ℝ => gdist (ball ref) 0 (x + V3.smul t x)) 2 0 := by
    have e1 : (fun t : ℝ => gdist (ball ref) 0 (x + V3.smul t x)) = fun t : ℝ => (1 + t) ^ 2 := by
      funext t
      rw [ball_dist]
      simp only [V3.add_x, V3.add_y, V3.add_z, V3.smul]
      simp only [V3.dot] at hxx
      linear_combination (1 + t) ^ 2 * hxx
    rw [e1]
    have h3 : HasDerivAt (fun t : ℝ => 1 + t) 1 0 := (hasDerivAt_id (0 : ℝ)).const_add 1
    have := h3.fun_pow 2
    simpa using this
  have h3 := h1.unique h2
  rw [hxx, mul_one] at h3
  rw [h, h3]

/-- The modulation matrix for the ball with the agent at (1,0,0) and the reference point (2/5,0,4/5). -/
theorem ball_matrix (h : Heap ℝ) (v : V3 ℝ) :
    ∃ M B, modulationMatrix h (agentAt ⟨1, 0, 0⟩ v) (.ellipsoid (ball ⟨2 / 5, 0, 4 / 5⟩)) = .ok (M, B, 1) ∧
      M.mulVec ⟨0, 0, -1⟩ = ⟨-(24 / 25), 0, -(18 / 25)⟩ := by
  have hx : V3.norm (⟨1, 0, 0⟩ : V3 ℝ) = 1 := by rw [V3.norm_eq_one_iff]; simp [V3.sqNorm, V3.dot]
  have hm := matrix_ellipsoid h (agentAt ⟨1, 0, 0⟩ v) (ball ⟨2 / 5, 0, 4 / 5⟩) rfl
  have hp : (agentAt ⟨1, 0, 0⟩ v).state.position = ⟨1, 0, 0⟩ := rfl
  have hmg : (agentAt ⟨1, 0, 0⟩ v).margin = 0 := rfl
  have hd : gdist (ball ⟨2 / 5, 0, 4 / 5⟩) 0 ⟨1, 0, 0⟩ = 1 := by rw [ball_dist]; norm_num
  have hr : referenceDirection (ball ⟨2 / 5, 0, 4 / 5⟩).base.pose ⟨1, 0, 0⟩ ⟨2 / 5, 0, 4 / 5⟩ =
      ⟨3 / 5, 0, -(4 / 5)⟩ := by
    unfold referenceDirection
    rw [ball_inv, ball_inv]
    have e1 : (⟨1, 0, 0⟩ : V3 ℝ) - ⟨2 / 5, 0, 4 / 5⟩ = ⟨3 / 5, 0, -(4 / 5)⟩ := by
      ext <;> norm_num
    have hn : V3.norm (⟨3 / 5, 0, -(4 / 5)⟩ : V3 ℝ) = 1 := by
      rw [V3.norm_eq_one_iff]; norm_num [V3.sqNorm, V3.dot]
    have hne : (⟨3 / 5, 0, -(4 / 5)⟩ : V3 ℝ) ≠ V3.zero := by
      intro h0; rw [h0, V3.norm_eq_zero.mpr rfl] at hn; norm_num at hn
    rw [e1, V3.normalized_of_ne hne, hn]
    ext <;> simp [V3.smul]
  have ht : tangentVector (⟨1, 0, 0⟩ : V3 ℝ) = ⟨0, -1, 0⟩ := tangent_planar hx rfl
  rw [hp, hmg, hd, hr, ball_normal _ _ hx] at hm
  refine ⟨_, _, hm, ?_⟩
  rw [modulationProduct_mulVec (unit' (ball_smooth _)), ball_rotate]
  have e2 : (ball ⟨2 / 5, 0, 4 / 5⟩).base.pose.orientation.conjugate.rotate ⟨0, 0, -1⟩ = ⟨0, 0, -1⟩ := by
    ext <;> simp [ball, Ellipsoid.ofBase, Base.mkRef, State.ofPosition, Pose.ofPosition, Base.pose,
      Quat.one, Quat.rotate, Quat.conjugate, Quat.vec, V3.cross, V3.smul]
  rw [e2, C34_inside 1 1 (le_refl _)]
  simp only [referenceBasis, ht, M3.mulVec, M3.had, M3.inverse, M3.det, V3.cross, V3.mk.injEq]
  norm_num

/-- C37 is false away from the plane: a ball, the agent on its surface at (1,0,0), the reference point
(2/5,0,4/5) inside the ball; the velocity (0,0,-1) is tangent, but the modulated velocity points into the
ball. -/
theorem C37_negation : ∃ (a : Agent ℝ) (e : Ellipsoid ℝ) (ref v : V3 ℝ) (M B : M3 ℝ) (s : ℝ),
    Smooth e a.margin 1 ∧ e.base.refPos = some ref ∧ gdist e a.margin ref < 1 ∧
    gdist e a.margin a.state.position = 1 ∧ modulationMatrix [] a (.ellipsoid e) = .ok (M, B, 1) ∧
    Slope e a.margin a.state.position v 0 ∧ Slope e a.margin a.state.position (M.mulVec v) s ∧ s < 0 := by
  have hx : V3.norm (⟨1, 0, 0⟩ : V3 ℝ) = 1 := by rw [V3.norm_eq_one_iff]; simp [V3.sqNorm, V3.dot]
  obtain ⟨M, B, hm, hv⟩ := ball_matrix [] V3.zero
  refine ⟨agentAt ⟨1, 0, 0⟩ V3.zero, ball ⟨2 / 5, 0, 4 / 5⟩, ⟨2 / 5, 0, 4 / 5⟩, ⟨0, 0, -1⟩, M, B,
    -(48 / 25), ball_smooth _, rfl, ?_, ?_, hm, ?_, ?_, by norm_num⟩
  · show gdist (ball _) 0 _ < 1
    rw [ball_dist]; norm_num
  · show gdist (ball _) 0 ⟨1, 0, 0⟩ = 1
    rw [ball_dist]; norm_num
  · exact (ball_slope _ ⟨1, 0, 0⟩ _ hx _).mpr (by simp [V3.dot])
  · rw [hv]
    exact (ball_slope _ ⟨1, 0, 0⟩ _ hx _).mpr (by norm_num [V3.dot])

/-- The obstacle with half lengths 1, 2, 1 and curvature 2. -/
def boxy : Ellipsoid ℝ := ⟨Base.mkPos "boxy" V3.zero V3.zero, ⟨1, 2, 1⟩, ⟨2, 2, 2⟩⟩

/-- C37 is false for curvature 2 with different lengths, even in the plane and with centred reference
point: inside such an obstacle, at (1/2,1,0), there is a velocity whose modulation still leads
further inside. -/
theorem C37_negation_curvature : ∃ (a : Agent ℝ) (v : V3 ℝ) (M B : M3 ℝ) (d s : ℝ),
    HasCurv boxy 2 2 2 ∧ boxy.base.orientation.norm = 1 ∧ boxy.base.refPos = some boxy.base.position ∧
    AllGt (halfLengths boxy (V3.const a.margin)) (1 / 10000) ∧ InPlane boxy a.state.position boxy.base.position ∧
    0 < d ∧ d ≤ 1 ∧ modulationMatrix [] a (.ellipsoid boxy) = .ok (M, B, d) ∧
    Slope boxy a.margin a.state.position (M.mulVec v) s ∧ s < 0 := by
  have hk : HasCurv boxy 2 2 2 := by simp [HasCurv, boxy]
  have hq : boxy.base.orientation.norm = 1 := by
    simp [boxy, Base.orientation, State.orientation, Base.mkPos, State.ofPosition,
      Pose.ofPosition, Quat.norm, Quat.sqNorm, Quat.one]
  have hq' : boxy.base.pose.orientation.IsUnit := (Quat.isUnit_iff_norm _).mpr hq
  have hl : AllGt (halfLengths boxy (V3.const 0)) (1 / 10000) := by
    norm_num [AllGt, halfLengths, boxy, V3.const, V3.zero, Base.mkPos]
  have happ : ∀ x, boxy.base.pose.apply x = x := by
    intro x
    ext <;> simp [boxy, Base.mkPos, State.ofPosition, Pose.ofPosition, Base.pose,
      Pose.apply, Quat.one, Quat.rotate, Quat.vec, V3.cross, V3.smul, V3.zero]
  have hinv : ∀ x, boxy.base.pose.inverse.apply x = x := by
    intro x; conv_lhs => rw [← happ x]
    exact Pose.apply_inverse_apply hq' x
  have hrot : ∀ x, boxy.base.pose.orientation.rotate x = x := by
    intro x
    ext <;> simp [boxy, Base.mkPos, State.ofPosition, Pose.ofPosition, Base.pose,
      Quat.one, Quat.rotate, Quat.vec, V3.cross, V3.smul]
  have hpos : boxy.base.position = V3.zero := rfl
  set y : V3 ℝ := ⟨1 / 2, 1, 0⟩ with hy
  have hdist : ∀ x, gdist boxy 0 x = level ⟨1, 2, 1⟩ 2 2 2 x := by
    intro x
    have := Ellipsoid.distance_eq boxy (V3.const 0) x 2 2 2 hk hq' hl
    rw [happ] at this
    rw [gdist, this]
    congr 1
    ext <;> simp [halfLengths, boxy, V3.const, V3.zero, Base.mkPos]
  have hd : gdist boxy 0 y = 1 / 8 := by rw [hdist]; norm_num [level, hy]
  have hy0 : y ≠ ⟨0, 0, 0⟩ := by simp [hy]
  obtain ⟨hn1, hny⟩ := C25_normal_unit_outward boxy y 0 2 2 2 hk hq hl hy0
  rw [happ] at hn1 hny
  have hn : boxy.normalToAgent y 0 = V3.normalized ⟨8, 1, 0⟩ := by
    rw [Ellipsoid.normal_frame boxy y 0 2 2 2 hk hl, hinv]
    congr 1
    ext <;> norm_num [halfLengths, boxy, V3.const, V3.zero, Base.mkPos, hy]
  have hne : (⟨8, 1, 0⟩ : V3 ℝ) ≠ V3.zero := by simp [V3.zero]
  have hnz : (boxy.normalToAgent y 0).z = 0 := by
    rw [hn, V3.normalized_of_ne hne]; simp [V3.smul]
  have hnv : V3.dot (boxy.normalToAgent y 0) ⟨1, -8, 0⟩ = 0 := by
    rw [hn, V3.normalized_of_ne hne, V3.smul_dot]; simp [V3.dot]
  have hr : referenceDirection boxy.base.pose y boxy.base.position = V3.smul (1 / V3.norm y) y := by
    unfold referenceDirection
    rw [hinv, hinv, hpos, V3.sub_zero', V3.normalized_of_ne hy0]
  have hnr : V3.dot (boxy.normalToAgent y 0) (referenceDirection boxy.base.pose y boxy.base.position) ≠ 0 := by
    rw [hr, V3.dot_smul]
    have := V3.norm_pos hy0
    positivity
  have hrz : (referenceDirection boxy.base.pose y boxy.base.position).z = 0 := by
    rw [hr]; simp [V3.smul, hy]
  have hm := matrix_ellipsoid [] (agentAt y V3.zero) boxy rfl
  have hp : (agentAt y V3.zero).state.position = y := rfl
  have hmg : (agentAt y V3.zero).margin = 0 := rfl
  rw [hp, hmg, hd] at hm
  have hdet := det_planar hn1 hnz hrz hnr
  have hact := frameAct_tangent (d := diagonalEigenvalues (1 / 8) 1) hdet (h3_planar hn1 hnz hrz) hnr
    (by rw [C34_inside _ _ (by norm_num)]) hnv
  refine ⟨agentAt y V3.zero, ⟨1, -8, 0⟩, _, _, _, -3, hk, hq, rfl, hl, ⟨⟨1 / 2, 1, (happ _).symm⟩, ⟨0, 0, ?_⟩⟩,
    by norm_num, by norm_num, hm, ?_, by norm_num⟩
  · rw [happ]; rfl
  · rw [hp, hmg]
    have e1 : (⟨1, -8, 0⟩ : V3 ℝ) = boxy.base.pose.orientation.rotate ⟨1, -8, 0⟩ := (hrot _).symm
    rw [e1, modulationProduct_frame hq']
    have hpos' : boxy.base.position = (Base.mkPos "boxy" V3.zero V3.zero : Base ℝ).position := rfl
    have goal : Slope boxy 0 y (V3.smul 2 ⟨1, -8, 0⟩) (-3) := by
      have h1 := Ellipsoid.hasDerivAt_level ⟨1, 2, 1⟩ 2 2 2 y (V3.smul 2 ⟨1, -8, 0⟩)
      unfold Slope
      convert h1 using 1
      · funext t; rw [hdist]
      · norm_num [hy, V3.smul]
    have h2 : (diagonalEigenvalues (1 / 8 : ℝ) 1).y = 2 := by rw [C34_inside _ _ (by norm_num)]
    rw [h2] at hact
    have hact' : frameAct (referenceBasis (boxy.normalToAgent y 0)
        (referenceDirection boxy.base.pose y V3.zero)) (diagonalEigenvalues (1 / 8) 1) ⟨1, -8, 0⟩ =
        V3.smul 2 ⟨1, -8, 0⟩ := hact
    rw [hact', hrot]
    exact goal

/-- C36 is false away from the plane: in the same situation the tangent direction (0,0,-1) is not doubled
by the modulation matrix (and not even kept tangent). -/
theorem C36_negation : ∃ (a : Agent ℝ) (e : Ellipsoid ℝ) (ref u : V3 ℝ) (M B : M3 ℝ),
    Smooth e a.margin 1 ∧ e.base.refPos = some ref ∧ gdist e a.margin ref < 1 ∧
    gdist e a.margin a.state.position = 1 ∧ modulationMatrix [] a (.ellipsoid e) = .ok (M, B, 1) ∧
    Slope e a.margin a.state.position u 0 ∧ ∀ c : ℝ, M.mulVec u ≠ V3.smul c u := by
  have hx : V3.norm (⟨1, 0, 0⟩ : V3 ℝ) = 1 := by rw [V3.norm_eq_one_iff]; simp [V3.sqNorm, V3.dot]
  obtain ⟨M, B, hm, hv⟩ := ball_matrix [] V3.zero
  refine ⟨agentAt ⟨1, 0, 0⟩ V3.zero, ball ⟨2 / 5, 0, 4 / 5⟩, ⟨2 / 5, 0, 4 / 5⟩, ⟨0, 0, -1⟩, M, B,
    ball_smooth _, rfl, ?_, ?_, hm, ?_, ?_⟩
  · show gdist (ball _) 0 _ < 1
    rw [ball_dist]; norm_num
  · show gdist (ball _) 0 ⟨1, 0, 0⟩ = 1
    rw [ball_dist]; norm_num
  · exact (ball_slope _ ⟨1, 0, 0⟩ _ hx _).mpr (by simp [V3.dot])
  · intro c
    rw [hv]
    intro h0
    have := congrArg V3.x h0
    norm_num [V3.smul] at this

/-- Non-vacuity of the planar statements: the ball with the reference point (0,1/2,0), agent at (2,1,0). -/
example : Smooth (ball ⟨0, 1 / 2, 0⟩) (agentAt ⟨2, 1, 0⟩ ⟨-1, 0, 0⟩).margin 1 ∧
    gdist (ball ⟨0, 1 / 2, 0⟩) (agentAt ⟨2, 1, 0⟩ ⟨-1, 0, 0⟩).margin ⟨0, 1 / 2, 0⟩ <
      gdist (ball ⟨0, 1 / 2, 0⟩) (agentAt ⟨2, 1, 0⟩ ⟨-1, 0, 0⟩).margin (agentAt ⟨2, 1, 0⟩ ⟨-1, 0, 0⟩).state.position ∧
    InPlane (ball ⟨0, 1 / 2, 0⟩) (agentAt ⟨2, 1, 0⟩ ⟨-1, 0, 0⟩).state.position ⟨0, 1 / 2, 0⟩ ∧
    1 < gdist (ball ⟨0, 1 / 2, 0⟩) (agentAt ⟨2, 1, 0⟩ ⟨-1, 0, 0⟩).margin (agentAt ⟨2, 1, 0⟩ ⟨-1, 0, 0⟩).state.position := by
  refine ⟨ball_smooth _, ?_, ⟨⟨2, 1, (ball_apply _ _).symm⟩, ⟨0, 1 / 2, (ball_apply _ _).symm⟩⟩, ?_⟩
  · show gdist (ball _) 0 _ < gdist (ball _) 0 ⟨2, 1, 0⟩
    rw [ball_dist, ball_dist]; norm_num
  · show 1 < gdist (ball _) 0 ⟨2, 1, 0⟩
    rw [ball_dist]; norm_num

end DOA.Props
