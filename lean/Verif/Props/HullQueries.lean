import Verif.Props.Hull
import Verif.Props.Moving
import Mathlib.Analysis.Real.Pi.Irrational

/-!
# C56 (real points), C57, C58, C60, C62: hull queries
-/

set_option linter.unusedSectionVars false
set_option linter.unusedSimpArgs false

namespace DOA.Props
open DOA DOA.Spec DOA.Hull DOA.Ellipsoid

/-! ## the chosen surface point -/

theorem dropWhile_spec {β : Type} (p : β → Bool) (l : List β) {q : β} {rest : List β} (h : l.dropWhile p = q :: rest) :
    p q = false ∧ q ∈ l ∧ (∀ x ∈ l, p x = false → x ∈ q :: rest) ∧ (q :: rest).Sublist l := by
  induction l with
  | nil => simp at h
  | cons a l ih =>
    rw [List.dropWhile_cons] at h
    cases hpa : p a with
    | true =>
      rw [hpa] at h
      obtain ⟨h1, h2, h3, h4⟩ := ih h
      refine ⟨h1, List.mem_cons_of_mem _ h2, ?_, h4.trans (List.sublist_cons_self a l)⟩
      intro x hx hp
      rcases List.mem_cons.mp hx with rfl | hx
      · rw [hpa] at hp; cases hp
      · exact h3 x hx hp
    | false =>
      rw [hpa] at h
      injection h with h1 h2
      subst h1 h2
      exact ⟨hpa, List.mem_cons_self, fun x hx _ => hx, List.Sublist.refl _⟩

theorem dropWhile_nil {β : Type} (p : β → Bool) (l : List β) (h : l.dropWhile p = []) : ∀ x ∈ l, p x = true := by
  induction l with
  | nil => simp
  | cons a l ih =>
    rw [List.dropWhile_cons] at h
    cases hpa : p a with
    | true =>
      rw [hpa] at h
      intro x hx
      rcases List.mem_cons.mp hx with rfl | hx
      · exact hpa
      · exact ih h x hx
    | false => rw [hpa] at h; simp at h

/-- A point (in polar coordinates) counts as being on the ray with angle `φ` if its angle, possibly after one
full turn back, is within 10⁻⁴ of `φ`. -/
def OnRay (phi : ℝ) (q : V3 ℝ) : Prop :=
  |q.z - phi| ≤ 1 / 10000 ∨ |q.z - 2 * Real.pi - phi| ≤ 1 / 10000

theorem offRay_iff (phi : ℝ) (q : V3 ℝ) : offRay phi q = false ↔ OnRay phi q := by
  simp only [offRay, OnRay, Bool.and_eq_false_iff, decide_eq_false_iff_not, not_lt, lit_real, absS_real, pi_real]
  norm_num

/-- C62.  The surface point of a ray, before smoothing: if no intersection point is on the ray it is the point of
radius `max(min_radius, min_radius ± margin)` with the angle of the ray; otherwise it has the angles of one of the
on-ray intersection points, namely of a farthest one for an outside hull and of a nearest one for an inside hull, and
the radius is that of this point, plus (outside) or minus (inside) the safety margin, but at least the minimum
radius. -/
theorem C62_surface_point (b : Bool) (m margin phi : ℝ) (pts : List (V3 ℝ)) :
    let s := if b then -margin else margin
    ((∀ q ∈ pts, ¬ OnRay phi q) →
      surfacePoint b m margin phi pts = ⟨max m (m + s), Real.pi / 2, phi⟩) ∧
    ((∃ q ∈ pts, OnRay phi q) → ∃ q ∈ pts, OnRay phi q ∧
      surfacePoint b m margin phi pts = ⟨max m (q.x + s), q.y, q.z⟩ ∧
      ∀ q' ∈ pts, OnRay phi q' → if b then q.x ≤ q'.x else q'.x ≤ q.x) := by
  intro s
  set sorted := if b then MathTools.sortBy (fun l r : V3 ℝ => decide (l.x < r.x)) pts
    else MathTools.sortBy (fun l r : V3 ℝ => decide (r.x < l.x)) pts with hsorted
  have hmem : ∀ q, q ∈ sorted ↔ q ∈ pts := by
    intro q
    rw [hsorted]
    split <;> exact (MathTools.sortBy_perm _ pts).mem_iff
  have hpw : sorted.Pairwise fun q q' => if b then q.x ≤ q'.x else q'.x ≤ q.x := by
    rw [hsorted]
    cases b with
    | true => exact MathTools.sortBy_key_sorted (fun q : V3 ℝ => q.x) pts
    | false => exact MathTools.sortBy_key_sorted_desc (fun q : V3 ℝ => q.x) pts
  unfold surfacePoint
  simp only []
  rw [← hsorted]
  cases hd : sorted.dropWhile (offRay phi) with
  | nil =>
    have hall := dropWhile_nil _ _ hd
    refine ⟨fun _ => ?_, ?_⟩
    · simp only [maxS_real, acos_real, Real.arccos_zero]; rfl
    · rintro ⟨q, hq, hon⟩
      have := hall q ((hmem q).mpr hq)
      rw [(offRay_iff phi q).mpr hon] at this
      cases this
  | cons q rest =>
    obtain ⟨h1, h2, h3, h4⟩ := dropWhile_spec _ _ hd
    refine ⟨fun hno => absurd ((offRay_iff phi q).mp h1) (hno q ((hmem q).mp h2)), fun _ => ?_⟩
    refine ⟨q, (hmem q).mp h2, (offRay_iff phi q).mp h1, by simp only [maxS_real]; rfl, ?_⟩
    intro q' hq' hon
    have hq'' := h3 q' ((hmem q').mpr hq') ((offRay_iff phi q').mpr hon)
    have hpw' := List.pairwise_cons.mp (hpw.sublist h4)
    rcases List.mem_cons.mp hq'' with rfl | hr
    · cases b <;> simp
    · exact hpw'.1 q' hr

theorem surfacePoint_onRay (b : Bool) (m margin phi : ℝ) (pts : List (V3 ℝ)) :
    OnRay phi (surfacePoint b m margin phi pts) := by
  by_cases h : ∃ q ∈ pts, OnRay phi q
  · obtain ⟨q, -, hq, he, -⟩ := (C62_surface_point b m margin phi pts).2 h
    rw [he]; exact hq
  · push Not at h
    rw [(C62_surface_point b m margin phi pts).1 h]
    left; norm_num

example : surfacePoint false (1 / 2) (1 / 4) 0 [⟨1, 0, 0⟩, ⟨3, 0, 0⟩, ⟨5, 0, 1⟩] = (⟨13 / 4, 0, 0⟩ : V3 ℝ) := by
  have h1 : OnRay 0 (⟨1, 0, 0⟩ : V3 ℝ) := by left; norm_num
  have h3 : OnRay 0 (⟨3, 0, 0⟩ : V3 ℝ) := by left; norm_num
  have h5 : ¬ OnRay 0 (⟨5, 0, 1⟩ : V3 ℝ) := by
    have := Real.two_le_pi
    rintro (h | h)
    · norm_num at h
    · rw [abs_le] at h; linarith [h.1]
  obtain ⟨q, hq, hon, he, hbest⟩ := (C62_surface_point false (1 / 2) (1 / 4) 0
    [⟨1, 0, 0⟩, ⟨3, 0, 0⟩, ⟨5, 0, 1⟩]).2 ⟨_, List.mem_cons_self, h1⟩
  simp only [List.mem_cons, List.not_mem_nil, or_false] at hq
  have := hbest ⟨3, 0, 0⟩ (by simp) h3
  rcases hq with rfl | rfl | rfl
  · norm_num at this
  · rw [he]; norm_num
  · exact absurd hon h5

/-! ## C56 over the reals -/

/-- The last column of a computed hull is at most 2·10⁻⁴ short of `π`. -/
theorem last_angle {k k' : Hull ℝ} (hk : HullOK k) {prims : List (Oracle ℝ)} {ref : V3 ℝ}
    (h : k.compute prims ref = .ok k') {q : V3 ℝ} (hq : k'.polar[k.resolution - 1]? = some q) :
    Real.pi - 2 / 10000 ≤ q.z := by
  obtain ⟨phi, hphi, hang⟩ := compute_angles hk h
  obtain ⟨l, hl, hlen, -, hlast, -⟩ := MathTools.linspace_ok (-CMath.pi : ℝ) (CMath.pi - lit 1 10000)
    (k.resolution : Int) (by have := hk.1; omega)
  rw [hphi] at hl
  injection hl with hl
  subst hl
  simp only [Int.toNat_natCast] at hlast
  have h1 : (k'.polar.map angles)[k.resolution - 1]? = some (angles q) := by rw [List.getElem?_map, hq]; rfl
  rw [hang, List.getElem?_map, surfacePoints, List.getElem?_map, hlast] at h1
  simp only [Option.map_some, Option.some.injEq] at h1
  have hz := congrArg Prod.snd h1
  have hon := surfacePoint_onRay k.isInside k.minRadius k.base.margin.x (CMath.pi - lit 1 10000)
    (rayPoints ((k.base.setRef ref).setPosition ref).pose ref prims (CMath.pi - lit 1 10000))
  simp only [OnRay] at hon
  simp only [angles] at hz
  rw [hz] at hon
  simp only [pi_real, lit_real] at hon
  have := Real.pi_pos
  rcases hon with hon | hon <;> rw [abs_le] at hon <;> norm_num at hon ⊢ <;> linarith [hon.1]

/-- C56, the part that holds: in a computed hull (any primitives, reference point, previous contents) the queries are
defined for every point whose angle is at most `π - 2·10⁻⁴`.
Full statement (false, see `C56_negation`): for every point. -/
theorem C56_defined_partial {k k' : Hull ℝ} (hk : HullOK k) {prims : List (Oracle ℝ)} {ref : V3 ℝ}
    (h : k.compute prims ref = .ok k') (p margin : V3 ℝ) (hp : angleOf k' p ≤ Real.pi - 2 / 10000) :
    (∃ d, k'.distanceToPoint p margin = .ok d) ∧ (∃ b, k'.pointIsInside p = .ok b) ∧
      ∃ n, k'.normalToAgent p = .ok n := by
  obtain ⟨k'', h', hk', hres, -⟩ := compute_ok hk prims ref
  rw [h] at h'; injection h' with h'; subst h'
  have hcol : k'.column p < k'.resolution := by
    have h0 := hk'.1
    have hl : (k'.polar.map (·.z)) ≠ [] := by
      intro he
      have := congrArg List.length he
      rw [List.length_map, hk'.2.1] at this
      simp at this; omega
    have := MathTools.lowerBound_lt (k'.polar.map (·.z)) (angleOf k' p) hl (by
      intro w hw
      rw [List.getLast?_eq_getElem?, List.length_map, hk'.2.1, hres, List.getElem?_map] at hw
      cases hq : k'.polar[k.resolution - 1]? with
      | none => rw [hq] at hw; cases hw
      | some q =>
        rw [hq] at hw
        simp only [Option.map_some, Option.some.injEq] at hw
        have := last_angle hk h hq
        rw [← hw]
        exact not_lt.mpr (hp.trans this))
    rw [List.length_map, hk'.2.1] at this
    exact this
  obtain ⟨h1, h2, c1, c2, -, -, h3⟩ := (C56_exact k' hk' p margin).1 hcol
  exact ⟨h1, h2, _, h3⟩

/-- the rays of a hull: strictly between `-π` and `π` except the first -/
theorem grid_range {n : ℕ} (hn : 2 ≤ n) {phi : List ℝ}
    (h : MathTools.linspace (-CMath.pi : ℝ) (CMath.pi - lit 1 10000) (n : Int) = .ok phi) {i : ℕ} (hi : 1 ≤ i) {p : ℝ}
    (hp : phi[i]? = some p) : -Real.pi < p ∧ p < Real.pi := by
  obtain ⟨l, hl, hlen, -, hlast, hmid⟩ := MathTools.linspace_ok (-CMath.pi : ℝ) (CMath.pi - lit 1 10000)
    (n : Int) (by omega)
  rw [h] at hl
  injection hl with hl
  subst hl
  simp only [Int.toNat_natCast] at hlast hlen hmid
  have hi' : i < n := by rw [← hlen]; exact (List.getElem?_eq_some_iff.mp hp).1
  have hpi := Real.two_le_pi
  by_cases hl : i + 1 < n
  · rw [hmid i hi hl] at hp
    injection hp with hp
    have h1 : (0 : ℝ) < (i : ℝ) := by exact_mod_cast hi
    have h2 : (i : ℝ) < (n : ℝ) - 1 := by
      have : ((i + 1 : ℕ) : ℝ) < (n : ℝ) := by exact_mod_cast hl
      push_cast at this; linarith
    have h3 : (0 : ℝ) < (n : ℝ) - 1 := by linarith
    simp only [pi_real, lit_real, MathTools.ofInt] at hp
    push_cast at hp
    have h4 : p = -Real.pi + (i : ℝ) / ((n : ℝ) - 1) * (2 * Real.pi - 1 / 10000) := by
      rw [← hp]; field_simp; ring
    have h5 : 0 < (i : ℝ) / ((n : ℝ) - 1) := by positivity
    have h6 : (i : ℝ) / ((n : ℝ) - 1) < 1 := by rw [div_lt_one h3]; exact h2
    constructor
    · rw [h4]; nlinarith
    · rw [h4]; nlinarith
  · have hin : i = n - 1 := by omega
    rw [hin, hlast] at hp
    injection hp with hp
    simp only [pi_real, lit_real] at hp
    rw [← hp]
    constructor
    · norm_num; linarith
    · norm_num

/-- The point is on the straight line through the hull's centre along the ray. -/
def OnRayLine (phi : ℝ) (y : V3 ℝ) : Prop := y.y * Real.cos phi = y.x * Real.sin phi

theorem angle_ne_pi {phi : ℝ} (h1 : -Real.pi < phi) (h2 : phi < Real.pi) {y : V3 ℝ} (hl : OnRayLine phi y)
    (hon : OnRay phi (MathTools.cartesianToPolar y)) : (MathTools.cartesianToPolar y).z < Real.pi := by
  simp only [MathTools.cartesianToPolar, atan2_real, OnRay] at hon ⊢
  refine lt_of_le_of_ne (Complex.arg_le_pi _) fun he => ?_
  rw [he] at hon
  obtain ⟨hx, hy⟩ := Complex.arg_eq_pi_iff.mp he
  simp only at hx hy
  have hs : Real.sin phi = 0 := by
    have : y.x * Real.sin phi = 0 := by rw [← hl, hy, zero_mul]
    rcases mul_eq_zero.mp this with h | h
    · linarith
    · exact h
  have h0 : phi = 0 := (Real.sin_eq_zero_iff_of_lt_of_lt h1 h2).mp hs
  subst h0
  have := Real.two_le_pi
  rcases hon with hon | hon <;> rw [abs_le] at hon <;> linarith [hon.1, hon.2]

/-- C56 is false for every computed hull: if the primitives' intersection points are on the lines they were computed
for (as those of ellipsoids are), the three queries are undefined behaviour at every point straight in the negative
x direction of the reference point. -/
theorem C56_negation_lines {k k' : Hull ℝ} (hk : HullOK k) {prims : List (Oracle ℝ)} {ref : V3 ℝ}
    (h : k.compute prims ref = .ok k')
    (hlines : ∀ phi, MathTools.linspace (-CMath.pi : ℝ) (CMath.pi - lit 1 10000) k.resolution = .ok phi →
      ∀ f ∈ phi.tail, ∀ o ∈ prims, let pose := ((k.base.setRef ref).setPosition ref).pose
        let r := o ref (pose.apply (MathTools.polarToCartesian ⟨1, CMath.acos 0, f⟩))
        r.1 = true → OnRayLine f (pose.inverse.apply r.2.1) ∧ OnRayLine f (pose.inverse.apply r.2.2))
    (p margin : V3 ℝ) (hp : angleOf k' p = Real.pi) :
    k'.distanceToPoint p margin = .ub .indexOOB ∧ k'.pointIsInside p = .ub .indexOOB ∧
      k'.normalToAgent p = .ub .indexOOB := by
  obtain ⟨k'', h', hk', hres, -⟩ := compute_ok hk prims ref
  rw [h] at h'; injection h' with h'; subst h'
  refine C56_negation_general k' hk' p margin ?_
  intro i q hi hq
  rw [hp]
  obtain ⟨phi, hphi, hang⟩ := compute_angles hk h
  have h1 : (k'.polar.map angles)[i]? = some (angles q) := by rw [List.getElem?_map, hq]; rfl
  rw [hang, List.getElem?_map, surfacePoints, List.getElem?_map] at h1
  cases hf : phi[i]? with
  | none => rw [hf] at h1; cases h1
  | some f =>
    rw [hf] at h1
    simp only [Option.map_some, Option.some.injEq] at h1
    obtain ⟨hf1, hf2⟩ := grid_range hk.1 hphi hi hf
    have hz := congrArg Prod.snd h1
    simp only [angles] at hz
    rw [← hz]
    set pts := rayPoints ((k.base.setRef ref).setPosition ref).pose ref prims f with hpts
    by_cases hex : ∃ q ∈ pts, OnRay f q
    · obtain ⟨q, hq, hon, he, -⟩ := (C62_surface_point k.isInside k.minRadius k.base.margin.x f pts).2 hex
      rw [he]
      simp only [hpts, rayPoints, List.mem_flatMap] at hq
      obtain ⟨o, ho, hq⟩ := hq
      have hft : f ∈ phi.tail := by
        obtain ⟨j, rfl⟩ : ∃ j, i = j + 1 := ⟨i - 1, by omega⟩
        refine List.mem_of_getElem? (i := j) ?_
        rw [List.getElem?_tail]; exact hf
      have hl := hlines phi hphi f hft o ho
      split at hq
      · rename_i hr
        obtain ⟨hl1, hl2⟩ := hl hr
        simp only [List.mem_cons, List.not_mem_nil, or_false] at hq
        rcases hq with rfl | rfl
        · exact angle_ne_pi hf1 hf2 hl1 hon
        · exact angle_ne_pi hf1 hf2 hl2 hon
      · simp at hq
    · push Not at hex
      rw [(C62_surface_point k.isInside k.minRadius k.base.margin.x f pts).1 hex]
      exact hf2

theorem apply_one {pose : Pose ℝ} (h : pose.orientation = Quat.one) (v : V3 ℝ) : pose.apply v = v + pose.position := by
  ext <;> simp [Pose.apply, h, Quat.rotate, Quat.one, Quat.vec, V3.cross, V3.smul]

theorem inverse_apply_one {pose : Pose ℝ} (h : pose.orientation = Quat.one) (v : V3 ℝ) :
    pose.inverse.apply v = v - pose.position := by
  ext <;> simp [Pose.apply, Pose.inverse, h, Quat.rotate, Quat.one, Quat.vec, Quat.conjugate, V3.cross, V3.smul] <;> ring

/-- The points an ellipsoid rotated about z only returns are on the line through the two given points (seen from
above). -/
theorem intersection_on_line {e : Ellipsoid ℝ} (hz : ZRotated e) (hlx : (halfLengths e V3.zero).x ≠ 0)
    (hly : (halfLengths e V3.zero).y ≠ 0) (x1 x2 : V3 ℝ)
    (hne : (e.base.pose.inverse.apply x1).x ≠ (e.base.pose.inverse.apply x2).x)
    (h : (e.intersectionPoints x1 x2).1 = true) :
    (∃ t, (e.intersectionPoints x1 x2).2.1.x = x1.x + t * (x2.x - x1.x) ∧
      (e.intersectionPoints x1 x2).2.1.y = x1.y + t * (x2.y - x1.y)) ∧
    (∃ t, (e.intersectionPoints x1 x2).2.2.x = x1.x + t * (x2.x - x1.x) ∧
      (e.intersectionPoints x1 x2).2.2.y = x1.y + t * (x2.y - x1.y)) := by
  have hq := zrot_isUnit hz
  obtain ⟨y1, rfl⟩ : ∃ y, e.base.pose.apply y = x1 := ⟨_, Pose.apply_apply_inverse hq x1⟩
  obtain ⟨y2, rfl⟩ : ∃ y, e.base.pose.apply y = x2 := ⟨_, Pose.apply_apply_inverse hq x2⟩
  rw [Pose.apply_inverse_apply hq, Pose.apply_inverse_apply hq] at hne
  obtain ⟨-, h2, -⟩ := C27_line_intersection_partial e hz.1 hlx hly y1 y2 hne
  obtain ⟨u1, v1, u2, v2, -, e1, e2, ⟨⟨t1, a1, b1⟩, -⟩, ⟨⟨t2, a2, b2⟩, -⟩, -⟩ := h2 h
  rw [e1, e2]
  refine ⟨⟨t1, ?_, ?_⟩, ⟨t2, ?_, ?_⟩⟩
  · simp only [zrot_apply hz, a1, b1]; ring
  · simp only [zrot_apply hz, a1, b1]; ring
  · simp only [zrot_apply hz, a2, b2]; ring
  · simp only [zrot_apply hz, a2, b2]; ring

/-- No ray of a hull is parallel to the y axis (because `π` is irrational). -/
theorem grid_cos {n : ℕ} (hn : 2 ≤ n) {phi : List ℝ}
    (h : MathTools.linspace (-CMath.pi : ℝ) (CMath.pi - lit 1 10000) (n : Int) = .ok phi) {f : ℝ} (hf : f ∈ phi) :
    Real.cos f ≠ 0 := by
  obtain ⟨i, hi⟩ := List.mem_iff_getElem?.mp hf
  obtain ⟨l, hl, hlen, hfirst, hlast, hmid⟩ := MathTools.linspace_ok (-CMath.pi : ℝ) (CMath.pi - lit 1 10000)
    (n : Int) (by omega)
  rw [h] at hl
  injection hl with hl
  subst hl
  simp only [Int.toNat_natCast] at hlast hlen hmid
  have hi' : i < n := by rw [← hlen]; exact (List.getElem?_eq_some_iff.mp hi).1
  have h3 : (0 : ℝ) < (n : ℝ) - 1 := by
    have : ((2 : ℕ) : ℝ) ≤ (n : ℝ) := by exact_mod_cast hn
    push_cast at this; linarith
  have hval : f = -Real.pi + (i : ℝ) / ((n : ℝ) - 1) * (2 * Real.pi - 1 / 10000) := by
    rcases Nat.eq_zero_or_pos i with rfl | hpos
    · rw [hfirst] at hi; injection hi with hi; rw [← hi]; simp
    · by_cases hl : i + 1 < n
      · rw [hmid i hpos hl] at hi
        injection hi with hi
        simp only [pi_real, lit_real, MathTools.ofInt] at hi
        push_cast at hi
        rw [← hi]; field_simp; ring
      · have hin : i = n - 1 := by omega
        have hcast : (i : ℝ) = (n : ℝ) - 1 := by rw [hin, Nat.cast_sub (by omega)]; simp
        rw [hin, hlast] at hi
        injection hi with hi
        simp only [pi_real, lit_real] at hi
        rw [hcast, div_self h3.ne', ← hi]; push_cast; ring
  intro hc
  obtain ⟨k, hk⟩ := Real.cos_eq_zero_iff.mp hc
  -- π (2i/(n-1) - 1 - (2k+1)/2) = i/(n-1)/10000
  have key : Real.pi * ((4 * i : ℤ) - 2 * ((n : ℤ) - 1) - (2 * k + 1) * ((n : ℤ) - 1) : ℤ) = ((2 * i : ℤ) : ℝ) / 10000 := by
    have : -Real.pi + (i : ℝ) / ((n : ℝ) - 1) * (2 * Real.pi - 1 / 10000) = (2 * (k : ℝ) + 1) * Real.pi / 2 := by
      rw [← hval, hk]
    field_simp at this
    push_cast
    linarith
  have hne0 : ((4 * i : ℤ) - 2 * ((n : ℤ) - 1) - (2 * k + 1) * ((n : ℤ) - 1) : ℤ) ≠ 0 := by
    intro h0
    rw [h0] at key
    have : ((2 * i : ℤ) : ℝ) = 0 := by push_cast at key ⊢; linarith
    have hi0 : (i : ℤ) = 0 := by have : (2 * i : ℤ) = 0 := by exact_mod_cast this
                                 omega
    rw [hi0] at h0
    have h1 : (2 * k + 3) * ((n : ℤ) - 1) = 0 := by linarith
    rcases mul_eq_zero.mp h1 with h | h <;> omega
  apply irrational_pi
  refine ⟨(((2 * i : ℤ) : ℚ) / 10000) / (((4 * i : ℤ) - 2 * ((n : ℤ) - 1) - (2 * k + 1) * ((n : ℤ) - 1) : ℤ) : ℚ), ?_⟩
  have hne : ((((4 * i : ℤ) - 2 * ((n : ℤ) - 1) - (2 * k + 1) * ((n : ℤ) - 1) : ℤ)) : ℝ) ≠ 0 := by exact_mod_cast hne0
  rw [Rat.cast_div, Rat.cast_intCast, div_eq_iff hne, key]
  push_cast
  ring

/-- C56 is false: take any ellipsoids that are not rotated (any number, positions, lengths, curvatures), any
reference point, any hull with unrotated pose, of either kind, resolution, minimum radius, previous contents.  After
`compute_from_primitives`, the three queries are undefined behaviour at every point straight in the negative x
direction of the reference point. -/
theorem C56_negation {k k' : Hull ℝ} (hk : HullOK k) (hor : k.base.pose.orientation = Quat.one)
    (es : List (Ellipsoid ℝ))
    (hes : ∀ e ∈ es, e.base.pose.orientation = Quat.one ∧ (halfLengths e V3.zero).x ≠ 0 ∧ (halfLengths e V3.zero).y ≠ 0)
    (ref : V3 ℝ) (h : k.compute (es.map (·.intersectionPoints)) ref = .ok k') (t s : ℝ) (ht : 0 < t) (margin : V3 ℝ) :
    let p := ref + ⟨-t, 0, s⟩
    k'.distanceToPoint p margin = .ub .indexOOB ∧ k'.pointIsInside p = .ub .indexOOB ∧
      k'.normalToAgent p = .ub .indexOOB := by
  have hpose : ((k.base.setRef ref).setPosition ref).pose.orientation = Quat.one := hor
  have hpos : ((k.base.setRef ref).setPosition ref).pose.position = ref := rfl
  refine C56_negation_lines hk h ?_ _ margin ?_
  · intro phi hphi f hf o ho
    obtain ⟨e, he, rfl⟩ := List.mem_map.mp ho
    obtain ⟨ho, hlx, hly⟩ := hes e he
    intro pose r hr
    have hdir : pose.apply (MathTools.polarToCartesian ⟨1, CMath.acos 0, f⟩) =
        ref + ⟨Real.cos f, Real.sin f, 0⟩ := by
      rw [apply_one hpose]
      ext <;> simp [MathTools.polarToCartesian, Real.arccos_zero, Real.sin_pi_div_two, hpos, pose] <;> ring
    have hz : ZRotated e := by
      have ho' : e.base.orientation = Quat.one := ho
      refine ⟨by rw [ho']; simp [Quat.norm, Quat.sqNorm, Quat.one], by rw [ho']; rfl, by rw [ho']; rfl⟩
    have hne : (e.base.pose.inverse.apply ref).x ≠ (e.base.pose.inverse.apply
        (pose.apply (MathTools.polarToCartesian ⟨1, CMath.acos 0, f⟩))).x := by
      rw [hdir, inverse_apply_one ho, inverse_apply_one ho]
      have := grid_cos hk.1 hphi (List.mem_of_mem_tail hf)
      simp only [V3.sub_x, V3.add_x]
      intro hh
      exact this (by linarith)
    obtain ⟨⟨t1, a1, b1⟩, ⟨t2, a2, b2⟩⟩ := intersection_on_line hz hlx hly _ _ hne hr
    have hpi : ∀ v, pose.inverse.apply v = v - ref := fun v => inverse_apply_one hpose v
    constructor
    · rw [hpi]
      show (r.2.1 - ref).y * Real.cos f = (r.2.1 - ref).x * Real.sin f
      simp only [V3.sub_x, V3.sub_y]
      rw [show r.2.1.x = _ from a1, show r.2.1.y = _ from b1, hdir]
      simp only [V3.add_x, V3.add_y]; ring
    · rw [hpi]
      show (r.2.2 - ref).y * Real.cos f = (r.2.2 - ref).x * Real.sin f
      simp only [V3.sub_x, V3.sub_y]
      rw [show r.2.2.x = _ from a2, show r.2.2.y = _ from b2, hdir]
      simp only [V3.add_x, V3.add_y]; ring
  · obtain ⟨phi, p2, -, -, -, -, hb, -⟩ := compute_inv hk h
    rw [angleOf, hb, inverse_apply_one hpose, hpos]
    simp only [MathTools.cartesianToPolar, atan2_real, V3.sub_x, V3.sub_y, V3.add_x, V3.add_y]
    rw [Complex.arg_eq_pi_iff]
    constructor
    · show ref.x + -t - ref.x < 0; linarith
    · show ref.y + 0 - ref.y = 0; ring

/-- Non-vacuity: a newly constructed hull around the unit ball. -/
example : ∃ k', (Hull.mk' false 50 (1 / 2 : ℝ)).compute ([ballAt ⟨3, 1, 0⟩].map (·.intersectionPoints)) ⟨3, 1, 0⟩ = .ok k' ∧
    k'.pointIsInside (⟨3, 1, 0⟩ + ⟨-2, 0, 0⟩) = .ub .indexOOB := by
  have hk := hullOK_mk' false (show 2 ≤ 50 by norm_num) (1 / 2 : ℝ)
  obtain ⟨k', h, -⟩ := compute_ok hk ([ballAt ⟨3, 1, 0⟩].map (·.intersectionPoints)) ⟨3, 1, 0⟩
  refine ⟨k', h, (C56_negation hk rfl _ ?_ _ h 2 0 (by norm_num) V3.zero).2.1⟩
  intro e he
  rw [List.mem_singleton.mp he]
  refine ⟨rfl, ?_, ?_⟩ <;> norm_num [halfLengths, ballAt, Base.mkRef, Ellipsoid.ofBase, V3.const, V3.zero]

end DOA.Props
