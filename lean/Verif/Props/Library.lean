import Verif.Lemmas.Library
import Verif.Props.HullQueries

/-!
# C100: the standard algorithms are called within their contracts

`std::sort` and `std::lower_bound` have undefined behaviour for a comparison that is no strict weak ordering on the range, and
for a range that is not partitioned (Verif/Spec/Library.lean).  The comparisons passed to `std::sort` are those of the model
(`Hull.nearerFirst`, `Hull.fartherFirst`, `Heap.namedBefore`, `MathTools.compareTheta`); the comparisons of numbers are
examined over the ideal doubles, where NaN is not comparable to anything.
-/

set_option linter.unusedSectionVars false
set_option linter.unusedSimpArgs false

namespace DOA.Props
open DOA DOA.Spec DOA.Hull DOA.Ellipsoid DOA.Dbl

/-! ## `std::sort` -/

/-- The primitives of an aggregate can always be sorted by name (any memory, any names, equal ones included). -/
theorem C100_names {α : Type} (l : List (Ptr × Obj α)) : StrictWeakOn Heap.namedBefore l := by
  refine ⟨fun a _ => ?_, fun a _ b _ c _ h1 h2 => ?_, fun a _ b _ c _ h1 h2 h3 h4 => ?_⟩
  · simp [Heap.namedBefore, String.lt_irrefl]
  · simp only [Heap.namedBefore, decide_eq_true_eq] at h1 h2 ⊢
    exact String.lt_trans h1 h2
  · simp only [Heap.namedBefore, decide_eq_false_iff_not, String.not_lt] at h1 h2 h3 h4 ⊢
    exact ⟨String.le_trans h3 h1, String.le_trans h2 h4⟩

theorem strictWeakOn_flip {β : Type} {comp : β → β → Bool} {l : List β} (h : StrictWeakOn comp l) :
    StrictWeakOn (fun a b => comp b a) l :=
  ⟨h.irrefl, fun a ha b hb c hc h1 h2 => h.trans c hc b hb a ha h2 h1,
    fun a ha b hb c hc h1 h2 h3 h4 => (h.incomp a ha b hb c hc h2 h1 h4 h3).symm⟩

/-- A comparison of keys that are doubles is a strict weak ordering on the range exactly if no key is NaN or no key is less
than another. -/
theorem strictWeakOn_dbl_iff {β : Type} (key : β → Dbl) (l : List β) :
    StrictWeakOn (fun a b => decide (key a < key b)) l ↔
      (∀ a ∈ l, key a ≠ nan) ∨ (∀ a ∈ l, ∀ b ∈ l, ¬ key a < key b) := by
  constructor
  · intro h
    by_contra hcon
    push Not at hcon
    obtain ⟨⟨n, hn, hnan⟩, a, ha, b, hb, hab⟩ := hcon
    have := (h.incomp a ha n hn b hb (by simp [hnan, not_lt_nan]) (by simp [hnan, not_nan_lt])
      (by simp [hnan, not_nan_lt]) (by simp [hnan, not_lt_nan])).1
    simp [hab] at this
  · rintro (h | h)
    · refine ⟨fun a _ => by simp [lt_irrefl'], ?_, ?_⟩
      · intro a _ b _ c _ h1 h2
        simp only [decide_eq_true_eq] at h1 h2 ⊢
        exact lt_trans' h1 h2
      · intro a ha b hb c hc h1 h2 h3 h4
        simp only [decide_eq_false_iff_not] at h1 h2 h3 h4 ⊢
        have e1 : key a = key b := by
          rcases lt_total (h a ha) (h b hb) with h | h | h
          · exact absurd h h1
          · exact h
          · exact absurd h h2
        have e2 : key b = key c := by
          rcases lt_total (h b hb) (h c hc) with h | h | h
          · exact absurd h h3
          · exact h
          · exact absurd h h4
        rw [e1, e2]
        exact ⟨lt_irrefl' _, lt_irrefl' _⟩
    · exact ⟨fun a ha => by simp [h a ha a ha], fun a ha b hb c hc h1 => by simp [h a ha b hb] at h1,
        fun a ha b hb c hc _ _ _ _ => ⟨by simp [h a ha c hc], by simp [h c hc a ha]⟩⟩

/-- When the points of a ray may be sorted, for both kinds of hulls: if and only if no radius is NaN, or all radii that are not
NaN are equal. -/
theorem C100_radii_exact (pts : List (V3 Dbl)) :
    (StrictWeakOn nearerFirst pts ↔ (∀ q ∈ pts, q.x ≠ nan) ∨ (∀ q ∈ pts, ∀ q' ∈ pts, ¬ q.x < q'.x)) ∧
    (StrictWeakOn fartherFirst pts ↔ (∀ q ∈ pts, q.x ≠ nan) ∨ (∀ q ∈ pts, ∀ q' ∈ pts, ¬ q.x < q'.x)) := by
  have h := strictWeakOn_dbl_iff (fun q : V3 Dbl => q.x) pts
  refine ⟨h, Iff.trans ⟨fun h' => ?_, fun h' => ?_⟩ h⟩
  · exact strictWeakOn_flip h'
  · exact strictWeakOn_flip h'

/-- The same for `sorted_cols_by_theta`. -/
theorem C100_theta_exact (cols : List (V3 Dbl)) :
    StrictWeakOn MathTools.compareTheta cols ↔ (∀ q ∈ cols, q.y ≠ nan) ∨ (∀ q ∈ cols, ∀ q' ∈ cols, ¬ q.y < q'.y) :=
  strictWeakOn_dbl_iff (fun q : V3 Dbl => q.y) cols

/-- The points on a ray of a hull (any frame, reference point and angle, any primitives with finite data whose half lengths in
the plane are not zero) have finite radii, also where the slope of the ray seen from a primitive is infinite or NaN: the two
calls of `std::sort` in `compute_hull` are within the contract. -/
theorem C100_radii_partial (os : List (Obj ℝ)) (hs : ∀ e, Obj.ellipsoid e ∈ os → Solid e) (pose : Pose ℝ) (ref : V3 ℝ) {n : ℕ}
    (hn : 2 ≤ n) {phis : List Dbl}
    (h : MathTools.linspace (-CMath.pi : Dbl) (CMath.pi - lit 1 10000) (n : Int) = .ok phis) {phi : Dbl} (hphi : phi ∈ phis) :
    let pts := rayPoints pose.toD ref.toD ((os.map Obj.toD).map Obj.intersectionPoints) phi
    (∀ q ∈ pts, ∃ r, q.x = fin r) ∧ StrictWeakOn nearerFirst pts ∧ StrictWeakOn fartherFirst pts := by
  obtain ⟨l, -, hl⟩ := toD_linspace (-Real.pi) (Real.pi - 1 / 10000) (n := (n : Int)) (by exact_mod_cast hn)
  have hfin : ∃ p : ℝ, phi = fin p := by
    have e1 : (-CMath.pi : Dbl) = fin (-Real.pi) := rfl
    have e2 : (CMath.pi - lit 1 10000 : Dbl) = fin (Real.pi - 1 / 10000) := by simp
    rw [e1, e2, hl] at h
    injection h with h
    subst h
    obtain ⟨p, -, hp⟩ := List.mem_map.mp hphi
    exact ⟨p, hp.symm⟩
  obtain ⟨p, rfl⟩ := hfin
  intro pts
  have key : ∀ q ∈ pts, ∃ r, q.x = fin r := by
    intro q hq
    have hdir : MathTools.polarToCartesian (⟨1, CMath.acos 0, fin p⟩ : V3 Dbl) =
        V3.toD (MathTools.polarToCartesian ⟨1, Real.arccos 0, p⟩) := by
      simp only [MathTools.polarToCartesian, zero_def, fin_acos (by norm_num : (-1 : ℝ) ≤ 0) (by norm_num : (0 : ℝ) ≤ 1),
        one_def, fin_sin, fin_cos, fin_mul]
      rfl
    have hpol : ∀ y : V3 ℝ, ∃ r, (MathTools.cartesianToPolar y.toD).x = fin r := by
      intro y
      refine ⟨Real.sqrt (y.x * y.x + y.y * y.y + y.z * y.z), ?_⟩
      simp only [MathTools.cartesianToPolar, V3.toD_x, V3.toD_y, V3.toD_z, fin_mul, fin_add]
      exact fin_sqrt (by nlinarith [mul_self_nonneg y.x, mul_self_nonneg y.y, mul_self_nonneg y.z])
    simp only [pts, rayPoints, hdir, Pose.toD_apply, Pose.toD_inverse] at hq
    obtain ⟨o', ho', hq⟩ := List.mem_flatMap.mp hq
    rw [List.map_map] at ho'
    obtain ⟨o, ho, rfl⟩ := List.mem_map.mp ho'
    simp only [Function.comp_apply] at hq
    cases o with
    | ellipsoid e =>
      obtain ⟨hx, hy⟩ := hs e ho
      split at hq
      · rename_i h1
        have h1' : (e.toD.intersectionPoints ref.toD
          (pose.apply (MathTools.polarToCartesian ⟨1, Real.arccos 0, p⟩)).toD).1 = true := h1
        have hv : (e.base.pose.inverse.apply ref).x ≠
            (e.base.pose.inverse.apply (pose.apply (MathTools.polarToCartesian ⟨1, Real.arccos 0, p⟩))).x := by
          intro hv
          rw [Ellipsoid.toD_intersection_vertical hx hy hv] at h1'
          cases h1'
        have he : Obj.intersectionPoints (Obj.toD (.ellipsoid e)) ref.toD
            (pose.apply (MathTools.polarToCartesian ⟨1, Real.arccos 0, p⟩)).toD = _ :=
          Ellipsoid.toD_intersectionPoints hx hy hv
        rw [he] at hq
        simp only [Pose.toD_apply, List.mem_cons, List.not_mem_nil, or_false] at hq
        rcases hq with rfl | rfl <;> exact hpol _
      · simp at hq
    | _ => simp [Obj.toD, Obj.intersectionPoints] at hq
  have hnan : ∀ q ∈ pts, q.x ≠ nan := by
    intro q hq hn
    obtain ⟨r, hr⟩ := key q hq
    rw [hr] at hn
    cases hn
  exact ⟨key, (C100_radii_exact pts).1.mpr (Or.inl hnan), (C100_radii_exact pts).2.mpr (Or.inl hnan)⟩

/-- a wall without thickness: half lengths 0, 1, 1 -/
def bladeObj : Ellipsoid ℝ := ⟨Base.mkRef "blade" (State.ofPosition V3.zero) V3.zero V3.zero, ⟨0, 1, 1⟩, ⟨1, 1, 1⟩⟩

/-- a disc of radius 1 centred half a unit off the origin -/
noncomputable def offDisc : Ellipsoid ℝ :=
  ⟨Base.mkRef "disc" (State.ofPosition ⟨1 / 2, 0, 0⟩) V3.zero V3.zero, ⟨1, 1, 1⟩, ⟨1, 1, 1⟩⟩

theorem blade_hits : bladeObj.toD.intersectionPoints V3.zero.toD (V3.toD ⟨-1, 0, 0⟩) =
    (true, ⟨nan, nan, nan⟩, ⟨nan, nan, nan⟩) := by
  have hp : ∀ v : V3 ℝ, bladeObj.base.pose.inverse.apply v = v := by
    intro v
    rw [inverse_apply_one (rfl : bladeObj.base.pose.orientation = Quat.one)]
    ext <;> simp [bladeObj, Base.mkRef, Base.pose, State.ofPosition, Pose.ofPosition]
  have hl : bladeObj.axis + bladeObj.base.margin = ⟨0, 1, 1⟩ := by
    ext <;> simp [bladeObj, Base.mkRef]
  have s1 : signed 1 = pinf := if_pos one_pos
  have s4 : signed 4 = pinf := if_pos (by norm_num)
  have s2 : signed 2 = pinf := if_pos (by norm_num)
  have sm : signed (-1) = ninf := by simp [signed]
  simp only [Ellipsoid.intersectionPoints, toD_base, toD_axis, Base.toD_pose, Base.toD_margin,
    Pose.toD_inverse, Pose.toD_apply, V3.toD_add, V3.toD_x, V3.toD_y, hp, hl, fin_mul, fin_sub, one_def, lit_def, zero_def,
    V3.zero, V3.const]
  have d0 : fin 0 / fin (-1) = fin 0 := by rw [fin_div (by norm_num)]; norm_num
  have d1 : ∀ x, fin x / fin 1 = fin x := fun x => by rw [fin_div one_ne_zero, div_one]
  have di : fin 1 / fin 0 = pinf := (fin_div_zero 1).trans s1
  have a1 : pinf + fin 0 = pinf := rfl
  have m4 : fin 4 * pinf = pinf := s4
  have m2 : fin 2 * pinf = pinf := s2
  have m1 : pinf * fin (-1) = ninf := sm
  have t1 : fin 0 - ninf = pinf := rfl
  have q1 : CMath.sqrt pinf = pinf := rfl
  have u1 : fin 0 - pinf = ninf := rfl
  have u2 : fin 0 + pinf = pinf := rfl
  have v1 : ninf / pinf = nan := rfl
  have v2 : pinf / pinf = nan := rfl
  have n1 : ∀ c : Dbl, c * nan = nan := fun c => by cases c <;> rfl
  have n2 : ∀ c : Dbl, nan * c = nan := fun c => by cases c <;> rfl
  have n3 : ∀ c : Dbl, c + nan = nan := fun c => by cases c <;> rfl
  have n4 : ∀ c : Dbl, nan + c = nan := fun c => by cases c <;> rfl
  have n5 : ∀ c : Dbl, c - nan = nan := fun c => by cases c <;> rfl
  have n6 : ∀ c : Dbl, nan - c = nan := fun c => by cases c <;> rfl
  have happ : bladeObj.base.pose.toD.apply ⟨nan, nan, fin 0⟩ = ⟨nan, nan, nan⟩ := by
    ext <;> simp [Pose.apply, Quat.rotate, Quat.vec, V3.cross, V3.smul, n1, n2, n3, n4, n5, n6]
  norm_num
  simp only [d0, d1, di, fin_mul, fin_sub, mul_zero, sub_zero, zero_sub, a1, m4, m2, m1, t1, q1, u1, u2, v1, v2, n1, n4,
    fin_neg, neg_zero, happ]
  exact if_pos (show fin 0 ≤ pinf from trivial)

theorem offDisc_hits : offDisc.toD.intersectionPoints V3.zero.toD (V3.toD ⟨-1, 0, 0⟩) =
    (true, V3.toD ⟨-1 / 2, 0, 0⟩, V3.toD ⟨3 / 2, 0, 0⟩) := by
  have ho : offDisc.base.pose.orientation = Quat.one := rfl
  have hpos : offDisc.base.pose.position = ⟨1 / 2, 0, 0⟩ := rfl
  have hl : offDisc.axis + offDisc.base.margin = ⟨1, 1, 1⟩ := by
    ext <;> simp [offDisc, Base.mkRef]
  have h4 : Real.sqrt 4 = 2 := by
    rw [show (4 : ℝ) = 2 * 2 by norm_num]; exact Real.sqrt_mul_self (by norm_num)
  rw [Ellipsoid.toD_intersectionPoints (by rw [hl]; norm_num) (by rw [hl]; norm_num)
    (by rw [inverse_apply_one ho, inverse_apply_one ho, hpos]; norm_num [V3.zero, V3.const])]
  have : offDisc.intersectionPoints V3.zero ⟨-1, 0, 0⟩ = (true, ⟨-1 / 2, 0, 0⟩, ⟨3 / 2, 0, 0⟩) := by
    simp only [Ellipsoid.intersectionPoints, hl, inverse_apply_one ho, apply_one ho, hpos, V3.sub_x, V3.sub_y, V3.zero, V3.const,
      lit_real]
    norm_num [h4]
    constructor <;> ext <;> norm_num
  rw [this]

/-- C100 is false: for a hull around an obstacle without thickness and an ordinary disc (finite data, reference point in both),
the radii on the first ray (that with angle −π) are NaN, NaN, 1/2 and 3/2, and both calls of `std::sort` are outside the
contract, for every number of rays. -/
theorem C100_negation :
    let os := [Obj.ellipsoid bladeObj, Obj.ellipsoid offDisc].map Obj.toD
    let pts := fun phi => rayPoints (Pose.ofPosition V3.zero : Pose ℝ).toD V3.zero.toD (os.map Obj.intersectionPoints) phi
    ∀ n : ℕ, 2 ≤ n → ∃ phis : List Dbl,
      MathTools.linspace (-CMath.pi : Dbl) (CMath.pi - lit 1 10000) (n : Int) = .ok phis ∧
      ∃ phi ∈ phis, ¬ StrictWeakOn nearerFirst (pts phi) ∧ ¬ StrictWeakOn fartherFirst (pts phi) := by
  intro os pts n hn
  obtain ⟨l, hl, hlen, hfirst, -⟩ := MathTools.linspace_ok (-CMath.pi : Dbl) (CMath.pi - lit 1 10000) (n : Int) (by omega)
  refine ⟨l, hl, fin (-Real.pi), List.mem_of_getElem? hfirst, ?_⟩
  have hdir : (Pose.ofPosition V3.zero : Pose ℝ).toD.apply
      (MathTools.polarToCartesian (⟨1, CMath.acos 0, fin (-Real.pi)⟩ : V3 Dbl)) = V3.toD ⟨-1, 0, 0⟩ := by
    have : MathTools.polarToCartesian (⟨1, CMath.acos 0, fin (-Real.pi)⟩ : V3 Dbl) = V3.toD ⟨-1, 0, 0⟩ := by
      simp only [MathTools.polarToCartesian, zero_def, fin_acos (by norm_num : (-1 : ℝ) ≤ 0) (by norm_num : (0 : ℝ) ≤ 1),
        one_def, fin_sin, fin_cos, fin_mul, Real.arccos_zero]
      simp [V3.toD]
    rw [this, Pose.toD_apply, apply_one rfl]
    simp [Pose.ofPosition, V3.toD]
  have hinv : ∀ v : V3 ℝ, (Pose.ofPosition V3.zero : Pose ℝ).toD.inverse.apply v.toD = v.toD := by
    intro v
    rw [Pose.toD_inverse, Pose.toD_apply, inverse_apply_one rfl]
    simp [Pose.ofPosition, V3.toD]
  have hrad : ∀ r : ℝ, (MathTools.cartesianToPolar (V3.toD ⟨r, 0, 0⟩)).x = fin |r| := by
    intro r
    simp only [MathTools.cartesianToPolar, V3.toD_x, V3.toD_y, V3.toD_z, fin_mul, fin_add]
    rw [fin_sqrt (by nlinarith [mul_self_nonneg r])]
    simp [Real.sqrt_mul_self_eq_abs]
  have hnan : ∃ q ∈ pts (fin (-Real.pi)), q.x = nan := by
    refine ⟨MathTools.cartesianToPolar ((Pose.ofPosition V3.zero : Pose ℝ).toD.inverse.apply ⟨nan, nan, nan⟩), ?_, ?_⟩
    · refine List.mem_flatMap.mpr ⟨Obj.intersectionPoints (Obj.ellipsoid bladeObj).toD, by simp [os], ?_⟩
      have he : Obj.intersectionPoints (Obj.ellipsoid bladeObj).toD V3.zero.toD (V3.toD ⟨-1, 0, 0⟩) = _ := blade_hits
      simp only [hdir, he]
      simp
    · have n1 : ∀ c : Dbl, c * nan = nan := fun c => by cases c <;> rfl
      have n2 : ∀ c : Dbl, nan * c = nan := fun c => by cases c <;> rfl
      have n3 : ∀ c : Dbl, c + nan = nan := fun c => by cases c <;> rfl
      have n4 : ∀ c : Dbl, nan + c = nan := fun c => by cases c <;> rfl
      have n5 : ∀ c : Dbl, c - nan = nan := fun c => by cases c <;> rfl
      have n6 : ∀ c : Dbl, nan - c = nan := fun c => by cases c <;> rfl
      have happ : (Pose.ofPosition V3.zero : Pose ℝ).toD.inverse.apply ⟨nan, nan, nan⟩ = ⟨nan, nan, nan⟩ := by
        ext <;> simp [Pose.apply, Quat.rotate, Quat.vec, V3.cross, V3.smul, n1, n2, n3, n4, n5, n6]
      rw [happ]
      simp only [MathTools.cartesianToPolar, n1, n3]
      rfl
  have hdisc : ∀ r, r = -1 / 2 ∨ r = 3 / 2 → ∃ q ∈ pts (fin (-Real.pi)), q.x = fin |r| := by
    intro r hr
    refine ⟨MathTools.cartesianToPolar (V3.toD ⟨r, 0, 0⟩), ?_, hrad r⟩
    refine List.mem_flatMap.mpr ⟨Obj.intersectionPoints (Obj.ellipsoid offDisc).toD, by simp [os], ?_⟩
    have he : Obj.intersectionPoints (Obj.ellipsoid offDisc).toD V3.zero.toD (V3.toD ⟨-1, 0, 0⟩) = _ := offDisc_hits
    simp only [hdir, he, hinv]
    rcases hr with rfl | rfl <;> simp
  have hnot : ¬ ((∀ q ∈ pts (fin (-Real.pi)), q.x ≠ nan) ∨
      (∀ q ∈ pts (fin (-Real.pi)), ∀ q' ∈ pts (fin (-Real.pi)), ¬ q.x < q'.x)) := by
    rintro (h | h)
    · obtain ⟨q, hq, hn⟩ := hnan
      exact h q hq hn
    · obtain ⟨q, hq, e1⟩ := hdisc (-1 / 2) (Or.inl rfl)
      obtain ⟨q', hq', e2⟩ := hdisc (3 / 2) (Or.inr rfl)
      refine h q hq q' hq' ?_
      rw [e1, e2, fin_lt]
      norm_num [abs_of_neg, abs_of_pos]
  exact ⟨fun h => hnot ((C100_radii_exact _).1.mp h), fun h => hnot ((C100_radii_exact _).2.mp h)⟩

/-- C100 is false for `sorted_cols_by_theta`: the polar coordinates of the zero vector have θ = NaN. -/
theorem C100_negation_theta :
    ¬ StrictWeakOn MathTools.compareTheta
      ([⟨0, 0, 1⟩, ⟨0, 0, 0⟩, ⟨0, 0, -1⟩].map fun v : V3 ℝ => MathTools.cartesianToPolar v.toD) := by
  have h1 : (MathTools.cartesianToPolar (V3.toD ⟨0, 0, 1⟩)).y = fin 0 := by
    simp only [MathTools.cartesianToPolar, V3.toD_x, V3.toD_y, V3.toD_z, fin_mul, fin_add]
    rw [fin_sqrt (by norm_num)]
    norm_num [fin_div, fin_acos]
  have h2 : (MathTools.cartesianToPolar (V3.toD ⟨0, 0, -1⟩)).y = fin Real.pi := by
    simp only [MathTools.cartesianToPolar, V3.toD_x, V3.toD_y, V3.toD_z, fin_mul, fin_add]
    rw [fin_sqrt (by norm_num)]
    norm_num [fin_div, fin_acos]
  have h3 : (MathTools.cartesianToPolar (V3.toD ⟨0, 0, 0⟩)).y = nan := by
    simp only [MathTools.cartesianToPolar, V3.toD_x, V3.toD_y, V3.toD_z, fin_mul, fin_add]
    rw [fin_sqrt (by norm_num)]
    norm_num [fin_div_zero, signed]
    rfl
  rw [C100_theta_exact]
  rintro (h | h)
  · exact h _ (by simp) h3
  · refine h (MathTools.cartesianToPolar (V3.toD ⟨0, 0, 1⟩)) (by simp) (MathTools.cartesianToPolar (V3.toD ⟨0, 0, -1⟩)) (by simp) ?_
    rw [h1, h2, fin_lt]
    exact Real.pi_pos

/-- non-vacuity of `C100_radii_partial`: the disc alone -/
example (phi : Dbl) (phis : List Dbl)
    (h : MathTools.linspace (-CMath.pi : Dbl) (CMath.pi - lit 1 10000) (500 : Nat) = .ok phis) (hp : phi ∈ phis) :
    StrictWeakOn nearerFirst (rayPoints (Pose.ofPosition V3.zero : Pose ℝ).toD V3.zero.toD
      (([Obj.ellipsoid offDisc].map Obj.toD).map Obj.intersectionPoints) phi) :=
  (C100_radii_partial [Obj.ellipsoid offDisc] (by
    intro e he
    simp only [List.mem_singleton, Obj.ellipsoid.injEq] at he
    subst he
    constructor <;> simp [offDisc, Base.mkRef]) _ _ (by norm_num) h hp).2.1

end DOA.Props
