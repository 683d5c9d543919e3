import Verif.Spec.Library
import Verif.Props.HullQueries
import Mathlib.Analysis.Real.Pi.Bounds

/-!
# C100: `std::lower_bound` in the queries of a hull

The range is the list of the angles of the columns of the hull, in the order of the rays, the value searched for is the angle of
the point (src/Utils/MathTools.cpp:85-93, called from src/Obstacle/StarShapeHull.cpp).
-/

set_option linter.unusedSectionVars false
set_option linter.unusedSimpArgs false

namespace DOA.Props
open DOA DOA.Spec DOA.Hull DOA.Ellipsoid

theorem partitionedAt_of {l : List ℝ} {v : ℝ}
    (h : ∀ (i j : ℕ) a b, i < j → l[i]? = some a → l[j]? = some b → b < v → a < v) : PartitionedAt l v := by
  induction l with
  | nil => exact ⟨0, by simp, by simp⟩
  | cons c l ih =>
    by_cases hc : c < v
    · obtain ⟨k, h1, h2⟩ := ih fun i j a b hij ha hb => h (i + 1) (j + 1) a b (by omega) (by simpa using ha) (by simpa using hb)
      refine ⟨k + 1, ?_, ?_⟩
      · intro i a hi ha
        cases i with
        | zero => simp only [List.getElem?_cons_zero, Option.some.injEq] at ha; rw [← ha]; exact hc
        | succ i => exact h1 i a (by omega) (by simpa using ha)
      · intro i a hi ha
        cases i with
        | zero => omega
        | succ i => exact h2 i a (by omega) (by simpa using ha)
    · refine ⟨0, by omega, ?_⟩
      intro i a _ ha
      cases i with
      | zero => simp only [List.getElem?_cons_zero, Option.some.injEq] at ha; rw [← ha]; exact hc
      | succ i =>
        intro hv
        exact hc (h 0 (i + 1) c a (by omega) (by simp) ha hv)

/-- the angles of the rays -/
theorem grid_value {n : ℕ} (hn : 2 ≤ n) {phi : List ℝ}
    (h : MathTools.linspace (-CMath.pi : ℝ) (CMath.pi - lit 1 10000) (n : Int) = .ok phi) {i : ℕ} (hi : i < n) :
    phi[i]? = some (-Real.pi + i * ((2 * Real.pi - 1 / 10000) / ((n : ℝ) - 1))) := by
  obtain ⟨l, hl, hlen, hfirst, hlast, hmid⟩ := MathTools.linspace_ok (-CMath.pi : ℝ) (CMath.pi - lit 1 10000)
    (n : Int) (by omega)
  rw [h] at hl
  injection hl with hl
  subst hl
  simp only [Int.toNat_natCast] at hlast hlen hmid
  have hn1 : (0 : ℝ) < (n : ℝ) - 1 := by
    have : (2 : ℝ) ≤ n := by exact_mod_cast hn
    linarith
  rcases Nat.eq_zero_or_pos i with rfl | hpos
  · rw [hfirst]; simp
  · by_cases hl : i + 1 < n
    · rw [hmid i hpos hl]
      simp only [pi_real, lit_real, MathTools.ofInt]
      push_cast
      congr 1
      field_simp
      ring
    · have hin : i = n - 1 := by omega
      have hc : ((n - 1 : ℕ) : ℝ) = (n : ℝ) - 1 := by
        rw [Nat.cast_sub (by omega)]; simp
      rw [hin, hlast, hc, mul_div_cancel₀ _ hn1.ne']
      simp only [pi_real, lit_real]
      congr 1
      norm_num
      ring

/-- the distance of two rays exceeds twice the tolerance -/
theorem grid_step {n : ℕ} (hn : 2 ≤ n) (hres : n ≤ 31416) : 2 / 10000 < (2 * Real.pi - 1 / 10000) / ((n : ℝ) - 1) := by
  have hn1 : (0 : ℝ) < (n : ℝ) - 1 := by
    have : (2 : ℝ) ≤ n := by exact_mod_cast hn
    linarith
  have hn2 : (n : ℝ) - 1 ≤ 31415 := by
    have : (n : ℝ) ≤ 31416 := by exact_mod_cast hres
    linarith
  have hpi := Real.pi_gt_d6
  rw [lt_div_iff₀ hn1]
  nlinarith

/-- The angle of every column but the first is that of its ray, up to the tolerance; the first is at −π or at π. -/
theorem column_angle {k k' : Hull ℝ} (hk : HullOK k) (hres : k.resolution ≤ 31416) {prims : List (Oracle ℝ)} {ref : V3 ℝ}
    (h : k.compute prims ref = .ok k') {i : ℕ} {q : V3 ℝ} (hq : k'.polar[i]? = some q) :
    let s := (2 * Real.pi - 1 / 10000) / ((k.resolution : ℝ) - 1)
    |q.z - (-Real.pi + i * s)| ≤ 1 / 10000 ∨ (i = 0 ∧ |q.z - Real.pi| ≤ 1 / 10000) := by
  intro s
  obtain ⟨phi, hphi, hang⟩ := compute_angles hk h
  obtain ⟨k'', h', hk', hres', -⟩ := compute_ok hk prims ref
  rw [h] at h'; injection h' with h'; subst h'
  have hi : i < k.resolution := by
    have := (List.getElem?_eq_some_iff.mp hq).1
    rw [hk'.2.1, hres'] at this
    exact this
  have hval := grid_value hk.1 hphi hi
  have h1 : (k'.polar.map angles)[i]? = some (angles q) := by rw [List.getElem?_map, hq]; rfl
  rw [hang, List.getElem?_map, surfacePoints, List.getElem?_map, hval] at h1
  simp only [Option.map_some, Option.some.injEq] at h1
  have hz := congrArg Prod.snd h1
  simp only [angles] at hz
  set f : ℝ := -Real.pi + i * ((2 * Real.pi - 1 / 10000) / ((k.resolution : ℝ) - 1)) with hf
  set pts := rayPoints ((k.base.setRef ref).setPosition ref).pose ref prims f with hpts
  have hstep := grid_step hk.1 hres
  by_cases hex : ∃ q ∈ pts, OnRay f q
  · obtain ⟨p, hp, hon, he, -⟩ := (C62_surface_point k.isInside k.minRadius k.base.margin.x f pts).2 hex
    rw [he] at hz
    simp only at hz
    have hle : p.z ≤ Real.pi := by
      simp only [hpts, rayPoints] at hp
      obtain ⟨o, -, hp⟩ := List.mem_flatMap.mp hp
      split at hp
      · simp only [List.mem_cons, List.not_mem_nil, or_false] at hp
        rcases hp with rfl | rfl <;>
          simp only [MathTools.cartesianToPolar, atan2_real] <;> exact Complex.arg_le_pi _
      · simp at hp
    rw [hz] at hle
    simp only [OnRay, hz] at hon
    rcases hon with hon | hon
    · exact Or.inl hon
    · rcases Nat.eq_zero_or_pos i with hi0 | hpos
      · right
        refine ⟨hi0, ?_⟩
        rw [hf, hi0] at hon
        have e : q.z - 2 * Real.pi - (-Real.pi + ((0 : ℕ) : ℝ) * ((2 * Real.pi - 1 / 10000) / ((k.resolution : ℝ) - 1))) =
            q.z - Real.pi := by push_cast; ring
        rw [e] at hon
        exact hon
      · exfalso
        have h1' : (1 : ℝ) ≤ i := by exact_mod_cast hpos
        have := (abs_le.mp hon).1
        have : (2 * Real.pi - 1 / 10000) / ((k.resolution : ℝ) - 1) ≤
            i * ((2 * Real.pi - 1 / 10000) / ((k.resolution : ℝ) - 1)) := by nlinarith
        rw [hf] at *
        linarith
  · push Not at hex
    rw [(C62_surface_point k.isInside k.minRadius k.base.margin.x f pts).1 hex] at hz
    simp only at hz
    left
    rw [← hz, sub_self, abs_zero]
    norm_num

/-- the columns after the first are in increasing order of their angles -/
theorem column_order {k k' : Hull ℝ} (hk : HullOK k) (hres : k.resolution ≤ 31416) {prims : List (Oracle ℝ)} {ref : V3 ℝ}
    (h : k.compute prims ref = .ok k') {i j : ℕ} (hij : i < j) {q q' : V3 ℝ} (hq : k'.polar[i]? = some q)
    (hq' : k'.polar[j]? = some q') (hi : 1 ≤ i ∨ q.z < 0) : q.z < q'.z := by
  have hstep := grid_step hk.1 hres
  have hpi := Real.pi_gt_d6
  have h1 := column_angle hk hres h hq
  have h2 := column_angle hk hres h hq'
  simp only at h1 h2
  have hij' : (i : ℝ) + 1 ≤ j := by exact_mod_cast hij
  rcases h2 with h2 | ⟨h2, -⟩
  · rcases h1 with h1 | ⟨h1, h3⟩
    · have a1 := (abs_le.mp h1).2
      have a2 := (abs_le.mp h2).1
      nlinarith
    · rcases hi with hi | hi
      · omega
      · have := (abs_le.mp h3).1
        linarith
  · omega

/-- C100 for `std::lower_bound`, exactly: in a computed hull of any shape (any primitives, reference point and previous
contents, at most 31416 rays), the range is partitioned with respect to the angle of the point if and only if the first column is
at −π (and not at π), or the point's angle does not exceed that of the second column, or exceeds that of the first. -/
theorem C100_search_partial {k k' : Hull ℝ} (hk : HullOK k) (hres : k.resolution ≤ 31416) {prims : List (Oracle ℝ)} {ref : V3 ℝ}
    (h : k.compute prims ref = .ok k') (p : V3 ℝ) :
    ∃ q0 q1, k'.polar[0]? = some q0 ∧ k'.polar[1]? = some q1 ∧
      (PartitionedAt (k'.polar.map (·.z)) (angleOf k' p) ↔ q0.z < 0 ∨ angleOf k' p ≤ q1.z ∨ q0.z < angleOf k' p) := by
  obtain ⟨k'', h', hk', hres', -⟩ := compute_ok hk prims ref
  rw [h] at h'; injection h' with h'; subst h'
  have hlen : 2 ≤ k'.polar.length := by rw [hk'.2.1]; exact hk'.1
  obtain ⟨q0, h0⟩ : ∃ q0, k'.polar[0]? = some q0 := ⟨_, List.getElem?_eq_getElem (by omega)⟩
  obtain ⟨q1, h1⟩ : ∃ q1, k'.polar[1]? = some q1 := ⟨_, List.getElem?_eq_getElem (by omega)⟩
  refine ⟨q0, q1, h0, h1, ?_⟩
  generalize angleOf k' p = v
  have hmap : ∀ {i : ℕ} {a : ℝ}, (k'.polar.map (·.z))[i]? = some a → ∃ q, k'.polar[i]? = some q ∧ q.z = a := by
    intro i a ha
    rw [List.getElem?_map] at ha
    cases hq : k'.polar[i]? with
    | none => rw [hq] at ha; simp at ha
    | some q => rw [hq] at ha; exact ⟨q, rfl, by simpa using ha⟩
  constructor
  · rintro ⟨m, hlo, hhi⟩
    by_contra hcon
    push Not at hcon
    obtain ⟨-, c2, c3⟩ := hcon
    rcases Nat.eq_zero_or_pos m with rfl | hm
    · exact hhi 1 q1.z (by omega) (by rw [List.getElem?_map, h1]; rfl) c2
    · exact absurd (hlo 0 q0.z hm (by rw [List.getElem?_map, h0]; rfl)) (not_lt.mpr c3)
  · intro hcase
    refine partitionedAt_of ?_
    intro i j a b hij ha hb hbv
    obtain ⟨q, hq, rfl⟩ := hmap ha
    obtain ⟨q', hq', rfl⟩ := hmap hb
    rcases Nat.eq_zero_or_pos i with rfl | hpos
    · rw [h0] at hq
      injection hq with hq
      subst hq
      rcases hcase with hneg | hsmall | hbig
      · exact (column_order hk hres h hij h0 hq' (Or.inr hneg)).trans hbv
      · exfalso
        have : q1.z ≤ q'.z := by
          by_cases hj : j = 1
          · subst hj; rw [h1] at hq'; injection hq' with hq'; rw [hq']
          · exact (column_order hk hres h (by omega : 1 < j) h1 hq' (Or.inl le_rfl)).le
        linarith
      · exact hbig
    · exact (column_order hk hres h hij hq hq' (Or.inl hpos)).trans hbv

/-- C100 is false for every query of a hull that is closed around a point: take a hull with the axes of the world (either kind, any
number of rays from 3 to 31416, any margin) around the unit disc, computed from its centre.  Its first column is stored at the
angle π, and for the points straight above (in y) of the centre the range is not partitioned. -/
theorem C100_negation_search {k k' : Hull ℝ} (hk : HullOK k) (hn : 3 ≤ k.resolution) (hres : k.resolution ≤ 31416)
    (hor : k.base.pose.orientation = Quat.one) {e : Ellipsoid ℝ} (heo : e.base.pose.orientation = Quat.one)
    (hep : e.base.pose.position = V3.zero) (hel : e.axis + e.base.margin = ⟨1, 1, 1⟩)
    (h : k.compute [e.intersectionPoints] V3.zero = .ok k') (t : ℝ) (ht : 0 < t) :
    (∃ q0, k'.polar[0]? = some q0 ∧ q0.z = Real.pi) ∧
      ¬ PartitionedAt (k'.polar.map (·.z)) (angleOf k' ⟨0, t, 0⟩) := by
  obtain ⟨phi, hphi, hang⟩ := compute_angles hk h
  obtain ⟨phi', p2, -, -, -, -, hbase, -⟩ := compute_inv hk h
  obtain ⟨q0, q1, h0, h1, hiff⟩ := C100_search_partial hk hres h ⟨0, t, 0⟩
  have hpi := Real.pi_gt_d6
  have hv : angleOf k' ⟨0, t, 0⟩ = Real.pi / 2 := by
    have ho : k'.base.pose.orientation = Quat.one := by rw [hbase]; exact hor
    have hp : k'.base.pose.position = V3.zero := by rw [hbase]; rfl
    simp only [angleOf, inverse_apply_one ho, hp, MathTools.cartesianToPolar, atan2_real]
    simp only [V3.sub_x, V3.sub_y, V3.zero, V3.const, sub_zero]
    rw [show (⟨0, t⟩ : ℂ) = (t : ℂ) * Complex.I by apply Complex.ext <;> simp, Complex.arg_real_mul _ ht, Complex.arg_I]
  have hz0 : q0.z = Real.pi := by
    have h2 : (k'.polar.map angles)[0]? = some (angles q0) := by rw [List.getElem?_map, h0]; rfl
    have hval := grid_value hk.1 hphi (by omega : 0 < k.resolution)
    simp only [Nat.cast_zero, zero_mul, add_zero] at hval
    rw [hang, List.getElem?_map, surfacePoints, List.getElem?_map, hval] at h2
    simp only [Option.map_some, Option.some.injEq] at h2
    have hz := congrArg Prod.snd h2
    simp only [angles] at hz
    have hpo : ((k.base.setRef V3.zero).setPosition V3.zero).pose.orientation = Quat.one := hor
    have hpp : ((k.base.setRef V3.zero).setPosition V3.zero).pose.position = V3.zero := rfl
    have hdir : ((k.base.setRef V3.zero).setPosition V3.zero).pose.apply
        (MathTools.polarToCartesian ⟨1, CMath.acos 0, -Real.pi⟩) = ⟨-1, 0, 0⟩ := by
      rw [apply_one hpo, hpp]
      ext <;> simp [MathTools.polarToCartesian, V3.zero, V3.const]
    have h4 : Real.sqrt 4 = 2 := by
      rw [show (4 : ℝ) = 2 * 2 by norm_num]; exact Real.sqrt_mul_self (by norm_num)
    have hhit : e.intersectionPoints V3.zero ⟨-1, 0, 0⟩ = (true, ⟨-1, 0, 0⟩, ⟨1, 0, 0⟩) := by
      simp only [Ellipsoid.intersectionPoints, hel, inverse_apply_one heo, apply_one heo, hep, V3.sub_x, V3.sub_y, V3.zero,
        V3.const, lit_real]
      norm_num [h4]
      constructor <;> ext <;> norm_num
    have hpts : rayPoints ((k.base.setRef V3.zero).setPosition V3.zero).pose V3.zero [e.intersectionPoints] (-Real.pi) =
        [⟨1, CMath.acos 0, Real.pi⟩, ⟨1, CMath.acos 0, 0⟩] := by
      simp only [rayPoints, hdir, hhit, List.flatMap_cons, List.flatMap_nil, if_true, List.append_nil,
        inverse_apply_one hpo, hpp]
      simp only [MathTools.cartesianToPolar, atan2_real, V3.sub_x, V3.sub_y, V3.sub_z, V3.zero, V3.const, sub_zero]
      have a1 : (⟨-1, 0⟩ : ℂ) = -1 := by apply Complex.ext <;> simp
      have a2 : (⟨1, 0⟩ : ℂ) = 1 := by apply Complex.ext <;> simp
      rw [a1, a2, Complex.arg_neg_one, Complex.arg_one]
      norm_num
    rw [hpts] at hz
    have hon : OnRay (-Real.pi) (⟨1, CMath.acos 0, Real.pi⟩ : V3 ℝ) := by
      right; simp only; rw [show Real.pi - 2 * Real.pi - -Real.pi = 0 by ring]; norm_num
    have hoff : ¬ OnRay (-Real.pi) (⟨1, CMath.acos 0, 0⟩ : V3 ℝ) := by
      rintro (h | h) <;> have h' := abs_le.mp h
      · linarith [h'.2]
      · linarith [h'.1]
    obtain ⟨p, hp, hpon, hpe, -⟩ := (C62_surface_point k.isInside k.minRadius k.base.margin.x (-Real.pi)
      [⟨1, CMath.acos 0, Real.pi⟩, ⟨1, CMath.acos 0, 0⟩]).2 ⟨_, List.mem_cons_self, hon⟩
    rw [hpe] at hz
    simp only at hz
    simp only [List.mem_cons, List.not_mem_nil, or_false] at hp
    rcases hp with rfl | rfl
    · exact hz.symm
    · exact absurd hpon hoff
  refine ⟨⟨q0, h0, hz0⟩, ?_⟩
  rw [hiff, hv, hz0]
  have hcol := column_angle hk hres h h1
  simp only [Nat.cast_one, one_mul, one_ne_zero, false_and, or_false] at hcol
  have hn' : (2 : ℝ) ≤ (k.resolution : ℝ) - 1 := by
    have : (3 : ℝ) ≤ k.resolution := by exact_mod_cast hn
    linarith
  have hs : (2 * Real.pi - 1 / 10000) / ((k.resolution : ℝ) - 1) ≤ Real.pi := by
    rw [div_le_iff₀ (by linarith)]
    nlinarith
  have := (abs_le.mp hcol).2
  push Not
  exact ⟨by linarith, by linarith, by linarith⟩

/-- non-vacuity: fresh hulls of both kinds with 50 rays, around a disc -/
example (inside : Bool) : ∃ k', (Hull.mk' inside 50 (1 / 2 : ℝ)).compute [(ball V3.zero).intersectionPoints] V3.zero = .ok k' ∧
    ¬ PartitionedAt (k'.polar.map (·.z)) (angleOf k' ⟨0, 1, 0⟩) := by
  have hk : HullOK (Hull.mk' inside 50 (1 / 2 : ℝ)) := hullOK_mk' _ (by norm_num) _
  obtain ⟨k', hc, -⟩ := compute_ok hk [(ball V3.zero).intersectionPoints] V3.zero
  refine ⟨k', hc, (C100_negation_search hk (show 3 ≤ 50 by norm_num) (show 50 ≤ 31416 by norm_num) rfl rfl rfl ?_ hc 1 one_pos).2⟩
  ext <;> simp [ball, Ellipsoid.ofBase, Base.mkRef, V3.zero, V3.const]

/-- non-vacuity: around nothing, the first column is at −π and every query is within the contract -/
example (inside : Bool) (p : V3 ℝ) : ∃ k', (Hull.mk' inside 50 (1 / 2 : ℝ)).compute [] V3.zero = .ok k' ∧
    PartitionedAt (k'.polar.map (·.z)) (angleOf k' p) := by
  have hk : HullOK (Hull.mk' inside 50 (1 / 2 : ℝ)) := hullOK_mk' _ (by norm_num) _
  obtain ⟨k', hc, -⟩ := compute_ok hk [] V3.zero
  obtain ⟨q0, q1, h0, -, hiff⟩ := C100_search_partial hk (show 50 ≤ 31416 by norm_num) hc p
  refine ⟨k', hc, hiff.mpr (Or.inl ?_)⟩
  obtain ⟨phi, hphi, hang⟩ := compute_angles hk hc
  have h2 : (k'.polar.map angles)[0]? = some (angles q0) := by rw [List.getElem?_map, h0]; rfl
  have hval := grid_value (n := 50) (by norm_num) hphi (by norm_num : 0 < 50)
  simp only [Nat.cast_zero, zero_mul, add_zero] at hval
  rw [hang, List.getElem?_map, surfacePoints, List.getElem?_map, hval] at h2
  simp only [Option.map_some, Option.some.injEq] at h2
  have hz := congrArg Prod.snd h2
  simp only [angles] at hz
  rw [(C62_surface_point _ _ _ _ _).1 (by simp [rayPoints])] at hz
  simp only at hz
  rw [← hz]
  linarith [Real.pi_pos]

end DOA.Props
