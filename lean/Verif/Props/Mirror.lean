import Verif.Spec.Mirror
import Verif.Props.HullWall

/-!
# C97 and C104 for hulls: left and right are not treated alike, and the result jumps between the columns

The normal of a hull is that of the chord from the next surface point counterclockwise to the one after it, so it turns
the other way round in the mirror.
-/

set_option linter.unusedSectionVars false
set_option linter.unusedSimpArgs false

namespace DOA.Props
open DOA DOA.Spec DOA.Hull DOA.Ellipsoid DOA.Modulation

/-- Surface points in the four directions of the axes, at the distance 1, the last one at the distance 2. -/
noncomputable def kite : Hull ℝ :=
  ⟨Base.mkRef "kite" (State.ofPosition V3.zero) V3.zero V3.zero, false, 4, 1,
    [⟨0, -1, 0⟩, ⟨1, 0, 0⟩, ⟨0, 1, 0⟩, ⟨-2, 0, 0⟩],
    [⟨1, Real.pi / 2, -(Real.pi / 2)⟩, ⟨1, Real.pi / 2, 0⟩, ⟨1, Real.pi / 2, Real.pi / 2⟩, ⟨2, Real.pi / 2, Real.pi⟩]⟩

theorem kite_flat : FlatHull kite := by
  refine ⟨⟨by norm_num [kite], rfl, rfl⟩, rfl, rfl, ?_, ?_⟩
  · intro s hs
    simp only [kite, List.mem_cons, List.not_mem_nil, or_false] at hs
    rcases hs with rfl | rfl | rfl | rfl <;> rfl
  · intro q hq
    simp only [kite, List.mem_cons, List.not_mem_nil, or_false] at hq
    rcases hq with rfl | rfl | rfl | rfl <;> norm_num

theorem kite_position : kite.base.position = V3.zero := rfl

theorem kite_mirror : OwnMirror kite := by
  refine ⟨?_, ?_, ?_⟩
  · ext <;> simp [kite_position, mirror, View.point, View.vector, V3.zero]
  · show Option.map _ (some V3.zero) = some V3.zero
    simp only [Option.map_some]
    congr 1
    ext <;> simp [mirror, View.point, View.vector, V3.zero]
  · have : kite.cart.map mirror.point = [⟨0, 1, 0⟩, ⟨1, 0, 0⟩, ⟨0, -1, 0⟩, ⟨-2, 0, 0⟩] := by
      simp only [kite, List.map_cons, List.map_nil, mirror, View.point, View.vector, V3.zero]
      norm_num
      refine ⟨?_, ?_, ?_, ?_⟩ <;> ext <;> norm_num
    rw [this]
    show List.Perm _ ([⟨0, -1, 0⟩, ⟨1, 0, 0⟩, ⟨0, 1, 0⟩, ⟨-2, 0, 0⟩] : List (V3 ℝ))
    exact (List.Perm.swap _ _ _).trans ((List.Perm.cons _ (List.Perm.swap _ _ _)).trans (List.Perm.swap _ _ _))

theorem kite_arg (x : V3 ℝ) : (⟨(x - kite.base.position).x, (x - kite.base.position).y⟩ : ℂ) = ⟨x.x, x.y⟩ := by
  simp [kite_position, V3.zero]

theorem arg_left : 0 < (⟨4 / 5, 3 / 5⟩ : ℂ).arg ∧ (⟨4 / 5, 3 / 5⟩ : ℂ).arg < Real.pi / 2 := by
  constructor
  · have h0 : 0 ≤ (⟨4 / 5, 3 / 5⟩ : ℂ).arg := Complex.arg_nonneg_iff.2 (by norm_num)
    refine lt_of_le_of_ne h0 fun h => ?_
    have := Complex.arg_eq_zero_iff.1 h.symm
    norm_num at this
  · rw [Complex.arg_lt_pi_div_two_iff]
    left; norm_num

theorem arg_right : -(Real.pi / 2) < (⟨4 / 5, -(3 / 5)⟩ : ℂ).arg ∧ (⟨4 / 5, -(3 / 5)⟩ : ℂ).arg < 0 := by
  constructor
  · rw [Complex.neg_pi_div_two_lt_arg_iff]
    left; norm_num
  · rw [Complex.arg_neg_iff]
    norm_num

theorem kite_column_left : kite.column ⟨4 / 5, 3 / 5, 0⟩ = 2 := by
  rw [column, inverse_apply_one rfl]
  simp only [MathTools.cartesianToPolar, atan2_real]
  change MathTools.lowerBound _ (Complex.arg ⟨(⟨4 / 5, 3 / 5, 0⟩ - kite.base.position : V3 ℝ).x,
    (⟨4 / 5, 3 / 5, 0⟩ - kite.base.position : V3 ℝ).y⟩) = 2
  rw [kite_arg]
  have h := arg_left
  have hp := Real.pi_pos
  have h1 : ¬ Real.pi / 2 < (⟨4 / 5, 3 / 5⟩ : ℂ).arg := by linarith [h.2]
  simp [kite, MathTools.lowerBound, MathTools.lowerBoundLoop, h.1, h1]

theorem kite_column_right : kite.column ⟨4 / 5, -(3 / 5), 0⟩ = 1 := by
  rw [column, inverse_apply_one rfl]
  simp only [MathTools.cartesianToPolar, atan2_real]
  change MathTools.lowerBound _ (Complex.arg ⟨(⟨4 / 5, -(3 / 5), 0⟩ - kite.base.position : V3 ℝ).x,
    (⟨4 / 5, -(3 / 5), 0⟩ - kite.base.position : V3 ℝ).y⟩) = 1
  rw [kite_arg]
  have h := arg_right
  have hp := Real.pi_pos
  have h1 : ¬ Real.pi / 2 < (⟨4 / 5, -(3 / 5)⟩ : ℂ).arg := by linarith [h.2]
  have h2 : ¬ 0 < (⟨4 / 5, -(3 / 5)⟩ : ℂ).arg := by linarith [h.2]
  simp [kite, MathTools.lowerBound, MathTools.lowerBoundLoop, h.1, h1, h2]

theorem norm_three_four (y : ℝ) (hy : y ^ 2 = 9 / 25) : V3.norm (⟨4 / 5, y, 0⟩ : V3 ℝ) = 1 := by
  rw [V3.norm_eq_one_iff]
  simp only [V3.sqNorm, V3.dot]
  nlinarith

theorem norm_le_three {w : V3 ℝ} (h1 : 1 ≤ w.sqNorm) (h2 : w.sqNorm ≤ 9) : 1 / 10000 ≤ w.norm ∧ w.norm ≤ 3 := by
  have h := V3.norm_sq w
  have h0 := V3.norm_nonneg w
  constructor <;> nlinarith

theorem kite_sub (x : V3 ℝ) : x - kite.base.position = x := by ext <;> simp [kite_position, V3.zero]

theorem kite_between_left : BetweenColumns kite ⟨4 / 5, 3 / 5, 0⟩ := by
  have hpi := Real.pi_pos
  refine ⟨Or.inr ?_, ?_⟩
  · rw [kite_sub]; show (0 : ℝ) < 4 / 5; norm_num
  · intro q hq
    rw [kite_sub]
    change q.z ≠ (⟨4 / 5, 3 / 5⟩ : ℂ).arg
    have h := arg_left
    simp only [kite, List.mem_cons, List.not_mem_nil, or_false] at hq
    rcases hq with rfl | rfl | rfl | rfl
    · exact (by linarith [h.1] : -(Real.pi / 2) < (⟨4 / 5, 3 / 5⟩ : ℂ).arg).ne
    · exact h.1.ne
    · exact h.2.ne'
    · exact (by linarith [h.2] : (⟨4 / 5, 3 / 5⟩ : ℂ).arg < Real.pi).ne'

theorem kite_between_right : BetweenColumns kite ⟨4 / 5, -(3 / 5), 0⟩ := by
  have hpi := Real.pi_pos
  refine ⟨Or.inr ?_, ?_⟩
  · rw [kite_sub]; show (0 : ℝ) < 4 / 5; norm_num
  · intro q hq
    rw [kite_sub]
    change q.z ≠ (⟨4 / 5, -(3 / 5)⟩ : ℂ).arg
    have h := arg_right
    simp only [kite, List.mem_cons, List.not_mem_nil, or_false] at hq
    rcases hq with rfl | rfl | rfl | rfl
    · exact h.1.ne
    · exact h.2.ne'
    · exact (by linarith [h.2] : (⟨4 / 5, -(3 / 5)⟩ : ℂ).arg < Real.pi / 2).ne'
    · exact (by linarith [h.2] : (⟨4 / 5, -(3 / 5)⟩ : ℂ).arg < Real.pi).ne'

theorem norm_mirror (u : V3 ℝ) : (mirror.vector u).norm = u.norm := by
  have : (mirror.vector u).sqNorm = u.sqNorm := by
    simp only [mirror, View.vector, V3.sqNorm, V3.dot]; ring
  simp only [V3.norm, this]

/-- C97 is false for hulls, for coordinates in which left and right are exchanged: there is a hull that is its own mirror
image, and an agent on its surface, such that the modulated velocity leads inside at once, while the agent at the
mirrored place with the mirrored velocity is led away from the hull; the second velocity is not the mirror image of
the first. -/
theorem C97_negation_hull (e : Env) (p : Ptr) (critical power : ℝ) (h : Heap ℝ) (hl : e.list = [p])
    (hp : h[p]? = some (.hull kite)) : OwnMirror kite ∧ mirror.Valid ∧
    ∃ a a' : Agent ℝ, SameView mirror a a' ∧ ∃ out out',
      modulateVelocity h a e false false false critical power = .ok (h, out) ∧
      modulateVelocity h a' e false false false critical power = .ok (h, out') ∧
      (∀ᶠ s in nhdsWithin (0 : ℝ) (Set.Ioi 0), kite.pointIsInside (a.state.position + V3.smul s out) = .ok true) ∧
      (∀ᶠ s in nhdsWithin (0 : ℝ) (Set.Ioi 0), kite.pointIsInside (a'.state.position + V3.smul s out') = .ok false) ∧
      out' ≠ mirror.vector out := by
  have hpi := Real.pi_pos
  refine ⟨kite_mirror, ⟨by norm_num [mirror], by norm_num [mirror]⟩, agentAt ⟨4 / 5, 3 / 5, 0⟩ ⟨-(3 / 5), 4 / 5, 0⟩,
    agentAt ⟨4 / 5, -(3 / 5), 0⟩ ⟨-(3 / 5), -(4 / 5), 0⟩, ⟨?_, ?_, rfl⟩, ?_⟩
  · show (⟨4 / 5, -(3 / 5), 0⟩ : V3 ℝ) = mirror.point ⟨4 / 5, 3 / 5, 0⟩
    ext <;> simp [mirror, View.point, View.vector, V3.zero]
  · show (⟨-(3 / 5), -(4 / 5), 0⟩ : V3 ℝ) = mirror.vector ⟨-(3 / 5), 4 / 5, 0⟩
    ext <;> simp [mirror, View.vector, V3.zero]
  have n1 := norm_le_three (w := (⟨-2, -1, 0⟩ : V3 ℝ)) (by norm_num [V3.sqNorm, V3.dot]) (by norm_num [V3.sqNorm, V3.dot])
  have n2 := norm_le_three (w := (⟨-1, 1, 0⟩ : V3 ℝ)) (by norm_num [V3.sqNorm, V3.dot]) (by norm_num [V3.sqNorm, V3.dot])
  obtain ⟨-, out, g1, g2, -⟩ := C82_negation h (agentAt ⟨4 / 5, 3 / 5, 0⟩ ⟨-(3 / 5), 4 / 5, 0⟩) e false critical power p kite
    kite_flat ⟨-2, -1, 0⟩ ⟨1, Real.pi / 2, Real.pi / 2⟩ hl hp ⟨rfl, rfl⟩ (by intro h; cases h)
    kite_between_left
    (by show kite.polar[kite.column ⟨4 / 5, 3 / 5, 0⟩]? = _; rw [kite_column_left]; rfl)
    (by rw [kite_sub]; exact norm_three_four (3 / 5) (by norm_num))
    (by
      refine ⟨⟨0, 1, 0⟩, ⟨-2, 0, 0⟩, ?_, ?_, ?_⟩
      · show kite.cart[kite.column ⟨4 / 5, 3 / 5, 0⟩]? = _; rw [kite_column_left]; rfl
      · show kite.cart[(kite.column ⟨4 / 5, 3 / 5, 0⟩ + 1) % _]? = _; rw [kite_column_left]; rfl
      · ext <;> simp)
    rfl n1.1 rfl
    (by rw [kite_sub]; change turn (⟨4 / 5, 3 / 5, 0⟩ : V3 ℝ) ⟨-2, -1, 0⟩ ≠ 0; norm_num [turn])
    (by
      rw [kite_sub, show V3.norm (agentAt (⟨4 / 5, 3 / 5, 0⟩ : V3 ℝ) ⟨-(3 / 5), 4 / 5, 0⟩).state.position = 1 from
        norm_three_four (3 / 5) (by norm_num)]
      change _ < |V3.dot (⟨4 / 5, 3 / 5, 0⟩ : V3 ℝ) ⟨-2, -1, 0⟩|
      have : |V3.dot (⟨4 / 5, 3 / 5, 0⟩ : V3 ℝ) ⟨-2, -1, 0⟩| = 11 / 5 := by norm_num [V3.dot, abs_of_neg]
      rw [this]; linarith [n1.2])
    (by rw [kite_sub]; change turn (⟨4 / 5, 3 / 5, 0⟩ : V3 ℝ) ⟨-(3 / 5), 4 / 5, 0⟩ ≠ 0; norm_num [turn])
  obtain ⟨-, out', g1', -, g3'⟩ := C82_negation h (agentAt ⟨4 / 5, -(3 / 5), 0⟩ ⟨-(3 / 5), -(4 / 5), 0⟩) e false critical
    power p kite kite_flat ⟨-1, 1, 0⟩ ⟨1, Real.pi / 2, 0⟩ hl hp ⟨rfl, rfl⟩ (by intro h; cases h)
    kite_between_right
    (by show kite.polar[kite.column ⟨4 / 5, -(3 / 5), 0⟩]? = _; rw [kite_column_right]; rfl)
    (by rw [kite_sub]; exact norm_three_four (-(3 / 5)) (by norm_num))
    (by
      refine ⟨⟨1, 0, 0⟩, ⟨0, 1, 0⟩, ?_, ?_, ?_⟩
      · show kite.cart[kite.column ⟨4 / 5, -(3 / 5), 0⟩]? = _; rw [kite_column_right]; rfl
      · show kite.cart[(kite.column ⟨4 / 5, -(3 / 5), 0⟩ + 1) % _]? = _; rw [kite_column_right]; rfl
      · ext <;> simp)
    rfl n2.1 rfl
    (by rw [kite_sub]; change turn (⟨4 / 5, -(3 / 5), 0⟩ : V3 ℝ) ⟨-1, 1, 0⟩ ≠ 0; norm_num [turn])
    (by
      rw [kite_sub, show V3.norm (agentAt (⟨4 / 5, -(3 / 5), 0⟩ : V3 ℝ) ⟨-(3 / 5), -(4 / 5), 0⟩).state.position = 1 from
        norm_three_four (-(3 / 5)) (by norm_num)]
      change _ < |V3.dot (⟨4 / 5, -(3 / 5), 0⟩ : V3 ℝ) ⟨-1, 1, 0⟩|
      have : |V3.dot (⟨4 / 5, -(3 / 5), 0⟩ : V3 ℝ) ⟨-1, 1, 0⟩| = 7 / 5 := by norm_num [V3.dot, abs_of_neg]
      rw [this]; linarith [n2.2])
    (by rw [kite_sub]; change turn (⟨4 / 5, -(3 / 5), 0⟩ : V3 ℝ) ⟨-(3 / 5), -(4 / 5), 0⟩ ≠ 0; norm_num [turn])
  have k2 := g2 (by
    rw [kite_sub]
    change turn (⟨4 / 5, 3 / 5, 0⟩ : V3 ℝ) ⟨-(3 / 5), 4 / 5, 0⟩ * turn (⟨4 / 5, 3 / 5, 0⟩ : V3 ℝ) ⟨-2, -1, 0⟩ *
      V3.dot (⟨4 / 5, 3 / 5, 0⟩ : V3 ℝ) ⟨-2, -1, 0⟩ < 0
    norm_num [turn, V3.dot])
  have k3 := g3' (by
    rw [kite_sub]
    change 0 < turn (⟨4 / 5, -(3 / 5), 0⟩ : V3 ℝ) ⟨-(3 / 5), -(4 / 5), 0⟩ * turn (⟨4 / 5, -(3 / 5), 0⟩ : V3 ℝ) ⟨-1, 1, 0⟩ *
      V3.dot (⟨4 / 5, -(3 / 5), 0⟩ : V3 ℝ) ⟨-1, 1, 0⟩
    norm_num [turn, V3.dot])
  refine ⟨out, out', g1, g1', k2, k3, ?_⟩
  rintro rfl
  have c2 := (column_eventually kite rfl _ out kite_between_left).filter_mono (nhdsWithin_le_nhds (s := Set.Ioi 0))
  have c3 := (column_eventually kite rfl _ (mirror.vector out) kite_between_right).filter_mono
    (nhdsWithin_le_nhds (s := Set.Ioi 0))
  obtain ⟨s, ⟨e2, e3⟩, d2, d3⟩ := ((k2.and k3).and (c2.and c3)).exists
  rw [kite_column_left] at d2
  rw [kite_column_right] at d3
  have i2 := inside_value kite rfl (⟨4 / 5, 3 / 5, 0⟩ + V3.smul s out) ⟨1, Real.pi / 2, Real.pi / 2⟩ (by rw [d2]; rfl)
  have i3 := inside_value kite rfl (⟨4 / 5, -(3 / 5), 0⟩ + V3.smul s (mirror.vector out)) ⟨1, Real.pi / 2, 0⟩
    (by rw [d3]; rfl)
  have hm : (⟨4 / 5, -(3 / 5), 0⟩ + V3.smul s (mirror.vector out) : V3 ℝ) =
      mirror.vector (⟨4 / 5, 3 / 5, 0⟩ + V3.smul s out) := by
    ext
    · simp [mirror, View.vector, V3.smul]
    · simp [mirror, View.vector, V3.smul]; ring
    · simp [mirror, View.vector, V3.smul]
  rw [kite_sub] at i2 i3
  rw [hm, norm_mirror, ← hm] at i3
  have := (i2.symm.trans e2)
  have := (i3.symm.trans e3)
  simp_all

/-- The kite is the only obstacle. -/
example : (envOf [0]).list = [0] ∧ ([.hull kite] : Heap ℝ)[0]? = some (.hull kite) := ⟨rfl, rfl⟩

/-! ### C104 -/

theorem kite_column_mid : kite.column ⟨0, 3 / 2, 0⟩ = 2 := by
  rw [column, inverse_apply_one rfl]
  simp only [MathTools.cartesianToPolar, atan2_real]
  change MathTools.lowerBound _ (Complex.arg ⟨(⟨0, 3 / 2, 0⟩ - kite.base.position : V3 ℝ).x,
    (⟨0, 3 / 2, 0⟩ - kite.base.position : V3 ℝ).y⟩) = 2
  rw [kite_arg]
  have hp := Real.pi_pos
  have h : (⟨0, 3 / 2⟩ : ℂ).arg = Real.pi / 2 := Complex.arg_eq_pi_div_two_iff.2 (by norm_num)
  have h1 : 0 < Real.pi / 2 := by linarith
  rw [h]
  simp [kite, MathTools.lowerBound, MathTools.lowerBoundLoop, h1, hp]

theorem kite_column_past (ε : ℝ) (hε : 0 < ε) : kite.column ⟨-ε, 3 / 2, 0⟩ = 3 := by
  rw [column, inverse_apply_one rfl]
  simp only [MathTools.cartesianToPolar, atan2_real]
  change MathTools.lowerBound _ (Complex.arg ⟨(⟨-ε, 3 / 2, 0⟩ - kite.base.position : V3 ℝ).x,
    (⟨-ε, 3 / 2, 0⟩ - kite.base.position : V3 ℝ).y⟩) = 3
  rw [kite_arg]
  have hp := Real.pi_pos
  have h1 : Real.pi / 2 < (⟨-ε, 3 / 2⟩ : ℂ).arg := by
    rw [← not_le, Complex.arg_le_pi_div_two_iff]
    simp only [not_or, not_le, not_lt]
    constructor <;> linarith
  have h2 : 0 < (⟨-ε, 3 / 2⟩ : ℂ).arg := by linarith
  have h3 : ¬ Real.pi < (⟨-ε, 3 / 2⟩ : ℂ).arg := not_lt.2 (Complex.arg_le_pi _)
  simp [kite, MathTools.lowerBound, MathTools.lowerBoundLoop, h1, h2, h3]

/-- What the kite makes of a velocity in the plane, away from the centre. -/
theorem kite_out (a : Agent ℝ) (w q : V3 ℝ) (hq : kite.polar[kite.column a.state.position]? = some q)
    (hw : IsChord kite a.state.position w) (hz : a.state.position.z = 0) (hlong : 1 / 10000 ≤ w.norm)
    (hs : turn a.state.position w ≠ 0) (hvz : a.state.linearVelocity.z = 0) (critical power : ℝ) :
    ∃ (d : ℝ) (out : V3 ℝ), d = a.state.position.norm / q.x ∧
      modulateVelocity [.hull kite] a (envOf [0]) false false false critical power = .ok ([.hull kite], out) ∧
      ∀ u, u = V3.smul (max 0 (1 - 1 / d) * (turn a.state.linearVelocity w / turn a.state.position w)) a.state.position +
          V3.smul ((1 + min 1 (1 / d)) * (turn a.state.position a.state.linearVelocity / turn a.state.position w)) w →
        V3.norm (out - u) ≤ 1 / 10 ^ 8 * V3.norm u := by
  have hb := inside_value kite rfl _ q hq
  obtain ⟨w', hw', hwz, hn⟩ := chord_of kite kite_flat _ hb
  have := chord_unique hw' hw
  subst this
  obtain ⟨s, hsm, hcol, -, hd⟩ := hull_distance_eq kite kite_flat.ok a.state.position (V3.const a.margin) hb
  rw [hq] at hcol
  cases hcol
  have hq0 := kite_flat.pos q hsm
  have hr0 : a.state.position ≠ V3.zero := by
    intro h0
    rw [h0] at hs
    simp [turn, V3.zero] at hs
  have hnorm := V3.norm_pos hr0
  rw [inverse_apply_one kite_flat.orient] at hd
  change kite.distanceToPoint _ _ = .ok ((a.state.position - kite.base.position).norm / q.x) at hd
  rw [kite_sub] at hd
  obtain ⟨M, B, hM, hv⟩ := chord_matrix [.hull kite] a (.hull kite) kite.base.position w' _ kite_flat.orient kite_flat.ref hn
    hd (by positivity) hz hwz hlong (by rw [kite_sub]; exact hs)
  obtain ⟨out, h1, -, h2⟩ := C39_single [.hull kite] a (envOf [0]) false critical power 0 (.hull kite) M B _ rfl rfl
    ⟨rfl, rfl⟩ ((Quat.isUnit_iff_norm _).mp Quat.isUnit_one) hM hvz (by intro h; cases h)
  refine ⟨_, out, rfl, h1, ?_⟩
  rintro u rfl
  rw [hv _ hvz, kite_sub] at h2
  exact h2

/-- C104 is false for hulls, already without the repulsion: above a corner of the kite, at the distance 1.5 from the centre
and coming down, the agent is commanded a third of its velocity; however little to the left, it counts as inside the hull
and is stopped. -/
theorem C104_negation_hull (critical power : ℝ) : ∃ (a0 : Agent ℝ) (v0 : V3 ℝ),
    kite.pointIsInside a0.state.position = .ok false ∧
    modulateVelocity [.hull kite] a0 (envOf [0]) false false false critical power = .ok ([.hull kite], v0) ∧
    ∀ δ > 0, ∃ (a : Agent ℝ) (v : V3 ℝ), V3.norm (a.state.position - a0.state.position) < δ ∧
      a.state.linearVelocity = a0.state.linearVelocity ∧ a.margin = a0.margin ∧
      kite.pointIsInside a.state.position = .ok true ∧
      modulateVelocity [.hull kite] a (envOf [0]) false false false critical power = .ok ([.hull kite], v) ∧
      1 / 4 < V3.norm (v - v0) := by
  have hy : ∀ u : V3 ℝ, |u.y| ≤ u.norm := by
    intro u
    have h1 := V3.norm_sq u
    have h2 : u.y ^ 2 ≤ V3.norm u ^ 2 := by
      rw [pow_two (V3.norm u), h1]
      simp only [V3.sqNorm, V3.dot]
      nlinarith [sq_nonneg u.x, sq_nonneg u.z]
    exact abs_le_of_sq_le_sq h2 (V3.norm_nonneg u)
  have n1 := norm_le_three (w := (⟨-2, -1, 0⟩ : V3 ℝ)) (by norm_num [V3.sqNorm, V3.dot]) (by norm_num [V3.sqNorm, V3.dot])
  have n2 := norm_le_three (w := (⟨2, -1, 0⟩ : V3 ℝ)) (by norm_num [V3.sqNorm, V3.dot]) (by norm_num [V3.sqNorm, V3.dot])
  have hn0 : V3.norm (⟨0, 3 / 2, 0⟩ : V3 ℝ) = 3 / 2 := by
    have h1 := V3.norm_sq (⟨0, 3 / 2, 0⟩ : V3 ℝ)
    have h2 := V3.norm_nonneg (⟨0, 3 / 2, 0⟩ : V3 ℝ)
    simp only [V3.sqNorm, V3.dot] at h1
    nlinarith
  obtain ⟨d, v0, hd, g1, g2⟩ := kite_out (agentAt ⟨0, 3 / 2, 0⟩ ⟨0, -1, 0⟩) ⟨-2, -1, 0⟩ ⟨1, Real.pi / 2, Real.pi / 2⟩
    (by show kite.polar[kite.column ⟨0, 3 / 2, 0⟩]? = _; rw [kite_column_mid]; rfl)
    (by
      refine ⟨⟨0, 1, 0⟩, ⟨-2, 0, 0⟩, ?_, ?_, ?_⟩
      · show kite.cart[kite.column ⟨0, 3 / 2, 0⟩]? = _; rw [kite_column_mid]; rfl
      · show kite.cart[(kite.column ⟨0, 3 / 2, 0⟩ + 1) % _]? = _; rw [kite_column_mid]; rfl
      · ext <;> simp)
    rfl n1.1 (by change turn (⟨0, 3 / 2, 0⟩ : V3 ℝ) ⟨-2, -1, 0⟩ ≠ 0; norm_num [turn]) rfl critical power
  change d = V3.norm (⟨0, 3 / 2, 0⟩ : V3 ℝ) / 1 at hd
  rw [hn0] at hd
  have g2' := g2 ⟨0, -1 / 3, 0⟩ (by
    change _ = V3.smul (max 0 (1 - 1 / d) * (turn (⟨0, -1, 0⟩ : V3 ℝ) ⟨-2, -1, 0⟩ / turn (⟨0, 3 / 2, 0⟩ : V3 ℝ) ⟨-2, -1, 0⟩))
      (⟨0, 3 / 2, 0⟩ : V3 ℝ) + V3.smul ((1 + min 1 (1 / d)) *
        (turn (⟨0, 3 / 2, 0⟩ : V3 ℝ) ⟨0, -1, 0⟩ / turn (⟨0, 3 / 2, 0⟩ : V3 ℝ) ⟨-2, -1, 0⟩)) (⟨-2, -1, 0⟩ : V3 ℝ)
    have hm : max (0 : ℝ) (1 - 1 / d) = 1 / 3 := by rw [hd]; norm_num
    rw [hm]
    ext <;> norm_num [turn, V3.smul])
  have hu0 : V3.norm (⟨0, -1 / 3, 0⟩ : V3 ℝ) = 1 / 3 := by
    have h1 := V3.norm_sq (⟨0, -1 / 3, 0⟩ : V3 ℝ)
    have h2 := V3.norm_nonneg (⟨0, -1 / 3, 0⟩ : V3 ℝ)
    simp only [V3.sqNorm, V3.dot] at h1
    nlinarith
  rw [hu0] at g2'
  refine ⟨_, v0, ?_, g1, fun δ hδ => ?_⟩
  · have := inside_value kite rfl (⟨0, 3 / 2, 0⟩ : V3 ℝ) ⟨1, Real.pi / 2, Real.pi / 2⟩ (by rw [kite_column_mid]; rfl)
    change kite.pointIsInside ⟨0, 3 / 2, 0⟩ = _
    rw [this, kite_sub, hn0]
    norm_num
  obtain ⟨ε, hε, hεδ, hεs⟩ : ∃ ε : ℝ, 0 < ε ∧ ε < δ ∧ ε ≤ 1 / 100 :=
    ⟨min (δ / 2) (1 / 100), by positivity, lt_of_le_of_lt (min_le_left _ _) (by linarith), min_le_right _ _⟩
  have hne : V3.norm (⟨-ε, 3 / 2, 0⟩ : V3 ℝ) < 2 := by
    have h1 := V3.norm_sq (⟨-ε, 3 / 2, 0⟩ : V3 ℝ)
    have h2 := V3.norm_nonneg (⟨-ε, 3 / 2, 0⟩ : V3 ℝ)
    simp only [V3.sqNorm, V3.dot] at h1
    nlinarith
  have hne0 : 0 < V3.norm (⟨-ε, 3 / 2, 0⟩ : V3 ℝ) := by
    apply V3.norm_pos
    intro h
    have := congrArg V3.y h
    norm_num [V3.zero] at this
  have ht : turn (⟨-ε, 3 / 2, 0⟩ : V3 ℝ) ⟨2, -1, 0⟩ = ε - 3 := by simp only [turn]; ring
  obtain ⟨d', v, hd', k1, k2⟩ := kite_out (agentAt ⟨-ε, 3 / 2, 0⟩ ⟨0, -1, 0⟩) ⟨2, -1, 0⟩ ⟨2, Real.pi / 2, Real.pi⟩
    (by show kite.polar[kite.column ⟨-ε, 3 / 2, 0⟩]? = _; rw [kite_column_past ε hε]; rfl)
    (by
      refine ⟨⟨-2, 0, 0⟩, ⟨0, -1, 0⟩, ?_, ?_, ?_⟩
      · show kite.cart[kite.column ⟨-ε, 3 / 2, 0⟩]? = _; rw [kite_column_past ε hε]; rfl
      · show kite.cart[(kite.column ⟨-ε, 3 / 2, 0⟩ + 1) % _]? = _; rw [kite_column_past ε hε]; rfl
      · ext <;> simp)
    rfl n2.1 (by change turn (⟨-ε, 3 / 2, 0⟩ : V3 ℝ) ⟨2, -1, 0⟩ ≠ 0; rw [ht]; linarith) rfl critical power
  change d' = V3.norm (⟨-ε, 3 / 2, 0⟩ : V3 ℝ) / 2 at hd'
  have hd1 : d' < 1 := by rw [hd']; linarith
  have hd0 : 0 < d' := by rw [hd']; positivity
  have hinv : 1 < 1 / d' := by rw [lt_div_iff₀ hd0]; linarith
  have k2' := k2 (V3.smul (2 * (ε / (ε - 3))) ⟨2, -1, 0⟩) (by
    change _ = V3.smul (max 0 (1 - 1 / d') * (turn (⟨0, -1, 0⟩ : V3 ℝ) ⟨2, -1, 0⟩ / turn (⟨-ε, 3 / 2, 0⟩ : V3 ℝ) ⟨2, -1, 0⟩))
      (⟨-ε, 3 / 2, 0⟩ : V3 ℝ) + V3.smul ((1 + min 1 (1 / d')) *
        (turn (⟨-ε, 3 / 2, 0⟩ : V3 ℝ) ⟨0, -1, 0⟩ / turn (⟨-ε, 3 / 2, 0⟩ : V3 ℝ) ⟨2, -1, 0⟩)) (⟨2, -1, 0⟩ : V3 ℝ)
    have hm : max (0 : ℝ) (1 - 1 / d') = 0 := max_eq_left (by linarith)
    have hm' : min (1 : ℝ) (1 / d') = 1 := min_eq_left hinv.le
    have ht' : turn (⟨-ε, 3 / 2, 0⟩ : V3 ℝ) ⟨0, -1, 0⟩ = ε := by simp only [turn]; ring
    rw [hm, hm', ht, ht']
    ext <;> norm_num [V3.smul])
  have hnu : V3.norm (V3.smul (2 * (ε / (ε - 3))) (⟨2, -1, 0⟩ : V3 ℝ)) ≤ 6 / 100 := by
    rw [V3.norm_smul, abs_mul, abs_div, abs_of_pos hε, abs_of_neg (by linarith : ε - 3 < 0), abs_two]
    have h1 : ε / -(ε - 3) ≤ 1 / 100 := by
      rw [div_le_iff₀ (by linarith)]; linarith
    have h2 : 0 ≤ ε / -(ε - 3) := div_nonneg hε.le (by linarith)
    have h3 := V3.norm_nonneg (⟨2, -1, 0⟩ : V3 ℝ)
    nlinarith [n2.2]
  refine ⟨agentAt ⟨-ε, 3 / 2, 0⟩ ⟨0, -1, 0⟩, v, ?_, rfl, rfl, ?_, k1, ?_⟩
  · have : ((⟨-ε, 3 / 2, 0⟩ : V3 ℝ) - ⟨0, 3 / 2, 0⟩).norm = ε := by
      have h1 := V3.norm_sq ((⟨-ε, 3 / 2, 0⟩ : V3 ℝ) - ⟨0, 3 / 2, 0⟩)
      have h2 := V3.norm_nonneg ((⟨-ε, 3 / 2, 0⟩ : V3 ℝ) - ⟨0, 3 / 2, 0⟩)
      simp only [V3.sqNorm, V3.dot, V3.sub_x, V3.sub_y, V3.sub_z] at h1
      nlinarith
    change V3.norm ((⟨-ε, 3 / 2, 0⟩ : V3 ℝ) - ⟨0, 3 / 2, 0⟩) < δ
    rw [this]; exact hεδ
  · have := inside_value kite rfl (⟨-ε, 3 / 2, 0⟩ : V3 ℝ) ⟨2, Real.pi / 2, Real.pi⟩ (by rw [kite_column_past ε hε]; rfl)
    change kite.pointIsInside ⟨-ε, 3 / 2, 0⟩ = _
    rw [this, kite_sub]
    simp only [hne, decide_true]
  · have a1 := hy (v0 - ⟨0, -1 / 3, 0⟩)
    have a2 := hy (v - V3.smul (2 * (ε / (ε - 3))) ⟨2, -1, 0⟩)
    have a3 := hy (V3.smul (2 * (ε / (ε - 3))) ⟨2, -1, 0⟩)
    have a4 := hy (v - v0)
    simp only [V3.sub_y] at a1 a2 a4
    have b1 := abs_le.1 (a1.trans g2')
    have b2 := abs_le.1 (a2.trans (k2'.trans (mul_le_mul_of_nonneg_left hnu (by norm_num))))
    have b3 := abs_le.1 (a3.trans hnu)
    have b4 := le_abs_self (v.y - v0.y)
    linarith [b1.1, b1.2, b2.1, b2.2, b3.1, b3.2]

end DOA.Props
