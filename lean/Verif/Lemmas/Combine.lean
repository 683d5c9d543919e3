import Verif.Lemmas.Modulation
import Verif.Props.Modulation
import Mathlib.Analysis.SpecialFunctions.Trigonometric.Bounds

/-! The combination of several obstacles in `modulate_velocity`, over `ℝ`. -/

set_option linter.unusedSectionVars false
set_option linter.unusedSimpArgs false

namespace DOA

namespace V3

/-- sum of a list of vectors -/
noncomputable def lsum (l : List (V3 ℝ)) : V3 ℝ :=
  ⟨(l.map (·.x)).sum, (l.map (·.y)).sum, (l.map (·.z)).sum⟩

theorem foldl_add {β : Type} (f : β → V3 ℝ) (l : List β) : ∀ a : V3 ℝ,
    l.foldl (fun acc b => acc + f b) a = a + lsum (l.map f) := by
  induction l with
  | nil => intro a; ext <;> simp [lsum]
  | cons b l ih =>
    intro a
    rw [List.foldl_cons, ih]
    ext <;> simp [lsum] <;> ring

theorem lsum_nil : lsum [] = zero := by ext <;> simp [lsum, zero]
theorem lsum_cons (v : V3 ℝ) (l : List (V3 ℝ)) : lsum (v :: l) = v + lsum l := by
  ext <;> simp [lsum]
theorem lsum_perm {l l' : List (V3 ℝ)} (h : l.Perm l') : lsum l = lsum l' := by
  ext <;> exact (h.map _).sum_eq

end V3

namespace Modulation

/-- The rotation of the relative velocity that `modulate_velocity` computes: weights and matrices are
given as a list of pairs. -/
noncomputable def core (rv : V3 ℝ) (l : List (M3 ℝ × ℝ)) : V3 ℝ :=
  let terms := l.map fun x => angleTerm (dsFrame rv.normalized).transpose rv.normalized rv x.1 x.2
  V3.smul (terms.map (·.1)).sum
    ((dsFrame rv.normalized).mulVec (reconstruct ⟨(terms.map (·.2.x)).sum, (terms.map (·.2.y)).sum⟩))

theorem foldl_terms {β : Type} (f : β → ℝ × V2 ℝ) (l : List β) : ∀ a : ℝ × V2 ℝ,
    l.foldl (fun acc b => (acc.1 + (f b).1, acc.2.add (f b).2)) a =
      (a.1 + (l.map fun b => (f b).1).sum,
        ⟨a.2.x + (l.map fun b => (f b).2.x).sum, a.2.y + (l.map fun b => (f b).2.y).sum⟩) := by
  induction l with
  | nil => intro a; simp
  | cons b l ih =>
    intro a
    rw [List.foldl_cons, ih]
    simp only [List.map_cons, List.sum_cons, V2.add, Prod.mk.injEq, V2.mk.injEq]
    exact ⟨by ring, by ring, by ring⟩

/-- the pairs of matrices and weights -/
noncomputable def pairs (items : List (Item ℝ)) (critical power : ℝ) : List (M3 ℝ × ℝ) :=
  let f := Props.weightOf (items.map (·.dist)) critical power
  items.map fun i => (i.matrix, f i.dist)

/-- the combined obstacle velocity -/
noncomputable def obsVel (x : V3 ℝ) (items : List (Item ℝ)) (critical power : ℝ) : V3 ℝ :=
  let f := Props.weightOf (items.map (·.dist)) critical power
  V3.lsum (items.map fun i => obstacleVelocity x i.base i.dist (f i.dist) i.basis)

theorem zip_weights (items : List (Item ℝ)) (f : ℝ → ℝ) :
    items.zip ((items.map (·.dist)).map f) = items.map fun i => (i, f i.dist) := by
  rw [List.map_map]
  induction items with
  | nil => rfl
  | cons i l ih => simp [ih]

/-- `combine` in closed form -/
theorem combine_eq (x v : V3 ℝ) (items : List (Item ℝ)) (critical power : ℝ) :
    combine x v items critical power =
      core (v - obsVel x items critical power) (pairs items critical power) +
        obsVel x items critical power := by
  unfold combine relativeVelocities
  simp only [Props.weight_eq, zip_weights]
  have h1 : (items.map fun i => (i, Props.weightOf (items.map (·.dist)) critical power i.dist)).foldl
      (fun acc x_1 => acc + obstacleVelocity x x_1.1.base x_1.1.dist x_1.2 x_1.1.basis) V3.zero =
      obsVel x items critical power := by
    rw [V3.foldl_add, V3.zero_add', List.map_map]; rfl
  simp only [h1]
  rw [foldl_terms]
  unfold core pairs
  simp only [List.map_map, zero_add, V2.zero]
  congr 1
  ext <;> simp only [V3.smul] <;> exact mul_comm _ _

/-! ### orthonormal frames -/

/-- the frame of a planar unit vector -/
theorem dsFrame_planar {v : V3 ℝ} (hv : V3.norm v = 1) (hz : v.z = 0) :
    dsFrame v = ⟨v, ⟨v.y, -v.x, 0⟩, ⟨0, 0, 1⟩⟩ := by
  have hs := (V3.norm_eq_one_iff v).mp hv
  simp only [V3.sqNorm, V3.dot, hz] at hs
  unfold dsFrame
  ext <;> simp [V3.cross, V3.unitZ, hz]
  linarith

theorem dsFrame_zero : dsFrame (V3.zero : V3 ℝ) = ⟨V3.zero, V3.zero, V3.zero⟩ := by
  unfold dsFrame
  ext <;> simp [V3.cross, V3.unitZ, V3.zero]

theorem V2.sqNorm_nonneg (p : V2 ℝ) : 0 ≤ V2.sqNorm p := by
  simp only [V2.sqNorm]; nlinarith [mul_self_nonneg p.x, mul_self_nonneg p.y]

theorem V2.norm_sq (p : V2 ℝ) : V2.norm p * V2.norm p = V2.sqNorm p := Real.mul_self_sqrt (V2.sqNorm_nonneg p)
theorem V2.norm_nonneg (p : V2 ℝ) : 0 ≤ V2.norm p := Real.sqrt_nonneg _

/-- length of the reconstructed vector -/
theorem sqNorm_reconstruct (s : V2 ℝ) :
    V3.sqNorm (reconstruct s) =
      if V2.norm s < 1 / 10000 then 1 + V2.norm s ^ 2 else 1 := by
  unfold reconstruct
  have hn := V2.norm_sq s
  simp only [V2.sqNorm] at hn
  have e : ((lit 1 10000 : ℝ)) = 1 / 10000 := by simp
  simp only [e]
  split
  · simp only [V3.sqNorm, V3.dot]; nlinarith
  · rename_i h
    have hp : V2.norm s ≠ 0 := by intro h0; rw [h0] at h; norm_num at h
    simp only [V3.sqNorm, V3.dot, cos_real, sin_real]
    have h1 := Real.sin_sq_add_cos_sq (V2.norm s)
    have e2 : Real.sin s.norm / s.norm * s.x * (Real.sin s.norm / s.norm * s.x) +
        Real.sin s.norm / s.norm * s.y * (Real.sin s.norm / s.norm * s.y) = Real.sin s.norm ^ 2 := by
      have : Real.sin s.norm / s.norm * s.x * (Real.sin s.norm / s.norm * s.x) +
        Real.sin s.norm / s.norm * s.y * (Real.sin s.norm / s.norm * s.y) =
        (Real.sin s.norm / s.norm) ^ 2 * (s.x * s.x + s.y * s.y) := by ring
      rw [this, ← hn]; field_simp
    nlinarith

/-- an orthonormal frame keeps lengths -/
theorem sqNorm_frame {v : V3 ℝ} (hv : V3.norm v = 1) (hz : v.z = 0) (r : V3 ℝ) :
    V3.sqNorm ((dsFrame v).mulVec r) = V3.sqNorm r := by
  have hs := (V3.norm_eq_one_iff v).mp hv
  rw [dsFrame_planar hv hz]
  simp only [V3.sqNorm, V3.dot, hz, M3.mulVec] at hs ⊢
  linear_combination (r.x ^ 2 + r.y ^ 2) * hs

/-! ### one matrix -/

/-- The direction reached for one matrix: `u` is the modulated velocity, at angle `θ` from the
velocity. -/
theorem frame_decomp {v u : V3 ℝ} (hv : V3.norm v = 1) (hz : v.z = 0) :
    u = (dsFrame v).mulVec ⟨V3.dot u v, ((dsFrame v).transpose.mulVec u).y,
      ((dsFrame v).transpose.mulVec u).z⟩ := by
  have hs := (V3.norm_eq_one_iff v).mp hv
  rw [dsFrame_planar hv hz]
  simp only [V3.sqNorm, V3.dot, hz, M3.mulVec, M3.transpose] at hs ⊢
  ext
  · simp only []; linear_combination -u.x * hs
  · simp only []; linear_combination -u.y * hs
  · simp

theorem safeAcos_eq (x : ℝ) : safeAcos x = Real.arccos x := by
  unfold safeAcos
  simp only [acos_real]
  split
  · rename_i h
    rw [Real.arccos_of_le_neg_one h.le, Real.arccos_neg_one]
  · split
    · rename_i h
      rw [Real.arccos_of_one_le h.le, Real.arccos_one]
    · rfl

theorem V3.dot_normalized {u v : V3 ℝ} (hu : u ≠ V3.zero) (hv : v ≠ V3.zero) :
    V3.dot u.normalized v.normalized = V3.dot u v / (V3.norm u * V3.norm v) := by
  rw [V3.normalized_of_ne hu, V3.normalized_of_ne hv, V3.smul_dot, V3.dot_smul]
  field_simp

/-- the planar components -/
theorem comp_sq {v u : V3 ℝ} (hv : V3.norm v = 1) (hz : v.z = 0) (hu : V3.norm u = 1) :
    ((dsFrame v).transpose.mulVec u).y * ((dsFrame v).transpose.mulVec u).y +
      ((dsFrame v).transpose.mulVec u).z * ((dsFrame v).transpose.mulVec u).z =
      1 - V3.dot u v * V3.dot u v := by
  have hs := (V3.norm_eq_one_iff v).mp hv
  have hs' := (V3.norm_eq_one_iff u).mp hu
  rw [dsFrame_planar hv hz]
  simp only [V3.sqNorm, V3.dot, hz, M3.mulVec, M3.transpose] at hs hs' ⊢
  linear_combination hs' + (u.x ^ 2 + u.y ^ 2) * hs

theorem core_of_zero_speed {rv : V3 ℝ} {M : M3 ℝ} (h : M.mulVec rv = V3.zero) :
    core rv [(M, 1)] = V3.zero := by
  unfold core angleTerm
  simp only [h, List.map_cons, List.map_nil, List.sum_cons, List.sum_nil, add_zero, mul_one]
  rw [V3.norm_eq_zero.mpr rfl]
  ext <;> simp [V3.smul, V3.zero]

/-- What the interpolation does to a single matrix. -/
theorem core_single {rv : V3 ℝ} {M : M3 ℝ} (hz : rv.z = 0)
    (hopp : ∀ c : ℝ, 0 < c → rv ≠ V3.zero → M.mulVec rv ≠ V3.smul (-c) rv) :
    ((Spec.angle (M.mulVec rv) rv = 0 ∨ 1 / 10000 ≤ Spec.angle (M.mulVec rv) rv) →
      core rv [(M, 1)] = M.mulVec rv) ∧
    V3.norm (core rv [(M, 1)] - M.mulVec rv) ≤ 1 / 10 ^ 8 * V3.norm (M.mulVec rv) ∧
    (0 < Spec.angle (M.mulVec rv) rv → Spec.angle (M.mulVec rv) rv < 1 / 10000 →
      core rv [(M, 1)] = V3.smul (V3.norm (M.mulVec rv)) (rv.normalized +
        V3.smul (Spec.angle (M.mulVec rv) rv / Real.sin (Spec.angle (M.mulVec rv) rv))
          ((M.mulVec rv).normalized - V3.smul (Real.cos (Spec.angle (M.mulVec rv) rv)) rv.normalized))) := by
  by_cases hu0 : M.mulVec rv = V3.zero
  · rw [core_of_zero_speed hu0, hu0]
    refine ⟨fun _ => rfl, ?_, ?_⟩
    · rw [V3.sub_self', V3.norm_eq_zero.mpr rfl]; norm_num
    · intro _ _; rw [V3.norm_eq_zero.mpr rfl]; ext <;> simp [V3.smul, V3.zero]
  have hrv : rv ≠ V3.zero := by
    rintro rfl; apply hu0; ext <;> simp [M3.mulVec, V3.zero]
  set u := M.mulVec rv with hu
  set v := rv.normalized with hvdef
  set w := u.normalized with hwdef
  have hv1 : V3.norm v = 1 := V3.norm_normalized hrv
  have hw1 : V3.norm w = 1 := V3.norm_normalized hu0
  have hvz : v.z = 0 := by rw [hvdef, V3.normalized_of_ne hrv]; simp [V3.smul, hz]
  set c := V3.dot w v with hc
  have hang : Spec.angle u rv = Real.arccos c := by
    unfold Spec.angle; rw [hc, hwdef, hvdef, V3.dot_normalized hu0 hrv]
  rw [hang]
  set θ := Real.arccos c with hθ
  have hcomp := comp_sq hv1 hvz hw1
  have hdec := frame_decomp (u := w) hv1 hvz
  set p : V2 ℝ := ⟨((dsFrame v).transpose.mulVec w).y, ((dsFrame v).transpose.mulVec w).z⟩ with hp
  have hcomp' : V2.sqNorm p = 1 - c * c := hcomp
  have hdec' : w = (dsFrame v).mulVec ⟨c, p.x, p.y⟩ := hdec
  have hcle : -1 ≤ c ∧ c ≤ 1 := by
    have := V2.sqNorm_nonneg p
    constructor <;> nlinarith
  have hcos : Real.cos θ = c := Real.cos_arccos hcle.1 hcle.2
  have hcore : core rv [(M, 1)] = V3.smul (V3.norm u)
      ((dsFrame v).mulVec (reconstruct ⟨p.normalized.x * θ, p.normalized.y * θ⟩)) := by
    unfold core angleTerm
    simp only [List.map_cons, List.map_nil, List.sum_cons, List.sum_nil, add_zero, mul_one, V2.scale,
      safeAcos_eq]
    rfl
  have hu' : u = V3.smul (V3.norm u) ((dsFrame v).mulVec ⟨c, p.x, p.y⟩) := by
    rw [← hdec', hwdef, V3.norm_smul_normalized]
  have hnu := V3.norm_pos hu0
  by_cases hp0 : V2.sqNorm p = 0
  · have hc1 : c = 1 := by
      have : (c - 1) * (c + 1) = 0 := by nlinarith
      rcases mul_eq_zero.mp this with h | h
      · linarith
      · exfalso
        have hc1 : c = -1 := by linarith
        have hpx : p.x = 0 := by
          simp only [V2.sqNorm] at hp0; nlinarith [mul_self_nonneg p.x, mul_self_nonneg p.y]
        have hpy : p.y = 0 := by
          simp only [V2.sqNorm] at hp0; nlinarith [mul_self_nonneg p.x, mul_self_nonneg p.y]
        have hnr := V3.norm_pos hrv
        apply hopp (V3.norm u / V3.norm rv) (by positivity) hrv
        conv_lhs => rw [hu', hc1, hpx, hpy, mulVec_unit0]
        have : (dsFrame v).c0 = v := by rw [dsFrame_planar hv1 hvz]
        rw [this, hvdef, V3.normalized_of_ne hrv]
        ext <;> simp only [V3.smul] <;> field_simp
    have hθ0 : θ = 0 := by rw [hθ, hc1, Real.arccos_one]
    have hpx : p.x = 0 := by
      simp only [V2.sqNorm] at hp0; nlinarith [mul_self_nonneg p.x, mul_self_nonneg p.y]
    have hpy : p.y = 0 := by
      simp only [V2.sqNorm] at hp0; nlinarith [mul_self_nonneg p.x, mul_self_nonneg p.y]
    have heq : core rv [(M, 1)] = u := by
      rw [hcore]
      conv_rhs => rw [hu', hc1, hpx, hpy]
      rw [hθ0]
      simp [reconstruct, V2.norm, V2.sqNorm]
    rw [heq]
    refine ⟨fun _ => rfl, ?_, ?_⟩
    · rw [V3.sub_self', V3.norm_eq_zero.mpr rfl]; positivity
    · intro h; rw [hθ0] at h; exact absurd h (lt_irrefl _)
  · have hpp : 0 < V2.sqNorm p := lt_of_le_of_ne (V2.sqNorm_nonneg p) (Ne.symm hp0)
    have hnp : 0 < V2.norm p := Real.sqrt_pos.mpr hpp
    have hsin : Real.sin θ = V2.norm p := by
      rw [hθ, Real.sin_arccos, V2.norm, hcomp', sqrt_real]; congr 1; ring
    have hpn : p.normalized = ⟨p.x / V2.norm p, p.y / V2.norm p⟩ := by
      unfold V2.normalized; rw [if_pos hpp]; rfl
    have hθpos : 0 < θ := by
      rcases lt_or_eq_of_le (Real.arccos_nonneg c) with h | h
      · exact h
      · rw [← hθ] at h; rw [← h, Real.sin_zero] at hsin; linarith
    have hθn : V2.norm (⟨p.x / V2.norm p * θ, p.y / V2.norm p * θ⟩ : V2 ℝ) = θ := by
      have h2 := V2.norm_sq p
      simp only [V2.sqNorm] at h2
      have : V2.sqNorm (⟨p.x / V2.norm p * θ, p.y / V2.norm p * θ⟩ : V2 ℝ) = θ ^ 2 := by
        simp only [V2.sqNorm]
        have e1 : p.x / V2.norm p * θ * (p.x / V2.norm p * θ) + p.y / V2.norm p * θ * (p.y / V2.norm p * θ) =
          θ ^ 2 * ((p.x * p.x + p.y * p.y) / (V2.norm p * V2.norm p)) := by field_simp
        rw [e1, ← h2]; field_simp
      rw [V2.norm, this, sqrt_real, Real.sqrt_sq hθpos.le]
    by_cases hsmall : θ < 1 / 10000
    · have hrec0 : reconstruct (⟨p.normalized.x * θ, p.normalized.y * θ⟩ : V2 ℝ) =
          ⟨1, p.x / V2.norm p * θ, p.y / V2.norm p * θ⟩ := by
        unfold reconstruct
        rw [hpn]
        simp only [hθn, lit_real]
        rw [if_pos (by push_cast; exact hsmall)]
      refine ⟨?_, ?_, fun _ _ => ?_⟩
      · rintro (h | h)
        · exact absurd h hθpos.ne'
        · linarith
      rotate_left
      · rw [hcore, hrec0, hcos, hsin]
        congr 1
        have hc0 : (dsFrame v).c0 = v := by rw [dsFrame_planar hv1 hvz]
        conv_rhs => rw [hdec']
        rw [M3.mulVec_cols, M3.mulVec_cols, hc0]
        ext <;> simp only [V3.smul, V3.add_x, V3.sub_x, V3.add_y, V3.sub_y, V3.add_z, V3.sub_z] <;> ring
      · have hrec : reconstruct (⟨p.normalized.x * θ, p.normalized.y * θ⟩ : V2 ℝ) =
            ⟨1, p.x / V2.norm p * θ, p.y / V2.norm p * θ⟩ := by
          unfold reconstruct
          rw [hpn]
          simp only [hθn, lit_real]
          rw [if_pos (by push_cast; exact hsmall)]
        have hdiff : core rv [(M, 1)] - u = V3.smul (V3.norm u) ((dsFrame v).mulVec
            ⟨1 - c, p.x / V2.norm p * θ - p.x, p.y / V2.norm p * θ - p.y⟩) := by
          rw [hcore, hrec]
          conv_lhs => rw [hu']
          have hnn : V3.norm (V3.smul (V3.norm u) ((dsFrame v).mulVec ⟨c, p.x, p.y⟩)) = V3.norm u := by
            rw [← hu']
          rw [hnn]
          ext <;> simp only [V3.smul, M3.mulVec, V3.sub_x, V3.sub_y, V3.sub_z] <;> ring
        rw [hdiff, V3.norm_smul, abs_of_pos hnu, mul_comm]
        apply mul_le_mul_of_nonneg_right _ hnu.le
        have hsq : V3.sqNorm ((dsFrame v).mulVec
            ⟨1 - c, p.x / V2.norm p * θ - p.x, p.y / V2.norm p * θ - p.y⟩) =
            (1 - c) ^ 2 + (θ - Real.sin θ) ^ 2 := by
          rw [sqNorm_frame hv1 hvz]
          simp only [V3.sqNorm, V3.dot]
          have h2 := V2.norm_sq p
          simp only [V2.sqNorm] at h2
          have e1 : (p.x / V2.norm p * θ - p.x) * (p.x / V2.norm p * θ - p.x) +
              (p.y / V2.norm p * θ - p.y) * (p.y / V2.norm p * θ - p.y) =
              (p.x * p.x + p.y * p.y) / (V2.norm p * V2.norm p) * (θ - V2.norm p) ^ 2 := by
            field_simp
          rw [hsin, add_assoc, e1, ← h2, div_self (by positivity)]; ring
        have h1 : 1 - c ≤ θ ^ 2 / 2 := by
          have := Real.one_sub_sq_div_two_le_cos (x := θ); rw [hcos] at this; linarith
        have h2 : θ - Real.sin θ ≤ θ ^ 3 / 4 := by
          have := Real.sin_gt_sub_cube hθpos
          have h3 : 0 < θ ^ 3 := by positivity
          linarith
        have h3 : 0 ≤ θ - Real.sin θ := by have := Real.sin_lt hθpos; linarith
        have h4 : 0 ≤ 1 - c := by linarith [hcle.2]
        have hθ2 : θ ^ 2 ≤ (1 / 10000) ^ 2 := by gcongr
        have hθ3 : θ ^ 3 ≤ (1 / 10000) ^ 3 := by gcongr
        rw [V3.norm, hsq, sqrt_real]
        apply Real.sqrt_le_iff.mpr
        refine ⟨by norm_num, ?_⟩
        have a1 : (1 - c) ^ 2 ≤ ((1 / 10000) ^ 2 / 2) ^ 2 := by gcongr; linarith
        have a2 : (θ - Real.sin θ) ^ 2 ≤ ((1 / 10000) ^ 3 / 4) ^ 2 := by gcongr; linarith
        norm_num at a1 a2 ⊢
        linarith
    · have heq : core rv [(M, 1)] = u := by
        rw [hcore]
        conv_rhs => rw [hu']
        congr 2
        unfold reconstruct
        rw [hpn]
        simp only [hθn, lit_real]
        rw [if_neg (by push_cast; exact hsmall)]
        simp only [cos_real, sin_real, hcos, hsin]
        congr 1 <;> field_simp
      rw [heq]
      refine ⟨fun _ => rfl, ?_, fun _ h => absurd h hsmall⟩
      rw [V3.sub_self', V3.norm_eq_zero.mpr rfl]; positivity

/-- the eigenvalues are never negative, so no vector is reversed -/
theorem diag_nonneg (d : ℝ) : 0 ≤ (diagonalEigenvalues d 1).x ∧ 0 ≤ (diagonalEigenvalues d 1).y ∧
    0 ≤ (diagonalEigenvalues d 1).z := by
  by_cases h : d ≤ 1
  · rw [Props.C34_inside d 1 h]; norm_num
  · obtain ⟨h1, h2⟩ := Props.C34_outside d 1 one_pos (not_le.mp h)
    unfold diagonalEigenvalues at *
    simp only [if_neg h] at *
    have hp : 0 < (1 : ℝ) / d ^ ((1 : ℝ) / 1) := by
      have : 0 < d := by linarith
      positivity
    simp only [pow_real] at *
    refine ⟨h1.le, by linarith, by linarith⟩

theorem inverse_singular {b : M3 ℝ} (h : b.det = 0) (v : V3 ℝ) : b.inverse.mulVec v = V3.zero := by
  unfold M3.inverse
  simp only [h, div_zero, mul_zero]
  ext <;> simp [M3.mulVec, V3.zero]

theorem not_opposite {q : Quat ℝ} (hq : q.IsUnit) (b : M3 ℝ) {d v : V3 ℝ} (hd : 0 ≤ d.x ∧ 0 ≤ d.y ∧ 0 ≤ d.z)
    {c : ℝ} (hc : 0 < c) (hv : v ≠ V3.zero) : (modulationProduct q b d).mulVec v ≠ V3.smul (-c) v := by
  intro h
  apply hv
  rw [modulationProduct_mulVec hq] at h
  have hvw : v = q.rotate (q.conjugate.rotate v) := (Quat.rotate_rotate_conjugate hq v).symm
  generalize q.conjugate.rotate v = w at *
  subst hvw
  rw [← Quat.rotate_smul] at h
  have h1 := Quat.rotate_injective hq h
  suffices hw : w = V3.zero by
    subst hw
    have := Quat.rotate_smul q 0 V3.zero
    have e : V3.smul (0 : ℝ) V3.zero = V3.zero := by ext <;> simp [V3.smul, V3.zero]
    rw [e] at this
    rw [this]; ext <;> simp [V3.smul, V3.zero]
  by_cases hdet : b.det = 0
  · rw [inverse_singular hdet] at h1
    have hx := congrArg V3.x h1
    have hy := congrArg V3.y h1
    have hz := congrArg V3.z h1
    simp [M3.mulVec, M3.had, V3.zero, V3.smul] at hx hy hz
    ext <;> simp [V3.zero]
    · exact hx.resolve_left hc.ne'
    · exact hy.resolve_left hc.ne'
    · exact hz.resolve_left hc.ne'
  · have hk : w = b.mulVec (b.inverse.mulVec w) := (M3.mulVec_inverse_mulVec hdet w).symm
    generalize b.inverse.mulVec w = k at *
    subst hk
    rw [← M3.mulVec_smul] at h1
    have h2 : M3.had d k = V3.smul (-c) k := by
      rw [← M3.inverse_mulVec_mulVec hdet (M3.had d k), h1, M3.inverse_mulVec_mulVec hdet]
    have hx := congrArg V3.x h2
    have hy := congrArg V3.y h2
    have hz := congrArg V3.z h2
    simp only [M3.had, V3.smul] at hx hy hz
    have kx : k.x = 0 := by
      have : (d.x + c) * k.x = 0 := by linear_combination hx
      exact (mul_eq_zero.mp this).resolve_left (by linarith [hd.1])
    have ky : k.y = 0 := by
      have : (d.y + c) * k.y = 0 := by linear_combination hy
      exact (mul_eq_zero.mp this).resolve_left (by linarith [hd.2.1])
    have kz : k.z = 0 := by
      have : (d.z + c) * k.z = 0 := by linear_combination hz
      exact (mul_eq_zero.mp this).resolve_left (by linarith [hd.2.2])
    ext <;> simp [M3.mulVec, kx, ky, kz, V3.zero]

/-- the matrix of every obstacle is such a product -/
theorem matrix_product {h : Heap ℝ} {a : Agent ℝ} {o : Obj ℝ} {M B : M3 ℝ} {d : ℝ}
    (hm : modulationMatrix h a o = .ok (M, B, d)) :
    ∃ n ref, h.normalToAgent o a.state.position a.margin = .ok n ∧
      h.distanceToAgent o a.state.position a.margin = .ok d ∧ o.base.refPos = some ref ∧
      M = modulationProduct o.base.orientation
        (referenceBasis n (referenceDirection o.base.pose a.state.position ref)) (diagonalEigenvalues d 1) ∧
      B = orthogonalBasis n := by
  unfold modulationMatrix basisMatrices Base.ref at hm
  cases hn : h.normalToAgent o a.state.position a.margin with
  | ok n =>
    cases hd : h.distanceToAgent o a.state.position a.margin with
    | ok d' =>
      cases hr : o.base.refPos with
      | some ref =>
        simp [hn, hd, hr] at hm
        obtain ⟨h1, h2, h3⟩ := hm
        exact ⟨n, ref, rfl, by rw [h3], rfl, by rw [← h1, h3], h2.symm⟩
      | none => simp [hn, hd, hr] at hm
    | throw e => simp [hn, hd] at hm
    | ub u => simp [hn, hd] at hm
  | throw e => simp [hn] at hm
  | ub u => simp [hn] at hm

theorem matrix_not_opposite {h : Heap ℝ} {a : Agent ℝ} {o : Obj ℝ} {M B : M3 ℝ} {d : ℝ}
    (hq : o.base.orientation.norm = 1) (hm : modulationMatrix h a o = .ok (M, B, d)) (v : V3 ℝ) (c : ℝ)
    (hc : 0 < c) (hv : v ≠ V3.zero) : M.mulVec v ≠ V3.smul (-c) v := by
  obtain ⟨n, ref, -, -, -, rfl, -⟩ := matrix_product hm
  exact not_opposite ((Quat.isUnit_iff_norm _).mpr hq) _ (diag_nonneg d) hc hv

/-! ### only one obstacle counts -/

theorem angleTerm_zero (f : M3 ℝ) (n r : V3 ℝ) (m : M3 ℝ) : angleTerm f n r m 0 = (0, ⟨0, 0⟩) := by
  simp [angleTerm, V2.scale]

theorem core_focus (rv : V3 ℝ) (l1 l2 : List (M3 ℝ × ℝ)) (x : M3 ℝ × ℝ) (h1 : ∀ y ∈ l1, y.2 = 0)
    (h2 : ∀ y ∈ l2, y.2 = 0) : core rv (l1 ++ x :: l2) = core rv [x] := by
  have key : ∀ (l : List (M3 ℝ × ℝ)) (g : ℝ × V2 ℝ → ℝ), g (0, ⟨0, 0⟩) = 0 → (∀ y ∈ l, y.2 = 0) →
      ((l.map fun x => angleTerm (dsFrame rv.normalized).transpose rv.normalized rv x.1 x.2).map g).sum = 0 := by
    intro l g hg hl
    induction l with
    | nil => rfl
    | cons y l ih =>
      simp only [List.map_cons, List.sum_cons]
      rw [hl y List.mem_cons_self, angleTerm_zero, hg, zero_add]
      exact ih fun z hz => hl z (List.mem_cons_of_mem _ hz)
  unfold core
  simp only [List.map_append, List.map_cons, List.sum_append, List.sum_cons, List.map_nil, List.sum_nil]
  rw [key l1 (·.1) rfl h1, key l2 (·.1) rfl h2, key l1 (·.2.x) rfl h1, key l2 (·.2.x) rfl h2,
    key l1 (·.2.y) rfl h1, key l2 (·.2.y) rfl h2]
  simp

theorem weightOf_single (c p d : ℝ) : Props.weightOf [d] c p d = 1 := by
  have := (Props.C33_convex [d] c p (by simp)).2.2
  rw [Props.weight_eq] at this
  simpa using this

/-- the only critical obstacle takes all the weight -/
theorem weightOf_focus (l1 l2 : List ℝ) (d c p : ℝ) (hd : d ≤ c) (h1 : ∀ y ∈ l1, c < y) (h2 : ∀ y ∈ l2, c < y) :
    Props.weightOf (l1 ++ d :: l2) c p d = 1 ∧ ∀ y, c < y → Props.weightOf (l1 ++ d :: l2) c p y = 0 := by
  have hf : ∀ l : List ℝ, (∀ y ∈ l, c < y) → l.filter (fun d => decide (d ≤ c)) = [] := by
    intro l hl
    rw [List.filter_eq_nil_iff]
    intro y hy
    simpa using hl y hy
  have hlen : ((l1 ++ d :: l2).filter fun d => decide (d ≤ c)).length = 1 := by
    rw [List.filter_append, List.filter_cons, hf l1 h1, hf l2 h2]; simp [hd]
  unfold Props.weightOf
  simp only [hlen]
  refine ⟨by simp [hd], fun y hy => by simp [not_le.mpr hy]⟩

/-! ### the first loop without shifts -/

/-- what `modulate_velocity` stores for one obstacle -/
noncomputable def itemOf (h : Heap ℝ) (a : Agent ℝ) (p : Ptr) : Res (Item ℝ) := do
  let o ← h.deref p
  let m ← modulationMatrix h a o
  .ok { base := o.base, matrix := m.1, basis := m.2.1, dist := m.2.2 }

theorem collect_false (a : Agent ℝ) (h : Heap ℝ) (l : List Ptr) :
    collect false a h l = (l.mapM (itemOf h a)) >>= fun its => .ok (h, its) := by
  induction l with
  | nil => rfl
  | cons p l ih =>
    simp only [collect, Bool.false_eq_true, if_false, List.mapM_cons, ih, itemOf, Res.ok_bind, bind_assoc,
      Res.pure_eq]

theorem mapM_ok {β γ : Type} (f : β → Res γ) (l : List β) (r : List γ) :
    l.mapM f = .ok r ↔ List.Forall₂ (fun b c => f b = .ok c) l r := by
  induction l generalizing r with
  | nil =>
    simp only [List.mapM_nil, Res.pure_eq, Res.ok.injEq]
    constructor
    · rintro rfl; exact .nil
    · intro h; cases h; rfl
  | cons b l ih =>
    simp only [List.mapM_cons, Res.bind_eq_ok]
    constructor
    · rintro ⟨c, hc, r', hr', h⟩
      cases h
      exact .cons hc ((ih r').mp hr')
    · intro h
      cases h with
      | cons hc hr => exact ⟨_, hc, _, (ih _).mpr hr, rfl⟩

theorem finish_none (v : V3 ℝ) : finish none v = v := by simp [finish, V3.hasNaN]

/-- `modulate_velocity` in sight of the obstacles, without shift and without repulsion -/
theorem modulate_plain (h : Heap ℝ) (a : Agent ℝ) (e : Env) (loc : Bool) (c p : ℝ) (its : List (Item ℝ))
    (hne : e.list ≠ [])
    (hloc : loc = true → ∃ env, a.getEnvelope h = .ok env ∧ h.isIntersectingList env e.list = .ok true)
    (hits : e.list.mapM (itemOf h a) = .ok its) :
    modulateVelocity h a e loc false false c p =
      .ok (h, combine a.state.position a.state.linearVelocity its c p) := by
  have hem : e.list.isEmpty = false := by simpa using hne
  have hc : collect false a h e.list = .ok (h, its) := by rw [collect_false, hits]; rfl
  unfold modulateVelocity
  simp only [hem, Bool.false_eq_true, if_false, hc]
  cases loc with
  | false => simp [finish_none]
  | true =>
    obtain ⟨env, h1, h2⟩ := hloc rfl
    simp [h1, h2, finish_none]

end Modulation
end DOA
