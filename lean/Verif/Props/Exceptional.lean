import Verif.Lemmas.DblCollect
import Verif.Props.Total

/-!
# Exceptional values (C27 negation, C66, C67)

Statements about the model over ideal doubles (`Model/Dbl.lean`).
-/

set_option linter.unusedSectionVars false
set_option linter.unusedSimpArgs false

namespace DOA.Props
open DOA DOA.Spec DOA.Modulation Dbl

/-! ## C27: lines parallel to the y axis of the obstacle frame -/

theorem signed_pos {r : ℝ} (h : 0 < r) : signed r = pinf := if_pos h
theorem signed_neg {r : ℝ} (h : r < 0) : signed r = ninf := by rw [signed, if_neg (not_lt.mpr h.le), if_pos h]
theorem signed_zero : signed 0 = nan := by simp [signed]
theorem pinf_mul (r : ℝ) : pinf * fin r = signed r := rfl
theorem ninf_mul (r : ℝ) : ninf * fin r = signed (-r) := rfl
theorem mul_pinf (r : ℝ) : fin r * pinf = signed r := rfl
theorem mul_ninf (r : ℝ) : fin r * ninf = signed (-r) := rfl
theorem pinf_div {r : ℝ} (h : 0 < r) : pinf / fin r = pinf := (if_neg h.ne').trans (signed_pos h)
theorem ninf_div {r : ℝ} (h : 0 < r) : ninf / fin r = ninf := (if_neg h.ne').trans (signed_neg (by linarith))

/-- the discriminant of a vertical line is NaN -/
theorem vertical_delta {a : Dbl} (ha : NF a) (x1 y1 : ℝ) {r1 r2 : ℝ} (h1 : 0 < r1) (h2 : 0 < r2) :
    ((lit 2 1 * a * (fin y1 - a * fin x1)) / fin r2) * ((lit 2 1 * a * (fin y1 - a * fin x1)) / fin r2)
      - lit 4 1 * (1 / fin r1 + (a * a) / fin r2)
        * (((fin y1 - a * fin x1) * (fin y1 - a * fin x1)) / fin r2 - 1) = nan := by
  have hf1 : ∀ r, fin r - pinf = ninf := fun _ => rfl
  have hf2 : ∀ r, fin r - ninf = pinf := fun _ => rfl
  have hf3 : ∀ r, pinf - fin r = pinf := fun _ => rfl
  have hf4 : ∀ r, fin r + pinf = pinf := fun _ => rfl
  have hpp : pinf * pinf = pinf := rfl
  have hpn : pinf * ninf = ninf := rfl
  have hnp : ninf * pinf = ninf := rfl
  have hnn : ninf * ninf = pinf := rfl
  have hss : pinf - pinf = nan := rfl
  have e2 : signed (((2 : Int) : ℝ) / ((1 : Nat) : ℝ)) = pinf := signed_pos (by norm_num)
  have e2' : signed (-(((2 : Int) : ℝ) / ((1 : Nat) : ℝ))) = ninf := signed_neg (by norm_num)
  have e4 : signed (((4 : Int) : ℝ) / ((1 : Nat) : ℝ)) = pinf := signed_pos (by norm_num)
  have hone : fin 1 / fin r1 = fin (1 / r1) := fin_div h1.ne'
  cases a with
  | fin r => exact absurd rfl (ha r)
  | nan => simp
  | pinf =>
    rcases lt_trichotomy x1 0 with hx | rfl | hx
    · simp only [pinf_mul, signed_neg hx, hf2, lit_def, mul_pinf, e2, hpp, pinf_div h2, hone, hf4, one_def, hf3, e4, hss]
    · simp only [pinf_mul, signed_zero, sub_nan, mul_nan, nan_div, nan_sub]
    · simp only [pinf_mul, signed_pos hx, hf1, lit_def, mul_pinf, e2, hpp, hpn, hnn, pinf_div h2, ninf_div h2, hone, hf4, one_def,
        hf3, e4, hss]
  | ninf =>
    rcases lt_trichotomy x1 0 with hx | rfl | hx
    · simp only [ninf_mul, signed_pos (show 0 < -x1 by linarith), hf1, lit_def, mul_ninf, mul_pinf, e2', hpp, hpn, hnn,
        pinf_div h2, ninf_div h2, hone, hf4, one_def, hf3, e4, hss]
    · simp only [ninf_mul, neg_zero, signed_zero, sub_nan, mul_nan, nan_div, nan_sub]
    · simp only [ninf_mul, signed_neg (show -x1 < 0 by linarith), hf2, lit_def, mul_ninf, mul_pinf, e2', hpp, hpn, hnp, hnn,
        pinf_div h2, ninf_div h2, hone, hf4, one_def, hf3, e4, hss]

/-- C27 (negation, general form): for every ellipsoid with finite data and nonzero half lengths and every line parallel to
the y axis of its frame, `compute_interesection_points` reports no intersection — wherever the line passes: the slope
`a = Δy / 0` is infinite or NaN, the discriminant is `∞ - ∞ = NaN`, and `NaN >= 0` is false. -/
theorem C27_negation_vertical (e : Ellipsoid ℝ) (hx : (halfLengths e V3.zero).x ≠ 0) (hy : (halfLengths e V3.zero).y ≠ 0)
    (x1 x2 : V3 ℝ) (hv : (e.base.pose.inverse.apply x1).x = (e.base.pose.inverse.apply x2).x) :
    e.toD.intersectionPoints x1.toD x2.toD = (false, V3.zero, V3.zero) := by
  have hx' : (e.axis + e.base.margin).x ≠ 0 := by simpa [halfLengths, V3.zero] using hx
  have hy' : (e.axis + e.base.margin).y ≠ 0 := by simpa [halfLengths, V3.zero] using hy
  simp only [Ellipsoid.intersectionPoints, Ellipsoid.toD_base, Ellipsoid.toD_axis, Base.toD_pose, Base.toD_margin,
    Pose.toD_inverse, Pose.toD_apply, V3.toD_add, V3.toD_x, V3.toD_y]
  have h0 : fin (e.base.pose.inverse.apply x2).x - fin (e.base.pose.inverse.apply x1).x = fin 0 := by
    rw [hv]; simp
  rw [h0]
  have hNF : NF ((fin (e.base.pose.inverse.apply x2).y - fin (e.base.pose.inverse.apply x1).y) / fin 0) := by
    rw [fin_sub, fin_div_zero]; exact nf_signed _
  generalize (fin (e.base.pose.inverse.apply x2).y - fin (e.base.pose.inverse.apply x1).y) / fin 0 = a at hNF
  rw [fin_mul (e.axis + e.base.margin).x, fin_mul (e.axis + e.base.margin).y,
    vertical_delta hNF _ _ (mul_self_pos.mpr hx') (mul_self_pos.mpr hy'), if_neg (not_le_nan _)]

/-- C27 (negation, concrete): the unit ball at the origin and the line `x = 0` through its centre. -/
theorem C27_negation :
    (ballAt ⟨0, 0, 0⟩).toD.intersectionPoints (V3.toD ⟨0, -2, 0⟩) (V3.toD ⟨0, 2, 0⟩) = (false, V3.zero, V3.zero) ∧
    ∃ u v, OnLine 0 (-2) 0 2 u v ∧ (u / (halfLengths (ballAt ⟨0, 0, 0⟩) V3.zero).x) ^ 2
      + (v / (halfLengths (ballAt ⟨0, 0, 0⟩) V3.zero).y) ^ 2 < 1 := by
  constructor
  · apply C27_negation_vertical
    · norm_num [halfLengths, ballAt, Ellipsoid.ofBase, V3.const, V3.zero, Base.mkRef]
    · norm_num [halfLengths, ballAt, Ellipsoid.ofBase, V3.const, V3.zero, Base.mkRef]
    · simp [ballAt, Ellipsoid.ofBase, Base.mkRef, State.ofPosition, Pose.ofPosition, Base.pose, Pose.inverse, Pose.apply,
        Quat.rotate, Quat.one, Quat.conjugate, Quat.vec, V3.cross, V3.smul]
  · refine ⟨0, 0, ⟨1 / 2, by norm_num, by norm_num⟩, by norm_num⟩

/-- C47 (negation): a heading parallel to the y axis of the obstacle frame never shifts the reference point of that obstacle,
even if the agent is heading straight at it. -/
theorem C47_negation_vertical (h : Heap Dbl) (p : Ptr) (e : Ellipsoid ℝ) (ho : h[p]? = some (.ellipsoid e.toD))
    (hx : (halfLengths e V3.zero).x ≠ 0) (hy : (halfLengths e V3.zero).y ≠ 0) (x v : V3 ℝ)
    (hv : (e.base.pose.inverse.apply x).x = (e.base.pose.inverse.apply (x + v)).x) :
    h.shiftReferencePoint p x.toD v.toD = .ok h := by
  simp only [Heap.shiftReferencePoint, Heap.deref, ho, Res.ok_bind, Obj.intersectionPoints, V3.toD_add,
    C27_negation_vertical e hx hy x (x + v) hv, Bool.false_eq_true, if_false]

/-! ## C67: exact singularities stop the agent -/

/-- the reference basis `compute_basis_matrices` builds for an ellipsoid -/
noncomputable def basisOf (el : Ellipsoid ℝ) (ref : V3 ℝ) (a : Agent ℝ) : M3 ℝ :=
  referenceBasis (el.normalToAgent a.state.position a.margin) (referenceDirection el.base.pose a.state.position ref)

theorem matrix_toD (h : Heap Dbl) (a : Agent ℝ) {el : Ellipsoid ℝ} (hc : el.NatCurv) {ref : V3 ℝ}
    (hr : el.base.refPos = some ref) :
    modulationMatrix h a.toD (.ellipsoid el.toD) = .ok
      (modulationProduct el.base.orientation.toD (basisOf el ref a).toD
        (diagonalEigenvalues (el.distanceToPoint a.state.position (V3.const a.margin)) 1).toD,
       (orthogonalBasis (el.normalToAgent a.state.position a.margin)).toD,
       fin (el.distanceToPoint a.state.position (V3.const a.margin))) := by
  simp only [modulationMatrix, Heap.normalToAgent, Heap.distanceToAgent, Heap.distanceToPoint, Res.ok_bind,
    basisMatrices, Base.ref, Obj.base, Ellipsoid.toD_base, Base.toD_refPos, hr, Option.map_some, Agent.toD_state,
    State.toD_position, Agent.toD_margin, Ellipsoid.toD_normalToAgent hc, V3.toD_const, Ellipsoid.toD_distanceToPoint hc,
    Base.toD_pose, toD_referenceDirection, toD_referenceBasis, toD_orthogonalBasis, toD_eigenvalues,
    Base.toD_orientation]
  rfl

theorem forall2_mem {β γ : Type} {R : β → γ → Prop} {l : List β} {r : List γ} (h : List.Forall₂ R l r) {b : β} (hb : b ∈ l) :
    ∃ c ∈ r, R b c := by
  induction h with
  | nil => cases hb
  | cons hr _ ih =>
    rcases List.mem_cons.mp hb with rfl | hb
    · exact ⟨_, List.mem_cons_self, hr⟩
    · obtain ⟨i, hi, h⟩ := ih hb
      exact ⟨i, List.mem_cons_of_mem _ hi, h⟩

/-- C67: if, when the matrices are computed, the reference basis of one of the obstacles is exactly singular, then the velocity
returned is exactly zero, whatever the other obstacles (of any kind, with any data, finite or not) contribute and
whatever the options are: the NaN produced by the inverse reaches the guard at the end. `h'` is the heap after the
call, in which the reference point of the obstacle is the one that was used. -/
theorem C67_singular_stops {h h' : Heap Dbl} {a : Agent ℝ} {e : Env} {loc rep planar : Bool} {critical power : Dbl}
    {v : V3 Dbl} (hm : modulateVelocity h a.toD e loc rep planar critical power = .ok (h', v))
    (hsight : loc = true → ∃ env, a.toD.getEnvelope h = .ok env ∧ h.isIntersectingList env e.list = .ok true)
    {p : Ptr} (hp : p ∈ e.list) {el : Ellipsoid ℝ} (ho : h'[p]? = some (.ellipsoid el.toD)) (hc : el.NatCurv)
    {ref : V3 ℝ} (hr : el.base.refPos = some ref) (hdet : (basisOf el ref a).det = 0) :
    v = ⟨fin 0, fin 0, fin 0⟩ := by
  rw [modulateVelocity_eq] at hm
  have hne : ¬ e.list.isEmpty = true := by
    intro hh; rw [List.isEmpty_iff] at hh; rw [hh] at hp; cases hp
  rw [if_neg hne] at hm
  have hs : sightOf h a.toD loc e.list = .ok true := by
    cases loc with
    | false => rfl
    | true =>
      obtain ⟨env, h1, h2⟩ := hsight rfl
      simp only [sightOf, h1, Res.ok_bind, h2]
  rw [hs, Res.ok_bind, if_pos rfl, collect_stage, bind_assoc] at hm
  obtain ⟨its, hits, hm⟩ := Res.bind_eq_ok.mp hm
  rw [Res.ok_bind] at hm
  obtain ⟨rp, -, hm⟩ := Res.bind_eq_ok.mp hm
  cases hm
  rw [getElem?_stageHeap _ _ _ hp] at ho
  obtain ⟨o, ho1, ho2⟩ := Option.map_eq_some_iff.mp ho
  have hF := (mapM_ok _ _ _).mp hits
  obtain ⟨i, hi, hpi⟩ : ∃ i ∈ its, stageItem planar h a.toD p = .ok i := by
    exact forall2_mem hF hp
  have hNF : i.matrix.NF := by
    simp only [stageItem, Heap.deref, ho1, Res.ok_bind, ho2, matrix_toD h a hc hr] at hpi
    cases hpi
    exact ((M3.inverse_singular hdet).mul_right _).mul_left _
  rw [combine_nan _ _ _ _ hi hNF, finish_nan]
  rfl

/-- C67: in particular an agent exactly at the reference point of an obstacle. -/
theorem C67_at_reference {h h' : Heap Dbl} {a : Agent ℝ} {e : Env} {loc rep planar : Bool} {critical power : Dbl}
    {v : V3 Dbl} (hm : modulateVelocity h a.toD e loc rep planar critical power = .ok (h', v))
    (hsight : loc = true → ∃ env, a.toD.getEnvelope h = .ok env ∧ h.isIntersectingList env e.list = .ok true)
    {p : Ptr} (hp : p ∈ e.list) {el : Ellipsoid ℝ} (ho : h'[p]? = some (.ellipsoid el.toD)) (hc : el.NatCurv)
    (hr : el.base.refPos = some a.state.position) : v = ⟨fin 0, fin 0, fin 0⟩ := by
  refine C67_singular_stops hm hsight hp ho hc hr ?_
  rw [basisOf, det_referenceBasis]
  have h0 : referenceDirection el.base.pose a.state.position a.state.position = V3.zero := by
    unfold referenceDirection V3.normalized
    have : el.base.pose.inverse.apply a.state.position - el.base.pose.inverse.apply a.state.position = V3.zero := by
      ext <;> simp [V3.zero]
    rw [this, if_neg]
    simp [V3.sqNorm, V3.dot, V3.zero]
  rw [h0]
  simp [V3.sqNorm, V3.dot, V3.cross, V3.zero]

/-- Non-vacuity: an agent at the centre of a ball, moving. -/
example : modulateVelocity (Heap.toD [.ellipsoid (ballAt ⟨0, 0, 0⟩)]) (agentAt ⟨0, 0, 0⟩ ⟨1, 0, 0⟩).toD (envOf [0]) false true
    false (fin 1) (fin 2) = .ok (Heap.toD [.ellipsoid (ballAt ⟨0, 0, 0⟩)], ⟨fin 0, fin 0, fin 0⟩) := by
  have hready : Ready (Heap.toD [.ellipsoid (ballAt ⟨0, 0, 0⟩)]) (envOf [0]).list := by
    intro p hp
    simp only [envOf, List.mem_singleton] at hp
    subst hp
    exact ⟨_, _, rfl, rfl⟩
  obtain ⟨h', v, hm, -⟩ := C61_total (Heap.toD [.ellipsoid (ballAt ⟨0, 0, 0⟩)]) (agentAt ⟨0, 0, 0⟩ ⟨1, 0, 0⟩).toD (envOf [0])
    false true false (fin 1) (fin 2) hready (by simp)
  have hh' : h' = Heap.toD [.ellipsoid (ballAt ⟨0, 0, 0⟩)] := by
    have := hm
    rw [modulateVelocity_eq] at this
    simp only [envOf, List.isEmpty_cons, Bool.false_eq_true, if_false, sightOf, Res.ok_bind, if_true, collect_stage,
      bind_assoc] at this
    obtain ⟨its, -, this⟩ := Res.bind_eq_ok.mp this
    obtain ⟨rp, -, this⟩ := Res.bind_eq_ok.mp this
    cases this
    rfl
  have hv := C67_at_reference (el := ballAt ⟨0, 0, 0⟩) hm (by simp) (p := 0) (by simp [envOf]) (by rw [hh']; rfl)
    ⟨1, 1, 1, (ballAt_smooth _).1⟩ rfl
  rw [hm, hh', hv]

/-! ## C66: otherwise the result is the one of real arithmetic -/

/-- Obstacle `p` is an ellipsoid with a reference position, integer curvature and nonzero half lengths; with planar
modulation the heading is not parallel to the y axis of its frame; the reference basis that is used is not singular. -/
def Regular (planar : Bool) (h : Heap ℝ) (a : Agent ℝ) (p : Ptr) : Prop :=
  ∃ el, h[p]? = some (.ellipsoid el) ∧ el.NatCurv ∧ el.Solid ∧
    (planar = true → (el.base.pose.inverse.apply a.state.position).x
      ≠ (el.base.pose.inverse.apply (a.state.position + a.state.linearVelocity)).x) ∧
    ∃ el' ref, stage planar a (.ellipsoid el) = .ellipsoid el' ∧ el'.base.refPos = some ref ∧ (basisOf el' ref a).det ≠ 0

theorem stage_toD {planar : Bool} {a : Agent ℝ} {el : Ellipsoid ℝ} (hs : el.Solid)
    (hv : planar = true → (el.base.pose.inverse.apply a.state.position).x
      ≠ (el.base.pose.inverse.apply (a.state.position + a.state.linearVelocity)).x) :
    stage planar a.toD (.ellipsoid el.toD) = (stage planar a (.ellipsoid el)).toD := by
  cases planar with
  | false => rfl
  | true =>
    simp only [stage, if_true, shifted, Agent.toD_state, State.toD_position, State.toD_lin, V3.toD_add,
      Ellipsoid.toD_intersectionPoints hs.1 hs.2 (hv rfl)]
    split
    · simp only [Obj.toD, Ellipsoid.toD, Base.toD, Base.setRef, V3.toD_add, Option.map_some]
      rw [lit_def, V3.toD_sdiv _ (by norm_num)]
      rfl
    · rfl

theorem stage_shape {planar : Bool} {a : Agent ℝ} {el el' : Ellipsoid ℝ}
    (h : stage planar a (.ellipsoid el) = .ellipsoid el') :
    el'.axis = el.axis ∧ el'.curv = el.curv ∧ el'.base.margin = el.base.margin ∧ el'.base.state = el.base.state := by
  cases planar with
  | false => cases h; exact ⟨rfl, rfl, rfl, rfl⟩
  | true =>
    simp only [stage, if_true, shifted] at h
    split at h <;> cases h <;> exact ⟨rfl, rfl, rfl, rfl⟩

theorem stageItem_toD {planar : Bool} {h : Heap ℝ} {a : Agent ℝ} {p : Ptr} (hreg : Regular planar h a p) :
    ∃ i, stageItem planar h a p = .ok i ∧ stageItem planar h.toD a.toD p = .ok i.toD := by
  obtain ⟨el, h1, hc, hs, hv, el', ref, h2, h3, hdet⟩ := hreg
  have hsh := stage_shape h2
  have hc' : el'.NatCurv := by
    obtain ⟨k1, k2, k3, hk⟩ := hc
    exact ⟨k1, k2, k3, by simpa only [HasCurv, hsh.2.1] using hk⟩
  have hD : stage planar a.toD (.ellipsoid el.toD) = .ellipsoid el'.toD := by rw [stage_toD hs hv, h2]; rfl
  have hR : modulationMatrix h a (.ellipsoid el') = .ok
      (modulationProduct el'.base.orientation (basisOf el' ref a)
        (diagonalEigenvalues (el'.distanceToPoint a.state.position (V3.const a.margin)) 1),
       orthogonalBasis (el'.normalToAgent a.state.position a.margin),
       el'.distanceToPoint a.state.position (V3.const a.margin)) := by
    simp only [modulationMatrix, Heap.normalToAgent, Heap.distanceToAgent, Heap.distanceToPoint, Res.ok_bind,
      basisMatrices, Base.ref, Obj.base, h3]
    rfl
  refine ⟨Item.mk el'.base (modulationProduct el'.base.orientation (basisOf el' ref a)
        (diagonalEigenvalues (el'.distanceToPoint a.state.position (V3.const a.margin)) 1))
       (orthogonalBasis (el'.normalToAgent a.state.position a.margin))
       (el'.distanceToPoint a.state.position (V3.const a.margin)), ?_, ?_⟩
  · simp only [stageItem, Heap.deref, h1, Res.ok_bind, h2, hR]
    rfl
  · have h1D : h.toD[p]? = some (.ellipsoid el.toD) := by rw [Heap.getElem?_toD, h1]; rfl
    simp only [stageItem, Heap.deref, h1D, Res.ok_bind, hD, matrix_toD h.toD a hc' h3, toD_product _ hdet]
    rfl

theorem mapM_toD {β γ δ : Type} {f : β → Res γ} {g : β → Res δ} {t : γ → δ} {l : List β}
    (h : ∀ b ∈ l, ∃ c, f b = .ok c ∧ g b = .ok (t c)) : ∃ r, l.mapM f = .ok r ∧ l.mapM g = .ok (r.map t) := by
  induction l with
  | nil => exact ⟨[], rfl, rfl⟩
  | cons b l ih =>
    obtain ⟨c, h1, h2⟩ := h b List.mem_cons_self
    obtain ⟨r, h3, h4⟩ := ih fun b hb => h b (List.mem_cons_of_mem _ hb)
    exact ⟨c :: r, by rw [List.mapM_cons, h1, h3]; rfl, by rw [List.mapM_cons, h2, h4]; rfl⟩

theorem stageHeap_toD {planar : Bool} {h : Heap ℝ} {a : Agent ℝ} {l : List Ptr} (hreg : ∀ p ∈ l, Regular planar h a p) :
    stageHeap planar a.toD h.toD l = (stageHeap planar a h l).toD := by
  cases planar with
  | false => rfl
  | true =>
    apply List.ext_getElem?
    intro r
    rw [Heap.getElem?_toD]
    simp only [stageHeap, if_true, getElem?_shiftAll, Heap.getElem?_toD, Option.map_map]
    by_cases hr : r ∈ l
    · obtain ⟨el, h1, -, hs, hv, -⟩ := hreg r hr
      rw [h1]
      simp only [Option.map_some, Function.comp_apply, hr, if_true]
      exact congrArg some (stage_toD hs hv)
    · cases h[r]? with
      | none => rfl
      | some o => simp only [Option.map_some, Function.comp_apply, hr, if_false]

/-- a nonsingular basis implies a positive distance -/
theorem dist_ne_zero {el : Ellipsoid ℝ} (hc : el.NatCurv) {ref : V3 ℝ} {a : Agent ℝ} (hdet : (basisOf el ref a).det ≠ 0) :
    el.distanceToPoint a.state.position (V3.const a.margin) ≠ 0 := by
  intro h0
  apply hdet
  obtain ⟨k1, k2, k3, hk, hk1, hk2, hk3⟩ := hc
  have hpow : ∀ (t : ℝ) (k : ℕ), CMath.pow t (lit 2 1 * (k : ℝ)) = (t ^ k) ^ 2 := by
    intro t k
    rw [show (lit 2 1 * (k : ℝ) : ℝ) = ((k * 2 : ℕ) : ℝ) by simp; ring, pow_real, Real.rpow_natCast, pow_mul]
  simp only [Ellipsoid.distanceToPoint, hk, hpow] at h0
  have hz : ∀ {t l : ℝ} {k : ℕ}, (Ellipsoid.scaled t l) ^ k = 0 → t = 0 := by
    intro t l k h
    have h := eq_zero_of_pow_eq_zero h
    unfold Ellipsoid.scaled at h
    split at h
    · rename_i hl
      exact (div_eq_zero_iff.mp h).resolve_right (Ellipsoid.ne_zero_of_epsilon hl)
    · exact h
  have hn : el.normalToAgent a.state.position a.margin = V3.zero := by
    have hs := fun (s t u : ℝ) (h : s ^ 2 + t ^ 2 + u ^ 2 = 0) =>
      (show s = 0 ∧ t = 0 ∧ u = 0 from ⟨by nlinarith [sq_nonneg s, sq_nonneg t, sq_nonneg u],
        by nlinarith [sq_nonneg s, sq_nonneg t, sq_nonneg u], by nlinarith [sq_nonneg s, sq_nonneg t, sq_nonneg u]⟩)
    obtain ⟨hx, hy, hzz⟩ := hs _ _ _ h0
    have hx := hz hx
    have hy := hz hy
    have hzz := hz hzz
    have hp0 : ∀ (k : ℕ) (l : ℝ), 1 ≤ k → CMath.pow (Ellipsoid.scaledSq (0 : ℝ) l) (lit 2 1 * (k : ℝ) - 1) = (0 : ℝ) := by
      intro k l hk
      have : Ellipsoid.scaledSq (0 : ℝ) l = 0 := by unfold Ellipsoid.scaledSq; split <;> simp
      rw [this, pow_real]
      apply Real.zero_rpow
      have : (1 : ℝ) ≤ k := by exact_mod_cast hk
      simp only [lit_real]; norm_num; linarith
    simp only [Ellipsoid.normalToAgent, hk, hx, hy, hzz, mul_zero, hp0 _ _ hk1, hp0 _ _ hk2, hp0 _ _ hk3]
    simp [V3.normalized, V3.sqNorm, V3.dot, V3.zero]
  have ht : tangentVector (V3.zero : V3 ℝ) = V3.zero := by
    unfold tangentVector
    simp only
    split <;> simp [V3.cross, V3.zero]
  rw [basisOf, hn, det_referenceBasis, ht]
  simp [V3.sqNorm, V3.dot, V3.cross, V3.zero]

theorem repulsion_toD {h : Heap ℝ} {a : Agent ℝ} {l : List Ptr}
    (hl : ∀ p ∈ l, ∃ el ref, h[p]? = some (.ellipsoid el) ∧ el.NatCurv ∧ el.base.refPos = some ref ∧
      el.distanceToPoint a.state.position (V3.const a.margin) ≠ 0) :
    ∃ v, repulsionSum h a l = .ok v ∧ repulsionSum h.toD a.toD l = .ok v.toD := by
  have key : ∀ (l : List Ptr) (acc : V3 ℝ), (∀ p ∈ l, ∃ el ref, h[p]? = some (.ellipsoid el) ∧ el.NatCurv ∧
      el.base.refPos = some ref ∧ el.distanceToPoint a.state.position (V3.const a.margin) ≠ 0) →
      ∃ v, l.foldlM (fun acc p => do
          let o ← h.deref p
          let v ← h.generateRepulsion o a.state.position a.margin (lit 11 10)
          .ok (acc + v)) acc = .ok v ∧
        l.foldlM (fun acc p => do
          let o ← h.toD.deref p
          let v ← h.toD.generateRepulsion o a.toD.state.position a.toD.margin (lit 11 10)
          .ok (acc + v)) acc.toD = .ok v.toD := by
    intro l
    induction l with
    | nil => intro acc _; exact ⟨acc, rfl, rfl⟩
    | cons p l ih =>
      intro acc hl
      obtain ⟨el, ref, h1, hc, hr, hd⟩ := hl p List.mem_cons_self
      have h1D : h.toD[p]? = some (.ellipsoid el.toD) := by rw [Heap.getElem?_toD, h1]; rfl
      have hone : ∃ w, h.generateRepulsion (.ellipsoid el) a.state.position a.margin (lit 11 10) = .ok w ∧
          h.toD.generateRepulsion (.ellipsoid el.toD) a.toD.state.position a.toD.margin (lit 11 10) = .ok w.toD := by
        simp only [Heap.generateRepulsion, Heap.distanceToAgent, Heap.distanceToPoint, Res.ok_bind, Agent.toD_state,
          State.toD_position, Agent.toD_margin, V3.toD_const, Ellipsoid.toD_distanceToPoint hc]
        by_cases hlt : el.distanceToPoint a.state.position (V3.const a.margin) < lit 11 10
        · rw [if_pos hlt, if_pos (show fin _ < (lit 11 10 : Dbl) from hlt)]
          simp only [Heap.repulsionVector, Ellipsoid.repulsionVector, Base.ref, Ellipsoid.toD_base, Base.toD_refPos, hr,
            Option.map_some, Res.ok_bind, Ellipsoid.repulsionFactor, V3.toD_const, Ellipsoid.toD_distanceToPoint hc,
            lit_def, fin_div hd, V3.toD_sub, V3.toD_smul]
          exact ⟨_, rfl, rfl⟩
        · rw [if_neg hlt, if_neg (show ¬ fin _ < (lit 11 10 : Dbl) from hlt)]
          exact ⟨_, rfl, rfl⟩
      obtain ⟨w, h2, h3⟩ := hone
      simp only [List.foldlM_cons, Heap.deref, h1, h1D, Res.ok_bind, h2, h3, V3.toD_add]
      exact ih _ fun q hq => hl q (List.mem_cons_of_mem _ hq)
  exact key l V3.zero hl

theorem sight_toD {h : Heap ℝ} {a : Agent ℝ} {l : List Ptr} {loc : Bool}
    (hl : ∀ p ∈ l, ∃ el, h[p]? = some (.ellipsoid el) ∧ el.Solid)
    (henv : loc = true → ∃ q env, a.envelope = some q ∧ h[q]? = some (.ellipsoid env) ∧ env.Solid) :
    ∃ b, sightOf h a loc l = .ok b ∧ sightOf h.toD a.toD loc l = .ok b := by
  cases loc with
  | false => exact ⟨_, rfl, rfl⟩
  | true =>
    obtain ⟨q, env, h1, h2, hs⟩ := henv rfl
    have h2D : h.toD[q]? = some (.ellipsoid env.toD) := by rw [Heap.getElem?_toD, h2]; rfl
    have hg : a.getEnvelope h = .ok (.ellipsoid env) := by simp [Agent.getEnvelope, h1, Heap.deref, h2]
    have hgD : a.toD.getEnvelope h.toD = .ok (.ellipsoid env.toD) := by
      simp [Agent.getEnvelope, Agent.toD, h1, Heap.deref, h2D]
    simp only [sightOf, hg, hgD, Res.ok_bind, Heap.isIntersectingList]
    generalize false = acc
    induction l generalizing acc with
    | nil => exact ⟨_, rfl, rfl⟩
    | cons p l ih =>
      obtain ⟨el, h3, h4⟩ := hl p List.mem_cons_self
      have h3D : h.toD[p]? = some (.ellipsoid el.toD) := by rw [Heap.getElem?_toD, h3]; rfl
      have ih := ih fun q hq => hl q (List.mem_cons_of_mem _ hq)
      cases acc with
      | true => simpa only [List.foldlM_cons, if_true, Res.ok_bind] using ih true
      | false =>
        obtain ⟨b, hb⟩ := isIntersectingEllipsoid_ok env el
        simp only [List.foldlM_cons, Bool.false_eq_true, if_false, Heap.deref, h3, h3D, Res.ok_bind, Heap.isIntersecting,
          Heap.fuel, Heap.isIntersectingAux, Heap.isIntersectingEllipsoid, Ellipsoid.toD_isIntersectingEllipsoid hs h4, hb]
        exact ih b

/-- C66: for all lists of regular ellipsoids (any number, any rotation, integer curvature), all agents and all options,
`modulate_velocity` run on ideal doubles — where division by zero, roots of negative numbers and so on yield
infinities and NaN — returns exactly the (finite) result of real arithmetic, and the same heap.  So on these inputs the
theorems about `ℝ` are theorems about the program with doubles, up to rounding. -/
theorem C66_transfer (h : Heap ℝ) (a : Agent ℝ) (e : Env) (loc rep planar : Bool) (critical power : ℝ)
    (hreg : ∀ p ∈ e.list, Regular planar h a p)
    (henv : loc = true → ∃ q env, a.envelope = some q ∧ h[q]? = some (.ellipsoid env) ∧ env.Solid) :
    ∃ h' v, modulateVelocity h a e loc rep planar critical power = .ok (h', v) ∧
      modulateVelocity h.toD a.toD e loc rep planar (fin critical) (fin power) = .ok (h'.toD, v.toD) := by
  rw [modulateVelocity_eq, modulateVelocity_eq]
  by_cases hempty : e.list.isEmpty = true
  · rw [if_pos hempty, if_pos hempty]; exact ⟨_, _, rfl, rfl⟩
  rw [if_neg hempty, if_neg hempty]
  obtain ⟨b, hb, hbD⟩ := sight_toD (h := h) (a := a) (loc := loc) (l := e.list)
    (fun p hp => by obtain ⟨el, h1, -, h2, -⟩ := hreg p hp; exact ⟨el, h1, h2⟩) henv
  rw [hb, hbD, Res.ok_bind, Res.ok_bind]
  cases b with
  | false => exact ⟨_, _, rfl, rfl⟩
  | true =>
    obtain ⟨its, h1, h2⟩ := mapM_toD (t := Item.toD) fun p hp => stageItem_toD (hreg p hp)
    simp only [if_true, collect_stage, h1, h2, Res.ok_bind, stageHeap_toD hreg]
    have hrep : ∃ v, repulsionSum (stageHeap planar a h e.list) a e.list = .ok v ∧
        repulsionSum (stageHeap planar a h e.list).toD a.toD e.list = .ok v.toD := by
      apply repulsion_toD
      intro p hp
      obtain ⟨el, h1, hc, -, -, el', ref, h2, h3, hdet⟩ := hreg p hp
      have hsh := stage_shape h2
      have hc' : el'.NatCurv := by
        obtain ⟨k1, k2, k3, hk⟩ := hc
        exact ⟨k1, k2, k3, by simpa only [HasCurv, hsh.2.1] using hk⟩
      exact ⟨el', ref, by rw [getElem?_stageHeap _ _ _ hp, h1, Option.map_some, h2], hc', h3, dist_ne_zero hc' hdet⟩
    have hfin : ∀ (r : Option (V3 ℝ)) (mv : V3 ℝ), finish (r.map V3.toD) mv.toD = (finish r mv).toD := by
      intro r mv
      cases r with
      | none => simp [finish, V3.hasNaN]
      | some r =>
        simp only [finish, Option.map_some, V3.toD_norm, V3.toD_add]
        by_cases hr : lit 1 10000 < r.norm
        · rw [if_pos hr, if_pos (show (lit 1 10000 : Dbl) < fin _ from hr)]
          simp [V3.hasNaN]
        · rw [if_neg hr, if_neg (show ¬ (lit 1 10000 : Dbl) < fin _ from hr)]
          simp [V3.hasNaN]
    simp only [Agent.toD_state, State.toD_position, State.toD_lin, toD_combine]
    cases rep with
    | false =>
      simp only [repOf, Res.ok_bind]
      exact ⟨_, _, rfl, by rw [← hfin]; rfl⟩
    | true =>
      obtain ⟨v, h3, h4⟩ := hrep
      simp only [repOf, h3, h4, Res.ok_bind]
      exact ⟨_, _, rfl, by rw [← hfin]; rfl⟩

/-- C66: this covers, with unshifted reference points, every scene of smooth ellipsoids whose reference points are nearer to
their centres than the agent is (in terms of the distance function) — in particular every agent outside all obstacles
when the reference points are inside. -/
theorem C66_smooth (h : Heap ℝ) (a : Agent ℝ) (e : Env) (loc rep : Bool) (critical power : ℝ)
    (hobs : ∀ p ∈ e.list, ∃ el k ref, h[p]? = some (.ellipsoid el) ∧ Smooth el a.margin k ∧ el.Solid ∧
      el.base.refPos = some ref ∧ gdist el a.margin ref < gdist el a.margin a.state.position)
    (henv : loc = true → ∃ q env, a.envelope = some q ∧ h[q]? = some (.ellipsoid env) ∧ env.Solid) :
    ∃ h' v, modulateVelocity h a e loc rep false critical power = .ok (h', v) ∧
      modulateVelocity h.toD a.toD e loc rep false (fin critical) (fin power) = .ok (h'.toD, v.toD) := by
  apply C66_transfer _ _ _ _ _ _ _ _ _ henv
  intro p hp
  obtain ⟨el, k, ref, h1, sm, hs, hr, hin⟩ := hobs p hp
  obtain ⟨y, w, c⟩ := coord sm hin
  exact ⟨el, h1, ⟨k, k, k, sm.curv⟩, hs, by simp, el, ref, rfl, hr, coord_det sm c⟩

/-- Non-vacuity: two balls and an agent outside both. -/
example : ∃ h' v,
    modulateVelocity [.ellipsoid (ballAt ⟨0, 0, 0⟩), .ellipsoid (ballAt ⟨0, 4, 0⟩)] (agentAt ⟨-2, 1, 0⟩ ⟨1, 0, 0⟩) (envOf [0, 1])
      false true false 1 2 = .ok (h', v) ∧
    modulateVelocity (Heap.toD [.ellipsoid (ballAt ⟨0, 0, 0⟩), .ellipsoid (ballAt ⟨0, 4, 0⟩)])
      (agentAt ⟨-2, 1, 0⟩ ⟨1, 0, 0⟩).toD (envOf [0, 1]) false true false (fin 1) (fin 2) = .ok (h'.toD, v.toD) := by
  apply C66_smooth _ _ _ _ _ _ _ _ (by simp)
  have hsolid : ∀ c, (ballAt c).Solid := by
    intro c
    constructor <;> norm_num [ballAt, Ellipsoid.ofBase, V3.const, V3.zero, Base.mkRef]
  have hpos : (agentAt ⟨-2, 1, 0⟩ ⟨1, 0, 0⟩).state.position = ⟨-2, 1, 0⟩ := rfl
  have hmar : (agentAt ⟨-2, 1, 0⟩ ⟨1, 0, 0⟩).margin = 0 := rfl
  intro p hp
  simp only [envOf, List.mem_cons, List.not_mem_nil, or_false] at hp
  rcases hp with rfl | rfl
  · refine ⟨ballAt ⟨0, 0, 0⟩, 1, ⟨0, 0, 0⟩, rfl, ballAt_smooth _, hsolid _, rfl, ?_⟩
    rw [hpos, hmar, ballAt_dist, ballAt_dist]; norm_num
  · refine ⟨ballAt ⟨0, 4, 0⟩, 1, ⟨0, 4, 0⟩, rfl, ballAt_smooth _, hsolid _, rfl, ?_⟩
    rw [hpos, hmar, ballAt_dist, ballAt_dist]; norm_num

end DOA.Props
