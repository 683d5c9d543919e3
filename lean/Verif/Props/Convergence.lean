import Verif.Props.Speed
import Verif.Props.AggregateLoop
import Verif.Lemmas.DiscStep
import Verif.Lemmas.Orbit

/-!
# C84 the control loop leads the agent to its target
-/

set_option linter.unusedSectionVars false
set_option linter.unusedSimpArgs false

namespace DOA.Props
open DOA DOA.Spec DOA.Ellipsoid DOA.Modulation Filter Topology

/-! ### the disc -/

/-- An obstacle whose section with the x-y plane is a disc of radius `l` (all margins included). -/
structure Disc (e : Ellipsoid ℝ) (m l : ℝ) : Prop where
  smooth : Smooth e m 1
  plane : InPlaneZ e.base
  round_x : (halfLengths e (V3.const m)).x = l
  round_y : (halfLengths e (V3.const m)).y = l
  ref : e.base.refPos = some e.base.position

theorem Disc.pos {e : Ellipsoid ℝ} {m l : ℝ} (h : Disc e m l) : 0 < l := by
  have := h.smooth.long.1
  rw [h.round_x] at this
  linarith

theorem Disc.local_z {e : Ellipsoid ℝ} {m l : ℝ} (h : Disc e m l) {x : V3 ℝ} (hx : x.z = 0) :
    (e.base.pose.inverse.apply x).z = 0 :=
  flat_apply (flat_inversePose h.plane.pose) hx

theorem Disc.inPlane {e : Ellipsoid ℝ} {m l : ℝ} (h : Disc e m l) {x : V3 ℝ} (hx : x.z = 0) :
    InPlane e x e.base.position := by
  have key : ∀ y : V3 ℝ, y.z = 0 → ∃ a b, y = e.base.pose.apply ⟨a, b, 0⟩ := by
    intro y hy
    refine ⟨(e.base.pose.inverse.apply y).x, (e.base.pose.inverse.apply y).y, ?_⟩
    have h2 : (⟨(e.base.pose.inverse.apply y).x, (e.base.pose.inverse.apply y).y, 0⟩ : V3 ℝ) =
        e.base.pose.inverse.apply y := by ext <;> simp [h.local_z hy]
    rw [h2, Pose.apply_apply_inverse (unit' h.smooth)]
  exact ⟨key x hx, key _ h.plane.pos⟩

/-- the distance of a point of the plane -/
theorem Disc.dist {e : Ellipsoid ℝ} {m l : ℝ} (h : Disc e m l) {x : V3 ℝ} (hx : x.z = 0) :
    gdist e m x = ((x - e.base.position).x ^ 2 + (x - e.base.position).y ^ 2) / l ^ 2 := by
  have hl := h.pos
  set y := e.base.pose.inverse.apply x with hy
  have hyz : y.z = 0 := h.local_z hx
  have hxy : x = e.base.pose.apply y := (Pose.apply_apply_inverse (unit' h.smooth) x).symm
  have h1 := dist_apply h.smooth y
  rw [← hxy] at h1
  have h2 : x - e.base.position = e.base.pose.orientation.rotate y := by
    rw [hxy]
    show e.base.pose.orientation.rotate y + e.base.pose.position - e.base.pose.position = _
    v3_ring
  have h3 := Quat.sqNorm_rotate (unit' h.smooth) y
  rw [← h2] at h3
  have h4 : (x - e.base.position).z = 0 := by
    have : e.base.position.z = 0 := h.plane.pos
    simp [hx, this]
  rw [h1]
  simp only [level, h.round_x, h.round_y, hyz]
  simp only [V3.sqNorm, V3.dot, h4, hyz] at h3
  have h5 : (x - e.base.position).x ^ 2 + (x - e.base.position).y ^ 2 = y.x ^ 2 + y.y ^ 2 := by nlinarith
  rw [h5]
  norm_num [div_pow, add_div]

theorem Disc.slope {e : Ellipsoid ℝ} {m l : ℝ} (h : Disc e m l) {x u : V3 ℝ} (hx : x.z = 0) (hu : u.z = 0) :
    Slope e m x u (2 * ((x - e.base.position).x * u.x + (x - e.base.position).y * u.y) / l ^ 2) := by
  unfold Slope
  have h1 : (fun t : ℝ => gdist e m (x + V3.smul t u)) =
      fun t => (((x - e.base.position).x + t * u.x) ^ 2 + ((x - e.base.position).y + t * u.y) ^ 2) / l ^ 2 := by
    funext t
    rw [h.dist (by simp [V3.smul, hx, hu])]
    simp only [V3.smul, V3.add_x, V3.add_y, V3.sub_x, V3.sub_y]
    ring
  rw [h1]
  have h2 : ∀ a b : ℝ, HasDerivAt (fun t : ℝ => (a + t * b) ^ 2) (2 * (a * b)) 0 := by
    intro a b
    have := (((hasDerivAt_id (0 : ℝ)).mul_const b).const_add a).pow 2
    refine this.congr_deriv ?_
    simp; ring
  have h3 := ((h2 (x - e.base.position).x u.x).add (h2 (x - e.base.position).y u.y)).div_const (l ^ 2)
  refine h3.congr_deriv ?_
  ring

/-- The modulation matrix outside a disc: `M v = (1 + 1/d) v - (2/d) (r·v/r·r) r`. -/
theorem Disc.matrix {e : Ellipsoid ℝ} {l : ℝ} (h : Heap ℝ) (a : Agent ℝ) (hd : Disc e a.margin l)
    (hx : a.state.position.z = 0) (hout : 1 ≤ gdist e a.margin a.state.position) :
    ∃ M B, modulationMatrix h a (.ellipsoid e) = .ok (M, B, gdist e a.margin a.state.position) ∧
      ∀ v, v.z = 0 → M.mulVec v = V3.smul (1 + 1 / gdist e a.margin a.state.position) v -
        V3.smul (2 * (1 / gdist e a.margin a.state.position) *
          (V3.dot (a.state.position - e.base.position) v / V3.sqNorm (a.state.position - e.base.position)))
          (a.state.position - e.base.position) := by
  obtain ⟨M, B, n, c, h1, h2, h3, h4, h5, h6⟩ := matrix_form h a e 1 hd.smooth e.base.position hd.ref
    (by rw [gdist_centre hd.smooth]; linarith) (Or.inl (hd.inPlane hx))
  refine ⟨M, B, h1, fun v hv => ?_⟩
  have hl := hd.pos
  have hrz : (a.state.position - e.base.position).z = 0 := by
    have : e.base.position.z = 0 := hd.plane.pos
    simp [hx, this]
  set r := a.state.position - e.base.position with hr
  have hsl : ∀ u : V3 ℝ, u.z = 0 → c * V3.dot n u = 2 * V3.dot r u / l ^ 2 := by
    intro u hu
    have := (h4 u).unique (hd.slope hx hu)
    rw [this, ← hr]
    simp only [V3.dot, hu]
    ring
  have hr0 : r ≠ V3.zero := by
    intro h0; rw [h0] at h5; simp [V3.dot, V3.zero] at h5
  have hrr : 0 < V3.sqNorm r := V3.sqNorm_pos hr0
  have e1 : V3.dot n v / V3.dot n r = V3.dot r v / V3.sqNorm r := by
    have a1 := hsl v hv
    have a2 := hsl r hrz
    have a3 : V3.dot r r = V3.sqNorm r := rfl
    rw [a3] at a2
    rw [div_eq_div_iff h5.ne' hrr.ne']
    have a4 : c * (V3.dot n v * V3.sqNorm r) = c * (V3.dot r v * V3.dot n r) := by
      rw [← mul_assoc, a1, show c * (V3.dot r v * V3.dot n r) = V3.dot r v * (c * V3.dot n r) by ring, a2]
      ring
    exact mul_left_cancel₀ h3.ne' a4
  have hδ : 1 / gdist e a.margin a.state.position ≤ 1 := by
    rw [div_le_one (by linarith)]; exact hout
  rw [h6 v, e1, min_eq_right hδ, max_eq_right (by linarith)]
  congr 2
  ring

/-! ### the output near one obstacle -/

/-- What the interpolation of the code does to one matrix in the plane: the output is `M v` except for tiny deflections,
where the series expansions of the code stretch it and mix in the velocity itself. -/
theorem single_form (h : Heap ℝ) (a : Agent ℝ) (E : Env) (critical power : ℝ) (p : Ptr)
    (o : Obj ℝ) (M B : M3 ℝ) (d : ℝ) (hl : E.list = [p]) (hp : h[p]? = some o) (hst : Static o)
    (hq : o.base.orientation.norm = 1) (hm : modulationMatrix h a o = .ok (M, B, d)) {v : V3 ℝ}
    (hav : a.state.linearVelocity = v) (hv : v.z = 0) (hMv : (M.mulVec v).z = 0) :
    ∃ α β : ℝ, modulateVelocity h a E false false false critical power =
        .ok (h, V3.smul α (M.mulVec v) + V3.smul β v) ∧
      1 ≤ α ∧ α ≤ 1 + 1 / 10 ^ 8 ∧ 0 ≤ β ∧ β * V3.norm v ≤ 1 / 10 ^ 8 * V3.norm (M.mulVec v) ∧
      (V3.norm v = 0 → β = 0) ∧
      (β = 0 ∨ |v.x * (M.mulVec v).y - v.y * (M.mulVec v).x| ≤ 1 / 10000 * (V3.norm v * V3.norm (M.mulVec v))) := by
  have hits : E.list.mapM (itemOf h a) = .ok [⟨o.base, M, B, d⟩] := by
    rw [hl, mapM_ok]; exact .cons (itemOf_ok hp hm) .nil
  have hmod := modulate_plain h a E false critical power _ (by rw [hl]; simp) (by intro h; cases h) hits
  rw [combine_eq] at hmod
  have hov : obsVel a.state.position [⟨o.base, M, B, d⟩] critical power = V3.zero := by
    unfold obsVel
    apply lsum_zero
    intro i hi
    simp only [List.mem_singleton] at hi
    subst hi
    exact obstacleVelocity_static hst.1 hst.2 _ _ _
  have hpairs : pairs [⟨o.base, M, B, d⟩] critical power = [(M, 1)] := by
    simp [pairs, weightOf_single]
  rw [hov, hpairs, V3.sub_zero', V3.add_zero', hav] at hmod
  obtain ⟨h1, -, h3⟩ := core_single hv (M := M) fun c hc hne => matrix_not_opposite hq hm _ c hc hne
  set u := M.mulVec v with hu
  have exact_ : core v [(M, 1)] = u → ∃ α β : ℝ, modulateVelocity h a E false false false critical power =
        .ok (h, V3.smul α u + V3.smul β v) ∧
      1 ≤ α ∧ α ≤ 1 + 1 / 10 ^ 8 ∧ 0 ≤ β ∧ β * V3.norm v ≤ 1 / 10 ^ 8 * V3.norm u ∧ (V3.norm v = 0 → β = 0) ∧
      (β = 0 ∨ |v.x * u.y - v.y * u.x| ≤ 1 / 10000 * (V3.norm v * V3.norm u)) := by
    intro h0
    refine ⟨1, 0, ?_, le_refl _, by norm_num, le_refl _, ?_, fun _ => rfl, Or.inl rfl⟩
    · rw [hmod, h0]; congr 2; ext <;> simp [V3.smul]
    · rw [zero_mul]; exact mul_nonneg (by norm_num) (V3.norm_nonneg _)
  by_cases hz : angle u v = 0 ∨ 1 / 10000 ≤ angle u v
  · exact exact_ (h1 hz)
  obtain ⟨hz0, hz1⟩ := not_or.mp hz
  have hθ1 := not_le.mp hz1
  have hθ0 : 0 < angle u v := lt_of_le_of_ne (Real.arccos_nonneg _) (Ne.symm hz0)
  have hu0 : u ≠ V3.zero := by
    intro h0
    rw [h0, angle] at hθ1
    have : V3.dot V3.zero v / (V3.norm V3.zero * V3.norm v) = 0 := by simp [V3.dot, V3.zero]
    rw [this, Real.arccos_zero] at hθ1
    have := Real.two_le_pi
    linarith
  have hv0 : v ≠ V3.zero := by
    intro h0
    rw [h0, angle] at hθ1
    have : V3.dot u V3.zero / (V3.norm u * V3.norm V3.zero) = 0 := by simp [V3.dot, V3.zero]
    rw [this, Real.arccos_zero] at hθ1
    have := Real.two_le_pi
    linarith
  have hcore := h3 hθ0 hθ1
  have hnu := V3.norm_pos hu0
  have hnv := V3.norm_pos hv0
  have hcos : Real.cos (angle u v) = V3.dot u v / (V3.norm u * V3.norm v) := by
    have hcs := V3.cauchy_schwarz u v
    rw [← V3.norm_sq, ← V3.norm_sq] at hcs
    have : |V3.dot u v| ≤ V3.norm u * V3.norm v := abs_le_of_sq_le_sq (by nlinarith) (by positivity)
    have h2 := abs_le.mp this
    rw [angle, Real.cos_arccos]
    · rw [le_div_iff₀ (by positivity)]; linarith [h2.1]
    · rw [div_le_one (by positivity)]; exact h2.2
  set θ := angle u v with hθ
  have hs : 0 < Real.sin θ := Real.sin_pos_of_pos_of_lt_pi hθ0 (by linarith [Real.two_le_pi])
  have hs1 := Real.sin_lt hθ0
  have hs2 := Real.sin_gt_sub_cube hθ0
  have hc1 := Real.one_sub_sq_div_two_le_cos (x := θ)
  have hc0 : 0 < Real.cos θ := Real.cos_pos_of_mem_Ioo ⟨by linarith [Real.two_le_pi], by linarith [Real.two_le_pi]⟩
  have htan := Real.lt_tan hθ0 (by linarith [Real.two_le_pi])
  rw [Real.tan_eq_sin_div_cos, lt_div_iff₀ hc0] at htan
  have hθ2 : θ ^ 2 ≤ 1 / 10 ^ 8 := by
    have := pow_le_pow_left₀ hθ0.le hθ1.le 2
    norm_num at this ⊢; exact this
  have hα1 : 1 ≤ θ / Real.sin θ := by rw [le_div_iff₀ hs]; linarith
  refine ⟨θ / Real.sin θ, V3.norm u / V3.norm v * (1 - θ / Real.sin θ * Real.cos θ), ?_, hα1, ?_, ?_, ?_,
    fun h0 => absurd h0 hnv.ne', Or.inr ?_⟩
  · rw [hmod, hcore, V3.normalized_of_ne hv0, V3.normalized_of_ne hu0]
    congr 2
    ext <;> simp only [V3.smul, V3.add_x, V3.add_y, V3.add_z, V3.sub_x, V3.sub_y, V3.sub_z] <;> field_simp <;> ring
  · rw [div_le_iff₀ hs]
    have h5 : θ ^ 3 = θ * θ ^ 2 := by ring
    have h6 : θ * (1 - 1 / 6 * (1 / 10 ^ 8)) ≤ Real.sin θ := by
      have : θ * θ ^ 2 ≤ θ * (1 / 10 ^ 8) := mul_le_mul_of_nonneg_left hθ2 hθ0.le
      rw [h5] at hs2
      linarith
    have h7 : θ ≤ (1 + 1 / 10 ^ 8) * (θ * (1 - 1 / 6 * (1 / 10 ^ 8))) := by
      have : (1 + 1 / 10 ^ 8) * (θ * (1 - 1 / 6 * (1 / 10 ^ 8))) = ((1 + 1 / 10 ^ 8) * (1 - 1 / 6 * (1 / 10 ^ 8)) : ℝ) * θ := by ring
      rw [this]
      have : (1 : ℝ) ≤ (1 + 1 / 10 ^ 8) * (1 - 1 / 6 * (1 / 10 ^ 8)) := by norm_num
      nlinarith
    have h8 := mul_le_mul_of_nonneg_left h6 (by norm_num : (0 : ℝ) ≤ 1 + 1 / 10 ^ 8)
    linarith
  · apply mul_nonneg (by positivity)
    rw [div_mul_eq_mul_div, sub_nonneg, div_le_one hs]
    linarith
  · have h5 : V3.norm u / V3.norm v * (1 - θ / Real.sin θ * Real.cos θ) * V3.norm v =
        V3.norm u * (1 - θ / Real.sin θ * Real.cos θ) := by field_simp
    rw [h5, mul_comm (1 / 10 ^ 8)]
    refine mul_le_mul_of_nonneg_left ?_ hnu.le
    have h6 : Real.cos θ ≤ θ / Real.sin θ * Real.cos θ := by nlinarith
    have h7 : θ ^ 2 / 2 ≤ 1 / 10 ^ 8 := by linarith [sq_nonneg θ]
    linarith
  · have h5 : (v.x * u.y - v.y * u.x) ^ 2 = (V3.norm u * V3.norm v * Real.sin θ) ^ 2 := by
      have a1 : (V3.norm u * V3.norm v * Real.sin θ) ^ 2 =
          (V3.norm u * V3.norm u) * (V3.norm v * V3.norm v) * (1 - Real.cos θ ^ 2) := by
        rw [← Real.sin_sq]; ring
      rw [a1, hcos, div_pow]
      have a2 : (V3.norm u * V3.norm v) ^ 2 = (V3.norm u * V3.norm u) * (V3.norm v * V3.norm v) := by ring
      rw [a2, V3.norm_sq, V3.norm_sq]
      have a3 : V3.sqNorm u * V3.sqNorm v ≠ 0 := mul_ne_zero (V3.sqNorm_pos hu0).ne' (V3.sqNorm_pos hv0).ne'
      rw [mul_sub, mul_one, mul_div_cancel₀ _ a3]
      simp only [V3.sqNorm, V3.dot, hv, hMv]
      ring
    rw [← abs_of_nonneg (by positivity : 0 ≤ 1 / 10000 * (V3.norm v * V3.norm u))]
    apply sq_le_sq.mp
    rw [h5]
    apply pow_le_pow_left₀ (by positivity)
    have : V3.norm u * V3.norm v * Real.sin θ ≤ V3.norm u * V3.norm v * (1 / 10000) :=
      mul_le_mul_of_nonneg_left (by linarith) (by positivity)
    linarith

/-! ### the control loop -/

/-- within this distance from the centre there is repulsion -/
noncomputable def reach (c : Loop ℝ) (l : ℝ) : ℝ := if c.addRepulsion then Real.sqrt (11 / 10) * l else l

/-- the speed of the repulsion is at most this -/
noncomputable def push (c : Loop ℝ) (l : ℝ) : ℝ := if c.addRepulsion then 2 * l else 0

/-- The control loop around a disc, with or without repulsion. `D` bounds the distance to the target, `γ` how much the limit
of the speed shortens the velocity. The target is outside the disc, and where there is no repulsion. The time step is short
enough, and not absurdly short (`long`). -/
structure DiscLoop (c : Loop ℝ) (E : Env) (e : Ellipsoid ℝ) (p : Ptr) (m l γ D : ℝ) : Prop where
  list : E.list = [p]
  static : Static (.ellipsoid e)
  disc : Disc e m l
  notLocal : c.isLocal = false
  notPlanar : c.planar = false
  flat : c.target.z = 0
  gain : 0 < c.gain
  dt : 0 < c.dt
  target : reach c l < V3.norm (c.target - e.base.position)
  γ_pos : 0 < γ
  γ_one : γ ≤ 1
  maxVel : ∀ w, c.maxVel = some w → γ * (3 * (c.gain * D) + push c l) ≤ w
  room : c.addRepulsion = true → V3.norm (c.target - e.base.position) + (3 / 2 + 2 * c.dt) * l ≤ D
  short1 : 5 * (c.dt * (c.gain * D)) ≤ l
  short2 : 3 * (c.dt * c.gain * (l + V3.norm (c.target - e.base.position))) ≤ l
  long : 1 / 10 ^ 6 * l ≤ γ * c.dt * c.gain * (V3.norm (c.target - e.base.position) - l)

/-- coordinate of `x` along the line from the centre to the target -/
noncomputable def along (c : Loop ℝ) (e : Ellipsoid ℝ) (x : V3 ℝ) : ℝ :=
  V3.dot (x - e.base.position) (c.target - e.base.position) / V3.norm (c.target - e.base.position)

/-- coordinate of `x` across it -/
noncomputable def across (c : Loop ℝ) (e : Ellipsoid ℝ) (x : V3 ℝ) : ℝ :=
  turn (x - e.base.position) (c.target - e.base.position) / V3.norm (c.target - e.base.position)

/-- the limit of the speed does not shorten the velocity by more than `γ` -/
theorem limit_lower (c : Loop ℝ) {γ : ℝ} (h0 : 0 < γ) (h1 : γ ≤ 1) (v : V3 ℝ)
    (hw : ∀ w, c.maxVel = some w → γ * V3.norm v ≤ w) : ∃ g, γ ≤ g ∧ g ≤ 1 ∧ c.limit v = V3.smul g v := by
  have hone : v = V3.smul 1 v := by ext <;> simp [V3.smul]
  unfold Loop.limit
  cases hm : c.maxVel with
  | none => exact ⟨1, h1, le_refl _, hone⟩
  | some w =>
    simp only []
    split
    · rename_i hlt
      have hw0 : 0 ≤ w := le_trans (mul_nonneg h0.le (V3.norm_nonneg v)) (hw w hm)
      have hp : 0 < V3.norm v := lt_of_le_of_lt hw0 hlt
      have hv : v ≠ V3.zero := by rintro rfl; rw [V3.norm_eq_zero.mpr rfl] at hp; exact lt_irrefl _ hp
      refine ⟨w / V3.norm v, ?_, by rw [div_le_one hp]; exact hlt.le, ?_⟩
      · rw [le_div_iff₀ hp]; exact hw w hm
      · rw [V3.normalized_of_ne hv]
        ext <;> simp only [V3.smul] <;> ring
    · exact ⟨1, h1, le_refl _, hone⟩

section
variable {c : Loop ℝ} {E : Env} {e : Ellipsoid ℝ} {p : Ptr} {m l γ D : ℝ}

theorem le_reach (c : Loop ℝ) {l : ℝ} (hl : 0 < l) : l ≤ reach c l := by
  unfold reach
  split
  · have : 1 ≤ Real.sqrt (11 / 10) := Real.le_sqrt_of_sq_le (by norm_num)
    nlinarith
  · exact le_refl _

theorem push_nonneg (c : Loop ℝ) {l : ℝ} (hl : 0 < l) : 0 ≤ push c l := by
  unfold push
  split
  · linarith
  · exact le_refl _

theorem DiscLoop.outside (hc : DiscLoop c E e p m l γ D) : l < V3.norm (c.target - e.base.position) :=
  lt_of_le_of_lt (le_reach c hc.disc.pos) hc.target

theorem DiscLoop.T_pos (hc : DiscLoop c E e p m l γ D) : 0 < V3.norm (c.target - e.base.position) :=
  lt_trans hc.disc.pos hc.outside

theorem DiscLoop.centre_z (hc : DiscLoop c E e p m l γ D) : e.base.position.z = 0 := hc.disc.plane.pos

/-- the coordinates give the distance from the centre -/
theorem frame_radius (hT : 0 < V3.norm (c.target - e.base.position)) (hcz : e.base.position.z = 0) (htz : c.target.z = 0)
    {x : V3 ℝ} (hx : x.z = 0) : along c e x ^ 2 + across c e x ^ 2 = V3.sqNorm (x - e.base.position) := by
  have hz : (x - e.base.position).z = 0 := by simp [hx, hcz]
  have hz' : (c.target - e.base.position).z = 0 := by simp [htz, hcz]
  unfold along across
  rw [div_pow, div_pow, ← add_div, div_eq_iff (by positivity), sq (V3.norm _), V3.norm_sq]
  simp only [V3.sqNorm, V3.dot, turn, hz, hz']
  ring

/-- and the distance from the target -/
theorem frame_remaining (hT : 0 < V3.norm (c.target - e.base.position)) (hcz : e.base.position.z = 0) (htz : c.target.z = 0)
    {x : V3 ℝ} (hx : x.z = 0) :
    (along c e x - V3.norm (c.target - e.base.position)) ^ 2 + across c e x ^ 2 = V3.norm (x - c.target) ^ 2 := by
  have h1 := frame_radius hT hcz htz hx
  have h2 : along c e x * V3.norm (c.target - e.base.position) =
      V3.dot (x - e.base.position) (c.target - e.base.position) := by
    unfold along; field_simp
  have h3 := V3.norm_sq (c.target - e.base.position)
  have h4 := V3.norm_sq (x - c.target)
  have h5 : V3.sqNorm (x - c.target) = V3.sqNorm (x - e.base.position) -
      2 * V3.dot (x - e.base.position) (c.target - e.base.position) + V3.sqNorm (c.target - e.base.position) := by
    simp only [V3.sqNorm, V3.dot, V3.sub_x, V3.sub_y, V3.sub_z]; ring
  rw [sq (V3.norm (x - c.target)), h4, h5, ← h1, ← h2, ← h3]
  ring

theorem DiscLoop.radius (hc : DiscLoop c E e p m l γ D) {x : V3 ℝ} (hx : x.z = 0) :
    along c e x ^ 2 + across c e x ^ 2 = V3.sqNorm (x - e.base.position) :=
  frame_radius hc.T_pos hc.centre_z hc.flat hx

theorem DiscLoop.remaining (hc : DiscLoop c E e p m l γ D) {x : V3 ℝ} (hx : x.z = 0) :
    (along c e x - V3.norm (c.target - e.base.position)) ^ 2 + across c e x ^ 2 = V3.norm (x - c.target) ^ 2 :=
  frame_remaining hc.T_pos hc.centre_z hc.flat hx

theorem DiscLoop.dist (hc : DiscLoop c E e p m l γ D) {x : V3 ℝ} (hx : x.z = 0) :
    gdist e m x = (along c e x ^ 2 + across c e x ^ 2) / l ^ 2 := by
  rw [hc.disc.dist hx, hc.radius hx]
  have hz : (x - e.base.position).z = 0 := by simp [hx, hc.centre_z]
  simp only [V3.sqNorm, V3.dot, hz]
  ring

theorem DiscLoop.out_iff (hc : DiscLoop c E e p m l γ D) {x : V3 ℝ} (hx : x.z = 0) :
    1 < gdist e m x ↔ l ^ 2 < along c e x ^ 2 + across c e x ^ 2 := by
  have hl := hc.disc.pos
  rw [hc.dist hx, lt_div_iff₀ (by positivity), one_mul]

/-- without repulsion, or far from the disc -/
theorem DiscLoop.quiet_iff (hc : DiscLoop c E e p m l γ D) {x : V3 ℝ} (hx : x.z = 0) (hout : 1 < gdist e m x) :
    (c.addRepulsion = false ∨ 11 / 10 ≤ gdist e m x) ↔ reach c l ^ 2 ≤ along c e x ^ 2 + across c e x ^ 2 := by
  have hl := hc.disc.pos
  have h1 := (hc.out_iff hx).mp hout
  have h2 := hc.dist hx
  unfold reach
  cases c.addRepulsion with
  | false => simp [h1.le]
  | true =>
    simp only [Bool.true_eq_false, false_or, if_true]
    rw [h2, le_div_iff₀ (by positivity), mul_pow, Real.sq_sqrt (by norm_num)]

/-- the output of the modulation with repulsion -/
theorem single_push (h : Heap ℝ) (a : Agent ℝ) (E : Env) (rep : Bool) (critical power : ℝ) (p : Ptr)
    (e : Ellipsoid ℝ) (ref : V3 ℝ) (hl : E.list = [p]) (hp : h[p]? = some (.ellipsoid e)) (href : e.base.refPos = some ref)
    (hbig : gdist e a.margin a.state.position < 11 / 10 →
      1 / 10000 < V3.norm (V3.smul (2 / gdist e a.margin a.state.position) (a.state.position - ref))) {u : V3 ℝ}
    (hm : modulateVelocity h a E false false false critical power = .ok (h, u)) :
    ∃ k, modulateVelocity h a E false rep false critical power =
        .ok (h, u + V3.smul k (a.state.position - ref)) ∧
      (rep = false ∨ 11 / 10 ≤ gdist e a.margin a.state.position → k = 0) ∧
      (rep = true → gdist e a.margin a.state.position < 11 / 10 → k = 2 / gdist e a.margin a.state.position) := by
  have hzero : ∀ r : V3 ℝ, u + V3.smul 0 r = u := fun r => by ext <;> simp [V3.smul]
  cases rep with
  | false => exact ⟨0, by rw [hzero]; exact hm, fun _ => rfl, fun h => by cases h⟩
  | true =>
    by_cases hn : gdist e a.margin a.state.position < 11 / 10
    · refine ⟨2 / gdist e a.margin a.state.position, ?_, ?_, fun _ _ => rfl⟩
      · have := C42_added h h a E false false critical power u
          [V3.smul (2 / gdist e a.margin a.state.position) (a.state.position - ref)] (by rw [hl]; simp)
          (by intro h; cases h) hm (by
            rw [hl]
            exact .cons ⟨_, hp, C42_near h e _ _ _ _ href hn⟩ .nil)
        have hsum : V3.lsum [V3.smul (2 / gdist e a.margin a.state.position) (a.state.position - ref)] =
            V3.smul (2 / gdist e a.margin a.state.position) (a.state.position - ref) := by
          simp [V3.lsum, V3.zero_add']
        rw [this, hsum, if_pos (hbig hn)]
      · rintro (h | h)
        · cases h
        · linarith
    · refine ⟨0, ?_, fun _ => rfl, fun _ h => absurd h hn⟩
      have := C42_added h h a E false false critical power u [V3.zero] (by rw [hl]; simp) (by intro h; cases h) hm (by
        rw [hl]
        exact .cons ⟨_, hp, C42_far h _ _ _ _ _ rfl hn⟩ .nil)
      rw [this, hzero]
      have h0 : V3.lsum [(V3.zero : V3 ℝ)] = V3.zero := by simp [V3.lsum, V3.zero_add']
      rw [h0, V3.add_zero']
      simp

/-- the repulsion of a disc exceeds the threshold 1E-4 -/
theorem Disc.big {e : Ellipsoid ℝ} {m l : ℝ} (hd : Disc e m l) {x : V3 ℝ} (hx : x.z = 0) (hout : 1 < gdist e m x)
    (hn : gdist e m x < 11 / 10) : 1 / 10000 < V3.norm (V3.smul (2 / gdist e m x) (x - e.base.position)) := by
  have hl0 := hd.smooth.long.1
  rw [hd.round_x] at hl0
  have hdd := hd.dist hx
  have hnn : V3.norm (x - e.base.position) * V3.norm (x - e.base.position) = V3.sqNorm (x - e.base.position) := V3.norm_sq _
  have hz : (x - e.base.position).z = 0 := by
    have : e.base.position.z = 0 := hd.plane.pos
    simp [hx, this]
  have hsq : V3.sqNorm (x - e.base.position) = (x - e.base.position).x ^ 2 + (x - e.base.position).y ^ 2 := by
    simp only [V3.sqNorm, V3.dot, hz]; ring
  have hlp := hd.pos
  rw [V3.norm_smul, abs_of_pos (by positivity)]
  have hll : l < V3.norm (x - e.base.position) := by
    apply lt_of_pow_lt_pow_left₀ 2 (V3.norm_nonneg _)
    rw [sq (V3.norm _), hnn, hsq]
    rw [hdd, lt_div_iff₀ (by positivity)] at hout
    linarith
  have h2 : 1 < 2 / gdist e m x := by
    rw [lt_div_iff₀ (by linarith)]; linarith
  nlinarith

set_option maxHeartbeats 800000 in
/-- One iteration. -/
theorem disc_step (hc : DiscLoop c E e p m l γ D) {s : Heap ℝ × Agent ℝ} (hs : OnLoop e p m s)
    (hout : 1 < gdist e m s.2.state.position) (hD : V3.norm (s.2.state.position - c.target) ≤ D) :
    ∃ s' t α β n W k, c.iterate E (c.desired s.2.state.position) s = .ok s' ∧ OnLoop e p m s' ∧
      γ * c.dt ≤ t ∧ t ≤ c.dt ∧ 0 ≤ k ∧
      (reach c l ^ 2 ≤ along c e s.2.state.position ^ 2 + across c e s.2.state.position ^ 2 → k = 0) ∧
      (along c e s.2.state.position ^ 2 + across c e s.2.state.position ^ 2 < reach c l ^ 2 →
        c.addRepulsion = true ∧ k = 2 * l ^ 2 / (along c e s.2.state.position ^ 2 + across c e s.2.state.position ^ 2)) ∧
      DiscStep.Hyps l (V3.norm (c.target - e.base.position)) c.gain t α β (along c e s.2.state.position)
        (across c e s.2.state.position) n W ∧ n ≤ c.gain * D ∧
      along c e s'.2.state.position = along c e s.2.state.position +
        t * (DiscStep.up l (V3.norm (c.target - e.base.position)) c.gain α β (along c e s.2.state.position)
          (across c e s.2.state.position) + k * along c e s.2.state.position) ∧
      across c e s'.2.state.position = across c e s.2.state.position +
        t * (DiscStep.uq l (V3.norm (c.target - e.base.position)) c.gain α β (along c e s.2.state.position)
          (across c e s.2.state.position) + k * across c e s.2.state.position) := by
  have hflat := hs.flat
  have hl := hc.disc.pos
  have hT := hc.T_pos
  set x := s.2.state.position with hx
  set v := c.desired x with hv
  have hvz : v.z = 0 := desired_flat c hc.flat hflat
  obtain ⟨h1, hset, hon⟩ := withState_onLoop hs (s.2.state.setLinearVelocity v) hs.flat
  set a1 : Agent ℝ := { s.2 with state := s.2.state.setLinearVelocity v } with ha1
  have hpos : a1.state.position = x := rfl
  have hmar : a1.margin = m := hs.margin
  have hvel : a1.state.linearVelocity = v := rfl
  obtain ⟨M, B, hm, hM⟩ := Disc.matrix h1 a1 (by rw [hmar]; exact hc.disc) (by rw [hpos]; exact hflat)
    (by rw [hpos, hmar]; exact hout.le)
  rw [hpos, hmar] at hM
  have hMv := hM v hvz
  set r := x - e.base.position with hr
  set τ := c.target - e.base.position with hτ
  set T := V3.norm τ with hTd
  have hrz : r.z = 0 := by simp [hr, hflat, hc.centre_z]
  have hτz : τ.z = 0 := by simp [hτ, hc.flat, hc.centre_z]
  have hMz : (M.mulVec v).z = 0 := by rw [hMv]; simp [V3.smul, hvz, hrz]
  obtain ⟨α, β, hmod, hα1, hα2, hβ0, hβW, hβn, hsmall⟩ := single_form h1 a1 E c.critical c.power p (.ellipsoid e) M B _
    hc.list hon.obj hc.static hc.disc.smooth.unit hm hvel hvz hMz
  obtain ⟨k, hrep, hk0, hk1⟩ := single_push h1 a1 E c.addRepulsion c.critical c.power p e _ hc.list hon.obj hc.disc.ref
    (by rw [hpos, hmar]; exact hc.disc.big hflat hout) hmod
  rw [hpos] at hrep hk0 hk1
  rw [hmar] at hk0 hk1
  rw [← hr] at hrep
  have hquiet := hc.quiet_iff hflat hout
  -- scalars
  have hvr : v = V3.smul c.gain (τ - r) := by
    rw [hv, Loop.desired, hτ, hr]
    ext <;> simp only [V3.smul, V3.sub_x, V3.sub_y, V3.sub_z] <;> ring
  have hRP : along c e x ^ 2 + across c e x ^ 2 = V3.sqNorm r := hc.radius hflat
  have hEP : (along c e x - T) ^ 2 + across c e x ^ 2 = V3.norm (x - c.target) ^ 2 := hc.remaining hflat
  have hdR : gdist e m x = (along c e x ^ 2 + across c e x ^ 2) / l ^ 2 := hc.dist hflat
  have hout' := (hc.out_iff hflat).mp hout
  have hPT : V3.dot r τ = along c e x * T := by unfold along; rw [← hr, ← hτ, ← hTd]; field_simp
  have hQT : turn r τ = across c e x * T := by unfold across; rw [← hr, ← hτ, ← hTd]; field_simp
  have hTT : V3.dot τ τ = T * T := (V3.norm_sq τ).symm
  set P := along c e x with hP
  set Q := across c e x with hQ
  have hR0 : 0 < P ^ 2 + Q ^ 2 := lt_of_le_of_lt (sq_nonneg l) hout'
  have hδ : 1 / gdist e m x = l ^ 2 / (P ^ 2 + Q ^ 2) := by rw [hdR, one_div_div]
  have hrv : V3.dot r v = c.gain * (P * T - (P ^ 2 + Q ^ 2)) := by
    rw [hRP, ← hPT, hvr]
    simp only [V3.dot, V3.sqNorm, V3.smul, V3.sub_x, V3.sub_y, V3.sub_z]; ring
  rw [hδ, hrv, ← hRP] at hMv
  have hvv : V3.norm v ^ 2 = c.gain ^ 2 * ((P - T) ^ 2 + Q ^ 2) := by
    rw [hEP, hv, Loop.desired, V3.norm_smul, mul_pow, sq_abs, neg_sq]
  have hnD : V3.norm v ≤ c.gain * D := by
    rw [hv, Loop.desired, V3.norm_smul, abs_neg, abs_of_pos hc.gain]
    exact mul_le_mul_of_nonneg_left hD hc.gain.le
  have hturn : v.x * r.y - v.y * r.x = c.gain * (-(Q * T)) := by
    rw [← hQT, hvr]
    simp only [turn, V3.smul, V3.sub_x, V3.sub_y]; ring
  have hvvR : V3.sqNorm v * (P ^ 2 + Q ^ 2) = (c.gain * (P * T - (P ^ 2 + Q ^ 2))) ^ 2 + (c.gain * T * Q) ^ 2 := by
    rw [← hrv, hRP, show c.gain * T * Q = -(c.gain * (-(Q * T))) by ring, neg_sq, ← hturn]
    simp only [V3.sqNorm, V3.dot, hvz, hrz]; ring
  set δ := l ^ 2 / (P ^ 2 + Q ^ 2) with hδd
  set S := c.gain * (P * T - (P ^ 2 + Q ^ 2)) with hS
  have hWW : V3.norm (M.mulVec v) ^ 2 * (P ^ 2 + Q ^ 2) = ((1 - δ) * S) ^ 2 + ((1 + δ) * (c.gain * T * Q)) ^ 2 := by
    have e1 : V3.norm (M.mulVec v) ^ 2 = (1 + δ) ^ 2 * V3.sqNorm v - 4 * (1 + δ) * δ * (S / (P ^ 2 + Q ^ 2)) * S +
        4 * δ ^ 2 * (S / (P ^ 2 + Q ^ 2)) ^ 2 * (P ^ 2 + Q ^ 2) := by
      rw [sq, V3.norm_sq, hMv]
      conv_rhs => rw [hRP, ← hrv]
      rw [hRP]
      simp only [V3.sqNorm, V3.dot, V3.smul, V3.sub_x, V3.sub_y, V3.sub_z]
      rw [← hrv]
      simp only [V3.dot]
      ring
    have e2 : S / (P ^ 2 + Q ^ 2) * (P ^ 2 + Q ^ 2) = S := by field_simp
    have e3 : V3.norm (M.mulVec v) ^ 2 * (P ^ 2 + Q ^ 2) = (1 + δ) ^ 2 * (V3.sqNorm v * (P ^ 2 + Q ^ 2)) -
        4 * (1 + δ) * δ * (S / (P ^ 2 + Q ^ 2) * (P ^ 2 + Q ^ 2)) * S +
        4 * δ ^ 2 * (S / (P ^ 2 + Q ^ 2) * (P ^ 2 + Q ^ 2)) ^ 2 := by rw [e1]; ring
    rw [e3, e2, hvvR]
    ring
  have hcross : |v.x * (M.mulVec v).y - v.y * (M.mulVec v).x| * (P ^ 2 + Q ^ 2) =
      2 * δ * (|S| * |c.gain * T * Q|) := by
    have e1 : v.x * (M.mulVec v).y - v.y * (M.mulVec v).x =
        2 * δ * (S / (P ^ 2 + Q ^ 2)) * (c.gain * T * Q) := by
      have e2 : v.x * (M.mulVec v).y - v.y * (M.mulVec v).x =
          -(2 * δ * (S / (P ^ 2 + Q ^ 2))) * (v.x * r.y - v.y * r.x) := by
        rw [hMv]
        simp only [V3.smul, V3.sub_x, V3.sub_y]; ring
      rw [e2, hturn]; ring
    have hδ0 : 0 ≤ δ := by positivity
    rw [e1, abs_mul, abs_mul, abs_div, abs_of_pos hR0, abs_of_nonneg (by positivity : 0 ≤ 2 * δ)]
    field_simp
  -- the repulsion
  have hkR : P ^ 2 + Q ^ 2 < reach c l ^ 2 → c.addRepulsion = true ∧ k = 2 * l ^ 2 / (P ^ 2 + Q ^ 2) := by
    intro h
    have h3 : ¬(c.addRepulsion = false ∨ 11 / 10 ≤ gdist e m x) := fun h4 => absurd (hquiet.mp h4) (not_le.mpr h)
    obtain ⟨h5, h6⟩ := not_or.mp h3
    have h7 : c.addRepulsion = true := by simpa using h5
    refine ⟨h7, ?_⟩
    rw [hk1 h7 (not_le.mp h6), hdR, div_div_eq_mul_div]
  have hkn : 0 ≤ k := by
    by_cases h : reach c l ^ 2 ≤ P ^ 2 + Q ^ 2
    · rw [hk0 (hquiet.mpr h)]
    · rw [(hkR (not_le.mp h)).2]; positivity
  have hkp : V3.norm (V3.smul k r) ≤ push c l := by
    by_cases h : reach c l ^ 2 ≤ P ^ 2 + Q ^ 2
    · rw [hk0 (hquiet.mpr h)]
      have : V3.norm (V3.smul 0 r) = 0 := by rw [V3.norm_smul, abs_zero, zero_mul]
      rw [this]; exact push_nonneg c hl
    · obtain ⟨h3, h4⟩ := hkR (not_le.mp h)
      rw [V3.norm_smul, abs_of_nonneg hkn, push, h3, h4, if_pos rfl, div_mul_eq_mul_div, div_le_iff₀ hR0, hRP, ← V3.norm_sq]
      have h5 : l ≤ V3.norm r := by
        apply abs_le_of_sq_le_sq' _ (V3.norm_nonneg _) |>.2
        rw [sq (V3.norm r), V3.norm_sq, ← hRP]; exact hout'.le
      have h6 := mul_le_mul_of_nonneg_left h5 (mul_nonneg hl.le (V3.norm_nonneg r))
      linarith
  -- the limit of the speed
  have hW2n : V3.norm (V3.smul α (M.mulVec v) + V3.smul β v) ≤ 3 * (c.gain * D) := by
    have a1 := norm_add_le (V3.smul α (M.mulVec v)) (V3.smul β v)
    rw [V3.norm_smul, V3.norm_smul, abs_of_nonneg hβ0, abs_of_nonneg (by linarith)] at a1
    have hδ0 : 0 ≤ δ := by positivity
    have hδ1 : δ ≤ 1 := by rw [hδd, div_le_one hR0]; exact hout'.le
    have a2 : V3.norm (M.mulVec v) ≤ 2 * V3.norm v := by
      apply abs_le_of_sq_le_sq' _ (by have := V3.norm_nonneg v; linarith) |>.2
      have b1 : V3.norm (M.mulVec v) ^ 2 * (P ^ 2 + Q ^ 2) ≤ (2 * V3.norm v) ^ 2 * (P ^ 2 + Q ^ 2) := by
        rw [hWW, mul_pow 2 (V3.norm v), sq (V3.norm v), V3.norm_sq, mul_assoc (2 ^ 2), hvvR, mul_pow (1 - δ), mul_pow (1 + δ)]
        have b2 : (1 - δ) ^ 2 ≤ 2 ^ 2 := pow_le_pow_left₀ (by linarith) (by linarith) 2
        have b3 : (1 + δ) ^ 2 ≤ 2 ^ 2 := pow_le_pow_left₀ (by linarith) (by linarith) 2
        have := mul_le_mul_of_nonneg_right b2 (sq_nonneg S)
        have := mul_le_mul_of_nonneg_right b3 (sq_nonneg (c.gain * T * Q))
        linarith
      exact le_of_mul_le_mul_right b1 hR0
    have a3 : α * V3.norm (M.mulVec v) ≤ (1 + 1 / 10 ^ 8) * (2 * V3.norm v) :=
      mul_le_mul hα2 a2 (V3.norm_nonneg _) (by norm_num)
    have a4 := V3.norm_nonneg v
    norm_num at a3 hβW
    linarith
  have hout2 : V3.norm (V3.smul α (M.mulVec v) + V3.smul β v + V3.smul k r) ≤ 3 * (c.gain * D) + push c l :=
    (norm_add_le _ _).trans (add_le_add hW2n hkp)
  obtain ⟨g, hg0, hg1, hlim⟩ := limit_lower c hc.γ_pos hc.γ_one (V3.smul α (M.mulVec v) + V3.smul β v + V3.smul k r) (by
    intro w hw
    exact le_trans (mul_le_mul_of_nonneg_left hout2 hc.γ_pos.le) (hc.maxVel w hw))
  have hg : 0 < g := lt_of_lt_of_le hc.γ_pos hg0
  have hoz : (V3.smul α (M.mulVec v) + V3.smul β v + V3.smul k r).z = 0 := by simp [V3.smul, hMz, hvz, hrz]
  obtain ⟨h2, hset2, hon2⟩ := withState_onLoop hon (a1.state.setPosition (x +
    V3.smul c.dt (V3.smul g (V3.smul α (M.mulVec v) + V3.smul β v + V3.smul k r)))) (by
      show (x + _).z = 0
      rw [V3.add_z]
      simp only [V3.smul] at hoz ⊢
      rw [hflat, hoz]; simp)
  refine ⟨_, c.dt * g, α, β, V3.norm v, V3.norm (M.mulVec v), k, ?_, hon2, ?_, ?_, hkn, fun h => hk0 (hquiet.mpr h), hkR, ?_,
    hnD, ?_, ?_⟩
  · unfold Loop.iterate
    rw [show Agent.setLinearVelocity s.1 s.2 v = .ok (h1, a1) from hset]
    simp only [Res.ok_bind, hc.notLocal, hc.notPlanar, hrep, hlim]
    exact hset2
  · rw [mul_comm]; exact mul_le_mul_of_nonneg_left hg0 hc.dt.le
  · exact mul_le_of_le_one_right hc.dt.le hg1
  · have htpos : 0 < c.dt * g := mul_pos hc.dt hg
    have htle : c.dt * g ≤ c.dt := mul_le_of_le_one_right hc.dt.le hg1
    refine ⟨hl, hc.outside, hc.gain, htpos, hout', hα1, hα2, hβ0, hβW, hβn, V3.norm_nonneg _, hvv, V3.norm_nonneg _,
      hWW, ?_, ?_, ?_, ?_⟩
    · refine hsmall.imp_right fun h => ?_
      rw [← hcross]
      exact mul_le_mul_of_nonneg_right h hR0.le
    · have a1 : c.dt * g * V3.norm v ≤ c.dt * (c.gain * D) := mul_le_mul htle hnD (V3.norm_nonneg _) hc.dt.le
      have := hc.short1
      linarith
    · have a1 : c.dt * g * c.gain * (l + T) ≤ c.dt * c.gain * (l + T) :=
        mul_le_mul_of_nonneg_right (mul_le_mul_of_nonneg_right htle hc.gain.le) (by linarith)
      have := hc.short2
      linarith
    · refine le_trans hc.long ?_
      refine mul_le_mul_of_nonneg_right (mul_le_mul_of_nonneg_right ?_ hc.gain.le) (by linarith [hc.outside])
      rw [mul_comm]; exact mul_le_mul_of_nonneg_left hg0 hc.dt.le
  · have e1 : V3.dot v τ = c.gain * (T - P) * T := by
      rw [hvr]
      have : V3.dot (V3.smul c.gain (τ - r)) τ = c.gain * (V3.dot τ τ - V3.dot r τ) := by
        simp only [V3.dot, V3.smul, V3.sub_x, V3.sub_y, V3.sub_z]; ring
      rw [this, hTT, hPT]; ring
    show V3.dot (x + V3.smul c.dt (V3.smul g (V3.smul α (M.mulVec v) + V3.smul β v + V3.smul k r)) - e.base.position) τ / T = _
    rw [div_eq_iff hT.ne']
    have e2 : V3.dot (x + V3.smul c.dt (V3.smul g (V3.smul α (M.mulVec v) + V3.smul β v + V3.smul k r)) - e.base.position) τ =
        V3.dot r τ + c.dt * g * (α * V3.dot (M.mulVec v) τ + β * V3.dot v τ + k * V3.dot r τ) := by
      rw [hr]
      simp only [V3.dot, V3.smul, V3.sub_x, V3.sub_y, V3.sub_z, V3.add_x, V3.add_y, V3.add_z]; ring
    have e3 : V3.dot (M.mulVec v) τ = (1 + δ) * V3.dot v τ - 2 * δ * (S / (P ^ 2 + Q ^ 2)) * V3.dot r τ := by
      rw [hMv]
      simp only [V3.dot, V3.smul, V3.sub_x, V3.sub_y, V3.sub_z]; ring
    rw [e2, e3, e1, hPT]
    unfold DiscStep.up
    ring
  · have e1 : turn v τ = -(c.gain * Q) * T := by
      rw [hvr]
      have : turn (V3.smul c.gain (τ - r)) τ = -(c.gain * turn r τ) := by
        simp only [turn, V3.smul, V3.sub_x, V3.sub_y, V3.sub_z]; ring
      rw [this, hQT]; ring
    show turn (x + V3.smul c.dt (V3.smul g (V3.smul α (M.mulVec v) + V3.smul β v + V3.smul k r)) - e.base.position) τ / T = _
    rw [div_eq_iff hT.ne']
    have e2 : turn (x + V3.smul c.dt (V3.smul g (V3.smul α (M.mulVec v) + V3.smul β v + V3.smul k r)) - e.base.position) τ =
        turn r τ + c.dt * g * (α * turn (M.mulVec v) τ + β * turn v τ + k * turn r τ) := by
      rw [hr]
      simp only [turn, V3.smul, V3.sub_x, V3.sub_y, V3.sub_z, V3.add_x, V3.add_y, V3.add_z]; ring
    have e3 : turn (M.mulVec v) τ = (1 + δ) * turn v τ - 2 * δ * (S / (P ^ 2 + Q ^ 2)) * turn r τ := by
      rw [hMv]
      simp only [turn, V3.smul, V3.sub_x, V3.sub_y, V3.sub_z]; ring
    rw [e2, e3, e1, hQT]
    unfold DiscStep.uq
    ring

/-- what is kept from iteration to iteration -/
theorem disc_keep (hc : DiscLoop c E e p m l γ D) {s : Heap ℝ × Agent ℝ} (hs : OnLoop e p m s)
    (hout : 1 < gdist e m s.2.state.position) (hD : V3.norm (s.2.state.position - c.target) ≤ D) :
    ∃ s', c.iterate E (c.desired s.2.state.position) s = .ok s' ∧ OnLoop e p m s' ∧ 1 < gdist e m s'.2.state.position ∧
      V3.norm (s'.2.state.position - c.target) ≤ D ∧
      (c.addRepulsion = false ∨ 11 / 10 ≤ gdist e m s.2.state.position →
        V3.norm (s'.2.state.position - c.target) ≤ V3.norm (s.2.state.position - c.target)) := by
  obtain ⟨s', t, α, β, n, W, k, hit, hs', ht0, ht1, hk, hk0, hkR, hy, -, h1, h2⟩ := disc_step hc hs hout hD
  have hl := hc.disc.pos
  obtain ⟨k2, -, -, -, k6⟩ := DiscStep.push_step hy hk
  rw [← h1, ← h2] at k2 k6
  have hnear : c.addRepulsion = false ∨ 11 / 10 ≤ gdist e m s.2.state.position →
      V3.norm (s'.2.state.position - c.target) ≤ V3.norm (s.2.state.position - c.target) := by
    intro hq
    have hk' := hk0 ((hc.quiet_iff hs.flat hout).mp hq)
    obtain ⟨k1, -⟩ := DiscStep.one_step hy
    rw [hk', zero_mul, add_zero] at h1 h2
    rw [← h1, ← h2, hc.remaining hs.flat, hc.remaining hs'.flat] at k1
    have hdrop : 0 ≤ DiscStep.drop l (V3.norm (c.target - e.base.position)) c.gain (along c e s.2.state.position)
        (across c e s.2.state.position) := by
      unfold DiscStep.drop
      have hR := hy.out
      have : 0 < along c e s.2.state.position ^ 2 + across c e s.2.state.position ^ 2 := lt_of_le_of_lt (sq_nonneg l) hR
      refine div_nonneg (add_nonneg (mul_nonneg ?_ (sq_nonneg _)) (sq_nonneg _)) this.le
      rw [sub_nonneg, div_le_one this]; exact hR.le
    have : 0 ≤ t / c.gain * DiscStep.drop l (V3.norm (c.target - e.base.position)) c.gain (along c e s.2.state.position)
        (across c e s.2.state.position) := mul_nonneg (div_nonneg hy.t_pos.le hc.gain.le) hdrop
    exact abs_le_of_sq_le_sq' (by linarith) (V3.norm_nonneg _) |>.2
  refine ⟨s', hit, hs', (hc.out_iff hs'.flat).mpr k2, ?_, hnear⟩
  by_cases hq : reach c l ^ 2 ≤ along c e s.2.state.position ^ 2 + across c e s.2.state.position ^ 2
  · exact (hnear ((hc.quiet_iff hs.flat hout).mpr hq)).trans hD
  · have hlt := not_le.mp hq
    obtain ⟨hr, hkv⟩ := hkR hlt
    have hroom := hc.room hr
    have hout' := hy.out
    rw [hc.radius hs'.flat] at k6
    generalize along c e s.2.state.position ^ 2 + across c e s.2.state.position ^ 2 = R at *
    have hR0 : 0 < R := lt_of_le_of_lt (sq_nonneg l) hout'
    have hρ0 : 0 < Real.sqrt R := Real.sqrt_pos.mpr hR0
    have hρ2 : Real.sqrt R ^ 2 = R := Real.sq_sqrt hR0.le
    have hρl : l ≤ Real.sqrt R := Real.le_sqrt_of_sq_le hout'.le
    have hρa : Real.sqrt R ≤ 21 / 20 * l := by
      apply Real.sqrt_le_iff.mpr
      refine ⟨by positivity, hlt.le.trans ?_⟩
      rw [reach, hr, if_pos rfl, mul_pow, Real.sq_sqrt (by norm_num), mul_pow]
      have := sq_nonneg l
      linarith
    have hkρ : k * Real.sqrt R ≤ 2 * l := by
      rw [hkv, div_mul_eq_mul_div, div_le_iff₀ hR0]
      nth_rewrite 2 [← hρ2]
      have := mul_le_mul_of_nonneg_left hρl (mul_nonneg hl.le hρ0.le)
      linarith
    have htk : t * (k * Real.sqrt R) ≤ c.dt * (2 * l) :=
      mul_le_mul ht1 hkρ (mul_nonneg hk hρ0.le) hc.dt.le
    have e1 : s'.2.state.position - c.target = (s'.2.state.position - e.base.position) +
        V3.smul (-1) (c.target - e.base.position) := by v3_ring
    have e2 := norm_add_le (s'.2.state.position - e.base.position) (V3.smul (-1) (c.target - e.base.position))
    rw [← e1, V3.norm_smul, abs_neg, abs_one, one_mul] at e2
    have e3 : V3.norm (s'.2.state.position - e.base.position) = Real.sqrt (V3.sqNorm (s'.2.state.position - e.base.position)) := by
      rw [← V3.norm_sq, Real.sqrt_mul_self (V3.norm_nonneg _)]
    rw [← e3] at k6
    linarith

/-- the states of the loop -/
theorem disc_states (hc : DiscLoop c E e p m l γ D) {s : Heap ℝ × Agent ℝ} (hs : OnLoop e p m s)
    (hout : 1 < gdist e m s.2.state.position) (hD : V3.norm (s.2.state.position - c.target) ≤ D) :
    ∃ S : ℕ → Heap ℝ × Agent ℝ, S 0 = s ∧ ∀ n, c.run E n s = .ok (S n) ∧ OnLoop e p m (S n) ∧
      1 < gdist e m (S n).2.state.position ∧ V3.norm ((S n).2.state.position - c.target) ≤ D ∧
      c.iterate E (c.desired (S n).2.state.position) (S n) = .ok (S (n + 1)) ∧
      (c.addRepulsion = false ∨ 11 / 10 ≤ gdist e m (S n).2.state.position →
        V3.norm ((S (n + 1)).2.state.position - c.target) ≤ V3.norm ((S n).2.state.position - c.target)) := by
  have key : ∀ n, ∃ s', c.run E n s = .ok s' ∧ OnLoop e p m s' ∧ 1 < gdist e m s'.2.state.position ∧
      V3.norm (s'.2.state.position - c.target) ≤ D := by
    intro n
    induction n with
    | zero => exact ⟨s, rfl, hs, hout, hD⟩
    | succ n ih =>
      obtain ⟨s1, h1, h2, h3, h4⟩ := ih
      obtain ⟨s2, k1, k2, k3, k4, -⟩ := disc_keep hc h2 h3 h4
      refine ⟨s2, ?_, k2, k3, k4⟩
      rw [run_succ, h1]; exact k1
  choose S hS using key
  refine ⟨S, ?_, fun n => ?_⟩
  · have := (hS 0).1; simp only [Loop.run] at this; cases this; rfl
  · obtain ⟨h1, h2, h3, h4⟩ := hS n
    obtain ⟨s2, k1, k2, k3, -, k4⟩ := disc_keep hc h2 h3 h4
    have h5 := (hS (n + 1)).1
    rw [run_succ, h1] at h5
    have h6 : Res.ok s2 = Res.ok (S (n + 1)) := by rw [← k1]; exact h5
    cases h6
    exact ⟨h1, h2, h3, h4, k1, k4⟩

theorem disc_orbit (hc : DiscLoop c E e p m l γ D) {S : ℕ → Heap ℝ × Agent ℝ}
    (hS : ∀ n, OnLoop e p m (S n) ∧ 1 < gdist e m (S n).2.state.position ∧
      V3.norm ((S n).2.state.position - c.target) ≤ D ∧
      c.iterate E (c.desired (S n).2.state.position) (S n) = .ok (S (n + 1))) :
    Orbit.Steps l (reach c l) (V3.norm (c.target - e.base.position))
      ((V3.norm (c.target - e.base.position) + D) ^ 2 / c.gain ^ 2)
      (γ * c.dt / c.gain) (5 * c.dt ^ 2) (γ * c.dt) (γ * c.dt * c.gain) ((V3.norm (c.target - e.base.position) + D) ^ 2)
      (fun n => along c e (S n).2.state.position) (fun n => across c e (S n).2.state.position)
      (fun n => DiscStep.drop l (V3.norm (c.target - e.base.position)) c.gain (along c e (S n).2.state.position)
        (across c e (S n).2.state.position)) := by
  have hT := hc.T_pos
  have hl := hc.disc.pos
  have hG := hc.gain
  have hγ := hc.γ_pos
  have hdt := hc.dt
  have step : ∀ n, ∃ t α β N W k, γ * c.dt ≤ t ∧ t ≤ c.dt ∧ 0 ≤ k ∧
      (reach c l ^ 2 ≤ along c e (S n).2.state.position ^ 2 + across c e (S n).2.state.position ^ 2 → k = 0) ∧
      (along c e (S n).2.state.position ^ 2 + across c e (S n).2.state.position ^ 2 < reach c l ^ 2 → 1 ≤ k) ∧
      DiscStep.Hyps l (V3.norm (c.target - e.base.position)) c.gain t α β (along c e (S n).2.state.position)
        (across c e (S n).2.state.position) N W ∧
      along c e (S (n + 1)).2.state.position = along c e (S n).2.state.position +
        t * (DiscStep.up l (V3.norm (c.target - e.base.position)) c.gain α β (along c e (S n).2.state.position)
          (across c e (S n).2.state.position) + k * along c e (S n).2.state.position) ∧
      across c e (S (n + 1)).2.state.position = across c e (S n).2.state.position +
        t * (DiscStep.uq l (V3.norm (c.target - e.base.position)) c.gain α β (along c e (S n).2.state.position)
          (across c e (S n).2.state.position) + k * across c e (S n).2.state.position) := by
    intro n
    obtain ⟨h1, h2, h3, h4⟩ := hS n
    obtain ⟨s', t, α, β, N, W, k, hit, -, a1, a2, a3, a4, a5, a6, -, a7, a8⟩ := disc_step hc h1 h2 h3
    rw [h4] at hit
    cases hit
    refine ⟨t, α, β, N, W, k, a1, a2, a3, a4, fun h => ?_, a6, a7, a8⟩
    obtain ⟨b1, b2⟩ := a5 h
    have hR0 := lt_of_le_of_lt (sq_nonneg l) a6.out
    rw [b2, le_div_iff₀ hR0, one_mul]
    rw [reach, b1, if_pos rfl, mul_pow, Real.sq_sqrt (by norm_num)] at h
    have := sq_nonneg l
    linarith
  have hD0 : 0 ≤ D := le_trans (V3.norm_nonneg _) (hS 0).2.2.1
  generalize hTd : V3.norm (c.target - e.base.position) = T at *
  have hout : ∀ n, l ^ 2 < along c e (S n).2.state.position ^ 2 + across c e (S n).2.state.position ^ 2 :=
    fun n => (hc.out_iff (hS n).1.flat).mp (hS n).2.1
  have hR0 : ∀ n, 0 < along c e (S n).2.state.position ^ 2 + across c e (S n).2.state.position ^ 2 :=
    fun n => lt_of_le_of_lt (sq_nonneg l) (hout n)
  have hδ : ∀ n, 0 ≤ 1 - l ^ 2 / (along c e (S n).2.state.position ^ 2 + across c e (S n).2.state.position ^ 2) := by
    intro n
    rw [sub_nonneg, div_le_one (hR0 n)]; exact (hout n).le
  have hR : ∀ n, along c e (S n).2.state.position ^ 2 + across c e (S n).2.state.position ^ 2 ≤ (T + D) ^ 2 := by
    intro n
    rw [hc.radius (hS n).1.flat, ← V3.norm_sq, ← sq]
    apply pow_le_pow_left₀ (V3.norm_nonneg _)
    have e1 : (S n).2.state.position - e.base.position = ((S n).2.state.position - c.target) + (c.target - e.base.position) := by
      v3_ring
    rw [e1]
    have := norm_add_le ((S n).2.state.position - c.target) (c.target - e.base.position)
    have := (hS n).2.2.1
    linarith
  have hdrop : ∀ n, 0 ≤ DiscStep.drop l T c.gain (along c e (S n).2.state.position) (across c e (S n).2.state.position) :=
    fun n => div_nonneg (add_nonneg (mul_nonneg (hδ n) (sq_nonneg _)) (sq_nonneg _)) (hR0 n).le
  have hdropR : ∀ n, (1 - l ^ 2 / (along c e (S n).2.state.position ^ 2 + across c e (S n).2.state.position ^ 2)) *
      (c.gain * (along c e (S n).2.state.position * T -
        (along c e (S n).2.state.position ^ 2 + across c e (S n).2.state.position ^ 2))) ^ 2 +
      (c.gain * T * across c e (S n).2.state.position) ^ 2 ≤
      (T + D) ^ 2 * DiscStep.drop l T c.gain (along c e (S n).2.state.position) (across c e (S n).2.state.position) := by
    intro n
    refine le_trans (le_of_eq ?_) (mul_le_mul_of_nonneg_right (hR n) (hdrop n))
    unfold DiscStep.drop
    rw [mul_div_cancel₀ _ (hR0 n).ne']
  refine ⟨⟨hl, hT, by positivity, hout, hR, ?_, ?_⟩, le_reach c hl, by rw [← hTd]; exact hc.target, by positivity,
    by positivity, ?_, ?_, ?_, hdrop, ?_, ?_, ?_⟩
  · intro n
    obtain ⟨t, α, β, N, W, k, a1, a2, a3, a4, a5, a6, a7, a8⟩ := step n
    obtain ⟨-, -, ⟨μ, ν, m1, m2, m3, m4⟩, -⟩ := DiscStep.push_step a6 a3
    exact ⟨μ, ν, m1, (mul_le_mul_of_nonneg_right a1 hG.le).trans m2, a8.trans m3, a7.trans m4⟩
  · intro n _ h0
    obtain ⟨t, α, β, N, W, k, a1, a2, a3, a4, a5, a6, a7, a8⟩ := step n
    obtain ⟨-, -, -, m, -⟩ := DiscStep.push_step a6 a3
    show along c e (S (n + 1)).2.state.position ≤ _
    rw [a7]
    exact m h0
  · intro n h0
    obtain ⟨t, α, β, N, W, k, a1, a2, a3, a4, a5, a6, a7, a8⟩ := step n
    obtain ⟨-, m, -⟩ := DiscStep.push_step a6 a3
    show _ ≤ along c e (S (n + 1)).2.state.position ^ 2 + across c e (S (n + 1)).2.state.position ^ 2
    rw [a7, a8]
    refine le_trans ?_ (m h0)
    have : 0 ≤ t * k := mul_nonneg a6.t_pos.le a3
    exact le_mul_of_one_le_left (hR0 n).le (by linarith)
  · intro n h1 h0
    obtain ⟨t, α, β, N, W, k, a1, a2, a3, a4, a5, a6, a7, a8⟩ := step n
    obtain ⟨-, m, -⟩ := DiscStep.push_step a6 a3
    show _ ≤ along c e (S (n + 1)).2.state.position ^ 2 + across c e (S (n + 1)).2.state.position ^ 2
    rw [a7, a8]
    refine le_trans (mul_le_mul_of_nonneg_right ?_ (hR0 n).le) (m h0)
    have : t ≤ t * k := le_mul_of_one_le_right a6.t_pos.le (a5 h1)
    linarith
  · intro n h1 h2 h3
    obtain ⟨t, α, β, N, W, k, a1, a2, a3, a4, a5, a6, a7, a8⟩ := step n
    rw [a4 h1, zero_mul, add_zero] at a7 a8
    obtain ⟨-, -, -, -, -, -, k7⟩ := DiscStep.one_step a6
    show _ ≤ along c e (S (n + 1)).2.state.position ^ 2 + across c e (S (n + 1)).2.state.position ^ 2
    rw [a7, a8]
    exact k7 _ (hl.le.trans (le_reach c hl)) h1 h2 h3
  · intro n
    rw [div_mul_eq_mul_div, le_div_iff₀ (by positivity)]
    have h1 := hdropR n
    have h2 : 0 ≤ (c.gain * T * across c e (S n).2.state.position) ^ 2 := sq_nonneg _
    rw [mul_pow] at h1
    linarith
  · intro n h0
    obtain ⟨t, α, β, N, W, k, a1, a2, a3, a4, a5, a6, a7, a8⟩ := step n
    rw [a4 h0, zero_mul, add_zero] at a7 a8
    obtain ⟨k1, -⟩ := DiscStep.one_step a6
    show (along c e (S (n + 1)).2.state.position - T) ^ 2 + across c e (S (n + 1)).2.state.position ^ 2 ≤ _
    rw [a7, a8]
    have := mul_le_mul_of_nonneg_right (div_le_div_of_nonneg_right a1 hG.le) (hdrop n)
    linarith
  · intro n h0
    obtain ⟨t, α, β, N, W, k, a1, a2, a3, a4, a5, a6, a7, a8⟩ := step n
    rw [a4 h0, zero_mul, add_zero] at a7 a8
    obtain ⟨-, -, k3, -⟩ := DiscStep.one_step a6
    show (along c e (S (n + 1)).2.state.position - along c e (S n).2.state.position) ^ 2 ≤ _
    rw [a7, add_sub_cancel_left, mul_pow]
    have b1 : t ^ 2 ≤ c.dt ^ 2 := pow_le_pow_left₀ a6.t_pos.le a2 2
    have b2 := le_trans (le_add_of_nonneg_right (sq_nonneg _)) k3
    have b3 := mul_le_mul b1 b2 (sq_nonneg _) (sq_nonneg _)
    linarith

/-- `x` lies behind the centre, exactly opposite to the target. -/
def Behind (c : Loop ℝ) (e : Ellipsoid ℝ) (x : V3 ℝ) : Prop :=
  ∃ k, 0 < k ∧ x - e.base.position = V3.smul (-k) (c.target - e.base.position)

theorem frame_behind (hT : 0 < V3.norm (c.target - e.base.position)) (hcz : e.base.position.z = 0) (htz : c.target.z = 0)
    {x : V3 ℝ} (hx : x.z = 0) : Behind c e x ↔ across c e x = 0 ∧ along c e x < 0 := by
  have hz : (x - e.base.position).z = 0 := by simp [hx, hcz]
  have hz' : (c.target - e.base.position).z = 0 := by simp [htz, hcz]
  have hTT := V3.norm_sq (c.target - e.base.position)
  unfold Behind along across
  generalize x - e.base.position = r at *
  generalize c.target - e.base.position = τ at *
  constructor
  · rintro ⟨k, hk, rfl⟩
    refine ⟨?_, ?_⟩
    · rw [div_eq_zero_iff]; left
      simp only [turn, V3.smul]; ring
    · apply div_neg_of_neg_of_pos _ hT
      have : V3.dot (V3.smul (-k) τ) τ = -(k * V3.sqNorm τ) := by simp only [V3.dot, V3.sqNorm, V3.smul]; ring
      rw [this, ← hTT]
      have : 0 < k * (V3.norm τ * V3.norm τ) := by positivity
      linarith
  · rintro ⟨h1, h2⟩
    have h3 : turn r τ = 0 := (div_eq_zero_iff.mp h1).resolve_right hT.ne'
    have h4 : V3.dot r τ < 0 := by
      by_contra hn
      exact absurd h2 (not_lt.mpr (div_nonneg (not_lt.mp hn) hT.le))
    have hs : 0 < V3.sqNorm τ := by rw [← hTT]; positivity
    refine ⟨-V3.dot r τ / V3.sqNorm τ, div_pos (by linarith) hs, ?_⟩
    have e1 : r.x * V3.sqNorm τ = V3.dot r τ * τ.x := by
      simp only [V3.sqNorm, V3.dot, turn, hz, hz'] at h3 ⊢
      linear_combination τ.y * h3
    have e2 : r.y * V3.sqNorm τ = V3.dot r τ * τ.y := by
      simp only [V3.sqNorm, V3.dot, turn, hz, hz'] at h3 ⊢
      linear_combination -τ.x * h3
    ext
    · simp only [V3.smul]; rw [neg_div, neg_neg, div_mul_eq_mul_div, eq_div_iff hs.ne', e1]
    · simp only [V3.smul]; rw [neg_div, neg_neg, div_mul_eq_mul_div, eq_div_iff hs.ne', e2]
    · simp only [V3.smul]; rw [hz, hz', mul_zero]

theorem DiscLoop.behind_iff (hc : DiscLoop c E e p m l γ D) {x : V3 ℝ} (hx : x.z = 0) :
    Behind c e x ↔ across c e x = 0 ∧ along c e x < 0 :=
  frame_behind hc.T_pos hc.centre_z hc.flat hx

/-- C84, partial: the control loop around a disc. From every starting point outside the disc which is not exactly behind
its centre, as seen from the target, the agent reaches the target in the limit; the loop never fails, the agent stays
outside the disc and moves away from the target only while it is repelled.

Missing: starting points exactly behind the centre (`C84_negation_behind`), obstacles of other shapes, several or moving
obstacles, targets where there is repulsion. -/
theorem C84_target_partial (hc : DiscLoop c E e p m l γ D) (s : Heap ℝ × Agent ℝ) (hs : OnLoop e p m s)
    (hout : 1 < gdist e m s.2.state.position) (hD : V3.norm (s.2.state.position - c.target) ≤ D)
    (hb : ¬ Behind c e s.2.state.position) :
    ∃ S : ℕ → Heap ℝ × Agent ℝ, (∀ n, c.run E n s = .ok (S n)) ∧ (∀ n, 1 < gdist e m (S n).2.state.position) ∧
      (∀ n, c.addRepulsion = false ∨ 11 / 10 ≤ gdist e m (S n).2.state.position →
        V3.norm ((S (n + 1)).2.state.position - c.target) ≤ V3.norm ((S n).2.state.position - c.target)) ∧
      ∀ ε, 0 < ε → ∃ N, ∀ n, N ≤ n → V3.norm ((S n).2.state.position - c.target) < ε := by
  obtain ⟨S, h0, hS⟩ := disc_states hc hs hout hD
  have ho := disc_orbit hc (S := S) fun n => ⟨(hS n).2.1, (hS n).2.2.1, (hS n).2.2.2.1, (hS n).2.2.2.2.1⟩
  refine ⟨S, fun n => (hS n).1, fun n => (hS n).2.2.1, fun n => (hS n).2.2.2.2.2, fun ε hε => ?_⟩
  have hlim := ho.converges (by
    rw [← h0, hc.behind_iff (hS 0).2.1.flat] at hb
    exact hb)
  obtain ⟨N, hN⟩ := Orbit.eventually_le hlim (show 0 < ε ^ 2 by positivity)
  refine ⟨N, fun n hn => ?_⟩
  have := hN n hn
  rw [hc.remaining (hS n).2.1.flat] at this
  exact lt_of_pow_lt_pow_left₀ 2 hε.le this

/-- C84 is false for starting points exactly behind the centre: the agent stays behind the disc for ever. -/
theorem C84_negation_behind (hc : DiscLoop c E e p m l γ D) (s : Heap ℝ × Agent ℝ) (hs : OnLoop e p m s)
    (hout : 1 < gdist e m s.2.state.position) (hD : V3.norm (s.2.state.position - c.target) ≤ D)
    (hb : Behind c e s.2.state.position) (n : ℕ) :
    ∃ s', c.run E n s = .ok s' ∧ Behind c e s'.2.state.position ∧ 1 < gdist e m s'.2.state.position ∧
      V3.norm (c.target - e.base.position) + l < V3.norm (s'.2.state.position - c.target) := by
  obtain ⟨S, h0, hS⟩ := disc_states hc hs hout hD
  have ho := disc_orbit hc (S := S) fun n => ⟨(hS n).2.1, (hS n).2.2.1, (hS n).2.2.2.1, (hS n).2.2.2.2.1⟩
  rw [← h0, hc.behind_iff (hS 0).2.1.flat] at hb
  have h1 : across c e (S n).2.state.position = 0 := ho.q_stays hb.1 n
  have h2 : along c e (S n).2.state.position < -l := ho.behind hb.1 hb.2 n
  have hl := hc.disc.pos
  have hT := hc.T_pos
  refine ⟨S n, (hS n).1, (hc.behind_iff (hS n).2.1.flat).mpr ⟨h1, by linarith⟩, (hS n).2.2.1, ?_⟩
  have h3 := hc.remaining (hS n).2.1.flat
  rw [h1] at h3
  apply lt_of_pow_lt_pow_left₀ 2 (V3.norm_nonneg _)
  rw [← h3]
  nlinarith

/-- the limit of the speed keeps the speed up to the limit -/
theorem limit_norm_lower (c : Loop ℝ) {ω : ℝ} (h0 : 0 < ω) (v : V3 ℝ) (hv : ω ≤ V3.norm v)
    (hw : ∀ w, c.maxVel = some w → ω ≤ w) : ω ≤ V3.norm (c.limit v) := by
  unfold Loop.limit
  cases hm : c.maxVel with
  | none => exact hv
  | some w =>
    simp only []
    split
    · have hv0 : v ≠ V3.zero := by rintro rfl; rw [V3.norm_eq_zero.mpr rfl] at hv; linarith
      have h1 := hw w hm
      rw [V3.norm_smul, V3.norm_normalized hv0, mul_one, abs_of_pos (by linarith)]
      exact h1
    · exact hv

set_option maxHeartbeats 800000 in
/-- C84 is false for targets where the agent is repelled: with repulsion, and a target between the distances 1 and 11/10,
there is a neighbourhood of the target which the agent leaves with the next iteration whenever it gets there. -/
theorem C84_negation_repelled (hlist : E.list = [p]) (hst : Static (.ellipsoid e)) (hd : Disc e m l)
    (hloc : c.isLocal = false) (hpl : c.planar = false) (hrep : c.addRepulsion = true) (hflat : c.target.z = 0)
    (hG : 0 < c.gain) (hdt : 0 < c.dt) (ω : ℝ) (hω : 0 < ω) (hw : ∀ w, c.maxVel = some w → ω ≤ w)
    (h1 : 1 < gdist e m c.target) (h2 : gdist e m c.target < 11 / 10) :
    ∃ η, 0 < η ∧ ∀ s : Heap ℝ × Agent ℝ, OnLoop e p m s → V3.norm (s.2.state.position - c.target) ≤ η →
      ∃ s', c.run E 1 s = .ok s' ∧ OnLoop e p m s' ∧ η < V3.norm (s'.2.state.position - c.target) := by
  have hl := hd.pos
  have hcz : e.base.position.z = 0 := hd.plane.pos
  -- the distance in terms of the distance from the centre
  have hdist : ∀ x : V3 ℝ, x.z = 0 → gdist e m x = V3.norm (x - e.base.position) ^ 2 / l ^ 2 := by
    intro x hx
    have hz : (x - e.base.position).z = 0 := by simp [hx, hcz]
    rw [hd.dist hx, sq (V3.norm _), V3.norm_sq]
    simp only [V3.sqNorm, V3.dot, hz]
    congr 1; ring
  set T := V3.norm (c.target - e.base.position) with hT
  set b := Real.sqrt (11 / 10) * l with hb
  have hb2 : b ^ 2 = 11 / 10 * l ^ 2 := by rw [hb, mul_pow, Real.sq_sqrt (by norm_num)]
  have hb0 : 0 < b := by rw [hb]; positivity
  rw [hdist _ hflat, ← hT, lt_div_iff₀ (by positivity), one_mul] at h1
  rw [hdist _ hflat, ← hT, div_lt_iff₀ (by positivity), ← hb2] at h2
  have hlT : l < T := lt_of_pow_lt_pow_left₀ 2 (V3.norm_nonneg _) h1
  have hTb : T < b := lt_of_pow_lt_pow_left₀ 2 hb0.le h2
  obtain ⟨η, hη0, e1, e2, e3, e4⟩ : ∃ η, 0 < η ∧ 2 * η ≤ T - l ∧ 2 * η ≤ b - T ∧ 10 * (c.gain * η) ≤ l ∧
      3 * η ≤ c.dt * min l ω := by
    refine ⟨min (min ((T - l) / 2) ((b - T) / 2)) (min (l / (10 * c.gain)) (c.dt * min l ω / 3)), ?_, ?_, ?_, ?_, ?_⟩
    · have := mul_pos hdt (lt_min hl hω)
      exact lt_min (lt_min (by linarith) (by linarith)) (lt_min (by positivity) (by positivity))
    · have := (min_le_left (min ((T - l) / 2) ((b - T) / 2)) (min (l / (10 * c.gain)) (c.dt * min l ω / 3))).trans
        (min_le_left _ _)
      linarith
    · have := (min_le_left (min ((T - l) / 2) ((b - T) / 2)) (min (l / (10 * c.gain)) (c.dt * min l ω / 3))).trans
        (min_le_right _ _)
      linarith
    · have := (min_le_right (min ((T - l) / 2) ((b - T) / 2)) (min (l / (10 * c.gain)) (c.dt * min l ω / 3))).trans
        (min_le_left _ _)
      rw [le_div_iff₀ (by positivity)] at this
      linarith
    · have := (min_le_right (min ((T - l) / 2) ((b - T) / 2)) (min (l / (10 * c.gain)) (c.dt * min l ω / 3))).trans
        (min_le_right _ _)
      linarith
  refine ⟨η, hη0, fun s hs hη => ?_⟩
  have hxz := hs.flat
  set x := s.2.state.position with hx
  set v := c.desired x with hv
  have hvz : v.z = 0 := desired_flat c hflat hxz
  obtain ⟨g1, hset, hon⟩ := withState_onLoop hs (s.2.state.setLinearVelocity v) hs.flat
  set a1 : Agent ℝ := { s.2 with state := s.2.state.setLinearVelocity v } with ha1
  have hpos : a1.state.position = x := rfl
  have hmar : a1.margin = m := hs.margin
  have hvel : a1.state.linearVelocity = v := rfl
  set r := x - e.base.position with hr
  have hrz : r.z = 0 := by simp [hr, hxz, hcz]
  -- the agent is near the target
  have hrT : |V3.norm r - T| ≤ η := by
    have f1 : r = (x - c.target) + (c.target - e.base.position) := by rw [hr]; v3_ring
    have f2 : c.target - e.base.position = V3.smul (-1) (x - c.target) + r := by rw [hr]; v3_ring
    have f3 := norm_add_le (x - c.target) (c.target - e.base.position)
    have f4 := norm_add_le (V3.smul (-1) (x - c.target)) r
    rw [← f1] at f3
    rw [← f2, V3.norm_smul, abs_neg, abs_one, one_mul] at f4
    rw [abs_le]
    constructor <;> linarith
  obtain ⟨hr1, hr2⟩ := abs_le.mp hrT
  have hrl : l < V3.norm r := by linarith
  have hrb : V3.norm r < b := by linarith
  have hr0 : 0 < V3.norm r := by linarith
  have hd1 : 1 < gdist e m x := by
    rw [hdist _ hxz, lt_div_iff₀ (by positivity), one_mul]
    exact pow_lt_pow_left₀ hrl hl.le two_ne_zero
  have hd2 : gdist e m x < 11 / 10 := by
    rw [hdist _ hxz, div_lt_iff₀ (by positivity), ← hb2]
    exact pow_lt_pow_left₀ hrb hr0.le two_ne_zero
  obtain ⟨M, B, hm, hM⟩ := Disc.matrix g1 a1 (by rw [hmar]; exact hd) (by rw [hpos]; exact hxz)
    (by rw [hpos, hmar]; exact hd1.le)
  rw [hpos, hmar] at hM
  have hMv := hM v hvz
  have hMz : (M.mulVec v).z = 0 := by rw [hMv, ← hr]; simp [V3.smul, hvz, hrz]
  obtain ⟨α, β, hmod, hα1, hα2, hβ0, hβW, -, -⟩ := single_form g1 a1 E c.critical c.power p (.ellipsoid e) M B _
    hlist hon.obj hst hd.smooth.unit hm hvel hvz hMz
  obtain ⟨k, hout, -, hk⟩ := single_push g1 a1 E true c.critical c.power p e _ hlist hon.obj hd.ref
    (by rw [hpos, hmar]; exact hd.big hxz hd1) hmod
  rw [hpos] at hout hk
  rw [hmar] at hk
  have hkv := hk rfl hd2
  rw [← hr] at hout
  -- the velocity is small
  have hvn : V3.norm v ≤ c.gain * η := by
    rw [hv, Loop.desired, V3.norm_smul, abs_neg, abs_of_pos hG]
    exact mul_le_mul_of_nonneg_left hη hG.le
  have hMn : V3.norm (M.mulVec v) ≤ 4 * V3.norm v := by
    have hδ0 : 0 ≤ 1 / gdist e m x := by have := hd1; positivity
    have hδ1 : 1 / gdist e m x ≤ 1 := by rw [div_le_one (by linarith)]; exact hd1.le
    have f1 : M.mulVec v = V3.smul (1 + 1 / gdist e m x) v +
        V3.smul (-(2 * (1 / gdist e m x) * (V3.dot r v / V3.sqNorm r))) r := by
      rw [hMv, ← hr]; ext <;> simp only [V3.smul, V3.sub_x, V3.sub_y, V3.sub_z, V3.add_x, V3.add_y, V3.add_z] <;> ring
    have f2 := norm_add_le (V3.smul (1 + 1 / gdist e m x) v) (V3.smul (-(2 * (1 / gdist e m x) * (V3.dot r v / V3.sqNorm r))) r)
    rw [← f1, V3.norm_smul, V3.norm_smul, abs_neg, abs_mul, abs_div, abs_of_nonneg (by linarith : 0 ≤ 1 + 1 / gdist e m x),
      abs_of_nonneg (by linarith : 0 ≤ 2 * (1 / gdist e m x)), ← V3.norm_sq r, abs_of_pos (mul_pos hr0 hr0)] at f2
    have f3 : |V3.dot r v| ≤ V3.norm r * V3.norm v := by
      have hcs := V3.cauchy_schwarz r v
      rw [← V3.norm_sq, ← V3.norm_sq] at hcs
      exact abs_le_of_sq_le_sq (by nlinarith) (mul_nonneg hr0.le (V3.norm_nonneg _))
    have f4 : |V3.dot r v| / (V3.norm r * V3.norm r) * V3.norm r ≤ V3.norm v := by
      rw [div_mul_eq_mul_div, div_le_iff₀ (by positivity)]
      nlinarith
    have f5 := mul_le_mul (by linarith : 2 * (1 / gdist e m x) ≤ 2) f4 (by positivity) (by norm_num)
    have f6 := mul_le_mul_of_nonneg_right (by linarith : 1 + 1 / gdist e m x ≤ 2) (V3.norm_nonneg v)
    linarith
  -- the repulsion is not
  have hkr : 19 / 10 * l ≤ V3.norm (V3.smul k r) := by
    have f1 : 0 < k := by rw [hkv]; positivity
    rw [V3.norm_smul, abs_of_pos f1, hkv, hdist _ hxz, ← hr, div_div_eq_mul_div, div_mul_eq_mul_div (2 * l ^ 2),
      le_div_iff₀ (by positivity)]
    have f2 : b ≤ 20 / 19 * l := by
      apply abs_le_of_sq_le_sq' _ (by positivity) |>.2
      rw [hb2, mul_pow]
      have := sq_nonneg l
      linarith
    have f3 : V3.norm r ≤ 20 / 19 * l := by linarith
    have f4 := mul_le_mul_of_nonneg_left f3 (mul_nonneg hl.le hr0.le)
    linarith
  set u := V3.smul α (M.mulVec v) + V3.smul β v + V3.smul k r with hu
  have hun : l ≤ V3.norm u := by
    have f1 : V3.smul k r = u + (V3.smul (-α) (M.mulVec v) + V3.smul (-β) v) := by
      rw [hu]; ext <;> simp only [V3.smul, V3.add_x, V3.add_y, V3.add_z] <;> ring
    have f2 := norm_add_le u (V3.smul (-α) (M.mulVec v) + V3.smul (-β) v)
    have f3 := norm_add_le (V3.smul (-α) (M.mulVec v)) (V3.smul (-β) v)
    rw [V3.norm_smul, V3.norm_smul, abs_neg, abs_neg, abs_of_nonneg hβ0, abs_of_nonneg (by linarith)] at f3
    rw [← f1] at f2
    have f4 : α * V3.norm (M.mulVec v) ≤ (1 + 1 / 10 ^ 8) * (4 * V3.norm v) :=
      mul_le_mul hα2 hMn (V3.norm_nonneg _) (by norm_num)
    have f5 := V3.norm_nonneg v
    norm_num at f4 hβW
    linarith
  have hlim := limit_norm_lower c (lt_min hl hω) u ((min_le_left _ _).trans hun) fun w h => (min_le_right _ _).trans (hw w h)
  have huz : u.z = 0 := by rw [hu]; simp [V3.smul, hMz, hvz, hrz]
  have hlz : (c.limit u).z = 0 := by
    obtain ⟨g, -, -, h, -⟩ := limit_eq c (fun w h => hω.le.trans (hw w h)) u
    rw [h]; simp [V3.smul, huz]
  obtain ⟨g2, hset2, hon2⟩ := withState_onLoop hon (a1.state.setPosition (x + V3.smul c.dt (c.limit u))) (by
      show (x + _).z = 0
      rw [V3.add_z]
      simp only [V3.smul]
      rw [hxz, hlz]; simp)
  refine ⟨_, ?_, hon2, ?_⟩
  · rw [run_succ]
    simp only [Loop.run, Res.ok_bind]
    show c.iterate E v s = _
    unfold Loop.iterate
    rw [show Agent.setLinearVelocity s.1 s.2 v = .ok (g1, a1) from hset]
    simp only [Res.ok_bind, hloc, hpl, hrep, hout]
    exact hset2
  · show η < V3.norm (x + V3.smul c.dt (c.limit u) - c.target)
    have f1 : V3.smul c.dt (c.limit u) = (x + V3.smul c.dt (c.limit u) - c.target) + V3.smul (-1) (x - c.target) := by v3_ring
    have f2 := norm_add_le (x + V3.smul c.dt (c.limit u) - c.target) (V3.smul (-1) (x - c.target))
    rw [← f1, V3.norm_smul, V3.norm_smul, abs_neg, abs_one, one_mul, abs_of_pos hdt] at f2
    have f3 := mul_le_mul_of_nonneg_left hlim hdt.le
    linarith

end

/-! ### examples -/

/-- Gain 1, time step 1/100, unit ball at the origin, target (-3,0,0). -/
theorem axis_disc (rep : Bool) (D : ℝ) (hD : D ≤ 20) (hD' : 5 ≤ D) :
    DiscLoop (axisLoop rep) (envOf [0]) (ball V3.zero) 0 0 1 1 D := by
  have hT : V3.norm ((axisLoop rep).target - (ball V3.zero).base.position) = 3 := by
    show Real.sqrt ((-3 - 0) * (-3 - 0) + (0 - 0) * (0 - 0) + (0 - 0) * (0 - 0)) = 3
    rw [show ((-3 - 0) * (-3 - 0) + (0 - 0) * (0 - 0) + (0 - 0) * (0 - 0) : ℝ) = 3 ^ 2 by norm_num,
      Real.sqrt_sq (by norm_num)]
  refine ⟨rfl, ⟨rfl, rfl⟩, ⟨ball_smooth _, (axis_setup rep).plane, ?_, ?_, rfl⟩, rfl, rfl, rfl, ?_, ?_, ?_, ?_, le_refl _,
    ?_, ?_, ?_, ?_, ?_⟩
  · simp [halfLengths, ball, Ellipsoid.ofBase, V3.const, V3.zero, Base.mkRef]
  · simp [halfLengths, ball, Ellipsoid.ofBase, V3.const, V3.zero, Base.mkRef]
  · norm_num [axisLoop]
  · norm_num [axisLoop]
  · rw [hT]
    have : Real.sqrt (11 / 10) < 3 := by rw [Real.sqrt_lt' (by norm_num)]; norm_num
    cases rep
    · norm_num [reach, axisLoop]
    · simpa [reach, axisLoop] using this
  · norm_num
  · intro w hw; cases hw
  · intro _; rw [hT]; norm_num [axisLoop]; linarith
  · show 5 * (1 / 100 * (1 * D)) ≤ 1; linarith
  · rw [hT]; norm_num [axisLoop]
  · rw [hT]; norm_num [axisLoop]

/-- The ball and the envelope of the agent, the agent at `x`. -/
noncomputable def discStart (x : V3 ℝ) : Heap ℝ × Agent ℝ :=
  ([.ellipsoid (ball V3.zero), .ellipsoid (ball V3.zero)], { agentAt x V3.zero with envelope := some 1 })

theorem discStart_on (x y : ℝ) : OnLoop (ball V3.zero) 0 0 (discStart ⟨x, y, 0⟩) :=
  ⟨rfl, ⟨1, ball V3.zero, by decide, rfl, rfl⟩, rfl, rfl⟩

/-- From (2, 1/1000, 0), nearly behind the ball, the agent goes round it and arrives at the target, with and without
repulsion. -/
example (rep : Bool) : ∃ S : ℕ → Heap ℝ × Agent ℝ, (∀ n, (axisLoop rep).run (envOf [0]) n (discStart ⟨2, 1 / 1000, 0⟩) = .ok (S n)) ∧
    (∀ n, 1 < gdist (ball V3.zero) 0 (S n).2.state.position) ∧
    ∀ ε, 0 < ε → ∃ N, ∀ n, N ≤ n → V3.norm ((S n).2.state.position - ⟨-3, 0, 0⟩) < ε := by
  obtain ⟨S, h1, h2, -, h3⟩ := C84_target_partial (axis_disc rep 6 (by norm_num) (by norm_num)) (discStart ⟨2, 1 / 1000, 0⟩) (discStart_on _ _)
    (by show 1 < gdist (ball V3.zero) 0 ⟨2, 1 / 1000, 0⟩; rw [ball_dist]; norm_num)
    (by
      show Real.sqrt ((2 - -3) * (2 - -3) + (1 / 1000 - 0) * (1 / 1000 - 0) + (0 - 0) * (0 - 0)) ≤ 6
      rw [Real.sqrt_le_left (by norm_num)]; norm_num)
    (by
      rintro ⟨k, -, h⟩
      have := congrArg V3.y h
      simp [V3.smul, axisLoop, discStart, agentAt, ball, Ellipsoid.ofBase, Base.mkRef, State.ofPosition, Pose.ofPosition,
        V3.zero, Base.position, Base.pose, State.position] at this)
  exact ⟨S, h1, h2, h3⟩

/-- From (2, 0, 0) it stays behind the ball. -/
example (rep : Bool) (n : ℕ) : ∃ s', (axisLoop rep).run (envOf [0]) n (discStart ⟨2, 0, 0⟩) = .ok s' ∧
    4 < V3.norm (s'.2.state.position - ⟨-3, 0, 0⟩) := by
  obtain ⟨s', h1, -, -, h3⟩ := C84_negation_behind (axis_disc rep 6 (by norm_num) (by norm_num)) (discStart ⟨2, 0, 0⟩) (discStart_on _ _)
    (by show 1 < gdist (ball V3.zero) 0 ⟨2, 0, 0⟩; rw [ball_dist]; norm_num)
    (by
      show Real.sqrt ((2 - -3) * (2 - -3) + (0 - 0) * (0 - 0) + (0 - 0) * (0 - 0)) ≤ 6
      rw [Real.sqrt_le_left (by norm_num)]; norm_num)
    ⟨2 / 3, by norm_num, by
      ext <;> norm_num [V3.smul, axisLoop, discStart, agentAt, ball, Ellipsoid.ofBase, Base.mkRef, State.ofPosition,
        Pose.ofPosition, V3.zero, Base.position, Base.pose, State.position]⟩ n
  refine ⟨s', h1, lt_of_le_of_lt (le_of_eq ?_) h3⟩
  have hT : V3.norm ((axisLoop rep).target - (ball V3.zero).base.position) = 3 := by
    show Real.sqrt ((-3 - 0) * (-3 - 0) + (0 - 0) * (0 - 0) + (0 - 0) * (0 - 0)) = 3
    rw [show ((-3 - 0) * (-3 - 0) + (0 - 0) * (0 - 0) + (0 - 0) * (0 - 0) : ℝ) = 3 ^ 2 by norm_num,
      Real.sqrt_sq (by norm_num)]
  rw [hT]; norm_num

/-- With the target at (-1.03, 0, 0) the agent is never able to stay near it. -/
example : ∃ η, 0 < η ∧ ∀ s : Heap ℝ × Agent ℝ, OnLoop (ball V3.zero) 0 0 s → V3.norm (s.2.state.position - ⟨-103 / 100, 0, 0⟩) ≤ η →
    ∃ s', { axisLoop true with target := ⟨-103 / 100, 0, 0⟩ }.run (envOf [0]) 1 s = .ok s' ∧
      η < V3.norm (s'.2.state.position - ⟨-103 / 100, 0, 0⟩) := by
  obtain ⟨η, h0, h⟩ := C84_negation_repelled (c := { axisLoop true with target := ⟨-103 / 100, 0, 0⟩ }) (E := envOf [0])
    (p := 0) rfl ⟨rfl, rfl⟩ (axis_disc true 6 (by norm_num) (by norm_num)).disc rfl rfl rfl rfl (by norm_num [axisLoop])
    (by norm_num [axisLoop]) 1 one_pos (by intro w hw; cases hw)
    (by show 1 < gdist (ball V3.zero) 0 ⟨-103 / 100, 0, 0⟩; rw [ball_dist]; norm_num)
    (by show gdist (ball V3.zero) 0 ⟨-103 / 100, 0, 0⟩ < _; rw [ball_dist]; norm_num)
  refine ⟨η, h0, fun s hs hd => ?_⟩
  obtain ⟨s', k1, -, k2⟩ := h s hs hd
  exact ⟨s', k1, k2⟩

end DOA.Props
