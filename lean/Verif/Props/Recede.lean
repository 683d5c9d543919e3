import Verif.Lemmas.Recede
import Verif.Props.Continuity

/-!
# C105: an obstacle far away does not matter
-/

set_option linter.unusedSectionVars false
set_option linter.unusedSimpArgs false

namespace DOA.Props
open DOA DOA.Spec DOA.Modulation DOA.Ellipsoid DOA.Recede Filter Topology

/-- C105: an obstacle (at rest or not) is carried away in a direction `u`; whatever the other obstacles are, the velocity
returned by `modulate_velocity` tends to the one returned in the environment without this obstacle. -/
theorem C105_far_partial (h : ℝ → Heap ℝ) (h0 : Heap ℝ) (a : Agent ℝ) (e e0 : Env) (l1 l2 : List Ptr) (q : Ptr) (rep : Bool)
    (critical power : ℝ) (es1 es2 : List (Ellipsoid ℝ × V3 ℝ)) (er : Ellipsoid ℝ × V3 ℝ) (k : ℕ) (u : V3 ℝ)
    (he : e.list = l1 ++ q :: l2) (he0 : e0.list = l1 ++ l2)
    (hl : ∀ s, List.Forall₂ (Leads (h s)) (l1 ++ q :: l2) (es1 ++ away er (V3.smul s u) :: es2))
    (hl0 : List.Forall₂ (Leads h0) (l1 ++ l2) (es1 ++ es2)) (hsm : Smooth er.1 a.margin k) (hu : u ≠ V3.zero)
    (hp : 0 < power)
    (ht : (V3.cross ((centred er.1).normalToAgent (-u) a.margin) V3.unitZ).norm ≠ 1 / 10000)
    (ho : Outcome a.state.position a.state.linearVelocity
      ((es1 ++ es2).map fun er => ellItem er.1 er.2 a.state.position a.margin) critical power) :
    ∃ (v : ℝ → V3 ℝ) (v0 : V3 ℝ),
      (∀ s, modulateVelocity (h s) a e false rep false critical power = .ok (h s, v s)) ∧
      modulateVelocity h0 a e0 false rep false critical power = .ok (h0, v0) ∧
      ∀ ε > 0, ∃ S, ∀ s ≥ S, V3.norm (v s - v0) < ε := by
  have fin : ∀ (v : ℝ → V3 ℝ) (v0 : V3 ℝ), LimV atTop v v0 → ∀ ε > 0, ∃ S, ∀ s ≥ S, V3.norm (v s - v0) < ε := by
    intro v v0 hv ε hε
    have hc : LimV atTop (fun s => v s - v0) (v0 - v0) := hv.sub ⟨.const _, .const _, .const _⟩
    have hn := hc.norm
    rw [V3.sub_self', V3.norm_eq_zero.mpr rfl] at hn
    have hev : ∀ᶠ s in atTop, V3.norm (v s - v0) < ε := Tendsto.eventually_lt_const hε hn
    exact eventually_atTop.mp hev
  have hne : e.list ≠ [] := by rw [he]; simp
  rw [← he] at hl
  by_cases hnil : es1 ++ es2 = []
  · obtain ⟨rfl, rfl⟩ := List.append_eq_nil_iff.mp hnil
    rw [List.append_nil, List.forall₂_nil_right_iff] at hl0
    rw [hl0] at he0
    refine ⟨_, _, fun s => modulate_ell hne (hl s) rep critical power, ?_, fin _ _ (lim_out_alone hsm hu ht rep)⟩
    unfold modulateVelocity
    rw [he0]
    rfl
  · have hne0 : e0.list ≠ [] := by
      intro h1
      rw [← he0, h1, List.forall₂_nil_left_iff] at hl0
      exact hnil hl0
    rw [← he0] at hl0
    exact ⟨_, _, fun s => modulate_ell hne (hl s) rep critical power, modulate_ell hne0 hl0 rep critical power,
      fin _ _ (lim_out_away hsm hu ht rep hp es1 es2 hnil ho)⟩

theorem outcome_of_calm {es : List (Ellipsoid ℝ × V3 ℝ)} {x v : V3 ℝ} {m c p : ℝ}
    (h : ∀ er ∈ es, Calm er x m) (hz : v.z = 0)
    (ha : v ≠ V3.zero → (Modulation.turn es x v m c p).norm ≠ 1 / 10000) :
    Outcome x v (es.map fun er => ellItem er.1 er.2 x m) c p := by
  have hrel : ∀ ws, (relativeVelocities x v (es.map fun er => ellItem er.1 er.2 x m) ws).1 = v := by
    refine fun ws => relative_static ?_ ws
    intro i hi
    obtain ⟨er, he, rfl⟩ := List.mem_map.mp hi
    exact ⟨(h er he).lin, (h er he).ang⟩
  unfold Outcome
  simp only [hrel]
  by_cases hv : v = V3.zero
  · left
    intro i _
    rw [hv]
    ext <;> simp [M3.mulVec, V3.zero]
  · right
    refine ⟨hv, ?_, ha hv⟩
    intro i hi
    obtain ⟨er, he, rfl⟩ := List.mem_map.mp hi
    have hf := h er he
    obtain ⟨k, sm⟩ := hf.smooth
    have hq := (Quat.isUnit_iff_norm _).mpr sm.unit
    have hev := eigen_pos hf.outside
    exact definite_planar hz hv (product_ne_zero hq (calm_clear hf).regular hev hv)
      (fun c hc => not_opposite hq _ ⟨hev.1.le, hev.2.1.le, hev.2.2.le⟩ hc hv)

/-- An obstacle that leaves in its own x-y plane. -/
theorem tangent_of_planar {e : Ellipsoid ℝ} {m : ℝ} {k : ℕ} (h : Smooth e m k) {u : V3 ℝ} (hu : u ≠ V3.zero)
    (hp : ∃ a b, u = e.base.orientation.rotate ⟨a, b, 0⟩) :
    (V3.cross ((centred e).normalToAgent (-u) m) V3.unitZ).norm ≠ 1 / 10000 := by
  obtain ⟨a, b, hab⟩ := hp
  have sm := centred_smooth h
  have hu' : -u = (centred e).base.pose.apply ⟨-a, -b, 0⟩ := by
    show -u = e.base.orientation.rotate ⟨-a, -b, 0⟩ + V3.zero
    have h1 : (⟨-a, -b, 0⟩ : V3 ℝ) = -⟨a, b, 0⟩ := by ext <;> simp
    rw [h1, Quat.rotate_neg, ← hab]
    v3_ring
  have hy : (⟨-a, -b, 0⟩ : V3 ℝ) ≠ V3.zero := by
    intro h0
    apply hu
    have h1 : (⟨a, b, 0⟩ : V3 ℝ) = V3.zero := by
      have hx := congrArg V3.x h0; have hy := congrArg V3.y h0
      simp only [V3.zero, neg_eq_zero] at hx hy
      rw [hx, hy]; rfl
    have h2 := Quat.rotate_smul e.base.orientation 0 (V3.zero : V3 ℝ)
    have h3 : V3.smul 0 (V3.zero : V3 ℝ) = V3.zero := by v3_ring
    rw [h3] at h2
    rw [hab, h1, h2]; v3_ring
  have hn := (normal_facts sm hy).1
  have hz := normal_planar sm (y := ⟨-a, -b, 0⟩) rfl
  rw [← hu'] at hn hz
  have h4 := V3.norm_sq (V3.cross ((centred e).normalToAgent (-u) m) V3.unitZ)
  have h5 := V3.norm_sq ((centred e).normalToAgent (-u) m)
  rw [hn] at h5
  have h6 : V3.sqNorm (V3.cross ((centred e).normalToAgent (-u) m) V3.unitZ) = 1 := by
    simp only [V3.sqNorm, V3.dot, V3.cross, V3.unitZ] at h5 ⊢
    rw [hz] at h5 ⊢
    linarith
  rw [h6] at h4
  intro h7
  rw [h7] at h4
  norm_num at h4

/-- C105 among obstacles at rest: the agent is outside of them and wants to move in the plane, the obstacle leaves in its own
x-y plane; only the threshold of the code for small angles is left. -/
theorem C105_static_partial (h : ℝ → Heap ℝ) (h0 : Heap ℝ) (a : Agent ℝ) (e e0 : Env) (l1 l2 : List Ptr) (q : Ptr) (rep : Bool)
    (critical power : ℝ) (es1 es2 : List (Ellipsoid ℝ × V3 ℝ)) (er : Ellipsoid ℝ × V3 ℝ) (k : ℕ) (u : V3 ℝ)
    (he : e.list = l1 ++ q :: l2) (he0 : e0.list = l1 ++ l2)
    (hl : ∀ s, List.Forall₂ (Leads (h s)) (l1 ++ q :: l2) (es1 ++ away er (V3.smul s u) :: es2))
    (hl0 : List.Forall₂ (Leads h0) (l1 ++ l2) (es1 ++ es2)) (hsm : Smooth er.1 a.margin k) (hu : u ≠ V3.zero)
    (hpl : ∃ a b, u = er.1.base.orientation.rotate ⟨a, b, 0⟩) (hp : 0 < power)
    (hc : ∀ er ∈ es1 ++ es2, Calm er a.state.position a.margin) (hz : a.state.linearVelocity.z = 0)
    (ha : a.state.linearVelocity ≠ V3.zero →
      (Modulation.turn (es1 ++ es2) a.state.position a.state.linearVelocity a.margin critical power).norm ≠ 1 / 10000) :
    ∃ (v : ℝ → V3 ℝ) (v0 : V3 ℝ),
      (∀ s, modulateVelocity (h s) a e false rep false critical power = .ok (h s, v s)) ∧
      modulateVelocity h0 a e0 false rep false critical power = .ok (h0, v0) ∧
      ∀ ε > 0, ∃ S, ∀ s ≥ S, V3.norm (v s - v0) < ε :=
  C105_far_partial h h0 a e e0 l1 l2 q rep critical power es1 es2 er k u he he0 hl hl0 hsm hu hp
    (tangent_of_planar hsm hu hpl) (outcome_of_calm hc hz ha)

/-- The only obstacle: far away, the agent gets the velocity it wants. -/
theorem C105_alone (h : ℝ → Heap ℝ) (a : Agent ℝ) (e : Env) (q : Ptr) (rep : Bool) (critical power : ℝ)
    (er : Ellipsoid ℝ × V3 ℝ) (k : ℕ) (u : V3 ℝ) (he : e.list = [q])
    (hl : ∀ s, Leads (h s) q (away er (V3.smul s u))) (hsm : Smooth er.1 a.margin k) (hu : u ≠ V3.zero)
    (hpl : ∃ a b, u = er.1.base.orientation.rotate ⟨a, b, 0⟩) :
    ∃ v : ℝ → V3 ℝ, (∀ s, modulateVelocity (h s) a e false rep false critical power = .ok (h s, v s)) ∧
      ∀ ε > 0, ∃ S, ∀ s ≥ S, V3.norm (v s - a.state.linearVelocity) < ε := by
  refine ⟨_, fun s => modulate_ell (by rw [he]; simp) (by rw [he]; exact .cons (hl s) .nil) rep critical power, ?_⟩
  intro ε hε
  have hv := lim_out_alone hsm (x := a.state.position) (v := a.state.linearVelocity) hu (tangent_of_planar hsm hu hpl) rep
    (c := critical) (p := power)
  have hc : LimV atTop (fun s => ellOut [away er (V3.smul s u)] a.state.position a.state.linearVelocity a.margin rep critical power
      - a.state.linearVelocity) (a.state.linearVelocity - a.state.linearVelocity) := hv.sub ⟨.const _, .const _, .const _⟩
  have hn := hc.norm
  rw [V3.sub_self', V3.norm_eq_zero.mpr rfl] at hn
  have hev : ∀ᶠ s in atTop, V3.norm (ellOut [away er (V3.smul s u)] a.state.position a.state.linearVelocity a.margin rep critical power
      - a.state.linearVelocity) < ε := Tendsto.eventually_lt_const hε hn
  exact eventually_atTop.mp hev

/-! ### a case -/

/-- Beside a unit ball at rest, a second unit ball that moves and turns is carried away along the y axis. -/
noncomputable def spinning : Ellipsoid ℝ :=
  let b := ball V3.zero
  { b with base := { b.base with state := { b.base.state with linearVelocity := ⟨5, 0, 0⟩, angularVelocity := ⟨0, 0, 7⟩ } } }

example : ∃ (v : ℝ → V3 ℝ) (v0 : V3 ℝ),
    (∀ s, modulateVelocity [.ellipsoid (ball V3.zero), .ellipsoid (away (spinning, V3.zero) (V3.smul s ⟨0, 1, 0⟩)).1]
      (agentAt ⟨2, 0, 0⟩ ⟨-1, 1, 0⟩) (envOf [0, 1]) false true false 1 2
      = .ok ([.ellipsoid (ball V3.zero), .ellipsoid (away (spinning, V3.zero) (V3.smul s ⟨0, 1, 0⟩)).1], v s)) ∧
    modulateVelocity [.ellipsoid (ball V3.zero)] (agentAt ⟨2, 0, 0⟩ ⟨-1, 1, 0⟩) (envOf [0]) false true false 1 2
      = .ok ([.ellipsoid (ball V3.zero)], v0) ∧
    ∀ ε > 0, ∃ S, ∀ s ≥ S, V3.norm (v s - v0) < ε := by
  refine C105_static_partial (fun s => [.ellipsoid (ball V3.zero), .ellipsoid (away (spinning, V3.zero) (V3.smul s ⟨0, 1, 0⟩)).1])
    [.ellipsoid (ball V3.zero)] (agentAt ⟨2, 0, 0⟩ ⟨-1, 1, 0⟩) (envOf [0, 1]) (envOf [0]) [0] [] 1 true 1 2
    [(ball V3.zero, V3.zero)] [] (spinning, V3.zero) 1 ⟨0, 1, 0⟩ rfl rfl ?_ (.cons ⟨rfl, rfl⟩ .nil) ?_ ?_ ?_ (by norm_num) ?_ rfl
    (fun _ => ball_turn)
  · intro s
    exact .cons ⟨rfl, rfl⟩ (.cons ⟨rfl, rfl⟩ .nil)
  · have := ball_smooth V3.zero
    exact ⟨this.curv, this.unit, this.long, this.exact_⟩
  · intro h; have := congrArg V3.y h; norm_num [V3.zero] at this
  · refine ⟨0, 1, ?_⟩
    show _ = Quat.rotate (Quat.one) _
    rw [Quat.rotate_one]
  · intro er he
    rw [List.append_nil, List.mem_singleton] at he
    rw [he]
    exact ball_calm

example : ∃ v : ℝ → V3 ℝ, (∀ s, modulateVelocity [.ellipsoid (away (spinning, V3.zero) (V3.smul s ⟨0, 1, 0⟩)).1]
      (agentAt ⟨2, 0, 0⟩ ⟨-1, 1, 3⟩) (envOf [0]) false true false 1 2
      = .ok ([.ellipsoid (away (spinning, V3.zero) (V3.smul s ⟨0, 1, 0⟩)).1], v s)) ∧
    ∀ ε > 0, ∃ S, ∀ s ≥ S, V3.norm (v s - ⟨-1, 1, 3⟩) < ε := by
  refine C105_alone (fun s => [.ellipsoid (away (spinning, V3.zero) (V3.smul s ⟨0, 1, 0⟩)).1]) (agentAt ⟨2, 0, 0⟩ ⟨-1, 1, 3⟩)
    (envOf [0]) 0 true 1 2 (spinning, V3.zero) 1 ⟨0, 1, 0⟩ rfl (fun s => ⟨rfl, rfl⟩) ?_ ?_ ?_
  · have := ball_smooth V3.zero
    exact ⟨this.curv, this.unit, this.long, this.exact_⟩
  · intro h; have := congrArg V3.y h; norm_num [V3.zero] at this
  · refine ⟨0, 1, ?_⟩
    show _ = Quat.rotate (Quat.one) _
    rw [Quat.rotate_one]

/-! ### the exponent of the weights -/

theorem angle_along {f M : M3 ℝ} {v : V3 ℝ} {c : ℝ} (hv : v ≠ V3.zero) (hc : 0 < c) (hM : M.mulVec v = V3.smul c v) (w : ℝ) :
    angleTerm f v.normalized v M w = (c * V3.norm v * w, V2.zero) := by
  unfold angleTerm
  simp only [hM, normalized_scale hc]
  have h2 := V3.norm_sq v.normalized
  rw [V3.norm_normalized hv] at h2
  have h3 : V3.dot v.normalized v.normalized = 1 := by
    rw [show V3.dot v.normalized v.normalized = V3.sqNorm v.normalized from rfl, ← h2]; norm_num
  have h4 : safeAcos (1 : ℝ) = 0 := by rw [safeAcos_real, Real.arccos_one]
  rw [h3, h4, V3.norm_smul, abs_of_pos hc]
  congr 1
  ext <;> simp [V2.scale, V2.zero]

theorem out_along {v : V3 ℝ} (hv : v ≠ V3.zero) (c : ℝ) :
    zipOut v V3.zero (c * V3.norm v, V2.zero) = V3.smul c v := by
  unfold zipOut
  have h1 : reconstruct (V2.zero : V2 ℝ) = ⟨1, 0, 0⟩ := by
    unfold reconstruct
    simp [V2.norm, V2.sqNorm, V2.zero]
  simp only [h1, mulVec_unit0]
  have h2 : (dsFrame v.normalized).c0 = v.normalized := rfl
  rw [h2, V3.normalized_of_ne hv]
  have := V3.norm_pos hv
  ext <;> simp only [V3.smul, V3.add_x, V3.add_y, V3.add_z, V3.zero] <;> field_simp <;> ring

theorem zipVel_static {x : V3 ℝ} {l : List (Item ℝ)}
    (h : ∀ i ∈ l, i.base.state.linearVelocity = V3.zero ∧ i.base.state.angularVelocity = V3.zero) (ws : List ℝ) :
    zipVel x (l.zip ws) = V3.zero := by
  have key : ∀ (l : List (Item ℝ × ℝ)) (acc : V3 ℝ),
      (∀ y ∈ l, y.1.base.state.linearVelocity = V3.zero ∧ y.1.base.state.angularVelocity = V3.zero) →
      l.foldl (fun acc y => acc + obstacleVelocity x y.1.base y.1.dist y.2 y.1.basis) acc = acc := by
    intro l
    induction l with
    | nil => intro acc _; rfl
    | cons y l ih =>
      intro acc hl
      obtain ⟨h1, h2⟩ := hl y (by simp)
      rw [List.foldl_cons, obstacleVelocity_static h1 h2, V3.add_zero']
      exact ih acc fun z hz => hl z (by simp [hz])
  exact key _ _ fun y hy => h y.1 (List.of_mem_zip hy).1

theorem axis_matrix {X : ℝ} (hX : 1 < X) (c : ℝ) :
    (ellItem (ball V3.zero) V3.zero ⟨X, 0, 0⟩ 0).matrix.mulVec ⟨c, 0, 0⟩ = V3.smul (1 - 1 / X ^ 2) ⟨c, 0, 0⟩ := by
  obtain ⟨M, B, hm, hM⟩ := ball_axis [] (agentAt ⟨X, 0, 0⟩ V3.zero) X rfl rfl hX
  have hm' := matrix_ellipsoid [] (agentAt ⟨X, 0, 0⟩ V3.zero) (ball V3.zero) (ref := V3.zero) rfl
  rw [hm] at hm'
  have h1 : M = (ellItem (ball V3.zero) V3.zero ⟨X, 0, 0⟩ 0).matrix := congrArg Prod.fst (Res.ok.inj hm')
  rw [← h1, hM]
  ext <;> simp [V3.smul]

theorem far_matrix (s : ℝ) (x w : V3 ℝ) :
    (ellItem (away (ball V3.zero, V3.zero) ⟨-s, 0, 0⟩).1 (away (ball V3.zero, V3.zero) ⟨-s, 0, 0⟩).2 x 0).matrix.mulVec w
      = (ellItem (ball V3.zero) V3.zero (x - ⟨-s, 0, 0⟩) 0).matrix.mulVec w := by
  obtain ⟨a1, a2, a3, a4⟩ := away_item (ball V3.zero, V3.zero) ⟨-s, 0, 0⟩ x 0
  unfold ellItem
  simp only [a1, a2, a3, a4]

/-- C105 is false if the power of the weights is not positive: with the power 0 a ball at any distance behind the ball
ahead speeds the agent up by a fixed amount. -/
theorem C105_negation_power : ∃ (v : ℝ → V3 ℝ) (v0 : V3 ℝ),
    (∀ s ≥ 0, modulateVelocity [.ellipsoid (ball V3.zero), .ellipsoid (away (ball V3.zero, V3.zero) ⟨-s, 0, 0⟩).1]
        (agentAt ⟨2, 0, 0⟩ ⟨-1, 0, 0⟩) (envOf [0, 1]) false false false 1 0
      = .ok ([.ellipsoid (ball V3.zero), .ellipsoid (away (ball V3.zero, V3.zero) ⟨-s, 0, 0⟩).1], v s)) ∧
    modulateVelocity [.ellipsoid (ball V3.zero)] (agentAt ⟨2, 0, 0⟩ ⟨-1, 0, 0⟩) (envOf [0]) false false false 1 0
      = .ok ([.ellipsoid (ball V3.zero)], v0) ∧
    ∀ s ≥ 2, 1 / 16 < V3.norm (v s - v0) := by
  have hv : (⟨-1, 0, 0⟩ : V3 ℝ) ≠ V3.zero := by intro h; have := congrArg V3.x h; norm_num [V3.zero] at this
  have hnear := axis_matrix (X := 2) (by norm_num) (-1)
  have hdn : (ellItem (ball V3.zero) V3.zero ⟨2, 0, 0⟩ 0).dist = 4 := by
    show gdist (ball V3.zero) 0 ⟨2, 0, 0⟩ = 4
    rw [ball_dist]; norm_num
  refine ⟨fun s => V3.smul ((3 / 4 + (1 - 1 / (2 + s) ^ 2)) / 2) ⟨-1, 0, 0⟩, V3.smul (3 / 4) ⟨-1, 0, 0⟩, ?_, ?_, ?_⟩
  · intro s hs
    rw [modulate_ell (es := [(ball V3.zero, V3.zero), away (ball V3.zero, V3.zero) ⟨-s, 0, 0⟩]) (by simp [envOf])
      (.cons ⟨rfl, rfl⟩ (.cons ⟨rfl, rfl⟩ .nil))]
    congr 2
    have hpt : (⟨2, 0, 0⟩ : V3 ℝ) - ⟨-s, 0, 0⟩ = ⟨2 + s, 0, 0⟩ := by ext <;> simp
    have hfar : (ellItem (away (ball V3.zero, V3.zero) ⟨-s, 0, 0⟩).1 (away (ball V3.zero, V3.zero) ⟨-s, 0, 0⟩).2 ⟨2, 0, 0⟩ 0).matrix.mulVec
        ⟨-1, 0, 0⟩ = V3.smul (1 - 1 / (2 + s) ^ 2) ⟨-1, 0, 0⟩ := by
      rw [far_matrix, hpt, axis_matrix (by linarith)]
    have hdf : (ellItem (away (ball V3.zero, V3.zero) ⟨-s, 0, 0⟩).1 (away (ball V3.zero, V3.zero) ⟨-s, 0, 0⟩).2 ⟨2, 0, 0⟩ 0).dist
        = (2 + s) ^ 2 := by
      show (away (ball V3.zero, V3.zero) ⟨-s, 0, 0⟩).1.distanceToPoint ⟨2, 0, 0⟩ (V3.const 0) = _
      rw [(away_item (ball V3.zero, V3.zero) ⟨-s, 0, 0⟩ ⟨2, 0, 0⟩ 0).2.1, hpt]
      show gdist (ball V3.zero) 0 ⟨2 + s, 0, 0⟩ = _
      rw [ball_dist]; simp
    have hw : weightObstacles [4, (2 + s) ^ 2] 1 0 = [1 / 2, 1 / 2] := by
      have h1 : ¬ ((2 + s) ^ 2 ≤ 1) := by nlinarith
      rw [weights_eq]
      simp [flag, h1]
      norm_num
    have hov : ∀ ws, zipVel ⟨2, 0, 0⟩ ([ellItem (ball V3.zero) V3.zero ⟨2, 0, 0⟩ 0,
        ellItem (away (ball V3.zero, V3.zero) ⟨-s, 0, 0⟩).1 (away (ball V3.zero, V3.zero) ⟨-s, 0, 0⟩).2 ⟨2, 0, 0⟩ 0].zip ws) = V3.zero := by
      refine fun ws => zipVel_static ?_ ws
      intro i hi
      simp only [List.mem_cons, List.not_mem_nil, or_false] at hi
      rcases hi with rfl | rfl <;> exact ⟨rfl, rfl⟩
    show finish none (combine ⟨2, 0, 0⟩ ⟨-1, 0, 0⟩ [ellItem (ball V3.zero) V3.zero ⟨2, 0, 0⟩ 0,
        ellItem (away (ball V3.zero, V3.zero) ⟨-s, 0, 0⟩).1 (away (ball V3.zero, V3.zero) ⟨-s, 0, 0⟩).2 ⟨2, 0, 0⟩ 0] 1 0) = _
    rw [finish_real, combine_zip]
    simp only [hov, List.map_cons, List.map_nil, hdn, hdf, hw]
    have h1 : (⟨-1, 0, 0⟩ : V3 ℝ) - V3.zero = ⟨-1, 0, 0⟩ := by v3_ring
    have hpos : 0 < 1 - 1 / (2 + s) ^ 2 := by
      rw [sub_pos, div_lt_one (by positivity)]; nlinarith
    rw [h1]
    unfold zipSum
    simp only [List.zip_cons_cons, List.zip_nil_right, List.foldl_cons, List.foldl_nil, angle_along hv (by norm_num) hnear,
      angle_along hv hpos hfar]
    rw [← out_along hv]
    congr 1
    ext
    · simp only []; norm_num; ring
    · simp [V2.add, V2.zero]
    · simp [V2.add, V2.zero]
  · rw [modulate_ell (es := [(ball V3.zero, V3.zero)]) (by simp [envOf]) (.cons ⟨rfl, rfl⟩ .nil)]
    congr 2
    have hov : ∀ ws, zipVel ⟨2, 0, 0⟩ ([ellItem (ball V3.zero) V3.zero ⟨2, 0, 0⟩ 0].zip ws) = V3.zero := by
      refine fun ws => zipVel_static ?_ ws
      intro i hi
      rw [List.mem_singleton.mp hi]
      exact ⟨rfl, rfl⟩
    show finish none (combine ⟨2, 0, 0⟩ ⟨-1, 0, 0⟩ [ellItem (ball V3.zero) V3.zero ⟨2, 0, 0⟩ 0] 1 0) = _
    rw [finish_real, combine_zip]
    simp only [hov, List.map_cons, List.map_nil, weight_alone]
    have h1 : (⟨-1, 0, 0⟩ : V3 ℝ) - V3.zero = ⟨-1, 0, 0⟩ := by v3_ring
    rw [h1]
    unfold zipSum
    simp only [List.zip_cons_cons, List.zip_nil_right, List.foldl_cons, List.foldl_nil, angle_along hv (by norm_num) hnear]
    rw [← out_along hv]
    congr 1
    ext
    · simp only []; norm_num
    · simp [V2.add, V2.zero]
    · simp [V2.add, V2.zero]
  · intro s hs
    have h1 : 1 / (2 + s) ^ 2 ≤ 1 / 16 := by
      apply one_div_le_one_div_of_le (by norm_num); nlinarith
    have h2 := V3.norm_sq (V3.smul ((3 / 4 + (1 - 1 / (2 + s) ^ 2)) / 2) (⟨-1, 0, 0⟩ : V3 ℝ) - V3.smul (3 / 4) ⟨-1, 0, 0⟩)
    have h3 := V3.norm_nonneg (V3.smul ((3 / 4 + (1 - 1 / (2 + s) ^ 2)) / 2) (⟨-1, 0, 0⟩ : V3 ℝ) - V3.smul (3 / 4) ⟨-1, 0, 0⟩)
    show 1 / 16 < V3.norm (V3.smul ((3 / 4 + (1 - 1 / (2 + s) ^ 2)) / 2) (⟨-1, 0, 0⟩ : V3 ℝ) - V3.smul (3 / 4) ⟨-1, 0, 0⟩)
    generalize V3.norm (V3.smul ((3 / 4 + (1 - 1 / (2 + s) ^ 2)) / 2) (⟨-1, 0, 0⟩ : V3 ℝ) - V3.smul (3 / 4) ⟨-1, 0, 0⟩) = n at h2 h3 ⊢
    simp only [V3.sqNorm, V3.dot, V3.sub_x, V3.sub_y, V3.sub_z, V3.smul] at h2
    generalize 1 / (2 + s) ^ 2 = t at h1 h2
    nlinarith

end DOA.Props
