import Verif.Props.HullWall
import Verif.Props.Loop

/-!
# C83 the control loop around an aggregate
-/

set_option linter.unusedSectionVars false
set_option linter.unusedSimpArgs false

namespace DOA.Props
open DOA DOA.Spec DOA.Hull DOA.Ellipsoid DOA.Modulation

/-- The situation at the beginning of an iteration: the aggregate is object `p`, its primitives are ellipsoids, the
envelope of the agent is another object, the agent is in the plane. -/
structure OnWall (g : Aggregate ℝ) (prim : Ptr → Ellipsoid ℝ) (p : Ptr) (s : Heap ℝ × Agent ℝ) : Prop where
  obj : s.1[p]? = some (.aggregate g)
  prims : ∀ q ∈ g.prims, s.1[q]? = some (.ellipsoid (prim q))
  envelope : ∃ (q : Ptr) (env : Ellipsoid ℝ), q ≠ p ∧ q ∉ g.prims ∧ s.2.envelope = some q ∧
    s.1[q]? = some (.ellipsoid env)
  flat : s.2.state.position.z = 0

theorem withState_onWall {g : Aggregate ℝ} {prim : Ptr → Ellipsoid ℝ} {p : Ptr} {s : Heap ℝ × Agent ℝ}
    (hs : OnWall g prim p s) (st : State ℝ) (hz : st.position.z = 0) :
    ∃ h', Agent.withState s.1 s.2 st = .ok (h', { s.2 with state := st }) ∧
      OnWall g prim p (h', { s.2 with state := st }) := by
  obtain ⟨q, env, hqp, hqg, hq, henv⟩ := hs.envelope
  have hlt : q < s.1.length := by
    by_contra hn
    rw [List.getElem?_eq_none (Nat.le_of_not_lt hn)] at henv
    cases henv
  refine ⟨_, by simp [Agent.withState, Agent.updateEnvelope, hq, Heap.deref, henv]; rfl, ⟨?_, ?_, ?_, hz⟩⟩
  · show (List.set s.1 q _)[p]? = _
    rw [List.getElem?_set_ne hqp]
    exact hs.obj
  · intro q' hq'
    show (List.set s.1 q _)[q']? = _
    rw [List.getElem?_set_ne (by rintro rfl; exact hqg hq')]
    exact hs.prims q' hq'
  · exact ⟨q, _, hqp, hqg, hq, by rw [List.getElem?_set_self hlt]⟩

theorem foldlM_or_false {β : Type} (f : β → Res Bool) (l : List β) (h : ∀ q ∈ l, f q = .ok false) :
    l.foldlM (fun acc q => do let b ← f q; Res.ok (acc || b)) false = .ok false := by
  induction l with
  | nil => rfl
  | cons a l ih =>
    rw [List.foldlM_cons, h a List.mem_cons_self]
    exact ih fun q hq => h q (List.mem_cons_of_mem _ hq)

/-- Outside the hull and outside all primitives is outside. -/
theorem aggregate_outside (h : Heap ℝ) (g : Aggregate ℝ) (prim : Ptr → Ellipsoid ℝ) (x : V3 ℝ) (hne : h ≠ [])
    (hp : ∀ q ∈ g.prims, h[q]? = some (.ellipsoid (prim q))) (hout : g.outside.pointIsInside x = .ok false)
    (hnp : ∀ q ∈ g.prims, (prim q).pointIsInside x = false) :
    h.pointIsInside (.aggregate g) x = .ok false := by
  obtain ⟨n, hn⟩ : ∃ n, h.fuel = n + 1 + 1 := by
    cases h with
    | nil => exact absurd rfl hne
    | cons o h => exact ⟨h.length, rfl⟩
  unfold Heap.pointIsInside
  rw [hn, Heap.pointIsInsideAux, hout, Res.ok_bind]
  simp only [Bool.false_eq_true, if_false]
  have := foldlM_or_false (fun q => do let oq ← h.deref q; Heap.pointIsInsideAux (n + 1) h oq x) g.prims (by
    intro q hq
    simp only [Heap.deref, hp q hq, Res.ok_bind, Heap.pointIsInsideAux, hnp q hq])
  refine Eq.trans ?_ this
  congr 1
  funext acc q
  cases h.deref q <;> rfl

theorem abs_turn_le (u v : V3 ℝ) : |turn u v| ≤ u.norm * v.norm := by
  have h1 : turn u v = V3.dot ⟨-u.y, u.x, 0⟩ v := by simp only [turn, V3.dot]; ring
  have h2 : (⟨-u.y, u.x, 0⟩ : V3 ℝ).norm ≤ u.norm := by
    simp only [V3.norm, sqrt_real]
    apply Real.sqrt_le_sqrt
    simp only [V3.sqNorm, V3.dot]
    nlinarith [sq_nonneg u.z]
  rw [h1]
  exact (abs_dot_le_norm _ _).trans (mul_le_mul_of_nonneg_right h2 (V3.norm_nonneg _))

/-- How much the modulation stretches velocities. -/
theorem stretched {r w v mv Mv : V3 ℝ} {d K : ℝ} (hd1 : 1 ≤ d) (hturn : turn r w ≠ 0)
    (hMv : Mv = V3.smul (max 0 (1 - 1 / d) * (turn v w / turn r w)) r +
      V3.smul ((1 + min 1 (1 / d)) * (turn r v / turn r w)) w)
    (herr : V3.norm (mv - Mv) ≤ 1 / 10 ^ 8 * V3.norm Mv)
    (hK : (2 + 1 / 10 ^ 7) * (w.norm * r.norm) ≤ K * |turn r w|) : V3.norm mv ≤ K * v.norm := by
  have e1 : mv = Mv + (mv - Mv) := by v3_ring
  have e2 := norm_add_le Mv (mv - Mv)
  rw [← e1] at e2
  have e3 : V3.norm Mv * |turn r w| ≤ 2 * (w.norm * r.norm) * v.norm := by
    rw [hMv]
    have hi : 1 / d ≤ 1 := by rw [div_le_one (by linarith)]; exact hd1
    rw [max_eq_right (by linarith), min_eq_right hi]
    have hi0 : 0 ≤ 1 / d := by positivity
    have f1 := norm_add_le (V3.smul ((1 - 1 / d) * (turn v w / turn r w)) r)
      (V3.smul ((1 + 1 / d) * (turn r v / turn r w)) w)
    rw [V3.norm_smul, V3.norm_smul, abs_mul, abs_mul, abs_div, abs_div, abs_of_nonneg (by linarith : 0 ≤ 1 - 1 / d),
      abs_of_nonneg (by linarith : 0 ≤ 1 + 1 / d)] at f1
    have ht : 0 < |turn r w| := abs_pos.mpr hturn
    have f2 := abs_turn_le v w
    have f3 := abs_turn_le r v
    have f4 := mul_le_mul_of_nonneg_right f1 ht.le
    refine f4.trans ?_
    have f5 : ((1 - 1 / d) * (|turn v w| / |turn r w|) * r.norm + (1 + 1 / d) * (|turn r v| / |turn r w|) * w.norm) *
        |turn r w| = (1 - 1 / d) * (|turn v w| * r.norm) + (1 + 1 / d) * (|turn r v| * w.norm) := by
      field_simp
    rw [f5]
    have f6 : |turn v w| * r.norm ≤ v.norm * w.norm * r.norm := mul_le_mul_of_nonneg_right f2 (V3.norm_nonneg _)
    have f7 : |turn r v| * w.norm ≤ r.norm * v.norm * w.norm := mul_le_mul_of_nonneg_right f3 (V3.norm_nonneg _)
    have f8 := mul_le_mul_of_nonneg_left f6 (by linarith : 0 ≤ 1 - 1 / d)
    have f9 := mul_le_mul_of_nonneg_left f7 (by linarith : 0 ≤ 1 + 1 / d)
    linarith
  have ht : 0 < |turn r w| := abs_pos.mpr hturn
  have hv0 := V3.norm_nonneg v
  generalize hA : w.norm * r.norm = A at *
  have hA0 : 0 ≤ A := by rw [← hA]; exact mul_nonneg (V3.norm_nonneg _) (V3.norm_nonneg _)
  generalize |turn r w| = t at *
  generalize v.norm = V at *
  have e4 : V3.norm mv ≤ (1 + 1 / 10 ^ 8) * V3.norm Mv := by linarith
  have e5 : V3.norm mv * t ≤ K * V * t := by
    calc V3.norm mv * t ≤ (1 + 1 / 10 ^ 8) * V3.norm Mv * t := mul_le_mul_of_nonneg_right e4 ht.le
      _ = (1 + 1 / 10 ^ 8) * (V3.norm Mv * t) := by ring
      _ ≤ (1 + 1 / 10 ^ 8) * (2 * A * V) := mul_le_mul_of_nonneg_left e3 (by norm_num)
      _ ≤ (2 + 1 / 10 ^ 7) * A * V := by nlinarith [mul_nonneg hA0 hv0]
      _ ≤ K * t * V := mul_le_mul_of_nonneg_right hK hv0
      _ = K * V * t := by ring
  exact le_of_mul_le_mul_right e5 ht

/-- The result of the modulation with repulsion, outside an aggregate. -/
theorem aggregate_out (h : Heap ℝ) (a : Agent ℝ) (E : Env) (g : Aggregate ℝ) (p : Ptr) (critical power K : ℝ) (w q : V3 ℝ)
    (hl : E.list = [p]) (hp : h[p]? = some (.aggregate g)) (hst : Static (.aggregate g)) (hg : Hulls g)
    (hk : FlatHull g.outside) (hor : g.base.pose.orientation = Quat.one)
    (href : g.base.refPos = some g.outside.base.position)
    (hout : h.pointIsInside (.aggregate g) a.state.position = .ok false)
    (hq : g.outside.polar[g.outside.column a.state.position]? = some q) (hthick : 1 / 10 ^ 5 ≤ q.x)
    (hw : IsChord g.outside a.state.position w) (hz : a.state.position.z = g.outside.base.position.z)
    (hlong : 1 / 10000 ≤ w.norm) (hvz : a.state.linearVelocity.z = 0)
    (hr : 0 < (a.state.position - g.outside.base.position).norm)
    (hK : (2 + 1 / 10 ^ 7) * (w.norm * (a.state.position - g.outside.base.position).norm) ≤
      K * |turn (a.state.position - g.outside.base.position) w|) :
    ∃ u ρ d, modulateVelocity h a E false true false critical power = .ok (h, u + ρ) ∧
      d * q.x = (a.state.position - g.outside.base.position).norm ∧
      V3.norm u ≤ K * a.state.linearVelocity.norm ∧
      (d < 11 / 10 → ρ = V3.smul (20 / d) (a.state.position - g.outside.base.position)) ∧
      (11 / 10 ≤ d → ρ = V3.zero) := by
  have hb := inside_value g.outside hk.orient _ q hq
  obtain ⟨w', hw', hwz, hn⟩ := chord_of g.outside hk _ hb
  have := chord_unique hw' hw
  subst this
  have hq0 : 0 < q.x := by linarith [show (0 : ℝ) < 1 / 10 ^ 5 by norm_num]
  obtain ⟨d, s, hd, hcol, hd1, hds⟩ := (C78_distance h g hg a.state.position (V3.const a.margin) false hout).1 rfl
  rw [hq] at hcol
  cases hcol
  rw [inverse_apply_one hk.orient] at hds
  change d * q.x = (a.state.position - g.outside.base.position).norm at hds
  have hn' : h.normalToAgent (.aggregate g) a.state.position a.margin = .ok ⟨-w'.y, w'.x, 0⟩ := by
    simp [Heap.normalToAgent, hout, hn]
  have hwn : 0 < w'.norm := by linarith [show (0 : ℝ) < 1 / 10000 by norm_num]
  have hturn : turn (a.state.position - g.outside.base.position) w' ≠ 0 := by
    intro h0
    rw [h0, abs_zero, mul_zero] at hK
    have : 0 < (2 + 1 / 10 ^ 7) * (w'.norm * (a.state.position - g.outside.base.position).norm) := by positivity
    linarith
  obtain ⟨M, B, hM, hMv⟩ := chord_matrix h a (.aggregate g) g.outside.base.position w' d hor href hn' hd (by linarith) hz hwz
    hlong hturn
  have hunit : (Obj.aggregate g).base.orientation.norm = 1 := by
    show g.base.pose.orientation.norm = 1
    rw [hor]; exact (Quat.isUnit_iff_norm _).mp Quat.isUnit_one
  obtain ⟨mv, h1, -, h2⟩ := C39_single h a E false critical power p (.aggregate g) M B d hl hp hst hunit hM hvz
    (by intro h; cases h)
  have hspeed : V3.norm mv ≤ K * a.state.linearVelocity.norm := stretched hd1 hturn (hMv _ hvz) h2 hK
  have hdpos : 0 < d := by linarith
  have hrep : ∃ r, h.generateRepulsion (.aggregate g) a.state.position a.margin (11 / 10) = .ok r ∧
      (d < 11 / 10 → r = V3.smul (20 / d) (a.state.position - g.outside.base.position)) ∧
      (11 / 10 ≤ d → r = V3.zero) := by
    by_cases hnear : d < 11 / 10
    · obtain ⟨r, h3, h4, -⟩ := C78_repulsion h g g.outside.base.position a.state.position a.margin (11 / 10) d false href hd
        hnear hout
      exact ⟨r, h3, fun _ => h4 rfl, fun hf => absurd hnear (not_lt.mpr hf)⟩
    · exact ⟨V3.zero, C42_far h (.aggregate g) a.state.position a.margin (11 / 10) d hd hnear, fun hn => absurd hn hnear,
        fun _ => rfl⟩
  obtain ⟨r, h3, h4, h5⟩ := hrep
  have h7 := C42_added h h a E false false critical power mv [r] (by rw [hl]; simp) (by intro h; cases h) h1
    (by rw [hl]; exact .cons ⟨_, hp, h3⟩ .nil)
  have e1 : V3.lsum [r] = r := by rw [V3.lsum_cons, V3.lsum_nil, V3.add_zero']
  rw [e1] at h7
  by_cases hnear : d < 11 / 10
  · have hbig : 1 / 10000 < V3.norm r := by
      rw [h4 hnear, V3.norm_smul, abs_of_pos (by positivity), ← hds]
      have : 20 / d * (d * q.x) = 20 * q.x := by field_simp
      rw [this]
      norm_num at hthick ⊢
      linarith
    rw [if_pos hbig] at h7
    exact ⟨mv, r, d, h7, hds, hspeed, h4, h5⟩
  · have hr0 := h5 (not_lt.mp hnear)
    subst hr0
    refine ⟨mv, V3.zero, d, ?_, hds, hspeed, fun hn => absurd hn hnear, fun _ => rfl⟩
    rw [h7, V3.add_zero']
    simp

/-- What is fixed during the loop: the options, an aggregate at rest and not rotated, and a function `S` that
stays between the outer surface and the range of the repulsion (`τ` below it).  `K` bounds how much the
modulation stretches velocities, `L` how steep `S` is. -/
structure WallSetup (c : Loop ℝ) (E : Env) (g : Aggregate ℝ) (prim : Ptr → Ellipsoid ℝ) (p : Ptr) (S : V3 ℝ → ℝ)
    (K L P τ : ℝ) : Prop where
  list : E.list = [p]
  static : Static (.aggregate g)
  plane : InPlaneZ g.base
  orient : g.base.pose.orientation = Quat.one
  ref : g.base.refPos = some g.outside.base.position
  hulls : Hulls g
  flat : FlatHull g.outside
  all : c.isLocal = false
  repulsion : c.addRepulsion = true
  free : c.planar = false
  gain : 0 ≤ c.gain
  dt : 0 ≤ c.dt
  maxVel : ∀ m, c.maxVel = some m → 0 ≤ m
  target : c.target.z = 0
  thick : ∀ q ∈ g.outside.polar, 1 / 10 ^ 5 ≤ q.x
  steep : 0 ≤ L
  stretch : 0 ≤ K
  surface : ∀ x q, x.z = 0 → g.outside.polar[g.outside.column x]? = some q → q.x ≤ S x ∧ S x + τ ≤ 11 / 10 * q.x
  radial : ∀ (r : V3 ℝ) t, 0 < t → S (g.outside.base.position + V3.smul t r) = S (g.outside.base.position + r)
  slope : ∀ x y, x.z = 0 → y.z = 0 → 1 / 10 ^ 5 ≤ (x - g.outside.base.position).norm →
    1 / 10 ^ 5 ≤ (y - g.outside.base.position).norm → S y ≤ S x + L * (y - x).norm
  bound : ∀ x, S x ≤ P
  prims : ∀ x, x.z = 0 → S x ≤ (x - g.outside.base.position).norm → ∀ q ∈ g.prims, (prim q).pointIsInside x = false
  chords : ∀ x w, x.z = 0 → S x ≤ (x - g.outside.base.position).norm → IsChord g.outside x w →
    1 / 10000 ≤ w.norm ∧ (2 + 1 / 10 ^ 7) * (w.norm * (x - g.outside.base.position).norm) ≤
      K * |turn (x - g.outside.base.position) w|
  near : ∀ q ∈ g.outside.polar,
    (1 + L) * (K * (c.gain * (11 / 10 * q.x + (g.outside.base.position - c.target).norm))) ≤ 20 * q.x
  short : (1 + L) * (c.dt * (K * c.gain)) ≤ 1
  far : (1 + L) * (c.dt * (K * c.gain)) * (P + τ + (g.outside.base.position - c.target).norm) ≤ τ

theorem desired_norm (c : Loop ℝ) (hg : 0 ≤ c.gain) (x z : V3 ℝ) :
    (c.desired x).norm ≤ c.gain * ((x - z).norm + (z - c.target).norm) := by
  rw [Loop.desired, V3.norm_smul, abs_neg, abs_of_nonneg hg]
  refine mul_le_mul_of_nonneg_left ?_ hg
  have e : x - c.target = (x - z) + (z - c.target) := by v3_ring
  rw [e]
  exact norm_add_le _ _

/-- The position of the next iteration, as one step. -/
theorem wall_step {S : V3 ℝ → ℝ} {c0 : V3 ℝ} {L K P τ T G dt g qx d : ℝ} {x u ρ : V3 ℝ}
    (hL : 0 ≤ L) (hK : 0 ≤ K) (hG : 0 ≤ G) (hdt : 0 ≤ dt) (hg0 : 0 ≤ g) (hg1 : g ≤ 1) (hT : 0 ≤ T)
    (hq : 1 / 10 ^ 5 ≤ qx) (hc0 : c0.z = 0) (hx : x.z = 0) (hx' : (x + V3.smul dt (V3.smul g (u + ρ))).z = 0)
    (hS1 : qx ≤ S x) (hS2 : S x + τ ≤ 11 / 10 * qx) (hSP : S x ≤ P) (hin : S x ≤ (x - c0).norm)
    (radial : ∀ (r : V3 ℝ) t, 0 < t → S (c0 + V3.smul t r) = S (c0 + r))
    (slope : ∀ x y : V3 ℝ, x.z = 0 → y.z = 0 → 1 / 10 ^ 5 ≤ (x - c0).norm → 1 / 10 ^ 5 ≤ (y - c0).norm →
      S y ≤ S x + L * (y - x).norm)
    (hu : u.norm ≤ K * (G * ((x - c0).norm + T))) (hd : d * qx = (x - c0).norm)
    (near : (1 + L) * (K * (G * (11 / 10 * qx + T))) ≤ 20 * qx) (short : (1 + L) * (dt * (K * G)) ≤ 1)
    (far : (1 + L) * (dt * (K * G)) * (P + τ + T) ≤ τ)
    (hρ1 : d < 11 / 10 → ρ = V3.smul (20 / d) (x - c0)) (hρ2 : 11 / 10 ≤ d → ρ = V3.zero) :
    S (x + V3.smul dt (V3.smul g (u + ρ))) ≤ (x + V3.smul dt (V3.smul g (u + ρ)) - c0).norm := by
  have hq0 : 0 < qx := lt_of_lt_of_le (by norm_num) hq
  have hr : 0 < (x - c0).norm := by linarith
  have hd0 : 0 < d := by
    by_contra hn
    have := mul_nonpos_of_nonpos_of_nonneg (not_lt.mp hn) hq0.le
    linarith
  have htg : 0 ≤ dt * g := mul_nonneg hdt hg0
  set x' := x + V3.smul dt (V3.smul g (u + ρ)) with hxd
  by_cases hnear : d < 11 / 10
  · have hρ := hρ1 hnear
    set μ := dt * g * (20 / d) with hμ
    have hμ0 : 0 ≤ μ := by positivity
    set y := c0 + V3.smul (1 + μ) (x - c0) with hy
    have e1 : x' = y + V3.smul (dt * g) u := by
      rw [hxd, hy, hρ, hμ]
      ext <;> simp only [V3.smul, V3.add_x, V3.add_y, V3.add_z, V3.sub_x, V3.sub_y, V3.sub_z] <;> ring
    have e2 : (y - c0).norm = (x - c0).norm + dt * g * (20 * qx) := by
      have : y - c0 = V3.smul (1 + μ) (x - c0) := by rw [hy]; v3_ring
      rw [this, V3.norm_smul, abs_of_nonneg (by linarith), ← hd, hμ]
      field_simp
    have e3 : S y = S x := by
      rw [hy, radial _ _ (by linarith)]
      congr 1
      v3_ring
    have hyz : y.z = 0 := by
      rw [hy]; simp [V3.smul, hx, hc0]
    have hU : u.norm ≤ K * (G * (11 / 10 * qx + T)) := by
      refine hu.trans (mul_le_mul_of_nonneg_left (mul_le_mul_of_nonneg_left ?_ hG) hK)
      nlinarith
    set U := K * (G * (11 / 10 * qx + T)) with hUd
    have e4 : (x' - y).norm ≤ dt * g * U := by
      have : x' - y = V3.smul (dt * g) u := by rw [e1]; v3_ring
      rw [this, V3.norm_smul, abs_of_nonneg htg]
      exact mul_le_mul_of_nonneg_left hU htg
    have e5 : (y - c0).norm ≤ (x' - c0).norm + (x' - y).norm := by
      have h1 : y - c0 = (x' - c0) + V3.smul (-1) (x' - y) := by
        ext <;> simp only [V3.smul, V3.add_x, V3.add_y, V3.add_z, V3.sub_x, V3.sub_y, V3.sub_z] <;> ring
      have h2 := norm_add_le (x' - c0) (V3.smul (-1) (x' - y))
      rw [← h1, V3.norm_smul, abs_neg, abs_one, one_mul] at h2
      exact h2
    have hU0 : 0 ≤ U := (V3.norm_nonneg u).trans hU
    have e6 : dt * g * ((1 + L) * U) ≤ dt * g * (20 * qx) := mul_le_mul_of_nonneg_left near htg
    have e7 : 0 ≤ dt * g * (L * U) := by positivity
    have e11 : dt * g * ((1 + L) * U) = dt * g * U + dt * g * (L * U) := by ring
    have e12 : L * (dt * g * U) = dt * g * (L * U) := by ring
    have e13 : 0 ≤ dt * g * (20 * qx) := by positivity
    have e8 : 1 / 10 ^ 5 ≤ (x' - c0).norm := by linarith
    have e9 := slope y x' hyz hx' (by linarith) e8
    rw [e3] at e9
    have e10 := mul_le_mul_of_nonneg_left e4 hL
    linarith
  · have hρ := hρ2 (not_lt.mp hnear)
    have hfar : 11 / 10 * qx ≤ (x - c0).norm := by
      rw [← hd]; exact mul_le_mul_of_nonneg_right (not_lt.mp hnear) hq0.le
    have e1 : x' - x = V3.smul (dt * g) u := by
      rw [hxd, hρ]
      ext <;> simp only [V3.smul, V3.zero, V3.add_x, V3.add_y, V3.add_z, V3.sub_x, V3.sub_y, V3.sub_z] <;> ring
    set R := (x - c0).norm with hR
    have hKG : 0 ≤ K * G := mul_nonneg hK hG
    have e2 : (x' - x).norm ≤ dt * (K * G) * (R + T) := by
      rw [e1, V3.norm_smul, abs_of_nonneg htg]
      have h1 : 0 ≤ K * (G * (R + T)) := (V3.norm_nonneg u).trans hu
      calc dt * g * u.norm ≤ dt * g * (K * (G * (R + T))) := mul_le_mul_of_nonneg_left hu htg
        _ ≤ dt * 1 * (K * (G * (R + T))) := mul_le_mul_of_nonneg_right (mul_le_mul_of_nonneg_left hg1 hdt) h1
        _ = _ := by ring
    have e3 : R ≤ (x' - c0).norm + (x' - x).norm := by
      have h1 : x - c0 = (x' - c0) + V3.smul (-1) (x' - x) := by
        ext <;> simp only [V3.smul, V3.add_x, V3.add_y, V3.add_z, V3.sub_x, V3.sub_y, V3.sub_z] <;> ring
      have h2 := norm_add_le (x' - c0) (V3.smul (-1) (x' - x))
      rw [← h1, V3.norm_smul, abs_neg, abs_one, one_mul] at h2
      exact h2
    have e4 : (1 + L) * (x' - x).norm ≤ (1 + L) * (dt * (K * G)) * (R + T) := by
      have := mul_le_mul_of_nonneg_left e2 (by linarith : 0 ≤ 1 + L)
      linarith
    have hA0 : 0 ≤ (1 + L) * (dt * (K * G)) := mul_nonneg (by linarith) (mul_nonneg hdt hKG)
    generalize (1 + L) * (dt * (K * G)) = A at *
    have e5 : A * (R + T) ≤ R - S x := by
      have h1 : 0 ≤ R - S x - τ := by linarith
      have h2 := mul_le_mul_of_nonneg_right short h1
      have h3 := mul_le_mul_of_nonneg_left hSP hA0
      nlinarith
    have e6 : 0 ≤ L * (x' - x).norm := mul_nonneg hL (V3.norm_nonneg _)
    have e7 := slope x x' hx hx' (by linarith) (by linarith)
    linarith

/-- One iteration: the agent stays outside. -/
theorem wall_iterate {c : Loop ℝ} {E : Env} {g : Aggregate ℝ} {prim : Ptr → Ellipsoid ℝ} {p : Ptr} {S : V3 ℝ → ℝ}
    {K L P τ : ℝ} (hc : WallSetup c E g prim p S K L P τ) {s : Heap ℝ × Agent ℝ} (hs : OnWall g prim p s)
    (hin : S s.2.state.position ≤ (s.2.state.position - g.outside.base.position).norm) {q : V3 ℝ}
    (hq : g.outside.polar[g.outside.column s.2.state.position]? = some q) :
    ∃ s', c.iterate E (c.desired s.2.state.position) s = .ok s' ∧ OnWall g prim p s' ∧
      S s'.2.state.position ≤ (s'.2.state.position - g.outside.base.position).norm := by
  set x := s.2.state.position with hxd
  have hdz := desired_flat c hc.target hs.flat
  obtain ⟨h1, hst, hs1⟩ := withState_onWall hs (s.2.state.setLinearVelocity (c.desired x)) hs.flat
  set a1 : Agent ℝ := { s.2 with state := s.2.state.setLinearVelocity (c.desired x) } with ha1
  have hqm := List.mem_of_getElem? hq
  have hthick := hc.thick q hqm
  obtain ⟨hS1, hS2⟩ := hc.surface x q hs.flat hq
  have hpz : g.outside.base.position.z = 0 := hc.plane.ref _ hc.ref
  have hq0 : 0 < q.x := lt_of_lt_of_le (by norm_num) hthick
  have hout : g.outside.pointIsInside x = .ok false := by
    rw [inside_value g.outside hc.flat.orient x q hq]
    simp only [Res.ok.injEq, decide_eq_false_iff_not, not_lt]
    linarith
  obtain ⟨w, hw, -, -⟩ := chord_of g.outside hc.flat x hout
  obtain ⟨hlong, hK⟩ := hc.chords x w hs.flat hin hw
  have hne : h1 ≠ [] := by
    rintro rfl
    have := hs1.obj
    simp at this
  obtain ⟨u, ρ, d, hm, hd, hu, hρ1, hρ2⟩ := aggregate_out h1 a1 E g p c.critical c.power K w q hc.list hs1.obj hc.static hc.hulls hc.flat hc.orient hc.ref
    (aggregate_outside h1 g prim x hne hs1.prims hout (hc.prims x hs.flat hin)) hq hthick hw
    (by rw [hpz]; exact hs.flat) hlong hdz (by show 0 < (x - _).norm; linarith) hK
  obtain ⟨f, hf0, hf1, hlim, -⟩ := limit_eq c hc.maxVel (u + ρ)
  have hz : (u + ρ).z = 0 := by
    refine C48_planar_partial h1 h1 a1 E false true false c.critical c.power _ hs.flat hdz ?_ hm
    intro p' hp' o ho
    rw [hc.list, List.mem_singleton] at hp'
    subst hp'
    rw [hs1.obj] at ho
    cases ho
    exact ⟨hc.plane, trivial⟩
  have hxz : (x + V3.smul c.dt (V3.smul f (u + ρ))).z = 0 := by
    have h0 : x.z = 0 := hs.flat
    rw [V3.add_z, h0]
    show 0 + c.dt * (f * (u + ρ).z) = 0
    rw [hz]; ring
  obtain ⟨h2, hst2, hs2⟩ := withState_onWall hs1 (a1.state.setPosition (x + V3.smul c.dt (V3.smul f (u + ρ)))) hxz
  refine ⟨_, ?_, hs2, ?_⟩
  · unfold Loop.iterate
    rw [show Agent.setLinearVelocity s.1 s.2 (c.desired x) = .ok (h1, a1) from hst]
    simp only [Res.ok_bind, hc.all, hc.repulsion, hc.free, hm, hlim]
    exact hst2
  · exact wall_step hc.steep hc.stretch hc.gain hc.dt hf0 hf1 (V3.norm_nonneg _) hthick hpz hs.flat hxz hS1 hS2
      (hc.bound x) hin hc.radial hc.slope (hu.trans (mul_le_mul_of_nonneg_left (desired_norm c hc.gain x _) hc.stretch)) hd
      (hc.near q hqm) hc.short hc.far hρ1 hρ2

/-- C83: with repulsion, the control loop keeps an agent that starts outside an aggregate outside, for any
number of iterations, as long as every query finds a column (an angle past the last one is undefined behaviour, C56). -/
theorem C83_outside_partial (c : Loop ℝ) (E : Env) (g : Aggregate ℝ) (prim : Ptr → Ellipsoid ℝ) (p : Ptr) (S : V3 ℝ → ℝ)
    (K L P τ : ℝ) (hc : WallSetup c E g prim p S K L P τ) (n : ℕ) :
    ∀ (s : Heap ℝ × Agent ℝ), OnWall g prim p s →
    S s.2.state.position ≤ (s.2.state.position - g.outside.base.position).norm →
    (∀ i < n, ∀ s', c.run E i s = .ok s' → g.outside.column s'.2.state.position < g.outside.polar.length) →
    ∃ s', c.run E n s = .ok s' ∧ OnWall g prim p s' ∧
      S s'.2.state.position ≤ (s'.2.state.position - g.outside.base.position).norm := by
  induction n with
  | zero => intro s hs h0 _; exact ⟨s, rfl, hs, h0⟩
  | succ n ih =>
    intro s hs h0 hdef
    have hcol := hdef 0 (Nat.succ_pos n) s rfl
    obtain ⟨s1, hit, hs1, key⟩ := wall_iterate hc hs h0 (List.getElem?_eq_getElem hcol)
    obtain ⟨s', h1, h2, h3⟩ := ih s1 hs1 key (by
      intro i hi s' h1
      refine hdef (i + 1) (Nat.succ_lt_succ hi) s' ?_
      rw [Loop.run, hit]
      exact h1)
    exact ⟨s', by rw [Loop.run, hit]; exact h1, h2, h3⟩

/-! ### Within the inside hull -/

/-- Within the outside hull is inside. -/
theorem aggregate_within (h : Heap ℝ) (g : Aggregate ℝ) (x : V3 ℝ) (hin : g.outside.pointIsInside x = .ok true) :
    h.pointIsInside (.aggregate g) x = .ok true := by
  unfold Heap.pointIsInside
  rw [show h.fuel = h.length + 1 from rfl, Heap.pointIsInsideAux, hin, Res.ok_bind]
  simp

/-- The result of the modulation with repulsion, within the inside hull of an aggregate. -/
theorem room_out (h : Heap ℝ) (a : Agent ℝ) (E : Env) (g : Aggregate ℝ) (p : Ptr) (critical power K : ℝ) (w q : V3 ℝ)
    (hl : E.list = [p]) (hp : h[p]? = some (.aggregate g)) (hst : Static (.aggregate g)) (hg : Hulls g)
    (hk : FlatHull g.inside) (hor : g.base.pose.orientation = Quat.one)
    (href : g.base.refPos = some g.inside.base.position)
    (hout : h.pointIsInside (.aggregate g) a.state.position = .ok true)
    (hq : g.inside.polar[g.inside.column a.state.position]? = some q) (hthick : 1 / 10 ^ 5 ≤ q.x)
    (hrq : (a.state.position - g.inside.base.position).norm ≤ q.x)
    (hw : IsChord g.inside a.state.position w) (hz : a.state.position.z = g.inside.base.position.z)
    (hlong : 1 / 10000 ≤ w.norm) (hvz : a.state.linearVelocity.z = 0)
    (hr : 0 < (a.state.position - g.inside.base.position).norm)
    (hK : (2 + 1 / 10 ^ 7) * (w.norm * (a.state.position - g.inside.base.position).norm) ≤
      K * |turn (a.state.position - g.inside.base.position) w|) :
    ∃ u ρ d, modulateVelocity h a E false true false critical power = .ok (h, u + ρ) ∧
      d * (a.state.position - g.inside.base.position).norm = q.x ∧
      V3.norm u ≤ K * a.state.linearVelocity.norm ∧
      (d < 11 / 10 → ρ = V3.smul (20 / d) (g.inside.base.position - a.state.position)) ∧
      (11 / 10 ≤ d → ρ = V3.zero) := by
  have hb := inside_value g.inside hk.orient _ q hq
  obtain ⟨w', hw', hwz, hn⟩ := chord_of g.inside hk _ hb
  have := chord_unique hw' hw
  subst this
  have hinv : g.inside.base.pose.inverse.apply a.state.position = a.state.position - g.inside.base.position :=
    inverse_apply_one hk.orient _
  have hr0 : a.state.position - g.inside.base.position ≠ V3.zero := by
    intro h0
    rw [h0] at hr
    simp [V3.norm, V3.sqNorm, V3.dot, V3.zero] at hr
  obtain ⟨d, s, hd, hcol, -, hds⟩ := (C78_distance h g hg a.state.position (V3.const a.margin) true hout).2 rfl
    (by rw [hinv]; exact hr0) _ hb
  rw [hq] at hcol
  cases hcol
  rw [hinv] at hds
  have hd1 : 1 ≤ d := by
    by_contra hlt
    have := mul_lt_mul_of_pos_right (not_le.mp hlt) hr
    linarith
  have hn' : h.normalToAgent (.aggregate g) a.state.position a.margin = .ok ⟨-w'.y, w'.x, 0⟩ := by
    simp [Heap.normalToAgent, hout, hn]
  have hwn : 0 < w'.norm := by linarith [show (0 : ℝ) < 1 / 10000 by norm_num]
  have hturn : turn (a.state.position - g.inside.base.position) w' ≠ 0 := by
    intro h0
    rw [h0, abs_zero, mul_zero] at hK
    have : 0 < (2 + 1 / 10 ^ 7) * (w'.norm * (a.state.position - g.inside.base.position).norm) := by positivity
    linarith
  obtain ⟨M, B, hM, hMv⟩ := chord_matrix h a (.aggregate g) g.inside.base.position w' d hor href hn' hd (by linarith) hz hwz
    hlong hturn
  have hunit : (Obj.aggregate g).base.orientation.norm = 1 := by
    show g.base.pose.orientation.norm = 1
    rw [hor]; exact (Quat.isUnit_iff_norm _).mp Quat.isUnit_one
  obtain ⟨mv, h1, -, h2⟩ := C39_single h a E false critical power p (.aggregate g) M B d hl hp hst hunit hM hvz
    (by intro h; cases h)
  have hspeed : V3.norm mv ≤ K * a.state.linearVelocity.norm := stretched hd1 hturn (hMv _ hvz) h2 hK
  have hdpos : 0 < d := by linarith
  have hrep : ∃ r, h.generateRepulsion (.aggregate g) a.state.position a.margin (11 / 10) = .ok r ∧
      (d < 11 / 10 → r = V3.smul (20 / d) (g.inside.base.position - a.state.position)) ∧
      (11 / 10 ≤ d → r = V3.zero) := by
    by_cases hnear : d < 11 / 10
    · obtain ⟨r, h3, -, h4⟩ := C78_repulsion h g g.inside.base.position a.state.position a.margin (11 / 10) d true href hd
        hnear hout
      exact ⟨r, h3, fun _ => h4 rfl, fun hf => absurd hnear (not_lt.mpr hf)⟩
    · exact ⟨V3.zero, C42_far h (.aggregate g) a.state.position a.margin (11 / 10) d hd hnear, fun hn => absurd hn hnear,
        fun _ => rfl⟩
  obtain ⟨r, h3, h4, h5⟩ := hrep
  have h7 := C42_added h h a E false false critical power mv [r] (by rw [hl]; simp) (by intro h; cases h) h1
    (by rw [hl]; exact .cons ⟨_, hp, h3⟩ .nil)
  have e1 : V3.lsum [r] = r := by rw [V3.lsum_cons, V3.lsum_nil, V3.add_zero']
  rw [e1] at h7
  by_cases hnear : d < 11 / 10
  · have hbig : 1 / 10000 < V3.norm r := by
      have e2 : g.inside.base.position - a.state.position =
          V3.smul (-1) (a.state.position - g.inside.base.position) := by
        ext <;> simp only [V3.smul, V3.sub_x, V3.sub_y, V3.sub_z] <;> ring
      rw [h4 hnear, V3.norm_smul, e2, V3.norm_smul, abs_of_pos (by positivity), abs_neg, abs_one, one_mul]
      generalize (a.state.position - g.inside.base.position).norm = R at *
      have e3 : 20 / d * R = 20 * q.x / d ^ 2 := by rw [← hds]; field_simp
      rw [e3, lt_div_iff₀ (by positivity)]
      norm_num at hthick
      nlinarith
    rw [if_pos hbig] at h7
    exact ⟨mv, r, d, h7, hds, hspeed, h4, h5⟩
  · have hr0 := h5 (not_lt.mp hnear)
    subst hr0
    refine ⟨mv, V3.zero, d, ?_, hds, hspeed, fun hn => absurd hn hnear, fun _ => rfl⟩
    rw [h7, V3.add_zero']
    simp

/-- What is fixed during the loop of an agent in a room: `S` stays between the range of the repulsion (`τ` above it) and
the inner surface; `L` bounds how steep it is, outside the distance `ρ` from the centre. -/
structure RoomSetup (c : Loop ℝ) (E : Env) (g : Aggregate ℝ) (p : Ptr) (S : V3 ℝ → ℝ) (K L P ρ τ : ℝ) : Prop where
  list : E.list = [p]
  static : Static (.aggregate g)
  plane : InPlaneZ g.base
  orient : g.base.pose.orientation = Quat.one
  ref : g.base.refPos = some g.inside.base.position
  hulls : Hulls g
  flat : FlatHull g.inside
  all : c.isLocal = false
  repulsion : c.addRepulsion = true
  free : c.planar = false
  gain : 0 ≤ c.gain
  dt : 0 ≤ c.dt
  maxVel : ∀ m, c.maxVel = some m → 0 ≤ m
  target : c.target.z = 0
  thick : ∀ q ∈ g.inside.polar, 1 / 10 ^ 5 ≤ q.x ∧ 11 / 5 * ρ ≤ q.x ∧ q.x ≤ P
  steep : 0 ≤ L
  stretch : 0 ≤ K
  surface : ∀ x q, x.z = 0 → g.inside.polar[g.inside.column x]? = some q → S x ≤ q.x ∧ q.x ≤ 11 / 10 * (S x - τ)
  radial : ∀ (r : V3 ℝ) t, 0 < t → S (g.inside.base.position + V3.smul t r) = S (g.inside.base.position + r)
  slope : ∀ x y, x.z = 0 → y.z = 0 → ρ ≤ (x - g.inside.base.position).norm →
    ρ ≤ (y - g.inside.base.position).norm → S x ≤ S y + L * (y - x).norm
  bound : ∀ x, ρ + τ ≤ S x
  away : 0 ≤ τ
  within : ∀ x b, x.z = 0 → (x - g.inside.base.position).norm ≤ S x → g.outside.pointIsInside x = .ok b → b = true
  chords : ∀ x w, x.z = 0 → (x - g.inside.base.position).norm ≤ S x → IsChord g.inside x w →
    1 / 10000 ≤ w.norm ∧ (2 + 1 / 10 ^ 7) * (w.norm * (x - g.inside.base.position).norm) ≤
      K * |turn (x - g.inside.base.position) w|
  near : ∀ q ∈ g.inside.polar,
    (1 + L) * (K * (c.gain * (q.x + (g.inside.base.position - c.target).norm))) ≤ 16 * q.x
  brief : c.dt ≤ 1 / 40
  far : (1 + L) * (c.dt * (K * (c.gain * (P + (g.inside.base.position - c.target).norm)))) ≤ τ

/-- The position of the next iteration, as one step. -/
theorem room_step {S : V3 ℝ → ℝ} {c0 : V3 ℝ} {L K P ρ0 τ T G dt g qx d : ℝ} {x u ρ : V3 ℝ}
    (hL : 0 ≤ L) (hK : 0 ≤ K) (hG : 0 ≤ G) (hdt : 0 ≤ dt) (hdt1 : dt ≤ 1 / 40) (hg0 : 0 ≤ g) (hg1 : g ≤ 1)
    (hq : 1 / 10 ^ 5 ≤ qx) (hqρ : 11 / 5 * ρ0 ≤ qx) (hqP : qx ≤ P) (hc0 : c0.z = 0) (hx : x.z = 0)
    (hx' : (x + V3.smul dt (V3.smul g (u + ρ))).z = 0) (hr : 0 < (x - c0).norm) (hτ : 0 ≤ τ)
    (hS1 : S x ≤ qx) (hS2 : qx ≤ 11 / 10 * (S x - τ)) (hbound : ∀ x, ρ0 + τ ≤ S x) (hin : (x - c0).norm ≤ S x)
    (radial : ∀ (r : V3 ℝ) t, 0 < t → S (c0 + V3.smul t r) = S (c0 + r))
    (slope : ∀ x y : V3 ℝ, x.z = 0 → y.z = 0 → ρ0 ≤ (x - c0).norm → ρ0 ≤ (y - c0).norm → S x ≤ S y + L * (y - x).norm)
    (hu : u.norm ≤ K * (G * ((x - c0).norm + T))) (hd : d * (x - c0).norm = qx)
    (near : (1 + L) * (K * (G * (qx + T))) ≤ 16 * qx) (far : (1 + L) * (dt * (K * (G * (P + T)))) ≤ τ)
    (hρ1 : d < 11 / 10 → ρ = V3.smul (20 / d) (c0 - x)) (hρ2 : 11 / 10 ≤ d → ρ = V3.zero) :
    (x + V3.smul dt (V3.smul g (u + ρ)) - c0).norm ≤ S (x + V3.smul dt (V3.smul g (u + ρ))) := by
  have hq0 : 0 < qx := lt_of_lt_of_le (by norm_num) hq
  have hd1 : 1 ≤ d := by
    by_contra hlt
    have := mul_lt_mul_of_pos_right (not_le.mp hlt) hr
    linarith
  have htg : 0 ≤ dt * g := mul_nonneg hdt hg0
  have htg1 : dt * g ≤ dt := mul_le_of_le_one_right hdt hg1
  set x' := x + V3.smul dt (V3.smul g (u + ρ)) with hxd
  by_cases hsmall : (x' - c0).norm ≤ ρ0
  · linarith [hbound x']
  have hbig : ρ0 ≤ (x' - c0).norm := (not_le.mp hsmall).le
  by_cases hnear : d < 11 / 10
  · have hρ := hρ1 hnear
    have hd0 : 0 < d := by linarith
    set μ := dt * g * (20 / d) with hμ
    have hμ0 : 0 ≤ μ := by positivity
    have hμ1 : μ ≤ 1 / 2 := by
      have h1 : 20 / d ≤ 20 := by rw [div_le_iff₀ hd0]; linarith
      calc μ ≤ 1 / 40 * 20 := mul_le_mul (by linarith) h1 (by positivity) (by norm_num)
        _ = 1 / 2 := by norm_num
    set y := c0 + V3.smul (1 - μ) (x - c0) with hy
    have e1 : x' = y + V3.smul (dt * g) u := by
      rw [hxd, hy, hρ, hμ]
      ext <;> simp only [V3.smul, V3.add_x, V3.add_y, V3.add_z, V3.sub_x, V3.sub_y, V3.sub_z] <;> ring
    have e2 : (y - c0).norm = (1 - μ) * (x - c0).norm := by
      have : y - c0 = V3.smul (1 - μ) (x - c0) := by rw [hy]; v3_ring
      rw [this, V3.norm_smul, abs_of_nonneg (by linarith)]
    have e3 : S y = S x := by
      rw [hy, radial _ _ (by linarith)]
      congr 1
      v3_ring
    have hyz : y.z = 0 := by
      rw [hy]; simp [V3.smul, hx, hc0]
    set R := (x - c0).norm with hR
    have hRq : R ≤ qx := by linarith
    have hRq' : qx ≤ 11 / 10 * R := by rw [← hd]; exact mul_le_mul_of_nonneg_right hnear.le hr.le
    have hU : u.norm ≤ K * (G * (qx + T)) :=
      hu.trans (mul_le_mul_of_nonneg_left (mul_le_mul_of_nonneg_left (by linarith) hG) hK)
    set U := K * (G * (qx + T)) with hUd
    have hU0 : 0 ≤ U := (V3.norm_nonneg u).trans hU
    have e4 : (x' - y).norm ≤ dt * g * U := by
      have : x' - y = V3.smul (dt * g) u := by rw [e1]; v3_ring
      rw [this, V3.norm_smul, abs_of_nonneg htg]
      exact mul_le_mul_of_nonneg_left hU htg
    have e5 : (x' - c0).norm ≤ (y - c0).norm + (x' - y).norm := by
      have h1 : x' - c0 = (y - c0) + (x' - y) := by v3_ring
      rw [h1]; exact norm_add_le _ _
    have hy0 : ρ0 ≤ (y - c0).norm := by
      rw [e2]
      nlinarith
    have e6 := slope y x' hyz hx' hy0 hbig
    rw [e3] at e6
    have e7 := mul_le_mul_of_nonneg_left e4 hL
    have e8 : dt * g * (16 * qx) ≤ μ * R := by
      have h1 : 16 * qx ≤ 20 / d * R := by
        rw [div_mul_eq_mul_div, le_div_iff₀ hd0]
        rw [← hd]
        nlinarith [mul_nonneg (mul_nonneg hd0.le hr.le) (sub_nonneg.mpr hnear.le)]
      have := mul_le_mul_of_nonneg_left h1 htg
      rw [hμ]
      linarith
    have e9 : dt * g * ((1 + L) * U) ≤ dt * g * (16 * qx) := mul_le_mul_of_nonneg_left near htg
    have e10 : dt * g * ((1 + L) * U) = dt * g * U + L * (dt * g * U) := by ring
    have e11 : (1 - μ) * R = R - μ * R := by ring
    linarith
  · have hρ := hρ2 (not_lt.mp hnear)
    have e1 : x' - x = V3.smul (dt * g) u := by
      rw [hxd, hρ]
      ext <;> simp only [V3.smul, V3.zero, V3.add_x, V3.add_y, V3.add_z, V3.sub_x, V3.sub_y, V3.sub_z] <;> ring
    set R := (x - c0).norm with hR
    have hRq : 11 / 10 * R ≤ qx := by rw [← hd]; exact mul_le_mul_of_nonneg_right (not_lt.mp hnear) hr.le
    have hfarS : R ≤ S x - τ := by linarith
    have hU : u.norm ≤ K * (G * (P + T)) :=
      hu.trans (mul_le_mul_of_nonneg_left (mul_le_mul_of_nonneg_left (by linarith) hG) hK)
    have hU0 : 0 ≤ K * (G * (P + T)) := (V3.norm_nonneg u).trans hU
    generalize K * (G * (P + T)) = U at *
    have e2 : (x' - x).norm ≤ dt * U := by
      rw [e1, V3.norm_smul, abs_of_nonneg htg]
      exact mul_le_mul htg1 hU (V3.norm_nonneg _) hdt
    have e3 : (x' - c0).norm ≤ R + (x' - x).norm := by
      have h1 : x' - c0 = (x - c0) + (x' - x) := by v3_ring
      rw [h1]; exact norm_add_le _ _
    have e4 := mul_le_mul_of_nonneg_left e2 hL
    have e5 : 0 ≤ L * (dt * U) := by positivity
    have e6 : (1 + L) * (dt * U) = dt * U + L * (dt * U) := by ring
    by_cases hxs : ρ0 ≤ R
    · have e7 := slope x x' hx hx' hxs hbig
      linarith
    · linarith [hbound x', not_le.mp hxs]

/-- One iteration: the agent stays in the room. -/
theorem room_iterate {c : Loop ℝ} {E : Env} {g : Aggregate ℝ} {prim : Ptr → Ellipsoid ℝ} {p : Ptr} {S : V3 ℝ → ℝ}
    {K L P ρ τ : ℝ} (hc : RoomSetup c E g p S K L P ρ τ) {s : Heap ℝ × Agent ℝ} (hs : OnWall g prim p s)
    (hin : (s.2.state.position - g.inside.base.position).norm ≤ S s.2.state.position) {q : V3 ℝ} {b : Bool}
    (hq : g.inside.polar[g.inside.column s.2.state.position]? = some q)
    (hb : g.outside.pointIsInside s.2.state.position = .ok b)
    (hr : 0 < (s.2.state.position - g.inside.base.position).norm) :
    ∃ s', c.iterate E (c.desired s.2.state.position) s = .ok s' ∧ OnWall g prim p s' ∧
      (s'.2.state.position - g.inside.base.position).norm ≤ S s'.2.state.position := by
  set x := s.2.state.position with hxd
  have hdz := desired_flat c hc.target hs.flat
  obtain ⟨h1, hst, hs1⟩ := withState_onWall hs (s.2.state.setLinearVelocity (c.desired x)) hs.flat
  set a1 : Agent ℝ := { s.2 with state := s.2.state.setLinearVelocity (c.desired x) } with ha1
  have hqm := List.mem_of_getElem? hq
  obtain ⟨hthick, hqρ, hqP⟩ := hc.thick q hqm
  obtain ⟨hS1, hS2⟩ := hc.surface x q hs.flat hq
  have hpz : g.inside.base.position.z = 0 := hc.plane.ref _ hc.ref
  have hbt := hc.within x b hs.flat hin hb
  subst hbt
  obtain ⟨w, hw, -, -⟩ := chord_of g.inside hc.flat x (inside_value g.inside hc.flat.orient x q hq)
  obtain ⟨hlong, hK⟩ := hc.chords x w hs.flat hin hw
  obtain ⟨u, ρ', d, hm, hd, hu, hρ1, hρ2⟩ := room_out h1 a1 E g p c.critical c.power K w q hc.list hs1.obj hc.static hc.hulls
    hc.flat hc.orient hc.ref (aggregate_within h1 g x hb) hq hthick (hin.trans hS1) hw
    (by rw [hpz]; exact hs.flat) hlong hdz hr hK
  obtain ⟨f, hf0, hf1, hlim, -⟩ := limit_eq c hc.maxVel (u + ρ')
  have hz : (u + ρ').z = 0 := by
    refine C48_planar_partial h1 h1 a1 E false true false c.critical c.power _ hs.flat hdz ?_ hm
    intro p' hp' o ho
    rw [hc.list, List.mem_singleton] at hp'
    subst hp'
    rw [hs1.obj] at ho
    cases ho
    exact ⟨hc.plane, trivial⟩
  have hxz : (x + V3.smul c.dt (V3.smul f (u + ρ'))).z = 0 := by
    have h0 : x.z = 0 := hs.flat
    rw [V3.add_z, h0]
    show 0 + c.dt * (f * (u + ρ').z) = 0
    rw [hz]; ring
  obtain ⟨h2, hst2, hs2⟩ := withState_onWall hs1 (a1.state.setPosition (x + V3.smul c.dt (V3.smul f (u + ρ')))) hxz
  refine ⟨_, ?_, hs2, ?_⟩
  · unfold Loop.iterate
    rw [show Agent.setLinearVelocity s.1 s.2 (c.desired x) = .ok (h1, a1) from hst]
    simp only [Res.ok_bind, hc.all, hc.repulsion, hc.free, hm, hlim]
    exact hst2
  · exact room_step hc.steep hc.stretch hc.gain hc.dt hc.brief hf0 hf1 hthick hqρ hqP hpz hs.flat hxz hr hc.away hS1 hS2
      hc.bound hin hc.radial hc.slope
      (hu.trans (mul_le_mul_of_nonneg_left (desired_norm c hc.gain x _) hc.stretch)) hd (hc.near q hqm) hc.far hρ1 hρ2

/-- C83, inside: with repulsion, the control loop keeps an agent that starts in the room of an aggregate (within the
inside hull) in the room, for any number of iterations, wherever the target is, as long as every query finds a column and
the agent is not exactly at the centre (where the basis is singular). -/
theorem C83_room_partial (c : Loop ℝ) (E : Env) (g : Aggregate ℝ) (prim : Ptr → Ellipsoid ℝ) (p : Ptr) (S : V3 ℝ → ℝ)
    (K L P ρ τ : ℝ) (hc : RoomSetup c E g p S K L P ρ τ) (n : ℕ) :
    ∀ (s : Heap ℝ × Agent ℝ), OnWall g prim p s →
    (s.2.state.position - g.inside.base.position).norm ≤ S s.2.state.position →
    (∀ i < n, ∀ s', c.run E i s = .ok s' → g.inside.column s'.2.state.position < g.inside.polar.length ∧
      (∃ b, g.outside.pointIsInside s'.2.state.position = .ok b) ∧ s'.2.state.position ≠ g.inside.base.position) →
    ∃ s', c.run E n s = .ok s' ∧ OnWall g prim p s' ∧
      (s'.2.state.position - g.inside.base.position).norm ≤ S s'.2.state.position := by
  induction n with
  | zero => intro s hs h0 _; exact ⟨s, rfl, hs, h0⟩
  | succ n ih =>
    intro s hs h0 hdef
    obtain ⟨hcol, ⟨b, hb⟩, hne⟩ := hdef 0 (Nat.succ_pos n) s rfl
    have hpos : 0 < (s.2.state.position - g.inside.base.position).norm := by
      apply V3.norm_pos
      intro h
      apply hne
      have e : s.2.state.position = (s.2.state.position - g.inside.base.position) + g.inside.base.position := by v3_ring
      rw [e, h]
      ext <;> simp [V3.zero]
    obtain ⟨s1, hit, hs1, key⟩ := room_iterate hc hs h0 (List.getElem?_eq_getElem hcol) hb hpos
    obtain ⟨s', h1, h2, h3⟩ := ih s1 hs1 key (by
      intro i hi s' h1
      refine hdef (i + 1) (Nat.succ_lt_succ hi) s' ?_
      rw [Loop.run, hit]
      exact h1)
    exact ⟨s', by rw [Loop.run, hit]; exact h1, h2, h3⟩

/-! ### Round hulls -/

/-- The angle of column `i` of `n`: the last one is at `π`. -/
noncomputable def corner (n i : ℕ) : ℝ := -Real.pi + (i + 1) * (2 * Real.pi / n)

/-- A hull with `n` columns at equal angles and the same radius `R`. -/
structure Polygon (k : Hull ℝ) (n : ℕ) (R : ℝ) : Prop where
  polar : k.polar = (List.range n).map fun i => ⟨R, Real.pi / 2, corner n i⟩
  cart : k.cart = (List.range n).map fun i => k.base.position + V3.smul R (ray (corner n i))
  orient : k.base.pose.orientation = Quat.one

theorem corner_mono (n : ℕ) {i j : ℕ} (h : i ≤ j) : corner n i ≤ corner n j := by
  have h1 : (i : ℝ) ≤ j := by exact_mod_cast h
  have h2 : 0 ≤ 2 * Real.pi / n := div_nonneg (by linarith [Real.pi_pos]) (Nat.cast_nonneg n)
  unfold corner
  nlinarith

theorem corner_succ (n i : ℕ) : corner n (i + 1) = corner n i + 2 * Real.pi / n := by
  unfold corner; push_cast; ring

theorem corner_last {n : ℕ} (hn : 0 < n) : corner n (n - 1) = Real.pi := by
  have h1 : ((n - 1 : ℕ) : ℝ) = n - 1 := by rw [Nat.cast_sub hn]; simp
  have h2 : (n : ℝ) ≠ 0 := by exact_mod_cast hn.ne'
  unfold corner
  rw [h1]
  field_simp
  ring

/-- The direction of a point, and the column in front of which it is. -/
theorem polygon_column {k : Hull ℝ} {n : ℕ} {R : ℝ} (hk : Polygon k n R) (hn : 0 < n) (x : V3 ℝ)
    (hx : x.z = k.base.position.z) :
    ∃ θ, x - k.base.position = V3.smul (x - k.base.position).norm (ray θ) ∧ k.column x < n ∧
      corner n (k.column x) - 2 * Real.pi / n < θ ∧ θ ≤ corner n (k.column x) := by
  set r := x - k.base.position with hr
  have hrz : r.z = 0 := by rw [hr, V3.sub_z, hx, sub_self]
  refine ⟨(⟨r.x, r.y⟩ : ℂ).arg, ?_, ?_⟩
  · have habs : ‖(⟨r.x, r.y⟩ : ℂ)‖ = r.norm := by
      rw [Complex.norm_def, Complex.normSq_mk]
      show _ = Real.sqrt (r.x * r.x + r.y * r.y + r.z * r.z)
      rw [hrz]; congr 1; ring
    have h1 := Complex.norm_mul_cos_arg (⟨r.x, r.y⟩ : ℂ)
    have h2 := Complex.norm_mul_sin_arg (⟨r.x, r.y⟩ : ℂ)
    rw [habs] at h1 h2
    ext
    · exact h1.symm
    · exact h2.symm
    · show r.z = r.norm * 0
      rw [hrz, mul_zero]
  · have hcol : k.column x = MathTools.lowerBound ((List.range n).map (corner n)) (⟨r.x, r.y⟩ : ℂ).arg := by
      rw [Hull.column, inverse_apply_one hk.orient, hk.polar, List.map_map]
      rfl
    have hsort : ((List.range n).map (corner n)).Pairwise (· ≤ ·) := by
      rw [List.pairwise_map]
      exact List.pairwise_lt_range.imp fun h => corner_mono n h.le
    obtain ⟨hle, hbelow, habove⟩ := MathTools.lowerBound_spec _ (⟨r.x, r.y⟩ : ℂ).arg hsort
    rw [← hcol] at hle hbelow habove
    simp only [List.length_map, List.length_range, List.getElem_map, List.getElem_range] at hle hbelow habove
    have hlt : k.column x < n := by
      by_contra hge
      have h1 := hbelow (n - 1) (by omega) (by omega)
      rw [corner_last hn] at h1
      exact absurd (Complex.arg_le_pi _) (not_le.mpr h1)
    refine ⟨hlt, ?_, habove _ hlt (le_refl _)⟩
    rcases Nat.eq_zero_or_pos (k.column x) with h0 | h0
    · rw [h0]
      have h2 := Complex.neg_pi_lt_arg (⟨r.x, r.y⟩ : ℂ)
      unfold corner
      push_cast
      linarith
    · have h1 := hbelow (k.column x - 1) (by omega) (by omega)
      have h2 := corner_succ n (k.column x - 1)
      rw [Nat.sub_add_cancel h0] at h2
      linarith

theorem polygon_next {n : ℕ} (hn : 0 < n) {i : ℕ} (hi : i < n) :
    ray (corner n ((i + 1) % n)) = ray (corner n i + 2 * Real.pi / n) := by
  rcases Nat.lt_or_ge (i + 1) n with h | h
  · rw [Nat.mod_eq_of_lt h, corner_succ]
  · have h1 : i = n - 1 := by omega
    have h2 : i + 1 = n := by omega
    rw [h2, Nat.mod_self, h1, corner_last hn]
    have h3 : Real.pi + 2 * Real.pi / n = corner n 0 + 2 * Real.pi := by
      unfold corner; push_cast; ring
    rw [h3]
    simp only [ray, Real.cos_add_two_pi, Real.sin_add_two_pi]

/-- The chord in front of which a point is: its length and the angle under which it is seen. -/
theorem polygon_chord {k : Hull ℝ} {n : ℕ} {R : ℝ} (hk : Polygon k n R) (hn : 12 ≤ n) (hR : 0 < R) (x w : V3 ℝ)
    (hx : x.z = k.base.position.z) (hw : IsChord k x w) :
    w.norm = 2 * R * Real.sin (Real.pi / n) ∧
      7 / 10 * (w.norm * (x - k.base.position).norm) ≤ |turn (x - k.base.position) w| := by
  have hn0 : 0 < n := by omega
  have hnr : (12 : ℝ) ≤ n := by exact_mod_cast hn
  have hpi := Real.pi_pos
  obtain ⟨θ, hθ, hlt, hlo, hhi⟩ := polygon_column hk hn0 x hx
  have hsin : 0 < Real.sin (Real.pi / n) := by
    apply Real.sin_pos_of_pos_of_lt_pi (by positivity)
    rw [div_lt_iff₀ (by linarith)]; nlinarith
  have hstep : 3 * Real.pi / n ≤ Real.pi / 4 := by
    rw [div_le_div_iff₀ (by linarith) (by norm_num)]; nlinarith
  set φ := corner n (k.column x) with hφ
  have hwv : w = V3.smul (2 * R * Real.sin (Real.pi / n)) ⟨-Real.sin (φ + Real.pi / n), Real.cos (φ + Real.pi / n), 0⟩ := by
    obtain ⟨s1, s2, h1, h2, rfl⟩ := hw
    have hmod : (k.column x + 1) % n < n := Nat.mod_lt _ hn0
    rw [hk.cart] at h1 h2
    simp only [List.length_map, List.length_range] at h2
    rw [List.getElem?_map, List.getElem?_range hlt] at h1
    rw [List.getElem?_map, List.getElem?_range hmod] at h2
    simp only [Option.map_some, Option.some.injEq] at h1 h2
    rw [polygon_next hn0 hlt] at h2
    have hc := Real.cos_sub_cos (φ + 2 * Real.pi / n) φ
    have hs := Real.sin_sub_sin (φ + 2 * Real.pi / n) φ
    rw [show (φ + 2 * Real.pi / n + φ) / 2 = φ + Real.pi / n by ring,
      show (φ + 2 * Real.pi / n - φ) / 2 = Real.pi / n by ring] at hc hs
    rw [← h1, ← h2]
    ext
    · simp only [V3.smul, ray, V3.sub_x, V3.add_x]
      linear_combination R * hc
    · simp only [V3.smul, ray, V3.sub_y, V3.add_y]
      linear_combination R * hs
    · simp only [V3.smul, ray, V3.sub_z, V3.add_z]
      ring
  have hunit : (⟨-Real.sin (φ + Real.pi / n), Real.cos (φ + Real.pi / n), 0⟩ : V3 ℝ).norm = 1 := by
    rw [V3.norm_eq_one_iff]
    simp only [V3.sqNorm, V3.dot]
    nlinarith [Real.sin_sq_add_cos_sq (φ + Real.pi / n)]
  have hlen : 0 < 2 * R * Real.sin (Real.pi / n) := by positivity
  have hnorm : w.norm = 2 * R * Real.sin (Real.pi / n) := by
    rw [hwv, V3.norm_smul, hunit, abs_of_pos hlen, mul_one]
  refine ⟨hnorm, ?_⟩
  set r := x - k.base.position with hr
  have hturn : turn r w = r.norm * (2 * R * Real.sin (Real.pi / n)) * Real.cos (φ + Real.pi / n - θ) := by
    rw [hwv, Real.cos_sub]
    generalize 2 * R * Real.sin (Real.pi / n) = l
    conv_lhs => rw [hθ]
    simp only [turn, V3.smul, ray]
    ring
  have hcos : 7 / 10 ≤ Real.cos (φ + Real.pi / n - θ) := by
    have h1 : 0 ≤ φ + Real.pi / n - θ := by
      have : 0 < Real.pi / n := by positivity
      linarith
    have h2 : φ + Real.pi / n - θ ≤ Real.pi / 4 := by
      have : 3 * Real.pi / n = 2 * Real.pi / n + Real.pi / n := by ring
      linarith
    have h3 := Real.cos_le_cos_of_nonneg_of_le_pi h1 (by linarith) h2
    rw [Real.cos_pi_div_four] at h3
    have h4 : (14 : ℝ) / 10 ≤ Real.sqrt 2 := Real.le_sqrt_of_sq_le (by norm_num)
    linarith
  rw [hturn, hnorm, abs_of_nonneg (mul_nonneg (mul_nonneg (V3.norm_nonneg _) hlen.le) (by linarith))]
  have h5 : 0 ≤ r.norm * (2 * R * Real.sin (Real.pi / n)) := mul_nonneg (V3.norm_nonneg _) hlen.le
  nlinarith

/-- C83 for round hulls (12 or more columns of radius `R`, the last one at angle `π`), with explicit conditions: the
agent never leaves `{|x - c| ≥ R}`, the outside of the aggregate, and all queries are defined. -/
theorem C83_round (c : Loop ℝ) (E : Env) (g : Aggregate ℝ) (prim : Ptr → Ellipsoid ℝ) (p : Ptr) (k : ℕ) (R : ℝ)
    (hl : E.list = [p]) (hst : Static (.aggregate g)) (hpl : InPlaneZ g.base)
    (hor : g.base.pose.orientation = Quat.one) (href : g.base.refPos = some g.outside.base.position)
    (hh : Hulls g) (hpoly : Polygon g.outside k R) (horef : g.outside.base.refPos = some g.outside.base.position)
    (hk : 12 ≤ k) (hR : 1 / 10 ^ 5 ≤ R) (hside : 1 / 10000 ≤ 2 * R * Real.sin (Real.pi / k))
    (hloc : c.isLocal = false) (hrep : c.addRepulsion = true) (hfree : c.planar = false) (hgain : 0 ≤ c.gain)
    (hdt : 0 ≤ c.dt) (hmax : ∀ m, c.maxVel = some m → 0 ≤ m) (ht : c.target.z = 0)
    (hprims : ∀ x, x.z = 0 → R ≤ (x - g.outside.base.position).norm → ∀ q ∈ g.prims, (prim q).pointIsInside x = false)
    (hnear : 3 * (c.gain * (11 / 10 * R + (g.outside.base.position - c.target).norm)) ≤ 20 * R)
    (hshort : c.dt * (3 * c.gain) ≤ 1)
    (hfar : c.dt * (3 * c.gain) * (11 / 10 * R + (g.outside.base.position - c.target).norm) ≤ R / 10)
    (s : Heap ℝ × Agent ℝ) (hs : OnWall g prim p s) (h0 : R ≤ (s.2.state.position - g.outside.base.position).norm)
    (n : ℕ) :
    ∃ s', c.run E n s = .ok s' ∧ OnWall g prim p s' ∧ R ≤ (s'.2.state.position - g.outside.base.position).norm ∧
      s'.1.pointIsInside (.aggregate g) s'.2.state.position = .ok false := by
  have hk0 : 0 < k := by omega
  have hR0 : 0 < R := lt_of_lt_of_le (by norm_num) hR
  have hmem : ∀ q ∈ g.outside.polar, q.x = R := by
    intro q hq
    rw [hpoly.polar, List.mem_map] at hq
    obtain ⟨i, -, rfl⟩ := hq
    rfl
  have hpz : g.outside.base.position.z = 0 := hpl.ref _ href
  have hflat : FlatHull g.outside := by
    refine ⟨hh.ok.2, hpoly.orient, horef, ?_, fun q hq => by rw [hmem q hq]; exact hR0⟩
    intro s hs
    rw [hpoly.cart, List.mem_map] at hs
    obtain ⟨i, -, rfl⟩ := hs
    simp [ray, V3.smul]
  have hlen : g.outside.polar.length = k := by rw [hpoly.polar]; simp
  have setup : WallSetup c E g prim p (fun _ => R) 3 0 R (R / 10) :=
    { list := hl, static := hst, plane := hpl, orient := hor, ref := href, hulls := hh, flat := hflat, all := hloc
      repulsion := hrep, free := hfree, gain := hgain, dt := hdt, maxVel := hmax, target := ht
      thick := fun q hq => by rw [hmem q hq]; exact hR
      steep := le_refl _, stretch := by norm_num
      surface := fun x q _ hq => by
        rw [hmem q (List.mem_of_getElem? hq)]
        exact ⟨le_refl _, by linarith⟩
      radial := fun _ _ _ => rfl
      slope := fun _ _ _ _ _ _ => by linarith
      bound := fun _ => le_refl _
      prims := hprims
      chords := by
        intro x w hx _ hw
        obtain ⟨h1, h2⟩ := polygon_chord hpoly hk hR0 x w (by rw [hx, hpz]) hw
        refine ⟨by rw [h1]; exact hside, ?_⟩
        have h3 : 0 ≤ w.norm * (x - g.outside.base.position).norm := mul_nonneg (V3.norm_nonneg _) (V3.norm_nonneg _)
        generalize w.norm * (x - g.outside.base.position).norm = A at *
        nlinarith
      near := fun q hq => by
        rw [hmem q hq]
        linarith
      short := by linarith
      far := by
        rw [show R + R / 10 = 11 / 10 * R by ring]
        linarith }
  have hcol : ∀ (s' : Heap ℝ × Agent ℝ), OnWall g prim p s' →
      g.outside.column s'.2.state.position < g.outside.polar.length := by
    intro s' hs'
    rw [hlen]
    obtain ⟨θ, -, h1, -⟩ := polygon_column hpoly hk0 s'.2.state.position (by rw [hs'.flat, hpz])
    exact h1
  have hrun : ∀ i, ∃ s', c.run E i s = .ok s' ∧ OnWall g prim p s' ∧
      R ≤ (s'.2.state.position - g.outside.base.position).norm := by
    intro i
    refine C83_outside_partial c E g prim p (fun _ => R) 3 0 R (R / 10) setup i s hs h0 ?_
    have key : ∀ (j : ℕ) (s0 : Heap ℝ × Agent ℝ), OnWall g prim p s0 →
        R ≤ (s0.2.state.position - g.outside.base.position).norm →
        ∀ s', c.run E j s0 = .ok s' → OnWall g prim p s' := by
      intro j
      induction j with
      | zero => intro s0 hs0 _ s' h; cases h; exact hs0
      | succ j ih =>
        intro s0 hs0 h1 s' h
        obtain ⟨s1, hit, hs1, h2⟩ := wall_iterate setup hs0 h1 (List.getElem?_eq_getElem (hcol s0 hs0))
        rw [Loop.run, hit] at h
        exact ih s1 hs1 h2 s' h
    exact fun j _ s' h => hcol s' (key j s hs h0 s' h)
  obtain ⟨s', h1, h2, h3⟩ := hrun n
  refine ⟨s', h1, h2, h3, ?_⟩
  obtain ⟨q, hq⟩ : ∃ q, g.outside.polar[g.outside.column s'.2.state.position]? = some q :=
    ⟨_, List.getElem?_eq_getElem (hcol s' h2)⟩
  refine aggregate_outside s'.1 g prim _ ?_ h2.prims ?_ (hprims _ h2.flat h3)
  · intro h
    have := h2.obj
    rw [h] at this
    simp at this
  · rw [inside_value g.outside hpoly.orient _ q hq, hmem q (List.mem_of_getElem? hq)]
    simp only [Res.ok.injEq, decide_eq_false_iff_not, not_lt]
    exact h3

/-- The last of `n + 1` iterations. -/
theorem run_succ (c : Loop ℝ) (E : Env) (n : ℕ) : ∀ s : Heap ℝ × Agent ℝ, c.run E (n + 1) s =
    (c.run E n s >>= fun s' => c.iterate E (c.desired s'.2.state.position) s') := by
  induction n with
  | zero =>
    intro s
    rw [Loop.run]
    cases h : c.iterate E (c.desired s.2.state.position) s <;> simp [Loop.run, h]
  | succ n ih =>
    intro s
    rw [Loop.run, Loop.run]
    cases h : c.iterate E (c.desired s.2.state.position) s with
    | ok s' => simp only [Res.ok_bind]; exact ih s'
    | throw e => rfl
    | ub u => rfl

/-- C83, inside, for round rooms (12 or more columns of radius `r` in the inside hull and of a larger radius `R` in the
outside hull, about the same centre), with explicit conditions: the agent stays in the room for ever or until it is exactly
at the centre. -/
theorem C83_round_room (c : Loop ℝ) (E : Env) (g : Aggregate ℝ) (prim : Ptr → Ellipsoid ℝ) (p : Ptr) (k k' : ℕ) (r R : ℝ)
    (hl : E.list = [p]) (hst : Static (.aggregate g)) (hpl : InPlaneZ g.base)
    (hor : g.base.pose.orientation = Quat.one) (href : g.base.refPos = some g.inside.base.position)
    (hh : Hulls g) (hpoly : Polygon g.inside k r) (hpoly' : Polygon g.outside k' R)
    (horef : g.inside.base.refPos = some g.inside.base.position) (hsame : g.outside.base.position = g.inside.base.position)
    (hk : 12 ≤ k) (hk' : 12 ≤ k') (hr : 1 / 10 ^ 5 ≤ r) (hrR : r < R)
    (hside : 1 / 10000 ≤ 2 * r * Real.sin (Real.pi / k))
    (hloc : c.isLocal = false) (hrep : c.addRepulsion = true) (hfree : c.planar = false) (hgain : 0 ≤ c.gain)
    (hdt : 0 ≤ c.dt) (hdt1 : c.dt ≤ 1 / 40) (hmax : ∀ m, c.maxVel = some m → 0 ≤ m) (ht : c.target.z = 0)
    (hnear : 3 * (c.gain * (r + (g.inside.base.position - c.target).norm)) ≤ 16 * r)
    (hfar : c.dt * (3 * (c.gain * (r + (g.inside.base.position - c.target).norm))) ≤ r / 11)
    (s : Heap ℝ × Agent ℝ) (hs : OnWall g prim p s) (h0 : (s.2.state.position - g.inside.base.position).norm ≤ r)
    (n : ℕ) :
    (∃ i < n, ∃ s', c.run E i s = .ok s' ∧ s'.2.state.position = g.inside.base.position) ∨
    ∃ s', c.run E n s = .ok s' ∧ OnWall g prim p s' ∧ (s'.2.state.position - g.inside.base.position).norm ≤ r ∧
      s'.1.pointIsInside (.aggregate g) s'.2.state.position = .ok true := by
  have hk0 : 0 < k := by omega
  have hk0' : 0 < k' := by omega
  have hr0 : 0 < r := lt_of_lt_of_le (by norm_num) hr
  have hmem : ∀ q ∈ g.inside.polar, q.x = r := by
    intro q hq
    rw [hpoly.polar, List.mem_map] at hq
    obtain ⟨i, -, rfl⟩ := hq
    rfl
  have hmem' : ∀ q ∈ g.outside.polar, q.x = R := by
    intro q hq
    rw [hpoly'.polar, List.mem_map] at hq
    obtain ⟨i, -, rfl⟩ := hq
    rfl
  have hpz : g.inside.base.position.z = 0 := hpl.ref _ href
  have hlen : g.inside.polar.length = k := by rw [hpoly.polar]; simp
  have hlen' : g.outside.polar.length = k' := by rw [hpoly'.polar]; simp
  have hflat : FlatHull g.inside := by
    refine ⟨hh.ok.1, hpoly.orient, horef, ?_, fun q hq => by rw [hmem q hq]; exact hr0⟩
    intro s hs
    rw [hpoly.cart, List.mem_map] at hs
    obtain ⟨i, -, rfl⟩ := hs
    simp [ray, V3.smul]
  have hwithin : ∀ x : V3 ℝ, x.z = 0 → (x - g.inside.base.position).norm ≤ r → g.outside.pointIsInside x = .ok true := by
    intro x hx hn
    obtain ⟨θ, -, h1, -⟩ := polygon_column hpoly' hk0' x (by rw [hx, hsame, hpz])
    rw [← hlen'] at h1
    rw [inside_value g.outside hpoly'.orient x _ (List.getElem?_eq_getElem h1), hmem' _ (List.getElem_mem h1), hsame]
    simp only [Res.ok.injEq, decide_eq_true_eq]
    linarith
  have setup : RoomSetup c E g p (fun _ => r) 3 0 r (5 / 11 * r) (r / 11) :=
    { list := hl, static := hst, plane := hpl, orient := hor, ref := href, hulls := hh, flat := hflat, all := hloc
      repulsion := hrep, free := hfree, gain := hgain, dt := hdt, maxVel := hmax, target := ht, brief := hdt1
      thick := fun q hq => by
        rw [hmem q hq]
        exact ⟨hr, by linarith, le_refl _⟩
      steep := le_refl _, stretch := by norm_num
      surface := fun x q _ hq => by
        rw [hmem q (List.mem_of_getElem? hq)]
        exact ⟨le_refl _, by linarith⟩
      radial := fun _ _ _ => rfl
      slope := fun _ _ _ _ _ _ => by linarith
      bound := fun _ => by linarith
      away := by linarith
      within := by
        intro x b hx hn hb
        rw [hwithin x hx hn] at hb
        cases hb; rfl
      chords := by
        intro x w hx _ hw
        obtain ⟨h1, h2⟩ := polygon_chord hpoly hk hr0 x w (by rw [hx, hpz]) hw
        refine ⟨by rw [h1]; exact hside, ?_⟩
        have h3 : 0 ≤ w.norm * (x - g.inside.base.position).norm := mul_nonneg (V3.norm_nonneg _) (V3.norm_nonneg _)
        generalize w.norm * (x - g.inside.base.position).norm = A at *
        nlinarith
      near := fun q hq => by
        rw [hmem q hq]
        linarith
      far := by linarith }
  induction n with
  | zero => exact Or.inr ⟨s, rfl, hs, h0, aggregate_within _ _ _ (hwithin _ hs.flat h0)⟩
  | succ n ih =>
    rcases ih with ⟨i, hi, s', h1, h2⟩ | ⟨s', h1, h2, h3, -⟩
    · exact Or.inl ⟨i, by omega, s', h1, h2⟩
    by_cases hc : s'.2.state.position = g.inside.base.position
    · exact Or.inl ⟨n, by omega, s', h1, hc⟩
    right
    obtain ⟨θ, -, hcol, -⟩ := polygon_column hpoly hk0 s'.2.state.position (by rw [h2.flat, hpz])
    rw [← hlen] at hcol
    have hpos : 0 < (s'.2.state.position - g.inside.base.position).norm := by
      apply V3.norm_pos
      intro h
      apply hc
      have e : s'.2.state.position = (s'.2.state.position - g.inside.base.position) + g.inside.base.position := by v3_ring
      rw [e, h]
      ext <;> simp [V3.zero]
    obtain ⟨s2, hit, hs2, h4⟩ := room_iterate setup h2 h3 (List.getElem?_eq_getElem hcol) (hwithin _ h2.flat h3) hpos
    refine ⟨s2, ?_, hs2, h4, aggregate_within _ _ _ (hwithin _ hs2.flat h4)⟩
    rw [run_succ, h1]
    exact hit

/-! ### An instance -/

/-- A round house of radius 2 about a ball. -/
noncomputable def house : Aggregate ℝ :=
  { base := Base.mkRef "house" (State.ofPosition V3.zero) V3.zero V3.zero
    inside := disc true 1
    outside :=
      { base := Base.mkRef "wall" (State.ofPosition V3.zero) V3.zero V3.zero, isInside := false, resolution := 12
        minRadius := 1
        cart := (List.range 12).map fun i => V3.zero + V3.smul 2 (ray (corner 12 i))
        polar := (List.range 12).map fun i => ⟨2, Real.pi / 2, corner 12 i⟩ }
    prims := [1] }

/-- Gain 1, steps of 1/100, target (−3,0,0) on the other side of the house. -/
noncomputable def houseLoop : Loop ℝ :=
  { gain := 1, dt := 1 / 100, target := ⟨-3, 0, 0⟩, maxVel := none, isLocal := false, addRepulsion := true,
    planar := false, critical := 1, power := 2 }

/-- The house, the ball in it and the envelope of the agent, which is at `x`. -/
noncomputable def houseStart (x : V3 ℝ) : Heap ℝ × Agent ℝ :=
  ([.aggregate house, .ellipsoid (ball V3.zero), .ellipsoid (ball V3.zero)],
    { agentAt x V3.zero with envelope := some 2 })

/-- From any point outside, the agent walks for ever without entering the house. -/
example (x : V3 ℝ) (hz : x.z = 0) (hx : 2 ≤ x.norm) (n : ℕ) :
    ∃ s', houseLoop.run (envOf [0]) n (houseStart x) = .ok s' ∧ 2 ≤ s'.2.state.position.norm ∧
      s'.1.pointIsInside (.aggregate house) s'.2.state.position = .ok false := by
  have hc : house.outside.base.position = V3.zero := rfl
  have hsub : ∀ y : V3 ℝ, y - V3.zero = y := by intro y; ext <;> simp [V3.zero]
  have hT : (V3.zero - houseLoop.target : V3 ℝ).norm = 3 := by
    show Real.sqrt ((0 - -3) * (0 - -3) + (0 - 0) * (0 - 0) + (0 - 0) * (0 - 0)) = 3
    rw [show (0 - -3 : ℝ) * (0 - -3) + (0 - 0) * (0 - 0) + (0 - 0) * (0 - 0) = 3 ^ 2 by norm_num]
    exact Real.sqrt_sq (by norm_num)
  have hpi := Real.pi_gt_three
  have hsin : 1 / 10000 ≤ 2 * 2 * Real.sin (Real.pi / (12 : ℕ)) := by
    have h1 := Real.mul_le_sin (x := Real.pi / (12 : ℕ)) (by positivity) (by
      push_cast; linarith)
    have h2 : 2 / Real.pi * (Real.pi / (12 : ℕ)) = 1 / 6 := by
      push_cast; field_simp; norm_num
    rw [h2] at h1
    linarith
  obtain ⟨s', h1, -, h2, h3⟩ := C83_round houseLoop (envOf [0]) house (fun _ => ball V3.zero) 0 12 2 rfl ⟨rfl, rfl⟩
    ⟨rfl, rfl, rfl, by intro v hv; cases hv; rfl, rfl, rfl, rfl⟩ rfl rfl
    ⟨⟨⟨by norm_num [house, disc], rfl, rfl⟩, ⟨by norm_num [house], by simp [house], by simp [house]⟩⟩, rfl, rfl, by
      intro q hq
      simp only [house, List.mem_map] at hq
      obtain ⟨i, -, rfl⟩ := hq
      norm_num⟩
    ⟨rfl, rfl, rfl⟩ rfl (le_refl _) (by norm_num) hsin rfl rfl rfl (by norm_num [houseLoop]) (by norm_num [houseLoop])
    (by intro m hm; cases hm) rfl
    (by
      intro y hy hn q _
      rw [hc, hsub] at hn
      have h1 : (2 : ℝ) ^ 2 ≤ y.x * y.x + y.y * y.y := by
        have h2 : y.norm ^ 2 = y.x * y.x + y.y * y.y := by
          show Real.sqrt (y.x * y.x + y.y * y.y + y.z * y.z) ^ 2 = _
          rw [hy, Real.sq_sqrt (by nlinarith [mul_self_nonneg y.x, mul_self_nonneg y.y])]
          ring
        rw [← h2]
        exact pow_le_pow_left₀ (by norm_num) hn 2
      simp only [Ellipsoid.pointIsInside, decide_eq_false_iff_not, not_le]
      rw [inverse_apply_one rfl]
      simp [ball, Ellipsoid.ofBase, V3.const, V3.zero, Base.mkRef, Base.pose, State.ofPosition, Pose.ofPosition]
      linarith)
    (by rw [hc, hT]; norm_num [houseLoop]) (by norm_num [houseLoop]) (by rw [hc, hT]; norm_num [houseLoop])
    (houseStart x)
    ⟨rfl, by intro q hq; simp only [house, List.mem_singleton] at hq; subst hq; rfl,
      ⟨2, ball V3.zero, by decide, by simp [house], rfl, rfl⟩, hz⟩
    (by rw [hc, hsub]; exact hx) n
  rw [hc, hsub] at h2
  exact ⟨s', h1, h2, h3⟩

/-- A round room of radius 1 with walls of thickness 1. -/
noncomputable def roundRoom : Aggregate ℝ :=
  { house with
    inside :=
      { base := Base.mkRef "room" (State.ofPosition V3.zero) V3.zero V3.zero, isInside := true, resolution := 16
        minRadius := 1
        cart := (List.range 16).map fun i => V3.zero + V3.smul 1 (ray (corner 16 i))
        polar := (List.range 16).map fun i => ⟨1, Real.pi / 2, corner 16 i⟩ } }

/-- The room, its only primitive and the envelope of the agent, which is at `x`. -/
noncomputable def roomStart (x : V3 ℝ) : Heap ℝ × Agent ℝ :=
  ([.aggregate roundRoom, .ellipsoid (ball V3.zero), .ellipsoid (ball V3.zero)],
    { agentAt x V3.zero with envelope := some 2 })

/-- The target is outside; the agent stays in the room. -/
example (x : V3 ℝ) (hz : x.z = 0) (hx : x.norm ≤ 1) (n : ℕ) :
    (∃ i < n, ∃ s', ({ houseLoop with dt := 1 / 200 }).run (envOf [0]) i (roomStart x) = .ok s' ∧
      s'.2.state.position = V3.zero) ∨
    ∃ s', ({ houseLoop with dt := 1 / 200 }).run (envOf [0]) n (roomStart x) = .ok s' ∧ s'.2.state.position.norm ≤ 1 := by
  have hc : roundRoom.inside.base.position = V3.zero := rfl
  have hsub : ∀ y : V3 ℝ, y - V3.zero = y := by intro y; ext <;> simp [V3.zero]
  have hT : (V3.zero - houseLoop.target : V3 ℝ).norm = 3 := by
    show Real.sqrt ((0 - -3) * (0 - -3) + (0 - 0) * (0 - 0) + (0 - 0) * (0 - 0)) = 3
    rw [show (0 - -3 : ℝ) * (0 - -3) + (0 - 0) * (0 - 0) + (0 - 0) * (0 - 0) = 3 ^ 2 by norm_num]
    exact Real.sqrt_sq (by norm_num)
  have hpi := Real.pi_gt_three
  have hsin : 1 / 10000 ≤ 2 * 1 * Real.sin (Real.pi / (16 : ℕ)) := by
    have h1 := Real.mul_le_sin (x := Real.pi / (16 : ℕ)) (by positivity) (by
      push_cast; linarith)
    have h2 : 2 / Real.pi * (Real.pi / (16 : ℕ)) = 1 / 8 := by
      push_cast; field_simp; norm_num
    rw [h2] at h1
    linarith
  have := C83_round_room { houseLoop with dt := 1 / 200 } (envOf [0]) roundRoom (fun _ => ball V3.zero) 0 16 12 1 2 rfl
    ⟨rfl, rfl⟩ ⟨rfl, rfl, rfl, by intro v hv; cases hv; rfl, rfl, rfl, rfl⟩ rfl rfl
    ⟨⟨⟨by norm_num [roundRoom], by simp [roundRoom], by simp [roundRoom]⟩,
      ⟨by norm_num [roundRoom, house], by simp [roundRoom, house], by simp [roundRoom, house]⟩⟩, rfl, rfl, by
      intro q hq
      simp only [roundRoom, house, List.mem_map] at hq
      obtain ⟨i, -, rfl⟩ := hq
      norm_num⟩
    ⟨rfl, rfl, rfl⟩ ⟨rfl, rfl, rfl⟩ rfl rfl (by norm_num) (le_refl _) (by norm_num) (by norm_num) hsin rfl rfl rfl
    (by norm_num [houseLoop]) (by norm_num) (by norm_num) (by intro m hm; cases hm) rfl
    (by rw [hc]; show 3 * (houseLoop.gain * (1 + (V3.zero - houseLoop.target).norm)) ≤ _; rw [hT]; norm_num [houseLoop])
    (by
      rw [hc]; show 1 / 200 * (3 * (houseLoop.gain * (1 + (V3.zero - houseLoop.target).norm))) ≤ _
      rw [hT]; norm_num [houseLoop])
    (roomStart x)
    ⟨rfl, by intro q hq; simp only [roundRoom, house, List.mem_singleton] at hq; subst hq; rfl,
      ⟨2, ball V3.zero, by decide, by simp [roundRoom, house], rfl, rfl⟩, hz⟩
    (by rw [hc, hsub]; exact hx) n
  rw [hc] at this
  rcases this with h | ⟨s', h1, -, h2, -⟩
  · exact Or.inl h
  · rw [hsub] at h2
    exact Or.inr ⟨s', h1, h2⟩

end DOA.Props
