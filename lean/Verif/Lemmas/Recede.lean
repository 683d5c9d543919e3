import Mathlib.Analysis.SpecialFunctions.Exp
import Mathlib.Analysis.SpecialFunctions.Pow.Asymptotics
import Verif.Lemmas.Limits
import Verif.Lemmas.Origin
import Verif.Lemmas.ModulationGeom
import Verif.Spec.Recede

/-!
# Helper lemmas for an obstacle that goes away
-/

set_option linter.unusedSectionVars false
set_option linter.unusedSimpArgs false

namespace DOA
open Filter Topology DOA.Spec DOA.Modulation DOA.Ellipsoid

namespace Recede

/-! ### the geometry -/

theorem centred_smooth {e : Ellipsoid ℝ} {m : ℝ} {k : ℕ} (h : Smooth e m k) : Smooth (centred e) m k :=
  ⟨h.curv, h.unit, h.long, h.exact_⟩

theorem centred_inverse (e : Ellipsoid ℝ) (y : V3 ℝ) :
    (centred e).base.pose.inverse.apply y = e.base.pose.orientation.conjugate.rotate y := by
  show (e.base.pose.orientation.conjugate).rotate y + (e.base.pose.orientation.conjugate).rotate (-V3.zero) = _
  rw [Quat.rotate_neg]
  have : e.base.pose.orientation.conjugate.rotate (V3.zero : V3 ℝ) = V3.zero := by
    have := Quat.rotate_smul e.base.pose.orientation.conjugate 0 (V3.zero : V3 ℝ)
    have h2 : V3.smul 0 (V3.zero : V3 ℝ) = V3.zero := by v3_ring
    rw [h2] at this
    rw [this]; v3_ring
  rw [this]; v3_ring

theorem inverse_eq (e : Ellipsoid ℝ) (y : V3 ℝ) :
    e.base.pose.inverse.apply y = e.base.pose.orientation.conjugate.rotate (y - e.base.pose.position) := by
  show (e.base.pose.orientation.conjugate).rotate y + (e.base.pose.orientation.conjugate).rotate (-e.base.pose.position) = _
  rw [← Quat.rotate_add]
  congr 1

theorem normalized_scale {v : V3 ℝ} {c : ℝ} (hc : 0 < c) : (V3.smul c v).normalized = v.normalized := by
  by_cases hv : v = V3.zero
  · subst hv
    congr 1
    v3_ring
  · have h1 : V3.smul c v ≠ V3.zero := by
      intro h0
      apply hv
      have h2 : V3.smul (1 / c) (V3.smul c v) = v := by
        ext <;> simp only [V3.smul] <;> field_simp
      rw [← h2, h0]; v3_ring
    rw [V3.normalized_of_ne h1, V3.normalized_of_ne hv, V3.norm_smul, abs_of_pos hc]
    ext <;> simp only [V3.smul] <;> field_simp

/-- The normal depends on the direction from the centre only. -/
theorem normal_scale {e : Ellipsoid ℝ} {m : ℝ} {k : ℕ} (h : Smooth e m k) (x : V3 ℝ) {c : ℝ} (hc : 0 < c) :
    e.normalToAgent x m = (centred e).normalToAgent (V3.smul c (x - e.base.pose.position)) m := by
  have h0 := centred_smooth h
  rw [normal_frame e x m k k k h.curv h.long, normal_frame (centred e) _ m k k k h0.curv h0.long,
    inverse_eq, centred_inverse, Quat.rotate_smul]
  generalize e.base.pose.orientation.conjugate.rotate (x - e.base.pose.position) = y
  have hl : halfLengths (centred e) (V3.const m) = halfLengths e (V3.const m) := rfl
  rw [hl]
  generalize halfLengths e (V3.const m) = L
  rw [← normalized_scale (pow_pos hc (2 * k - 1))]
  congr 1
  have key : ∀ a b : ℝ, c ^ (2 * k - 1) * (2 * k * a / (b * b)) ^ (2 * k - 1)
      = (2 * k * (c * a) / (b * b)) ^ (2 * k - 1) := by
    intro a b
    rw [← mul_pow]; congr 1; ring
  ext <;> simp only [V3.smul] <;> exact key _ _

theorem direction_scale (e : Ellipsoid ℝ) (x r : V3 ℝ) {c : ℝ} (hc : 0 < c) :
    referenceDirection e.base.pose x r = referenceDirection (centred e).base.pose (V3.smul c (x - r)) V3.zero := by
  unfold referenceDirection
  rw [inverse_eq, inverse_eq, centred_inverse, centred_inverse, Quat.rotate_smul]
  have h1 : ∀ q : Quat ℝ, ∀ a b p : V3 ℝ, q.rotate (a - p) - q.rotate (b - p) = q.rotate (a - b) := by
    intro q a b p
    have h2 : q.rotate (a - p) = q.rotate (a - b) + q.rotate (b - p) := by
      rw [← Quat.rotate_add]; congr 1; v3_ring
    rw [h2]; v3_ring
  have h3 : ∀ q : Quat ℝ, q.rotate (V3.zero : V3 ℝ) = V3.zero := by
    intro q
    have := Quat.rotate_smul q 0 (V3.zero : V3 ℝ)
    have h2 : V3.smul 0 (V3.zero : V3 ℝ) = V3.zero := by v3_ring
    rw [h2] at this
    rw [this]; v3_ring
  rw [h1, h3]
  have h4 : ∀ w : V3 ℝ, w - V3.zero = w := by intro w; v3_ring
  rw [h4, normalized_scale hc]

theorem away_item (er : Ellipsoid ℝ × V3 ℝ) (t x : V3 ℝ) (m : ℝ) :
    (away er t).1.normalToAgent x m = er.1.normalToAgent (x - t) m ∧
    (away er t).1.distanceToPoint x (V3.const m) = er.1.distanceToPoint (x - t) (V3.const m) ∧
    referenceDirection (away er t).1.base.pose x (away er t).2 = referenceDirection er.1.base.pose (x - t) er.2 ∧
    (away er t).1.base.orientation = er.1.base.orientation := by
  have hx : x - t + t = x := by v3_ring
  refine ⟨?_, ?_, ?_, rfl⟩
  · have := Origin.normalE t er.1 (x - t) m
    rw [hx] at this; exact this
  · have := Origin.distanceE t er.1 (x - t) (V3.const m)
    rw [hx] at this; exact this
  · unfold referenceDirection
    have h1 := Origin.inv_moved t er.1.base (x - t)
    have h2 := Origin.inv_moved t er.1.base er.2
    rw [hx] at h1
    show ((movedBase t er.1.base).pose.inverse.apply x - (movedBase t er.1.base).pose.inverse.apply (er.2 + t)).normalized = _
    rw [h1, h2]

/-- The point of view of the receding obstacle tends to the direction in which it came. -/
theorem lim_view (a u : V3 ℝ) : LimV atTop (fun s : ℝ => V3.smul (1 / s) (a - V3.smul s u)) (-u) := by
  have h1 : Tendsto (fun s : ℝ => 1 / s) atTop (𝓝 0) := by
    simpa using tendsto_inv_atTop_zero (𝕜 := ℝ)
  have key : ∀ p q : ℝ, Lim atTop (fun s : ℝ => 1 / s * (p - s * q)) (-q) := by
    intro p q
    have h2 : Lim atTop (fun s : ℝ => 1 / s * p - q) (0 * p - q) := Lim.sub (Lim.mul h1 (Lim.const p)) (Lim.const q)
    rw [zero_mul, zero_sub] at h2
    refine h2.congr ?_
    filter_upwards [eventually_gt_atTop 0] with s hs
    field_simp
  exact ⟨key _ _, key _ _, key _ _⟩

theorem lim_normal {e : Ellipsoid ℝ} {m : ℝ} {k : ℕ} (h : Smooth e m k) (x u : V3 ℝ)
    (hc : Clear (centred e) V3.zero (-u) m) :
    LimV atTop (fun s : ℝ => e.normalToAgent (x - V3.smul s u) m) ((centred e).normalToAgent (-u) m) := by
  have hv : ∀ v : V3 ℝ, LimV (atTop : Filter ℝ) (fun _ => v) v := fun v => ⟨.const _, .const _, .const _⟩
  have hq : ∀ q : Quat ℝ, LimQ (atTop : Filter ℝ) (fun _ => q) q := fun q => ⟨.const _, .const _, .const _, .const _⟩
  have he : LimE (atTop : Filter ℝ) (fun _ => centred e) (centred e) k k k :=
    ⟨⟨⟨hv _, hq _⟩, hv _, hv _, hv _⟩, hv _, Eventually.of_forall fun _ => h.curv.1, h.curv.1, h.curv.2⟩
  have h1 := he.normal (lim_view (x - e.base.pose.position) u) (Lim.const m) hc.lengths hc.normal
  refine LimV.congr h1 ?_
  filter_upwards [eventually_gt_atTop 0] with s hs
  rw [normal_scale h _ (one_div_pos.mpr hs)]
  congr 2
  v3_ring

theorem lim_direction (e : Ellipsoid ℝ) (x r u : V3 ℝ) {m : ℝ} (hc : Clear (centred e) V3.zero (-u) m) :
    LimV atTop (fun s : ℝ => referenceDirection e.base.pose (x - V3.smul s u) r)
      (referenceDirection (centred e).base.pose (-u) V3.zero) := by
  have hv : ∀ v : V3 ℝ, LimV (atTop : Filter ℝ) (fun _ => v) v := fun v => ⟨.const _, .const _, .const _⟩
  have hq : ∀ q : Quat ℝ, LimQ (atTop : Filter ℝ) (fun _ => q) q := fun q => ⟨.const _, .const _, .const _, .const _⟩
  have h1 := lim_referenceDirection (F := (atTop : Filter ℝ)) (p := fun _ => (centred e).base.pose) ⟨hv _, hq _⟩
    (lim_view (x - r) u) (hv V3.zero) hc.direction
  refine LimV.congr h1 ?_
  filter_upwards [eventually_gt_atTop 0] with s hs
  rw [direction_scale e _ r (one_div_pos.mpr hs)]
  congr 2
  v3_ring

/-- The distance grows at least linearly. -/
theorem dist_linear {e : Ellipsoid ℝ} {m : ℝ} {k : ℕ} (h : Smooth e m k) (x : V3 ℝ) {u : V3 ℝ} (hu : u ≠ V3.zero) :
    ∃ β > 0, ∀ᶠ s : ℝ in atTop, β * s ≤ e.distanceToPoint (x - V3.smul s u) (V3.const m) := by
  have hL := allGt_zero h.long
  have hk : 1 ≤ k := h.curv.2.1
  have hq := unit' h
  have hqi : e.base.pose.orientation.conjugate.rotate u ≠ V3.zero := by
    intro h0
    apply hu
    have := Pose.apply_apply_inverse (p := (centred e).base.pose) hq u
    rw [centred_inverse, h0] at this
    rw [← this]
    show e.base.pose.orientation.rotate V3.zero + V3.zero = V3.zero
    have h1 := Quat.rotate_smul e.base.pose.orientation 0 (V3.zero : V3 ℝ)
    have h2 : V3.smul 0 (V3.zero : V3 ℝ) = V3.zero := by v3_ring
    rw [h2] at h1
    rw [h1]; v3_ring
  have hform : ∀ s : ℝ, e.distanceToPoint (x - V3.smul s u) (V3.const m) = level (halfLengths e (V3.const m)) k k k
      (e.base.pose.inverse.apply x - V3.smul s (e.base.pose.orientation.conjugate.rotate u)) := by
    intro s
    rw [distance_frame e _ _ k k k h.curv h.long, inverse_eq, inverse_eq]
    congr 1
    have h1 : ∀ q : Quat ℝ, ∀ a b : V3 ℝ, q.rotate (a - b) = q.rotate a - q.rotate b := by
      intro q a b
      have : q.rotate a = q.rotate (a - b) + q.rotate b := by rw [← Quat.rotate_add]; congr 1; v3_ring
      rw [this]; v3_ring
    rw [← Quat.rotate_smul, ← h1]
    congr 1
    v3_ring
  simp only [hform]
  generalize e.base.pose.inverse.apply x = A
  generalize e.base.pose.orientation.conjugate.rotate u = B at hqi
  generalize halfLengths e (V3.const m) = L at hL
  obtain ⟨l1, l2, l3⟩ := hL
  have key : ∀ a b l : ℝ, 0 < l → b ≠ 0 → ∃ β > 0, ∀ᶠ s : ℝ in atTop, β * s ≤ ((a - s * b) / l) ^ (2 * k) := by
    intro a b l hl hb
    have hb' := abs_pos.mpr hb
    refine ⟨|b| / l / 2, by positivity, ?_⟩
    filter_upwards [eventually_ge_atTop 0, eventually_ge_atTop (2 * |a| / |b|), eventually_ge_atTop (2 * l / |b|)] with s h0 h1 h2
    rw [div_le_iff₀ hb'] at h1 h2
    have h3 : |b| / l / 2 * s ≤ |(a - s * b) / l| := by
      rw [abs_div, abs_of_pos hl, le_div_iff₀ hl]
      have h4 : |s * b| - |a| ≤ |a - s * b| := by
        have := abs_sub_abs_le_abs_sub (s * b) a
        rwa [abs_sub_comm] at this
      rw [abs_mul, abs_of_nonneg h0] at h4
      have h5 : |b| / l / 2 * s * l = s * |b| / 2 := by field_simp
      rw [h5]; linarith
    have h6 : 1 ≤ |(a - s * b) / l| := by
      refine le_trans ?_ h3
      have : |b| / l / 2 * s = s * |b| / (2 * l) := by field_simp
      rw [this, le_div_iff₀ (by positivity)]; linarith
    calc |b| / l / 2 * s ≤ |(a - s * b) / l| := h3
      _ ≤ |(a - s * b) / l| ^ (2 * k) := le_self_pow₀ h6 (by omega)
      _ = ((a - s * b) / l) ^ (2 * k) := (even_two_mul k).pow_abs _
  have hn : ∀ t : ℝ, 0 ≤ t ^ (2 * k) := fun t => (even_two_mul k).pow_nonneg t
  have hb : B.x ≠ 0 ∨ B.y ≠ 0 ∨ B.z ≠ 0 := by
    by_contra hcon
    push Not at hcon
    exact hqi (V3.ext hcon.1 hcon.2.1 hcon.2.2)
  rcases hb with hb | hb | hb
  · obtain ⟨β, hβ, hev⟩ := key A.x B.x L.x l1 hb
    refine ⟨β, hβ, hev.mono fun s hs => hs.trans ?_⟩
    have := hn ((A.y - s * B.y) / L.y); have := hn ((A.z - s * B.z) / L.z)
    simp only [level, V3.sub_x, V3.sub_y, V3.sub_z, V3.smul]; linarith
  · obtain ⟨β, hβ, hev⟩ := key A.y B.y L.y l2 hb
    refine ⟨β, hβ, hev.mono fun s hs => hs.trans ?_⟩
    have := hn ((A.x - s * B.x) / L.x); have := hn ((A.z - s * B.z) / L.z)
    simp only [level, V3.sub_x, V3.sub_y, V3.sub_z, V3.smul]; linarith
  · obtain ⟨β, hβ, hev⟩ := key A.z B.z L.z l3 hb
    refine ⟨β, hβ, hev.mono fun s hs => hs.trans ?_⟩
    have := hn ((A.x - s * B.x) / L.x); have := hn ((A.y - s * B.y) / L.y)
    simp only [level, V3.sub_x, V3.sub_y, V3.sub_z, V3.smul]; linarith

theorem dist_atTop {e : Ellipsoid ℝ} {m : ℝ} {k : ℕ} (h : Smooth e m k) (x : V3 ℝ) {u : V3 ℝ} (hu : u ≠ V3.zero) :
    Tendsto (fun s : ℝ => e.distanceToPoint (x - V3.smul s u) (V3.const m)) atTop atTop := by
  obtain ⟨β, hβ, hev⟩ := dist_linear h x hu
  exact tendsto_atTop_mono' _ hev (tendsto_id.const_mul_atTop hβ)

/-! ### the weights -/

theorem sum_list (l : List ℝ) : Modulation.sum l = l.sum := by
  have hfold : ∀ (l : List ℝ) (a : ℝ), l.foldl (· + ·) a = a + l.sum := by
    intro l
    induction l with
    | nil => intro a; simp
    | cons b l ih => intro a; rw [List.foldl_cons, ih, List.sum_cons]; ring
  unfold Modulation.sum
  rw [hfold, zero_add]

theorem sum_int (l : List Int) : l.foldl (· + ·) 0 = l.sum := by
  have hfold : ∀ (l : List Int) (a : Int), l.foldl (· + ·) a = a + l.sum := by
    intro l
    induction l with
    | nil => intro a; simp
    | cons b l ih => intro a; rw [List.foldl_cons, ih, List.sum_cons]; ring
  rw [hfold, zero_add]

/-- the flag of a critical obstacle -/
noncomputable def flag (c d : ℝ) : Int := if d ≤ c then 1 else 0

theorem flag_sum_nonneg (c : ℝ) (l : List ℝ) : 0 ≤ (l.map (flag c)).sum := by
  refine List.sum_nonneg ?_
  intro i hi
  obtain ⟨d, -, rfl⟩ := List.mem_map.mp hi
  unfold flag; split <;> omega

theorem flag_sum_pos {c : ℝ} {l : List ℝ} (h : ¬ 0 < (l.map (flag c)).sum) : ∀ d ∈ l, c < d := by
  intro d hd
  by_contra hcd
  apply h
  obtain ⟨l1, l2, rfl⟩ := List.append_of_mem hd
  have h1 := flag_sum_nonneg c l1
  have h2 := flag_sum_nonneg c l2
  have h3 : flag c d = 1 := if_pos (_root_.not_lt.mp hcd)
  rw [List.map_append, List.sum_append, List.map_cons, List.sum_cons, h3]
  omega

theorem weights_eq (l : List ℝ) (c p : ℝ) : weightObstacles l c p =
    if 0 < (l.map (flag c)).sum then l.map (fun d => (MathTools.ofInt (flag c d) : ℝ) / MathTools.ofInt (l.map (flag c)).sum)
    else l.map (fun d => (d - c) ^ (-p) / (l.map (fun d => (d - c) ^ (-p))).sum) := by
  unfold weightObstacles
  simp only [sum_list, sum_int, List.map_map]
  rfl

/-- An obstacle that goes away loses its weight, and the others get the weights they have without it. -/
theorem lim_weights_away {ι : Type} {F : Filter ι} (l1 l2 : List ℝ) {d : ι → ℝ} {c p : ℝ} (hd : Tendsto d F atTop) (hp : 0 < p)
    (hne : l1 ++ l2 ≠ []) :
    ∃ (g : ι → ℝ → ℝ) (g0 : ℝ → ℝ) (q : ι → ℝ),
      (∀ᶠ A in F, weightObstacles (l1 ++ d A :: l2) c p = l1.map (g A) ++ q A :: l2.map (g A)) ∧
      weightObstacles (l1 ++ l2) c p = l1.map g0 ++ l2.map g0 ∧
      (∀ y, Lim F (fun A => g A y) (g0 y)) ∧ Lim F q 0 := by
  have hfar : ∀ᶠ A in F, c < d A := hd.eventually_gt_atTop c
  have hflag : ∀ A, c < d A → ((l1 ++ d A :: l2).map (flag c)).sum = ((l1 ++ l2).map (flag c)).sum := by
    intro A hA
    have : flag c (d A) = 0 := if_neg hA.not_ge
    simp only [List.map_append, List.map_cons, List.sum_append, List.sum_cons, this]
    ring
  by_cases h0 : 0 < ((l1 ++ l2).map (flag c)).sum
  · refine ⟨fun _ y => (MathTools.ofInt (flag c y) : ℝ) / MathTools.ofInt ((l1 ++ l2).map (flag c)).sum,
      fun y => (MathTools.ofInt (flag c y) : ℝ) / MathTools.ofInt ((l1 ++ l2).map (flag c)).sum, fun _ => 0, ?_, ?_,
      fun y => Lim.const _, Lim.zero⟩
    · filter_upwards [hfar] with A hA
      have h1 : (MathTools.ofInt (flag c (d A)) : ℝ) = 0 := by
        have : flag c (d A) = 0 := if_neg hA.not_ge
        rw [this]; simp [MathTools.ofInt]
      rw [weights_eq, hflag A hA, if_pos h0, List.map_append, List.map_cons, h1, zero_div]
    · rw [weights_eq, if_pos h0, List.map_append]
  · have hpos := flag_sum_pos h0
    have hq : Lim F (fun A => (d A - c) ^ (-p)) 0 :=
      (tendsto_rpow_neg_atTop hp).comp (tendsto_atTop_add_const_right _ (-c) hd)
    have hs0 : 0 < ((l1 ++ l2).map (fun d => (d - c) ^ (-p))).sum := by
      apply List.sum_pos
      · intro w hw
        obtain ⟨y, hy, rfl⟩ := List.mem_map.mp hw
        exact Real.rpow_pos_of_pos (sub_pos.mpr (hpos y hy)) _
      · simpa using hne
    have hsum : ∀ A, ((l1 ++ d A :: l2).map (fun d => (d - c) ^ (-p))).sum
        = ((l1 ++ l2).map (fun d => (d - c) ^ (-p))).sum + (d A - c) ^ (-p) := by
      intro A
      simp only [List.map_append, List.map_cons, List.sum_append, List.sum_cons]
      ring
    have hS : Lim F (fun A => ((l1 ++ l2).map (fun d => (d - c) ^ (-p))).sum + (d A - c) ^ (-p))
        ((l1 ++ l2).map (fun d => (d - c) ^ (-p))).sum := by
      have := (Lim.const (F := F) ((l1 ++ l2).map (fun d => (d - c) ^ (-p))).sum).add hq
      rwa [add_zero] at this
    refine ⟨fun A y => (y - c) ^ (-p) / (((l1 ++ l2).map (fun d => (d - c) ^ (-p))).sum + (d A - c) ^ (-p)),
      fun y => (y - c) ^ (-p) / ((l1 ++ l2).map (fun d => (d - c) ^ (-p))).sum,
      fun A => (d A - c) ^ (-p) / (((l1 ++ l2).map (fun d => (d - c) ^ (-p))).sum + (d A - c) ^ (-p)), ?_, ?_, ?_, ?_⟩
    · filter_upwards [hfar] with A hA
      rw [weights_eq, hflag A hA, if_neg h0, hsum A, List.map_append, List.map_cons]
    · rw [weights_eq, if_neg h0, List.map_append]
    · intro y
      exact (Lim.const _).div hS hs0.ne'
    · have := hq.div hS hs0.ne'
      rwa [zero_div] at this

/-! ### the combination -/

/-- The same contribution from an obstacle with the velocity that counts. -/
noncomputable def calmed (x : V3 ℝ) (i : Item ℝ) : Item ℝ :=
  { i with
    base := { i.base with state :=
      { i.base.state with
        pose := ⟨V3.zero, ⟨1, 0, 0, 0⟩⟩,
        linearVelocity := V3.smul (CMath.exp (-(maxS 1 i.dist - 1)))
          (i.base.state.linearVelocity + V3.cross i.base.state.angularVelocity (x - i.base.position)),
        angularVelocity := V3.zero } },
    dist := 1 }

theorem calmed_velocity (x : V3 ℝ) (i : Item ℝ) (w : ℝ) :
    obstacleVelocity x (calmed x i).base (calmed x i).dist w (calmed x i).basis = obstacleVelocity x i.base i.dist w i.basis := by
  unfold obstacleVelocity calmed
  have h1 : (CMath.exp (-(maxS (1 : ℝ) 1 - 1)) : ℝ) = 1 := by
    simp [maxS_real]
  simp only [h1]
  have h2 : ∀ u y : V3 ℝ, V3.smul 1 (u + V3.cross V3.zero y) = u := by intro u y; v3_ring
  rw [h2]

theorem zipVel_calmed (x : V3 ℝ) (l1 l2 : List (Item ℝ × ℝ)) (i : Item ℝ) (w : ℝ) :
    zipVel x (l1 ++ (i, w) :: l2) = zipVel x (l1 ++ (calmed x i, w) :: l2) := by
  unfold zipVel
  rw [List.foldl_append, List.foldl_append, List.foldl_cons, List.foldl_cons]
  simp only [calmed_velocity]

theorem zipSum_calmed (x rv : V3 ℝ) (l1 l2 : List (Item ℝ × ℝ)) (i : Item ℝ) (w : ℝ) :
    zipSum rv (l1 ++ (i, w) :: l2) = zipSum rv (l1 ++ (calmed x i, w) :: l2) := by
  unfold zipSum
  rw [List.foldl_append, List.foldl_append, List.foldl_cons, List.foldl_cons]
  rfl

theorem zipVel_null (x : V3 ℝ) (l1 l2 : List (Item ℝ × ℝ)) (i : Item ℝ) :
    zipVel x (l1 ++ (i, 0) :: l2) = zipVel x (l1 ++ l2) := by
  unfold zipVel
  rw [List.foldl_append, List.foldl_append, List.foldl_cons]
  congr 1
  simp only [obstacleVelocity, mul_zero]
  v3_ring

theorem zipSum_null (rv : V3 ℝ) (l1 l2 : List (Item ℝ × ℝ)) (i : Item ℝ) :
    zipSum rv (l1 ++ (i, 0) :: l2) = zipSum rv (l1 ++ l2) := by
  unfold zipSum
  rw [List.foldl_append, List.foldl_append, List.foldl_cons]
  congr 1
  simp only [angleTerm, mul_zero, add_zero]
  ext <;> simp [V2.add, V2.scale]

theorem lim_const_item {ι : Type} {F : Filter ι} (i : Item ℝ) : LimI F (fun _ => i) i := by
  have hv : ∀ v : V3 ℝ, LimV F (fun _ => v) v := fun v => ⟨.const _, .const _, .const _⟩
  have hq : ∀ q : Quat ℝ, LimQ F (fun _ => q) q := fun q => ⟨.const _, .const _, .const _, .const _⟩
  exact ⟨⟨⟨hv _, hq _⟩, hv _, hv _, hv _⟩, ⟨hv _, hv _, hv _⟩, ⟨hv _, hv _, hv _⟩, .const _⟩

/-- An item of an obstacle that goes away. -/
structure Fades {ι : Type} (F : Filter ι) (x : V3 ℝ) (i : ι → Item ℝ) (i0 : Item ℝ) : Prop where
  dist : Tendsto (fun A => (i A).dist) F atTop
  calm : LimI F (fun A => calmed x (i A)) i0
  still : i0.base.state.linearVelocity = V3.zero ∧ i0.base.state.angularVelocity = V3.zero
  matrix : ∀ u, i0.matrix.mulVec u = u

theorem definite_same {M : M3 ℝ} (h : ∀ u, M.mulVec u = u) (f : M3 ℝ) {rv : V3 ℝ} (h0 : rv ≠ V3.zero) :
    Definite f rv.normalized rv M := by
  refine ⟨by rw [h]; exact h0, .inr (.inr ?_)⟩
  rw [h]
  have h1 := V3.norm_sq rv.normalized
  rw [V3.norm_normalized h0] at h1
  simp only [V3.sqNorm] at h1
  rw [← h1]; norm_num

/-- The obstacle that goes away leaves the result of the others. -/
theorem lim_combine_away {ι : Type} {F : Filter ι} {x v : V3 ℝ} {l1 l2 : List (Item ℝ)} {i : ι → Item ℝ} {i0 : Item ℝ} {c p : ℝ}
    (hi : Fades F x i i0) (hp : 0 < p) (hne : l1 ++ l2 ≠ []) (ho : Outcome x v (l1 ++ l2) c p) :
    LimV F (fun A => combine x v (l1 ++ i A :: l2) c p) (combine x v (l1 ++ l2) c p) := by
  obtain ⟨g, g0, q, hw, hw0, hg, hq⟩ := lim_weights_away (l1.map (·.dist)) (l2.map (·.dist)) (c := c) hi.dist hp (by simpa using hne)
  have hzip0 : (l1 ++ l2).zip (weightObstacles ((l1 ++ l2).map (·.dist)) c p)
      = (l1.map fun j => (j, g0 j.dist)) ++ l2.map fun j => (j, g0 j.dist) := by
    rw [List.map_append, hw0, List.zip_append (by simp), List.map_map, List.map_map]
    have : ∀ l : List (Item ℝ), l.zip (l.map (g0 ∘ fun j => j.dist)) = l.map fun j => (j, g0 j.dist) := by
      intro l; induction l with
      | nil => rfl
      | cons a l ih => simp [ih]
    rw [this, this]
  have hzip : ∀ᶠ A in F, (l1 ++ i A :: l2).zip (weightObstacles ((l1 ++ i A :: l2).map (·.dist)) c p)
      = (l1.map fun j => (j, g A j.dist)) ++ (i A, q A) :: l2.map fun j => (j, g A j.dist) := by
    filter_upwards [hw] with A hA
    rw [List.map_append, List.map_cons, hA, List.zip_append (by simp), List.zip_cons_cons, List.map_map, List.map_map]
    have : ∀ l : List (Item ℝ), l.zip (l.map (g A ∘ fun j => j.dist)) = l.map fun j => (j, g A j.dist) := by
      intro l; induction l with
      | nil => rfl
      | cons a l ih => simp [ih]
    rw [this, this]
  let L : List (ι → Item ℝ × ℝ) := (l1.map fun j A => (j, g A j.dist)) ++ (fun A => (calmed x (i A), q A)) :: l2.map fun j A => (j, g A j.dist)
  let L0 : List (Item ℝ × ℝ) := (l1.map fun j => (j, g0 j.dist)) ++ (i0, 0) :: l2.map fun j => (j, g0 j.dist)
  have hL : List.Forall₂ (LimZ F) L L0 := by
    have h1 : ∀ l : List (Item ℝ), List.Forall₂ (LimZ F) (l.map fun j A => (j, g A j.dist)) (l.map fun j => (j, g0 j.dist)) := by
      intro l
      rw [List.forall₂_map_left_iff, List.forall₂_map_right_iff]
      exact List.forall₂_same.mpr fun j _ => ⟨lim_const_item j, hg _⟩
    exact List.rel_append (h1 l1) (.cons ⟨hi.calm, hq⟩ (h1 l2))
  have hLA : ∀ A, L.map (fun y => y A) = (l1.map fun j => (j, g A j.dist)) ++ (calmed x (i A), q A) :: l2.map fun j => (j, g A j.dist) := by
    intro A
    simp only [L, List.map_append, List.map_cons, List.map_map]
    rfl
  have hov := lim_zipVel (x := fun _ => x) ⟨.const _, .const _, .const _⟩ hL
  have hvc : LimV F (fun _ => v) v := ⟨.const _, .const _, .const _⟩
  have hrv := hvc.sub hov
  have hv0 : zipVel x L0 = zipVel x ((l1 ++ l2).zip (weightObstacles ((l1 ++ l2).map (·.dist)) c p)) := by
    rw [hzip0]; exact zipVel_null _ _ _ _
  have hs0 : ∀ rv, zipSum rv L0 = zipSum rv ((l1 ++ l2).zip (weightObstacles ((l1 ++ l2).map (·.dist)) c p)) := by
    intro rv; rw [hzip0]; exact zipSum_null _ _ _ _
  have hout : LimV F (fun A => zipOut (v - zipVel x (L.map (fun y => y A))) (zipVel x (L.map (fun y => y A)))
      (zipSum (v - zipVel x (L.map (fun y => y A))) (L.map (fun y => y A)))) (combine x v (l1 ++ l2) c p) := by
    rw [combine_zip, ← hs0, ← hv0]
    have ho' := ho
    unfold Outcome at ho'
    simp only [] at ho'
    rw [show (relativeVelocities x v (l1 ++ l2) (weightObstacles ((l1 ++ l2).map (·.dist)) c p)).1
      = v - zipVel x L0 from by rw [hv0]; rfl] at ho'
    rcases ho' with h | ⟨h1, h2, h3⟩
    · refine lim_zipOut_null hov (lim_zipMag hrv hL) ?_
      rw [hs0]
      exact Modulation.zipSum_null fun y hy => h y.1 (List.of_mem_zip hy).1
    · have hsum := lim_zipSum hrv h1 hL (by
        intro y hy
        simp only [L0, List.mem_append, List.mem_cons, List.mem_map] at hy
        rcases hy with ⟨j, hj, rfl⟩ | rfl | ⟨j, hj, rfl⟩
        · exact h2 j (List.mem_append.mpr (.inl hj))
        · exact definite_same hi.matrix _ h1
        · exact h2 j (List.mem_append.mpr (.inr hj)))
      refine lim_zipOut hrv h1 hov hsum.1 hsum.2 ?_
      rw [hs0]
      exact h3
  refine LimV.congr hout ?_
  filter_upwards [hzip] with A hA
  rw [combine_zip, hA, zipVel_calmed x, zipSum_calmed x, hLA]

/-- Alone, it leaves the desired velocity. -/
theorem lim_combine_alone {ι : Type} {F : Filter ι} {x v : V3 ℝ} {i : ι → Item ℝ} {i0 : Item ℝ} {c p : ℝ}
    (hi : Fades F x i i0) : LimV F (fun A => combine x v [i A] c p) v := by
  have hL : List.Forall₂ (LimZ F) [fun A => (calmed x (i A), (1 : ℝ))] [(i0, 1)] := .cons ⟨hi.calm, Lim.one⟩ .nil
  have hov := lim_zipVel (x := fun _ => x) ⟨.const _, .const _, .const _⟩ hL
  have hv0 : zipVel x [(i0, 1)] = V3.zero := by
    simp only [zipVel, List.foldl_cons, List.foldl_nil, obstacleVelocity, hi.still.1, hi.still.2]
    v3_ring
  rw [hv0] at hov
  have hvc : LimV F (fun _ => v) v := ⟨.const _, .const _, .const _⟩
  have hrv := hvc.sub hov
  have hv1 : v - V3.zero = v := by v3_ring
  rw [hv1] at hrv
  have hmag : (zipSum v [(i0, 1)]).1 = V3.norm v := by
    simp only [zipSum, List.foldl_cons, List.foldl_nil, angleTerm, hi.matrix]
    ring
  have hangle : (zipSum v [(i0, 1)]).2 = V2.zero := by
    simp only [zipSum, List.foldl_cons, List.foldl_nil, angleTerm, hi.matrix]
    have h1 : ∀ a : V2 ℝ, V2.zero.add (a.scale 1) = a := by
      intro a; ext <;> simp [V2.add, V2.scale, V2.zero]
    rw [h1]
    by_cases h0 : v = V3.zero
    · have h2 : v.normalized = V3.zero := by
        rw [h0]; unfold V3.normalized; rw [if_neg]; simp [V3.sqNorm, V3.dot, V3.zero]
      rw [h2]
      have h3 : ∀ M : M3 ℝ, M.mulVec V3.zero = V3.zero := by intro M; v3_ring
      rw [h3]
      have h4 : (⟨(V3.zero : V3 ℝ).y, (V3.zero : V3 ℝ).z⟩ : V2 ℝ).normalized = V2.zero := by
        simp [V2.normalized, V2.sqNorm, V3.zero, V2.zero]
      rw [h4]
      ext <;> simp [V2.scale, V2.zero]
    · have h2 := V3.norm_sq v.normalized
      rw [V3.norm_normalized h0] at h2
      have h3 : V3.dot v.normalized v.normalized = 1 := by
        rw [show V3.dot v.normalized v.normalized = V3.sqNorm v.normalized from rfl, ← h2]; norm_num
      rw [h3]
      have h4 : safeAcos (1 : ℝ) = 0 := by rw [safeAcos_real, Real.arccos_one]
      rw [h4]
      ext <;> simp [V2.scale, V2.zero]
  have hval : zipOut v V3.zero (zipSum v [(i0, 1)]) = v := by
    unfold zipOut
    simp only [hmag, hangle]
    have h1 : reconstruct (V2.zero : V2 ℝ) = ⟨1, 0, 0⟩ := by
      unfold reconstruct
      simp [V2.norm, V2.sqNorm, V2.zero]
    rw [h1, mulVec_unit0]
    by_cases h0 : v = V3.zero
    · rw [V3.norm_eq_zero.mpr h0, h0]
      v3_ring
    · have h2 : (dsFrame v.normalized).c0 = v.normalized := rfl
      rw [h2, V3.normalized_of_ne h0]
      have := V3.norm_pos h0
      ext <;> simp only [V3.smul, V3.add_x, V3.add_y, V3.add_z, V3.zero] <;> field_simp <;> ring
  have hout : LimV F (fun A => zipOut (v - zipVel x ([fun A => (calmed x (i A), (1 : ℝ))].map (fun y => y A)))
      (zipVel x ([fun A => (calmed x (i A), (1 : ℝ))].map (fun y => y A)))
      (zipSum (v - zipVel x ([fun A => (calmed x (i A), (1 : ℝ))].map (fun y => y A)))
        ([fun A => (calmed x (i A), (1 : ℝ))].map (fun y => y A)))) (zipOut v V3.zero (zipSum v [(i0, 1)])) := by
    by_cases h0 : v = V3.zero
    · refine lim_zipOut_null hov (lim_zipMag hrv hL) (Modulation.zipSum_null ?_)
      intro y hy
      simp only [List.mem_singleton] at hy
      subst hy
      rw [hi.matrix]; exact h0
    · have hsum := lim_zipSum hrv h0 hL (by
        intro y hy
        simp only [List.mem_singleton] at hy
        subst hy
        exact definite_same hi.matrix _ h0)
      refine lim_zipOut hrv h0 hov hsum.1 hsum.2 ?_
      rw [hangle]
      simp [V2.norm, V2.sqNorm, V2.zero]
  rw [hval] at hout
  refine LimV.congr hout (Eventually.of_forall fun A => ?_)
  have h1 := zipVel_calmed x [] [] (i A) 1
  have h2 := fun rv => zipSum_calmed x rv [] [] (i A) 1
  simp only [List.nil_append] at h1 h2
  simp only [combine_zip, List.map_cons, List.map_nil, weight_alone, List.zip_cons_cons, List.zip_nil_right, h1, h2]

/-! ### the obstacle -/

theorem lim_smul_exp {d : ℝ → ℝ} {β : ℝ} (hβ : 0 < β) (h : ∀ᶠ s : ℝ in atTop, β * s ≤ d s) :
    Lim atTop (fun s : ℝ => (CMath.exp (-(maxS 1 (d s) - 1)) : ℝ)) 0 ∧
    Lim atTop (fun s : ℝ => (CMath.exp (-(maxS 1 (d s) - 1)) : ℝ) * s) 0 := by
  have key : ∀ᶠ s : ℝ in atTop, (CMath.exp (-(maxS 1 (d s) - 1)) : ℝ) ≤ Real.exp 1 * Real.exp (-(β * s)) := by
    filter_upwards [h] with s hs
    rw [← Real.exp_add]
    refine Real.exp_le_exp.mpr ?_
    rw [maxS_real]
    have := le_max_right 1 (d s)
    linarith
  have hpos : ∀ s, (0 : ℝ) ≤ (CMath.exp (-(maxS 1 (d s) - 1)) : ℝ) := fun s => (Real.exp_pos _).le
  have hb : Tendsto (fun s : ℝ => β * s) atTop atTop := tendsto_id.const_mul_atTop hβ
  have h0 : Tendsto (fun s : ℝ => Real.exp 1 * Real.exp (-(β * s))) atTop (𝓝 0) := by
    have := (Real.tendsto_exp_neg_atTop_nhds_zero.comp hb).const_mul (Real.exp 1)
    simpa using this
  have h1 : Tendsto (fun s : ℝ => Real.exp 1 * Real.exp (-(β * s)) * s) atTop (𝓝 0) := by
    have := ((Real.tendsto_pow_mul_exp_neg_atTop_nhds_zero 1).comp hb).const_mul (Real.exp 1 / β)
    rw [mul_zero] at this
    refine this.congr fun s => ?_
    simp only [Function.comp]
    field_simp
    try ring
  refine ⟨squeeze_zero' (Eventually.of_forall hpos) key h0, ?_⟩
  refine squeeze_zero' ?_ ?_ h1
  · filter_upwards [eventually_ge_atTop 0] with s hs
    exact mul_nonneg (hpos s) hs
  · filter_upwards [key, eventually_ge_atTop 0] with s hs h0
    exact mul_le_mul_of_nonneg_right hs h0

theorem centred_clear {e : Ellipsoid ℝ} {m : ℝ} {k : ℕ} (h : Smooth e m k) {u : V3 ℝ} (hu : u ≠ V3.zero)
    (ht : (V3.cross ((centred e).normalToAgent (-u) m) V3.unitZ).norm ≠ 1 / 10000) :
    Clear (centred e) V3.zero (-u) m := by
  have sm := centred_smooth h
  have h0 : gdist (centred e) m V3.zero = 0 := by
    have := dist_apply sm V3.zero
    rw [(level_eq_zero _ k k k _ (allGt_zero sm.long) h.curv.2.1 h.curv.2.1 h.curv.2.1).mpr rfl] at this
    rw [← this]
    congr 1
    show V3.zero = e.base.pose.orientation.rotate V3.zero + V3.zero
    have h1 := Quat.rotate_smul e.base.pose.orientation 0 (V3.zero : V3 ℝ)
    have h2 : V3.smul 0 (V3.zero : V3 ℝ) = V3.zero := by v3_ring
    rw [h2] at h1
    rw [h1]; v3_ring
  have hstar : gdist (centred e) m V3.zero < gdist (centred e) m (-u) := by
    rw [h0]
    refine lt_of_le_of_ne (dist_nonneg sm _) fun h1 => ?_
    have hq := unit' sm
    rw [← Pose.apply_apply_inverse hq (-u), dist_apply sm] at h1
    have h2 := (level_eq_zero _ k k k _ (allGt_zero sm.long) h.curv.2.1 h.curv.2.1 h.curv.2.1).mp h1.symm
    have h3 := Pose.apply_apply_inverse hq (-u)
    rw [h2] at h3
    apply hu
    have h4 : (centred e).base.pose.apply V3.zero = V3.zero := by
      show e.base.pose.orientation.rotate V3.zero + V3.zero = V3.zero
      have h1 := Quat.rotate_smul e.base.pose.orientation 0 (V3.zero : V3 ℝ)
      have h2 : V3.smul 0 (V3.zero : V3 ℝ) = V3.zero := by v3_ring
      rw [h2] at h1
      rw [h1]; v3_ring
    rw [h4] at h3
    have h5 : u = -(-u) := by v3_ring
    rw [h5, ← h3]; v3_ring
  obtain ⟨y, w, co⟩ := coord sm hstar
  have hnr := co.nr
  refine ⟨?_, ⟨sm.long.1.ne', sm.long.2.1.ne', sm.long.2.2.ne'⟩, ?_, ht, ?_, coord_det sm co⟩
  · have := (Quat.isUnit_iff_norm _).mpr sm.unit
    show 0 < (centred e).base.orientation.sqNorm
    rw [show (centred e).base.orientation.sqNorm = 1 from this]; exact one_pos
  · intro h0; rw [h0] at hnr; simp [V3.dot, V3.zero] at hnr
  · intro h0; rw [h0] at hnr; simp [V3.dot, V3.zero] at hnr

theorem fades_away {er : Ellipsoid ℝ × V3 ℝ} {m : ℝ} {k : ℕ} (h : Smooth er.1 m k) (x : V3 ℝ) {u : V3 ℝ} (hu : u ≠ V3.zero)
    (ht : (V3.cross ((centred er.1).normalToAgent (-u) m) V3.unitZ).norm ≠ 1 / 10000) :
    ∃ i0, Fades atTop x (fun s : ℝ => ellItem (away er (V3.smul s u)).1 (away er (V3.smul s u)).2 x m) i0 := by
  have hc := centred_clear h hu ht
  have hv : ∀ v : V3 ℝ, LimV (atTop : Filter ℝ) (fun _ => v) v := fun v => ⟨.const _, .const _, .const _⟩
  have hq : ∀ q : Quat ℝ, LimQ (atTop : Filter ℝ) (fun _ => q) q := fun q => ⟨.const _, .const _, .const _, .const _⟩
  obtain ⟨β, hβ, hlin⟩ := dist_linear h x hu
  have hd := dist_atTop h x hu
  have hn := lim_normal h x u hc
  have hr := lim_direction er.1 x er.2 u hc
  have hev : LimV atTop (fun s : ℝ => diagonalEigenvalues (er.1.distanceToPoint (x - V3.smul s u) (V3.const m)) 1) ⟨1, 1, 1⟩ := by
    have h1 : Lim atTop (fun s : ℝ => if er.1.distanceToPoint (x - V3.smul s u) (V3.const m) ≤ 1 then (1 : ℝ)
        else 1 / CMath.pow (er.1.distanceToPoint (x - V3.smul s u) (V3.const m)) (1 / 1)) 0 := by
      refine Lim.ite_false ?_ ((hd.eventually_gt_atTop 1).mono fun s hs => hs.not_ge)
      have h2 : Tendsto (fun s : ℝ => (er.1.distanceToPoint (x - V3.smul s u) (V3.const m))⁻¹) atTop (𝓝 0) :=
        tendsto_inv_atTop_zero.comp hd
      refine Tendsto.congr (fun s => ?_) h2
      simp
    have h3 := Lim.one.sub h1
    have h4 := Lim.one.add h1
    rw [sub_zero] at h3
    rw [add_zero] at h4
    exact ⟨h3, h4, h4⟩
  have hb := lim_referenceBasis hn hr hc.tangent
  have hM := lim_product (hq er.1.base.orientation) hb hev hc.regular hc.rotation
  obtain ⟨he0, he1⟩ := lim_smul_exp hβ hlin
  refine ⟨⟨{ er.1.base with state :=
      { er.1.base.state with
        pose := ⟨V3.zero, ⟨1, 0, 0, 0⟩⟩
        linearVelocity := V3.zero
        angularVelocity := V3.zero } },
      modulationProduct er.1.base.orientation (referenceBasis ((centred er.1).normalToAgent (-u) m)
        (referenceDirection (centred er.1).base.pose (-u) V3.zero)) ⟨1, 1, 1⟩,
      orthogonalBasis ((centred er.1).normalToAgent (-u) m), 1⟩, ?_, ⟨⟨⟨hv _, hq _⟩, ?_, hv _, hv _⟩, ?_, ?_, Lim.const _⟩, ⟨rfl, rfl⟩, ?_⟩
  · refine Tendsto.congr (fun s => ?_) hd
    exact ((away_item er (V3.smul s u) x m).2.1).symm
  · have key : ∀ a b : ℝ, Lim atTop (fun s : ℝ => (CMath.exp (-(maxS 1 (er.1.distanceToPoint (x - V3.smul s u) (V3.const m)) - 1)) : ℝ)
        * (a + s * b)) 0 := by
      intro a b
      have h1 := (he0.mul (Lim.const a)).add (he1.mul (Lim.const b))
      rw [zero_mul, zero_mul, add_zero] at h1
      refine Tendsto.congr (fun s => ?_) h1
      ring
    have h2 : ∀ s : ℝ, (calmed x (ellItem (away er (V3.smul s u)).1 (away er (V3.smul s u)).2 x m)).base.state.linearVelocity
        = V3.smul (CMath.exp (-(maxS 1 (er.1.distanceToPoint (x - V3.smul s u) (V3.const m)) - 1)))
          ((er.1.base.state.linearVelocity + V3.cross er.1.base.state.angularVelocity (x - er.1.base.position))
            + V3.smul s (V3.cross er.1.base.state.angularVelocity (-u))) := by
      intro s
      show V3.smul (CMath.exp (-(maxS 1 ((away er (V3.smul s u)).1.distanceToPoint x (V3.const m)) - 1)))
        (er.1.base.state.linearVelocity + V3.cross er.1.base.state.angularVelocity (x - (er.1.base.position + V3.smul s u))) = _
      rw [(away_item er (V3.smul s u) x m).2.1]
      congr 1
      v3_ring
    simp only [h2]
    exact ⟨key _ _, key _ _, key _ _⟩
  · have h1 : ∀ s : ℝ, (calmed x (ellItem (away er (V3.smul s u)).1 (away er (V3.smul s u)).2 x m)).matrix
        = modulationProduct er.1.base.orientation (referenceBasis (er.1.normalToAgent (x - V3.smul s u) m)
          (referenceDirection er.1.base.pose (x - V3.smul s u) er.2))
          (diagonalEigenvalues (er.1.distanceToPoint (x - V3.smul s u) (V3.const m)) 1) := by
      intro s
      obtain ⟨a1, a2, a3, a4⟩ := away_item er (V3.smul s u) x m
      show modulationProduct (away er (V3.smul s u)).1.base.orientation (referenceBasis ((away er (V3.smul s u)).1.normalToAgent x m)
        (referenceDirection (away er (V3.smul s u)).1.base.pose x (away er (V3.smul s u)).2))
        (diagonalEigenvalues ((away er (V3.smul s u)).1.distanceToPoint x (V3.const m)) 1) = _
      rw [a1, a2, a3, a4]
    simp only [h1]
    exact hM
  · have h1 : ∀ s : ℝ, (calmed x (ellItem (away er (V3.smul s u)).1 (away er (V3.smul s u)).2 x m)).basis
        = orthogonalBasis (er.1.normalToAgent (x - V3.smul s u) m) := by
      intro s
      show orthogonalBasis ((away er (V3.smul s u)).1.normalToAgent x m) = _
      rw [(away_item er (V3.smul s u) x m).1]
    simp only [h1]
    exact lim_orthogonalBasis hn hc.tangent
  · intro w
    show (modulationProduct er.1.base.pose.orientation _ _).mulVec w = w
    rw [modulationProduct_mulVec (unit' h)]
    have h1 : ∀ y : V3 ℝ, M3.had ⟨1, 1, 1⟩ y = y := by intro y; ext <;> simp [M3.had]
    rw [h1, M3.mulVec_inverse_mulVec hc.regular]
    have := Pose.apply_apply_inverse (p := (centred er.1).base.pose) (unit' (centred_smooth h)) w
    rw [centred_inverse] at this
    have h2 : ∀ y : V3 ℝ, (centred er.1).base.pose.apply y = er.1.base.pose.orientation.rotate y := by
      intro y
      show er.1.base.pose.orientation.rotate y + V3.zero = _
      v3_ring
    rw [h2] at this
    exact this

theorem foldl_zero (l1 l2 : List (V3 ℝ)) (w : V3 ℝ) (hw : w = V3.zero) :
    (l1 ++ w :: l2).foldl (· + ·) V3.zero = (l1 ++ l2).foldl (· + ·) V3.zero := by
  rw [List.foldl_append, List.foldl_append, List.foldl_cons, hw]
  congr 1
  v3_ring

theorem lim_out_away {er : Ellipsoid ℝ × V3 ℝ} {m : ℝ} {k : ℕ} (h : Smooth er.1 m k) {x v u : V3 ℝ} (hu : u ≠ V3.zero)
    (ht : (V3.cross ((centred er.1).normalToAgent (-u) m) V3.unitZ).norm ≠ 1 / 10000) (rep : Bool) {c p : ℝ} (hp : 0 < p)
    (es1 es2 : List (Ellipsoid ℝ × V3 ℝ)) (hne : es1 ++ es2 ≠ [])
    (ho : Outcome x v ((es1 ++ es2).map fun er => ellItem er.1 er.2 x m) c p) :
    LimV atTop (fun s : ℝ => ellOut (es1 ++ away er (V3.smul s u) :: es2) x v m rep c p) (ellOut (es1 ++ es2) x v m rep c p) := by
  obtain ⟨i0, hi⟩ := fades_away h x hu ht
  rw [List.map_append] at ho
  have hcomb := lim_combine_away hi hp (by simpa using hne) ho
  unfold ellOut
  simp only [List.map_append, List.map_cons, finish_real]
  cases rep with
  | false =>
    simp only [Bool.false_eq_true, if_false]
    exact hcomb
  | true =>
    simp only [if_true]
    have hz : ∀ᶠ s : ℝ in atTop, ellRep (away er (V3.smul s u)).1 (away er (V3.smul s u)).2 x m = V3.zero := by
      filter_upwards [(dist_atTop h x hu).eventually_gt_atTop (lit 11 10)] with s hs
      unfold ellRep
      rw [if_neg]
      rw [(away_item er (V3.smul s u) x m).2.1]
      exact hs.not_gt
    generalize hR : ((es1.map fun er => ellRep er.1 er.2 x m) ++ (es2.map fun er => ellRep er.1 er.2 x m)).foldl (· + ·) V3.zero = R
    have hlim : LimV atTop (fun s : ℝ => if lit 1 10000 < R.norm then
        combine x v ((es1.map fun er => ellItem er.1 er.2 x m)
          ++ ellItem (away er (V3.smul s u)).1 (away er (V3.smul s u)).2 x m :: es2.map fun er => ellItem er.1 er.2 x m) c p + R
        else combine x v ((es1.map fun er => ellItem er.1 er.2 x m)
          ++ ellItem (away er (V3.smul s u)).1 (away er (V3.smul s u)).2 x m :: es2.map fun er => ellItem er.1 er.2 x m) c p)
        (if lit 1 10000 < R.norm then
          combine x v ((es1.map fun er => ellItem er.1 er.2 x m) ++ es2.map fun er => ellItem er.1 er.2 x m) c p + R
        else combine x v ((es1.map fun er => ellItem er.1 er.2 x m) ++ es2.map fun er => ellItem er.1 er.2 x m) c p) := by
      split
      · exact hcomb.add ⟨.const _, .const _, .const _⟩
      · exact hcomb
    refine LimV.congr hlim ?_
    filter_upwards [hz] with s hs
    rw [foldl_zero _ _ _ hs, hR]

theorem lim_out_alone {er : Ellipsoid ℝ × V3 ℝ} {m : ℝ} {k : ℕ} (h : Smooth er.1 m k) {x v u : V3 ℝ} (hu : u ≠ V3.zero)
    (ht : (V3.cross ((centred er.1).normalToAgent (-u) m) V3.unitZ).norm ≠ 1 / 10000) (rep : Bool) {c p : ℝ} :
    LimV atTop (fun s : ℝ => ellOut [away er (V3.smul s u)] x v m rep c p) v := by
  obtain ⟨i0, hi⟩ := fades_away h x hu ht
  have hcomb := lim_combine_alone (v := v) (c := c) (p := p) hi
  unfold ellOut
  simp only [List.map_cons, List.map_nil, finish_real]
  cases rep with
  | false =>
    simp only [Bool.false_eq_true, if_false]
    exact hcomb
  | true =>
    simp only [if_true]
    refine LimV.congr hcomb ?_
    filter_upwards [(dist_atTop h x hu).eventually_gt_atTop (lit 11 10)] with s hs
    have hz : ellRep (away er (V3.smul s u)).1 (away er (V3.smul s u)).2 x m = V3.zero := by
      unfold ellRep
      rw [if_neg]
      rw [(away_item er (V3.smul s u) x m).2.1]
      exact hs.not_gt
    rw [hz, if_neg]
    have h1 : (V3.zero : V3 ℝ) + V3.zero = V3.zero := by v3_ring
    simp only [List.foldl_cons, List.foldl_nil, h1]
    rw [V3.norm_eq_zero.mpr rfl]
    simp

end Recede
end DOA
