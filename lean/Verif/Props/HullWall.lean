import Verif.Props.AggregateQueries
import Verif.Props.Combine
import Mathlib.Analysis.SpecialFunctions.Complex.Arg
import Mathlib.Analysis.Real.Pi.Bounds

/-!
# C82 hulls and aggregates as obstacles: what the modulation does at their surface
-/

set_option linter.unusedSectionVars false
set_option linter.unusedSimpArgs false

namespace DOA.Props
open DOA DOA.Spec DOA.Hull DOA.Ellipsoid DOA.Modulation

/-- Twice the oriented area of the triangle spanned by two vectors seen from above: positive when `v` is to the left
of `u`. -/
def turn (u v : V3 ℝ) : ℝ := u.x * v.y - u.y * v.x

/-- The modulation matrix of an obstacle of any kind with identity orientation whose normal is perpendicular to the
chord `w`, in the plane of the reference point. -/
theorem chord_matrix (h : Heap ℝ) (a : Agent ℝ) (o : Obj ℝ) (c w : V3 ℝ) (d : ℝ)
    (hor : o.base.pose.orientation = Quat.one) (href : o.base.refPos = some c)
    (hn : h.normalToAgent o a.state.position a.margin = .ok ⟨-w.y, w.x, 0⟩)
    (hd : h.distanceToAgent o a.state.position a.margin = .ok d) (hpos : 0 < d)
    (hz : a.state.position.z = c.z) (hw : w.z = 0) (hlong : 1 / 10000 ≤ w.norm)
    (hs : turn (a.state.position - c) w ≠ 0) :
    ∃ M B, modulationMatrix h a o = .ok (M, B, d) ∧ ∀ v : V3 ℝ, v.z = 0 →
      M.mulVec v =
        V3.smul (max 0 (1 - 1 / d) * (turn v w / turn (a.state.position - c) w)) (a.state.position - c) +
        V3.smul ((1 + min 1 (1 / d)) * (turn (a.state.position - c) v / turn (a.state.position - c) w)) w := by
  generalize hx : a.state.position = x at *
  have hr0 : x - c ≠ V3.zero := by
    intro h0
    rw [h0] at hs
    simp [turn, V3.zero] at hs
  have hnorm := V3.norm_pos hr0
  have hdir : referenceDirection o.base.pose x c = V3.smul (1 / (x - c).norm) (x - c) := by
    unfold referenceDirection
    rw [inverse_apply_one hor, inverse_apply_one hor]
    have : x - o.base.pose.position - (c - o.base.pose.position) = x - c := by
      ext <;> simp only [V3.sub_x, V3.sub_y, V3.sub_z] <;> ring
    rw [this]
    unfold V3.normalized
    have hsq : 0 < (x - c).sqNorm := by
      have := V3.norm_pos hr0
      by_contra hneg
      have h0 : (x - c).norm = 0 := by
        simp only [V3.norm, sqrt_real]; exact Real.sqrt_eq_zero_of_nonpos (not_lt.mp hneg)
      linarith
    rw [if_pos hsq]
    show V3.sdiv (x - c) (x - c).norm = _
    ext <;> simp only [V3.sdiv, V3.smul] <;> ring
  have ht : tangentVector (⟨-w.y, w.x, 0⟩ : V3 ℝ) = w := by
    unfold tangentVector
    have hc : V3.cross (⟨-w.y, w.x, 0⟩ : V3 ℝ) V3.unitZ = w := by
      ext <;> simp [V3.cross, V3.unitZ, hw]
    simp only [hc]
    rw [if_neg]
    simp only [lit_real]
    push_cast
    linarith
  set b := referenceBasis (⟨-w.y, w.x, 0⟩ : V3 ℝ) (referenceDirection o.base.pose x c) with hb
  refine ⟨modulationProduct o.base.orientation b (diagonalEigenvalues d 1), orthogonalBasis ⟨-w.y, w.x, 0⟩, ?_, ?_⟩
  · simp [modulationMatrix, hx, hn, hd, basisMatrices, Base.ref, href, hb]
  intro v hv
  have hrz : (x - c).z = 0 := by simp only [V3.sub_z, hz, sub_self]
  have hdet : b.det ≠ 0 := by
    rw [hb, det_referenceBasis, ht, hdir]
    have : V3.cross w (V3.smul (1 / (x - c).norm) (x - c)) = ⟨0, 0, -(1 / (x - c).norm * turn (x - c) w)⟩ := by
      ext <;> simp only [V3.cross, V3.smul, hw, hrz, turn] <;> ring
    rw [this]
    simp only [V3.sqNorm, V3.dot]
    have h1 : 1 / (x - c).norm ≠ 0 := by positivity
    have h2 := mul_ne_zero h1 hs
    intro h0
    apply h2
    nlinarith
  have hq : o.base.orientation = Quat.one := hor
  rw [hq]
  have hrot : v = Quat.one.rotate v := (Quat.rotate_one v).symm
  rw [hrot, modulationProduct_frame Quat.isUnit_one, Quat.rotate_one, ← hrot]
  have hv' : v = b.mulVec ⟨turn v w / turn (x - c) w * (x - c).norm, turn (x - c) v / turn (x - c) w, 0⟩ := by
    rw [hb]
    simp only [referenceBasis, M3.mulVec_cols, ht, hdir]
    ext
    · simp only [V3.smul, V3.add_x, V3.cross]
      field_simp
      simp only [turn]; ring
    · simp only [V3.smul, V3.add_y, V3.cross]
      field_simp
      simp only [turn]; ring
    · simp only [V3.smul, V3.add_z, V3.cross, hw, hrz, hv]; ring
  conv_lhs => rw [hv']
  rw [frameAct_col hdet, diag_eq d hpos, hb]
  simp only [referenceBasis, M3.mulVec_cols, ht, hdir, M3.had]
  have hn0 := hnorm.ne'
  ext
  · simp only [V3.smul, V3.add_x, V3.cross]; field_simp; ring
  · simp only [V3.smul, V3.add_y, V3.cross]; field_simp; ring
  · simp only [V3.smul, V3.add_z, V3.cross]; field_simp; ring

/-! ### Which side of the surface a short step leads to -/

theorem lowerBoundLoop_congr (l : List ℝ) (v v' : ℝ) (h : ∀ w ∈ l, (w < v ↔ w < v')) : ∀ fuel first count,
    MathTools.lowerBoundLoop l v fuel first count = MathTools.lowerBoundLoop l v' fuel first count := by
  intro fuel
  induction fuel with
  | zero => intro first count; rfl
  | succ fuel ih =>
    intro first count
    unfold MathTools.lowerBoundLoop
    by_cases hc : count = 0
    · simp only [hc, if_true]
    · simp only [hc, if_false]
      cases hm : l[first + count / 2]? with
      | none => rfl
      | some m =>
        have := h m (List.mem_of_getElem? hm)
        simp only [this, ih]

/-- The direction in which a point is seen from the centre of the hull is not that of a column, nor opposite to the x
axis. -/
def BetweenColumns (k : Hull ℝ) (x : V3 ℝ) : Prop :=
  ((x - k.base.position).y ≠ 0 ∨ 0 < (x - k.base.position).x) ∧
    ∀ q ∈ k.polar, q.z ≠ (⟨(x - k.base.position).x, (x - k.base.position).y⟩ : ℂ).arg

theorem column_eventually (k : Hull ℝ) (hor : k.base.pose.orientation = Quat.one) (x u : V3 ℝ)
    (hx : BetweenColumns k x) : ∀ᶠ s in nhds (0 : ℝ), k.column (x + V3.smul s u) = k.column x := by
  obtain ⟨hslit, hoff⟩ := hx
  have hang : ∀ y, (MathTools.cartesianToPolar (k.base.pose.inverse.apply y)).z =
      (⟨(y - k.base.position).x, (y - k.base.position).y⟩ : ℂ).arg := by
    intro y
    rw [inverse_apply_one hor]
    rfl
  set f : ℝ → ℂ := fun s => ⟨(x + V3.smul s u - k.base.position).x, (x + V3.smul s u - k.base.position).y⟩ with hf
  have hf0 : f 0 = ⟨(x - k.base.position).x, (x - k.base.position).y⟩ := by
    simp [hf, V3.smul]
  have hfc : Continuous f := by
    have : f = fun s : ℝ => (⟨(x - k.base.position).x, (x - k.base.position).y⟩ : ℂ) + (s : ℂ) * ⟨u.x, u.y⟩ := by
      funext s
      apply Complex.ext <;> simp [hf, V3.smul] <;> ring
    rw [this]
    fun_prop
  have hsp : f 0 ∈ Complex.slitPlane := by
    rw [hf0, Complex.mem_slitPlane_iff]
    exact hslit.symm
  have hcont : ContinuousAt (fun s => (f s).arg) 0 := (Complex.continuousAt_arg hsp).comp hfc.continuousAt
  have hev : ∀ᶠ s in nhds (0 : ℝ), ∀ w ∈ k.polar.map (·.z), (w < (f s).arg ↔ w < (f 0).arg) := by
    have : ∀ l : List ℝ, (∀ w ∈ l, w ≠ (f 0).arg) →
        ∀ᶠ s in nhds (0 : ℝ), ∀ w ∈ l, (w < (f s).arg ↔ w < (f 0).arg) := by
      intro l
      induction l with
      | nil => intro _; simp
      | cons w l ih =>
        intro hl
        have h1 := ih fun w' hw' => hl w' (List.mem_cons_of_mem _ hw')
        have h2 : ∀ᶠ s in nhds (0 : ℝ), (w < (f s).arg ↔ w < (f 0).arg) := by
          rcases lt_or_gt_of_ne (hl w List.mem_cons_self) with hlt | hgt
          · filter_upwards [hcont.eventually_const_lt hlt] with s hs
            exact ⟨fun _ => hlt, fun _ => hs⟩
          · filter_upwards [hcont.eventually_lt_const hgt] with s hs
            exact ⟨fun h => absurd h (not_lt.mpr hs.le), fun h => absurd h (not_lt.mpr hgt.le)⟩
        filter_upwards [h1, h2] with s hs1 hs2
        intro w' hw'
        rcases List.mem_cons.mp hw' with rfl | hw'
        · exact hs2
        · exact hs1 w' hw'
    apply this
    intro w hw
    obtain ⟨q, hq, rfl⟩ := List.mem_map.mp hw
    rw [hf0]
    exact hoff q hq
  filter_upwards [hev] with s hs
  unfold Hull.column
  rw [hang, hang]
  unfold MathTools.lowerBound
  rw [← hf0]
  exact lowerBoundLoop_congr _ _ _ hs _ _ _

theorem inside_value (k : Hull ℝ) (hor : k.base.pose.orientation = Quat.one) (x q : V3 ℝ)
    (hq : k.polar[k.column x]? = some q) : k.pointIsInside x = .ok (decide ((x - k.base.position).norm < q.x)) := by
  have hne : k.polar ≠ [] := by
    intro he
    rw [he] at hq
    simp at hq
  unfold Hull.pointIsInside
  rw [closest_eq hne x, Res.ok_bind]
  simp only [Res.index, hq, Res.ok_bind, polar_radius, inverse_apply_one hor]
  rfl

theorem sqNorm_step (r u : V3 ℝ) (s : ℝ) :
    (r + V3.smul s u).sqNorm = r.sqNorm + s * (2 * V3.dot r u + s * u.sqNorm) := by
  simp only [V3.sqNorm, V3.dot, V3.smul, V3.add_x, V3.add_y, V3.add_z]; ring

/-- From a point on the surface of a hull, a velocity with a part towards the centre leads inside at once, one with a
part away from the centre outside. -/
theorem surface_step (k : Hull ℝ) (hor : k.base.pose.orientation = Quat.one) (x q u : V3 ℝ)
    (hx : BetweenColumns k x) (hq : k.polar[k.column x]? = some q) (hsurf : (x - k.base.position).norm = q.x) :
    (V3.dot (x - k.base.position) u < 0 →
      ∀ᶠ s in nhdsWithin (0 : ℝ) (Set.Ioi 0), k.pointIsInside (x + V3.smul s u) = .ok true) ∧
    (0 < V3.dot (x - k.base.position) u →
      ∀ᶠ s in nhdsWithin (0 : ℝ) (Set.Ioi 0), k.pointIsInside (x + V3.smul s u) = .ok false) := by
  have hcol := (column_eventually k hor x u hx).filter_mono (nhdsWithin_le_nhds (s := Set.Ioi 0))
  have hmove : ∀ s, x + V3.smul s u - k.base.position = (x - k.base.position) + V3.smul s u := by
    intro s
    ext <;> simp only [V3.sub_x, V3.sub_y, V3.sub_z, V3.add_x, V3.add_y, V3.add_z] <;> ring
  have hval : ∀ s, k.column (x + V3.smul s u) = k.column x → k.pointIsInside (x + V3.smul s u) =
      .ok (decide (((x - k.base.position) + V3.smul s u).norm < (x - k.base.position).norm)) := by
    intro s hs
    rw [inside_value k hor _ q (by rw [hs]; exact hq), hmove, hsurf]
  generalize x - k.base.position = r at *
  have hlt : ∀ y : V3 ℝ, y.norm < r.norm ↔ y.sqNorm < r.sqNorm := by
    intro y
    simp only [V3.norm, sqrt_real]
    exact Real.sqrt_lt_sqrt_iff (by simp only [V3.sqNorm, V3.dot]; nlinarith [sq_nonneg y.x, sq_nonneg y.y, sq_nonneg y.z])
  have hc : Continuous fun s : ℝ => 2 * V3.dot r u + s * u.sqNorm := by fun_prop
  have hc0 : Filter.Tendsto (fun s : ℝ => 2 * V3.dot r u + s * u.sqNorm) (nhdsWithin 0 (Set.Ioi 0))
      (nhds (2 * V3.dot r u)) := by
    have := (hc.tendsto 0).mono_left (nhdsWithin_le_nhds (s := Set.Ioi 0))
    simpa using this
  refine ⟨fun hneg => ?_, fun hpos => ?_⟩
  · filter_upwards [hcol, hc0.eventually_lt_const (show 2 * V3.dot r u < 0 by linarith), self_mem_nhdsWithin]
      with s h1 h2 h3
    rw [hval s h1, decide_eq_true]
    rw [hlt, sqNorm_step]
    have h3' : 0 < s := h3
    nlinarith
  · filter_upwards [hcol, hc0.eventually_const_lt (show 0 < 2 * V3.dot r u by linarith), self_mem_nhdsWithin]
      with s h1 h2 h3
    rw [hval s h1, decide_eq_false]
    rw [hlt, sqNorm_step]
    have h3' : 0 < s := h3
    nlinarith

/-! ### C82 -/

/-- A hull as the code leaves it: identity orientation, its centre as reference point, all surface points at the height
of the centre, positive radii. -/
structure FlatHull (k : Hull ℝ) : Prop where
  ok : HullOK k
  orient : k.base.pose.orientation = Quat.one
  ref : k.base.refPos = some k.base.position
  height : ∀ s ∈ k.cart, s.z = k.base.position.z
  pos : ∀ q ∈ k.polar, 0 < q.x

/-- The chord the normal at `x` is perpendicular to. -/
def IsChord (k : Hull ℝ) (x w : V3 ℝ) : Prop :=
  ∃ s1 s2, k.cart[k.column x]? = some s1 ∧ k.cart[(k.column x + 1) % k.cart.length]? = some s2 ∧ w = s2 - s1

theorem chord_of (k : Hull ℝ) (hk : FlatHull k) (x : V3 ℝ) {b : Bool} (hb : k.pointIsInside x = .ok b) :
    ∃ w, IsChord k x w ∧ w.z = 0 ∧ k.normalToAgent x = .ok ⟨-w.y, w.x, 0⟩ := by
  obtain ⟨N, s1, s2, h1, h2, h3, -, hz, hx, hy⟩ := hull_normal k hk.ok x hb
  refine ⟨s2 - s1, ⟨s1, s2, h2, h3, rfl⟩, ?_, ?_⟩
  · simp only [V3.sub_z]
    rw [hk.height s1 (List.mem_of_getElem? h2), hk.height s2 (List.mem_of_getElem? h3), sub_self]
  · rw [h1]
    congr 1
    ext
    · rw [hx]; simp only [V3.sub_y]; ring
    · rw [hy]; simp only [V3.sub_x]; ring
    · rw [hz]

theorem chord_unique {k : Hull ℝ} {x w w' : V3 ℝ} (h : IsChord k x w) (h' : IsChord k x w') : w = w' := by
  obtain ⟨s1, s2, h1, h2, rfl⟩ := h
  obtain ⟨t1, t2, h1', h2', rfl⟩ := h'
  rw [h1] at h1'; rw [h2] at h2'
  cases h1'; cases h2'; rfl

/-- C82, what does hold: for a hull of either kind, the part of the velocity across the chord between the two surface
points the code picks is scaled by `1 - 1/d`, and vanishes where the distance is at most 1.
Full statement (false, see `C82_negation`): the part of the velocity through the *surface* vanishes there. -/
theorem C82_chord_partial (h : Heap ℝ) (a : Agent ℝ) (k : Hull ℝ) (hk : FlatHull k) (w : V3 ℝ) (b : Bool)
    (hb : k.pointIsInside a.state.position = .ok b) (hw : IsChord k a.state.position w)
    (hz : a.state.position.z = k.base.position.z) (hlong : 1 / 10000 ≤ w.norm)
    (hs : turn (a.state.position - k.base.position) w ≠ 0) :
    ∃ M B d, modulationMatrix h a (.hull k) = .ok (M, B, d) ∧
      k.distanceToPoint a.state.position (V3.const a.margin) = .ok d ∧ 0 < d ∧
      ∀ v : V3 ℝ, v.z = 0 → turn (M.mulVec v) w = max 0 (1 - 1 / d) * turn v w := by
  obtain ⟨w', hw', hwz, hn⟩ := chord_of k hk _ hb
  have := chord_unique hw' hw
  subst this
  obtain ⟨s, hsm, hcol, -, hd⟩ := hull_distance_eq k hk.ok a.state.position (V3.const a.margin) hb
  have hspos := hk.pos s hsm
  have hr0 : a.state.position - k.base.position ≠ V3.zero := by
    intro h0
    rw [h0] at hs
    simp [turn, V3.zero] at hs
  have hnorm := V3.norm_pos hr0
  rw [inverse_apply_one hk.orient] at hd
  change k.distanceToPoint _ _ = .ok (if k.isInside then s.x / (a.state.position - k.base.position).norm
    else (a.state.position - k.base.position).norm / s.x) at hd
  generalize hdd : (if k.isInside then s.x / (a.state.position - k.base.position).norm
    else (a.state.position - k.base.position).norm / s.x) = d at hd
  have hpos : 0 < d := by
    rw [← hdd]
    split <;> positivity
  obtain ⟨M, B, hM, hv⟩ := chord_matrix h a (.hull k) k.base.position w' d hk.orient hk.ref hn hd hpos hz hwz hlong hs
  refine ⟨M, B, d, hM, hd, hpos, fun v hvz => ?_⟩
  rw [hv v hvz]
  generalize a.state.position - k.base.position = r at *
  have : turn (V3.smul (max 0 (1 - 1 / d) * (turn v w' / turn r w')) r +
      V3.smul ((1 + min 1 (1 / d)) * (turn r v / turn r w')) w') w' =
      max 0 (1 - 1 / d) * (turn v w' / turn r w') * turn r w' := by
    generalize max 0 (1 - 1 / d) * (turn v w' / turn r w') = A
    generalize (1 + min 1 (1 / d)) * (turn r v / turn r w') = C
    simp only [turn, V3.smul, V3.add_x, V3.add_y]; ring
  rw [this, mul_assoc, div_mul_cancel₀ _ hs]

theorem abs_dot_le_norm (u v : V3 ℝ) : |V3.dot u v| ≤ u.norm * v.norm := by
  rw [abs_le]
  refine ⟨?_, V3.dot_le_norm u v⟩
  have h1 := V3.dot_le_norm (-u) v
  have h2 : (-u).norm = u.norm := by
    simp only [V3.norm, V3.sqNorm, V3.dot, V3.neg_x, V3.neg_y, V3.neg_z]; congr 1; ring
  have h3 : V3.dot (-u) v = -V3.dot u v := by
    simp only [V3.dot, V3.neg_x, V3.neg_y, V3.neg_z]; ring
  rw [h2, h3] at h1
  linarith

/-- The output points to the side the exact vector points to. -/
theorem side_of_output {r u out : V3 ℝ} {ε : ℝ} (h : V3.norm (out - u) ≤ ε * V3.norm u)
    (hr : ε * (r.norm * u.norm) < |V3.dot r u|) :
    (V3.dot r u < 0 → V3.dot r out < 0) ∧ (0 < V3.dot r u → 0 < V3.dot r out) := by
  have h1 : V3.dot r out = V3.dot r u + V3.dot r (out - u) := by
    simp only [V3.dot, V3.sub_x, V3.sub_y, V3.sub_z]; ring
  have h2 : |V3.dot r (out - u)| ≤ r.norm * (out - u).norm := abs_dot_le_norm _ _
  have h3 : r.norm * (out - u).norm ≤ r.norm * (ε * u.norm) := mul_le_mul_of_nonneg_left h (V3.norm_nonneg _)
  have h4 : |V3.dot r (out - u)| < |V3.dot r u| := by
    calc |V3.dot r (out - u)| ≤ r.norm * (ε * u.norm) := h2.trans h3
      _ = ε * (r.norm * u.norm) := by ring
      _ < _ := hr
  rw [h1]
  rw [abs_lt] at h4
  refine ⟨fun hn => ?_, fun hp => ?_⟩
  · rw [abs_of_neg hn] at h4; linarith [h4.2]
  · rw [abs_of_pos hp] at h4; linarith [h4.1]

/-- The output at distance 1: along the chord, and so to one side of the tangent to the circle about the centre. -/
theorem output_at_surface (h : Heap ℝ) (a : Agent ℝ) (e : Env) (loc : Bool) (critical power : ℝ) (p : Ptr) (o : Obj ℝ)
    (c w : V3 ℝ) (hl : e.list = [p]) (hp : h[p]? = some o) (hst : Static o) (hsight : InSight h a e loc)
    (hor : o.base.pose.orientation = Quat.one) (href : o.base.refPos = some c)
    (hn : h.normalToAgent o a.state.position a.margin = .ok ⟨-w.y, w.x, 0⟩)
    (hd : h.distanceToAgent o a.state.position a.margin = .ok 1)
    (hz : a.state.position.z = c.z) (hw : w.z = 0) (hlong : 1 / 10000 ≤ w.norm)
    (hvz : a.state.linearVelocity.z = 0) (hs : turn (a.state.position - c) w ≠ 0)
    (hside : 1 / 10 ^ 8 * ((a.state.position - c).norm * w.norm) < |V3.dot (a.state.position - c) w|)
    (hv : turn (a.state.position - c) a.state.linearVelocity ≠ 0) :
    ∃ out, modulateVelocity h a e loc false false critical power = .ok (h, out) ∧
      (turn (a.state.position - c) a.state.linearVelocity * turn (a.state.position - c) w *
        V3.dot (a.state.position - c) w < 0 → V3.dot (a.state.position - c) out < 0) ∧
      (0 < turn (a.state.position - c) a.state.linearVelocity * turn (a.state.position - c) w *
        V3.dot (a.state.position - c) w → 0 < V3.dot (a.state.position - c) out) := by
  obtain ⟨M, B, hM, hMv⟩ := chord_matrix h a o c w 1 hor href hn hd one_pos hz hw hlong hs
  have hq : o.base.orientation.norm = 1 := by
    show o.base.pose.orientation.norm = 1
    rw [hor]; exact (Quat.isUnit_iff_norm _).mp Quat.isUnit_one
  obtain ⟨out, h1, -, h2⟩ := C39_single h a e loc critical power p o M B 1 hl hp hst hq hM hvz hsight
  refine ⟨out, h1, ?_⟩
  have hu : M.mulVec a.state.linearVelocity =
      V3.smul (2 * (turn (a.state.position - c) a.state.linearVelocity / turn (a.state.position - c) w)) w := by
    rw [hMv _ hvz]
    norm_num
    ext <;> simp [V3.smul]
  rw [hu] at h2
  generalize a.state.position - c = r at *
  generalize a.state.linearVelocity = v at *
  generalize hg : 2 * (turn r v / turn r w) = g at *
  have hg0 : g ≠ 0 := by
    rw [← hg]
    exact mul_ne_zero two_ne_zero (div_ne_zero hv hs)
  have hnorm : (V3.smul g w).norm = |g| * w.norm := V3.norm_smul _ _
  have hdot : V3.dot r (V3.smul g w) = g * V3.dot r w := by
    simp only [V3.dot, V3.smul]; ring
  have hgpos : 0 < |g| := abs_pos.mpr hg0
  have key := side_of_output h2 (r := r) (by
    rw [hnorm, hdot, abs_mul]
    calc 1 / 10 ^ 8 * (r.norm * (|g| * w.norm)) = |g| * (1 / 10 ^ 8 * (r.norm * w.norm)) := by ring
      _ < |g| * |V3.dot r w| := mul_lt_mul_of_pos_left hside hgpos)
  rw [hdot] at key
  have hsgn : g * (turn r w) ^ 2 = 2 * (turn r v * turn r w) := by
    rw [← hg]; field_simp
  have hsq : 0 < (turn r w) ^ 2 := by positivity
  refine ⟨fun hneg => key.1 ?_, fun hpos => key.2 ?_⟩
  · have : (turn r w) ^ 2 * (g * V3.dot r w) < 0 := by
      rw [show (turn r w) ^ 2 * (g * V3.dot r w) = g * (turn r w) ^ 2 * V3.dot r w by ring, hsgn]
      nlinarith
    by_contra hc
    rw [not_lt] at hc
    have := mul_nonneg hsq.le hc
    linarith
  · have : 0 < (turn r w) ^ 2 * (g * V3.dot r w) := by
      rw [show (turn r w) ^ 2 * (g * V3.dot r w) = g * (turn r w) ^ 2 * V3.dot r w by ring, hsgn]
      nlinarith
    exact (pos_iff_pos_of_mul_pos this).mp hsq

/-- C82 is false, for every hull of either kind and every point on its surface at which the chord used for the normal
is not perpendicular to the direction to the centre: with a velocity that turns to one side the result leads inside at
once, with a velocity that turns to the other side it leads outside at once.  (From outside the first is a collision; from
inside a room the second.) -/
theorem C82_negation (h : Heap ℝ) (a : Agent ℝ) (e : Env) (loc : Bool) (critical power : ℝ) (p : Ptr) (k : Hull ℝ)
    (hk : FlatHull k) (w q : V3 ℝ) (hl : e.list = [p]) (hp : h[p]? = some (.hull k)) (hst : Static (.hull k))
    (hsight : InSight h a e loc) (hx : BetweenColumns k a.state.position)
    (hq : k.polar[k.column a.state.position]? = some q) (hsurf : (a.state.position - k.base.position).norm = q.x)
    (hw : IsChord k a.state.position w) (hz : a.state.position.z = k.base.position.z) (hlong : 1 / 10000 ≤ w.norm)
    (hvz : a.state.linearVelocity.z = 0) (hs : turn (a.state.position - k.base.position) w ≠ 0)
    (hside : 1 / 10 ^ 8 * ((a.state.position - k.base.position).norm * w.norm) <
      |V3.dot (a.state.position - k.base.position) w|)
    (hv : turn (a.state.position - k.base.position) a.state.linearVelocity ≠ 0) :
    k.distanceToPoint a.state.position (V3.const a.margin) = .ok 1 ∧
    ∃ out, modulateVelocity h a e loc false false critical power = .ok (h, out) ∧
      (turn (a.state.position - k.base.position) a.state.linearVelocity * turn (a.state.position - k.base.position) w *
        V3.dot (a.state.position - k.base.position) w < 0 →
        ∀ᶠ s in nhdsWithin (0 : ℝ) (Set.Ioi 0), k.pointIsInside (a.state.position + V3.smul s out) = .ok true) ∧
      (0 < turn (a.state.position - k.base.position) a.state.linearVelocity *
        turn (a.state.position - k.base.position) w * V3.dot (a.state.position - k.base.position) w →
        ∀ᶠ s in nhdsWithin (0 : ℝ) (Set.Ioi 0), k.pointIsInside (a.state.position + V3.smul s out) = .ok false) := by
  have hb := inside_value k hk.orient _ q hq
  obtain ⟨w', hw', hwz, hn⟩ := chord_of k hk _ hb
  have := chord_unique hw' hw
  subst this
  obtain ⟨s, hsm, hcol, -, hd⟩ := hull_distance_eq k hk.ok a.state.position (V3.const a.margin) hb
  rw [hq] at hcol
  cases hcol
  have hd1 : k.distanceToPoint a.state.position (V3.const a.margin) = .ok 1 := by
    rw [hd, inverse_apply_one hk.orient]
    have hq0 := (hk.pos q hsm).ne'
    change Res.ok (if k.isInside then q.x / (a.state.position - k.base.position).norm
      else (a.state.position - k.base.position).norm / q.x) = _
    rw [hsurf, div_self hq0]
    simp
  obtain ⟨out, h1, h2, h3⟩ := output_at_surface h a e loc critical power p (.hull k) k.base.position w' hl hp hst hsight
    hk.orient hk.ref hn hd1 hz hwz hlong hvz hs hside hv
  obtain ⟨g1, g2⟩ := surface_step k hk.orient a.state.position q out hx hq hsurf
  exact ⟨hd1, out, h1, fun hneg => g1 (h2 hneg), fun hpos => g2 (h3 hpos)⟩

/-- C82 is false for aggregates seen from outside, too (without repulsion): on the surface of the outside hull, a
velocity that turns to one side leads into the aggregate at once. -/
theorem C82_negation_aggregate (h : Heap ℝ) (a : Agent ℝ) (e : Env) (loc : Bool) (critical power : ℝ) (p : Ptr)
    (g : Aggregate ℝ) (hg : Hulls g) (hk : FlatHull g.outside) (w q : V3 ℝ) (hl : e.list = [p])
    (hp : h[p]? = some (.aggregate g)) (hst : Static (.aggregate g)) (hsight : InSight h a e loc)
    (hor : g.base.pose.orientation = Quat.one) (href : g.base.refPos = some g.outside.base.position)
    (hout : h.pointIsInside (.aggregate g) a.state.position = .ok false)
    (hx : BetweenColumns g.outside a.state.position)
    (hq : g.outside.polar[g.outside.column a.state.position]? = some q)
    (hsurf : (a.state.position - g.outside.base.position).norm = q.x)
    (hw : IsChord g.outside a.state.position w) (hz : a.state.position.z = g.outside.base.position.z)
    (hlong : 1 / 10000 ≤ w.norm) (hvz : a.state.linearVelocity.z = 0)
    (hs : turn (a.state.position - g.outside.base.position) w ≠ 0)
    (hside : 1 / 10 ^ 8 * ((a.state.position - g.outside.base.position).norm * w.norm) <
      |V3.dot (a.state.position - g.outside.base.position) w|)
    (hv : turn (a.state.position - g.outside.base.position) a.state.linearVelocity *
      turn (a.state.position - g.outside.base.position) w * V3.dot (a.state.position - g.outside.base.position) w < 0) :
    ∃ out, modulateVelocity h a e loc false false critical power = .ok (h, out) ∧
      ∀ᶠ s in nhdsWithin (0 : ℝ) (Set.Ioi 0),
        h.pointIsInside (.aggregate g) (a.state.position + V3.smul s out) = .ok true := by
  have hb := inside_value g.outside hk.orient _ q hq
  obtain ⟨w', hw', hwz, hn⟩ := chord_of g.outside hk _ hb
  have := chord_unique hw' hw
  subst this
  obtain ⟨d, s, hd, hcol, -, hds⟩ := (C78_distance h g hg a.state.position (V3.const a.margin) false hout).1 rfl
  rw [hq] at hcol
  cases hcol
  rw [inverse_apply_one hk.orient] at hds
  change d * q.x = (a.state.position - g.outside.base.position).norm at hds
  have hq0 := hk.pos q (List.mem_of_getElem? hq)
  have hd1 : d = 1 := by
    rw [hsurf] at hds
    nlinarith
  subst hd1
  have hn' : h.normalToAgent (.aggregate g) a.state.position a.margin = .ok ⟨-w'.y, w'.x, 0⟩ := by
    simp [Heap.normalToAgent, hout, hn]
  have hv0 : turn (a.state.position - g.outside.base.position) a.state.linearVelocity ≠ 0 := by
    intro h0
    rw [h0] at hv
    simp at hv
  obtain ⟨out, h1, h2, -⟩ := output_at_surface h a e loc critical power p (.aggregate g) g.outside.base.position w' hl hp
    hst hsight hor href hn' hd hz hwz hlong hvz hs hside hv0
  refine ⟨out, h1, ?_⟩
  filter_upwards [(surface_step g.outside hk.orient a.state.position q out hx hq hsurf).1 (h2 hv)] with t ht
  unfold Heap.pointIsInside
  rw [show h.fuel = h.length + 1 from rfl, Heap.pointIsInsideAux, ht, Res.ok_bind, if_pos rfl]

/-- The direction with angle `f` seen from above. -/
noncomputable def ray (f : ℝ) : V3 ℝ := ⟨Real.cos f, Real.sin f, 0⟩

/-- C82 is false at every point of the surface where the hull is round: the code takes the chord *after* the one the agent
is in front of, so every velocity that turns counterclockwise about the centre leads inside at once. -/
theorem C82_negation_round (h : Heap ℝ) (a : Agent ℝ) (e : Env) (loc : Bool) (critical power : ℝ) (p : Ptr) (k : Hull ℝ)
    (hk : FlatHull k) (hl : e.list = [p]) (hp : h[p]? = some (.hull k)) (hst : Static (.hull k))
    (hsight : InSight h a e loc) (R f f1 f2 : ℝ) (hR : 0 < R) (y1 y2 : ℝ)
    (hx : BetweenColumns k a.state.position) (hpos : a.state.position = k.base.position + V3.smul R (ray f))
    (hq : k.polar[k.column a.state.position]? = some ⟨R, y1, y2⟩)
    (h1 : k.cart[k.column a.state.position]? = some (k.base.position + V3.smul R (ray f1)))
    (h2 : k.cart[(k.column a.state.position + 1) % k.cart.length]? = some (k.base.position + V3.smul R (ray f2)))
    (hf1 : f ≤ f1) (hf12 : f1 < f2) (hf2 : f2 - f ≤ Real.pi / 2) (hfar : 1 / 10 ^ 7 ≤ f2 - f)
    (hlong : 1 / 10000 ≤ (V3.smul R (ray f2) - V3.smul R (ray f1)).norm)
    (hvz : a.state.linearVelocity.z = 0)
    (hv : 0 < turn (a.state.position - k.base.position) a.state.linearVelocity) :
    ∃ out, modulateVelocity h a e loc false false critical power = .ok (h, out) ∧
      ∀ᶠ s in nhdsWithin (0 : ℝ) (Set.Ioi 0), k.pointIsInside (a.state.position + V3.smul s out) = .ok true := by
  have hr : a.state.position - k.base.position = V3.smul R (ray f) := by
    rw [hpos]; ext <;> simp only [V3.sub_x, V3.sub_y, V3.sub_z, V3.add_x, V3.add_y, V3.add_z] <;> ring
  have hnr : ∀ g, (V3.smul R (ray g)).norm = R := by
    intro g
    rw [V3.norm_smul, abs_of_pos hR, show (ray g).norm = 1 by
      rw [V3.norm_eq_one_iff]; simp only [ray, V3.sqNorm, V3.dot]; nlinarith [Real.sin_sq_add_cos_sq g], mul_one]
  set w := V3.smul R (ray f2) - V3.smul R (ray f1) with hwdef
  have hw : IsChord k a.state.position w := ⟨_, _, h1, h2, by
    rw [hwdef]; ext <;> simp only [V3.sub_x, V3.sub_y, V3.sub_z, V3.add_x, V3.add_y, V3.add_z] <;> ring⟩
  have hz : a.state.position.z = k.base.position.z := by
    rw [hpos]; simp [ray, V3.smul]
  -- half angles: the chord spans `2 β`, its middle is `m` away
  obtain ⟨m, hm⟩ : ∃ m, m = (f1 + f2) / 2 - f := ⟨_, rfl⟩
  obtain ⟨β, hβ⟩ : ∃ β, β = (f2 - f1) / 2 := ⟨_, rfl⟩
  have hβ0 : 0 < β := by rw [hβ]; linarith
  have hm0 : β ≤ m := by rw [hβ, hm]; linarith
  have hmb : m + β ≤ Real.pi / 2 := by rw [hβ, hm]; linarith
  have hmf : 1 / 10 ^ 7 ≤ m + β := by rw [hβ, hm]; linarith
  have hsinβ : 0 < Real.sin β := Real.sin_pos_of_pos_of_lt_pi hβ0 (by linarith [Real.pi_pos])
  have hsinm : 1 / 10 ^ 8 < Real.sin m := by
    have h3 : 2 / Real.pi * m ≤ Real.sin m := Real.mul_le_sin (by linarith) (by linarith)
    have h4 : 1 / 2 ≤ 2 / Real.pi := by
      rw [div_le_div_iff₀ two_pos Real.pi_pos]; linarith [Real.pi_le_four]
    have h5 : 1 / (2 * 10 ^ 7) ≤ m := by norm_num at hmf ⊢; linarith
    have h6 : 1 / 2 * m ≤ 2 / Real.pi * m := mul_le_mul_of_nonneg_right h4 (by linarith)
    norm_num at h5 ⊢
    linarith
  have hcosm : 0 < Real.cos m := Real.cos_pos_of_mem_Ioo ⟨by linarith [Real.pi_pos], by linarith⟩
  have e1 : f1 - f = m - β := by rw [hm, hβ]; ring
  have e2 : f2 - f = m + β := by rw [hm, hβ]; ring
  have hturn : turn (V3.smul R (ray f)) w = R ^ 2 * (2 * Real.cos m * Real.sin β) := by
    have : turn (V3.smul R (ray f)) w = R ^ 2 * (Real.sin (f2 - f) - Real.sin (f1 - f)) := by
      rw [hwdef]
      simp only [turn, ray, V3.smul, V3.sub_x, V3.sub_y, Real.sin_sub]; ring
    rw [this, e1, e2, Real.sin_add, Real.sin_sub]; ring
  have hdot : V3.dot (V3.smul R (ray f)) w = -(R ^ 2 * (2 * Real.sin m * Real.sin β)) := by
    have : V3.dot (V3.smul R (ray f)) w = R ^ 2 * (Real.cos (f2 - f) - Real.cos (f1 - f)) := by
      rw [hwdef]
      simp only [V3.dot, ray, V3.smul, V3.sub_x, V3.sub_y, V3.sub_z, Real.cos_sub]; ring
    rw [this, e1, e2, Real.cos_add, Real.cos_sub]; ring
  have hnw : w.norm = R * (2 * Real.sin β) := by
    have hsq : w.sqNorm = (R * (2 * Real.sin β)) ^ 2 := by
      have : w.sqNorm = R ^ 2 * (2 - 2 * Real.cos (f2 - f1)) := by
        rw [hwdef]
        simp only [V3.sqNorm, V3.dot, ray, V3.smul, V3.sub_x, V3.sub_y, V3.sub_z, Real.cos_sub]
        have a1 := Real.sin_sq_add_cos_sq f1
        have a2 := Real.sin_sq_add_cos_sq f2
        linear_combination R ^ 2 * a1 + R ^ 2 * a2
      rw [this, show f2 - f1 = 2 * β by rw [hβ]; ring, Real.cos_two_mul]
      have := Real.sin_sq_add_cos_sq β
      linear_combination (-4 * R ^ 2) * this
    simp only [V3.norm, sqrt_real, hsq]
    exact Real.sqrt_sq (by positivity)
  have hR2 : 0 < R ^ 2 := by positivity
  obtain ⟨-, out, g1, g2, -⟩ := C82_negation h a e loc critical power p k hk w _ hl hp hst hsight hx hq
    (by rw [hr, hnr]) hw hz hlong hvz (by rw [hr, hturn]; positivity) (by
      rw [hr, hnr, hnw, hdot, abs_neg, abs_of_pos (by have : 0 < Real.sin m := by linarith [show (0:ℝ) < 1 / 10 ^ 8 by norm_num]
                                                      positivity)]
      have : R ^ 2 * (2 * Real.sin m * Real.sin β) - 1 / 10 ^ 8 * (R * (R * (2 * Real.sin β))) =
          (R ^ 2 * (2 * Real.sin β)) * (Real.sin m - 1 / 10 ^ 8) := by ring
      have : 0 < (R ^ 2 * (2 * Real.sin β)) * (Real.sin m - 1 / 10 ^ 8) := by
        apply mul_pos (by positivity); linarith
      linarith) hv.ne'
  refine ⟨out, g1, g2 ?_⟩
  rw [hr] at hv ⊢
  rw [hturn, hdot]
  have hs0 : 0 < Real.sin m := by linarith [show (0:ℝ) < 1 / 10 ^ 8 by norm_num]
  have : 0 < turn (V3.smul R (ray f)) a.state.linearVelocity * (R ^ 2 * (2 * Real.cos m * Real.sin β)) *
      (R ^ 2 * (2 * Real.sin m * Real.sin β)) := by positivity
  linarith

/-! ### A concrete case -/

/-- A round hull of radius 1 about the origin with two surface points, at the angles 0 and 1. -/
noncomputable def wheel : Hull ℝ :=
  { disc false 1 with base := Base.mkRef "wheel" (State.ofPosition V3.zero) V3.zero V3.zero }

theorem wheel_flat : FlatHull wheel := by
  refine ⟨⟨by norm_num [wheel, disc], rfl, rfl⟩, rfl, rfl, ?_, ?_⟩
  · intro s hs
    simp only [wheel, disc, List.mem_cons, List.not_mem_nil, or_false] at hs
    rcases hs with rfl | rfl <;> rfl
  · intro q hq
    simp only [wheel, disc, List.mem_cons, List.not_mem_nil, or_false] at hq
    rcases hq with rfl | rfl <;> norm_num

theorem wheel_arg : (⟨(ray (-1 / 4) - wheel.base.position).x, (ray (-1 / 4) - wheel.base.position).y⟩ : ℂ).arg = -1 / 4 := by
  have hc : (⟨(ray (-1 / 4) - wheel.base.position).x, (ray (-1 / 4) - wheel.base.position).y⟩ : ℂ) =
      ((1 : ℝ) : ℂ) * (Complex.cos ((-1 / 4 : ℝ) : ℂ) + Complex.sin ((-1 / 4 : ℝ) : ℂ) * Complex.I) := by
    rw [← Complex.ofReal_cos, ← Complex.ofReal_sin]
    apply Complex.ext <;>
      simp [-Complex.ofReal_cos, -Complex.ofReal_sin, ray, wheel, Base.position, Base.mkRef, State.ofPosition,
        State.position, Pose.ofPosition, V3.zero]
  rw [hc]
  exact Complex.arg_mul_cos_add_sin_mul_I one_pos ⟨by linarith [Real.two_le_pi], by linarith [Real.two_le_pi]⟩

theorem wheel_column : wheel.column (ray (-1 / 4)) = 0 := by
  rw [column, inverse_apply_one rfl]
  have := wheel_arg
  simp only [MathTools.cartesianToPolar, atan2_real]
  change MathTools.lowerBound _ (Complex.arg ⟨(ray (-1 / 4) - wheel.base.position).x, (ray (-1 / 4) - wheel.base.position).y⟩) = 0
  rw [this]
  norm_num [wheel, disc, MathTools.lowerBound, MathTools.lowerBoundLoop]

/-- An agent on the wheel, moving upwards to the right of it, is led into it. -/
example : ∃ out, modulateVelocity [.hull wheel] (agentAt (ray (-1 / 4)) ⟨0, 1, 0⟩) (envOf [0]) false false false 1 2 =
      .ok ([.hull wheel], out) ∧
    ∀ᶠ s in nhdsWithin (0 : ℝ) (Set.Ioi 0), wheel.pointIsInside (ray (-1 / 4) + V3.smul s out) = .ok true := by
  have hpi := Real.pi_gt_three
  have hcos : 0 < Real.cos (-1 / 4) := Real.cos_pos_of_mem_Ioo ⟨by linarith, by linarith⟩
  have hpos : (agentAt (ray (-1 / 4)) ⟨0, 1, 0⟩).state.position = ray (-1 / 4) := rfl
  refine C82_negation_round [.hull wheel] (agentAt (ray (-1 / 4)) ⟨0, 1, 0⟩) (envOf [0]) false 1 2 0 wheel wheel_flat rfl
    rfl ⟨rfl, rfl⟩ (by intro h; cases h) 1 (-1 / 4) 0 1 one_pos (Real.pi / 2) 0 ?_ ?_ ?_ ?_ ?_ (by norm_num) (by norm_num)
    (by linarith) (by norm_num) ?_ rfl ?_
  · refine ⟨Or.inr ?_, ?_⟩
    · rw [hpos]
      simpa [ray, wheel, Base.position, Base.mkRef, State.ofPosition, State.position, Pose.ofPosition, V3.zero] using hcos
    · intro q hq
      rw [hpos, wheel_arg]
      simp only [wheel, disc, List.mem_cons, List.not_mem_nil, or_false] at hq
      rcases hq with rfl | rfl <;> norm_num
  · rw [hpos]
    ext <;> simp [V3.smul, wheel, Base.position, Base.mkRef, State.ofPosition, State.position, Pose.ofPosition, V3.zero]
  · rw [hpos, wheel_column]; rfl
  · rw [hpos, wheel_column]
    simp [wheel, disc, ray, V3.smul, Base.position, Base.mkRef, State.ofPosition, State.position, Pose.ofPosition, V3.zero]
    ext <;> simp
  · rw [hpos, wheel_column]
    simp [wheel, disc, ray, V3.smul, Base.position, Base.mkRef, State.ofPosition, State.position, Pose.ofPosition, V3.zero]
    ext <;> simp
  · have h1 : (1 : ℝ) / 2 ≤ Real.sin 1 := by
      have := Real.mul_le_sin (x := 1) (by norm_num) (by linarith)
      have h4 : 1 / 2 ≤ 2 / Real.pi := by
        rw [div_le_div_iff₀ two_pos Real.pi_pos]; linarith [Real.pi_le_four]
      linarith
    have h2 := V3.dot_le_norm (⟨0, 1, 0⟩ : V3 ℝ) (V3.smul 1 (ray 1) - V3.smul 1 (ray 0))
    have h3 : V3.norm (⟨0, 1, 0⟩ : V3 ℝ) = 1 := by rw [V3.norm_eq_one_iff]; simp [V3.sqNorm, V3.dot]
    rw [h3, one_mul] at h2
    have h4 : V3.dot (⟨0, 1, 0⟩ : V3 ℝ) (V3.smul 1 (ray 1) - V3.smul 1 (ray 0)) = Real.sin 1 := by
      simp [V3.dot, ray, V3.smul]
    rw [h4] at h2
    linarith
  · rw [hpos]
    show 0 < turn _ (⟨0, 1, 0⟩ : V3 ℝ)
    simpa [turn, ray, wheel, Base.position, Base.mkRef, State.ofPosition, State.position, Pose.ofPosition, V3.zero] using hcos

end DOA.Props
