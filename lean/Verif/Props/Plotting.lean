import Verif.Model.Plotting
import Verif.Props.Total
import Verif.Props.Ellipsoid

/-!
# C71, C72, C73: what is drawn
-/

set_option linter.unusedSectionVars false
set_option linter.unusedSimpArgs false

namespace DOA.Props
open DOA DOA.Spec DOA.Plotting DOA.Modulation

section
variable {α : Type} [Add α] [Sub α] [Mul α] [Div α] [Neg α] [Zero α] [One α]
  [LE α] [LT α] [DecidableLE α] [DecidableLT α] [CMath α]

/-- The mark at the position (or the name written there) and the cross at the reference position. -/
def MarksOf (b : Base α) (color : String) (f : V3 α → α) (m : List (Cmd α)) : Prop :=
  ∃ r, b.refPos = some r ∧ ∃ c, m = [c, .plot [r.x] [f r] (color ++ "x")] ∧
    (b.name = "" → c = .plot [b.position.x] [f b.position] (color ++ "o")) ∧
    (b.name ≠ "" → c = .text b.position.x (f b.position) b.name)

theorem marks_ok {b : Base α} {r : V3 α} (hr : b.refPos = some r) (color : String) (f : V3 α → α) :
    ∃ m, marks b color f = .ok m ∧ MarksOf b color f m := by
  refine ⟨_, by simp only [marks, Base.ref, hr, Res.ok_bind]; rfl, r, hr, _, rfl, ?_, ?_⟩
  · intro h; rw [if_pos h]
  · intro h; rw [if_neg h]

theorem grid_ok (e : Ellipsoid α) : ∃ al : List α,
    MathTools.linspace (-CMath.pi / lit 2 1) (lit 3 1 * CMath.pi / lit 2 1 : α) 100 = .ok al ∧ al.length = 100 ∧
    al[0]? = some (-CMath.pi / lit 2 1 : α) ∧
    cells e = .ok (al.map fun theta => al.map fun phi => (e.base.pose.apply (param e.axis theta phi),
      e.base.pose.apply (param e.axis theta phi))) := by
  obtain ⟨al, h1, h2, h3, -⟩ := MathTools.linspace_ok (-CMath.pi / lit 2 1) (lit 3 1 * CMath.pi / lit 2 1 : α) 100 (by omega)
  exact ⟨al, h1, h2, h3, by simp only [cells, cell, h1, Res.ok_bind]⟩

/-- The commands for an ellipsoid, in both planes: the line twice (solid and dashed), then the marks. -/
theorem ellipsoid_cmds (e : Ellipsoid α) {r : V3 α} (hr : e.base.refPos = some r) (color : String) :
    ∃ al : List α, MathTools.linspace (-CMath.pi / lit 2 1) (lit 3 1 * CMath.pi / lit 2 1 : α) 100 = .ok al ∧
    (∃ m, MarksOf e.base color V3.y m ∧
      let pts := al.map fun phi => e.base.pose.apply (param e.axis (-CMath.pi / lit 2 1) phi)
      drawEllipsoid e color "xy" = .ok ([.plot (pts.map V3.x) (pts.map V3.y) (color ++ "-"),
        .plot (pts.map V3.x) (pts.map V3.y) (color ++ "--")] ++ m)) ∧
    (∃ m, MarksOf e.base color V3.z m ∧
      let pts := al.map fun theta => e.base.pose.apply (param e.axis theta (-CMath.pi / lit 2 1))
      drawEllipsoid e color "xz" = .ok ([.plot (pts.map V3.x) (pts.map V3.z) (color ++ "-"),
        .plot (pts.map V3.x) (pts.map V3.z) (color ++ "--")] ++ m)) := by
  obtain ⟨al, h1, h2, h3, h4⟩ := grid_ok e
  refine ⟨al, h1, ?_, ?_⟩
  · obtain ⟨m, hm, hM⟩ := marks_ok hr color V3.y
    refine ⟨m, hM, ?_⟩
    have hi : Res.index (al.map fun theta => al.map fun phi => e.base.pose.apply (param e.axis theta phi)) 0 =
        .ok (al.map fun phi => e.base.pose.apply (param e.axis (-CMath.pi / lit 2 1) phi)) := by
      simp [Res.index, h3]
    simp only [drawEllipsoid, h4, Res.ok_bind, List.map_map, Function.comp_def, if_true, hi, hm]
  · obtain ⟨m, hm, hM⟩ := marks_ok hr color V3.z
    refine ⟨m, hM, ?_⟩
    have hi : (al.map fun theta => al.map fun phi => e.base.pose.apply (param e.axis theta phi)).mapM
        (fun row => Res.index row 0) =
        .ok (al.map fun theta => e.base.pose.apply (param e.axis theta (-CMath.pi / lit 2 1))) := by
      rw [mapM_ok, List.forall₂_map_left_iff, List.forall₂_map_right_iff, List.forall₂_same]
      intro theta _
      simp [Res.index, h3]
    simp only [drawEllipsoid, h4, Res.ok_bind, List.map_map, Function.comp_def, if_neg (show ¬ ("xz" = "xy") by decide), if_true, hi, hm]

end

/-! ## C71 the outline -/

theorem alpha_real : ∃ al : List ℝ,
    MathTools.linspace (-CMath.pi / lit 2 1) (lit 3 1 * CMath.pi / lit 2 1 : ℝ) 100 = .ok al ∧ al.length = 100 ∧
    ∀ i : ℕ, i < 100 → al[i]? = some (2 * Real.pi * i / 99 - Real.pi / 2) := by
  obtain ⟨l, h1, h2, h3, h4, h5⟩ := MathTools.linspace_ok (-CMath.pi / lit 2 1 : ℝ) (lit 3 1 * CMath.pi / lit 2 1) 100
    (by norm_num)
  refine ⟨l, h1, h2, fun i hi => ?_⟩
  have e100 : (100 : ℤ).toNat = 100 := rfl
  rw [e100] at h4 h5
  rcases Nat.eq_zero_or_pos i with rfl | hpos
  · rw [h3]; simp; ring
  · rcases Nat.lt_or_ge (i + 1) 100 with hlt | hge
    · rw [h5 i hpos hlt]
      simp only [MathTools.ofInt, lit_real, pi_real]
      congr 1
      push_cast
      ring
    · have hi' : i = 99 := by omega
      subst hi'
      rw [h4]
      simp only [lit_real, pi_real]
      congr 1
      push_cast
      ring

/-- C71 in the x-y plane: the solid line of an ellipsoid is a closed line through 100 equidistant parameter values of
the section of the ellipsoid with the plane z = 0 of its frame, full circle; then come the marks.
Full statement: the same in the plane "xz"; that is false, see `C71_negation_xz`. -/
theorem C71_outline_partial (e : Ellipsoid ℝ) {r : V3 ℝ} (hr : e.base.refPos = some r) (color : String) :
    ∃ (pts : List (V3 ℝ)) (dashed : Cmd ℝ) (m : List (Cmd ℝ)), drawEllipsoid e color "xy" =
      .ok ([.plot (pts.map V3.x) (pts.map V3.y) (color ++ "-"), dashed] ++ m) ∧ MarksOf e.base color V3.y m ∧
      pts.length = 100 ∧ pts[0]? = pts[99]? ∧
      ∀ i : ℕ, i < 100 → pts[i]? = some (e.base.pose.apply ⟨e.axis.x * Real.cos (Real.pi / 2 + 2 * Real.pi * i / 99),
        e.axis.y * Real.sin (Real.pi / 2 + 2 * Real.pi * i / 99), 0⟩) := by
  obtain ⟨al, hal, ⟨m, hM, hd⟩, -⟩ := ellipsoid_cmds e hr color
  obtain ⟨al', hal', hlen, hi⟩ := alpha_real
  rw [hal] at hal'
  cases hal'
  have key : ∀ i : ℕ, i < 100 → (al.map fun phi => e.base.pose.apply (param e.axis (-CMath.pi / lit 2 1) phi))[i]? =
      some (e.base.pose.apply ⟨e.axis.x * Real.cos (Real.pi / 2 + 2 * Real.pi * i / 99),
        e.axis.y * Real.sin (Real.pi / 2 + 2 * Real.pi * i / 99), 0⟩) := by
    intro i h100
    rw [List.getElem?_map, hi i h100, Option.map_some]
    congr 2
    have hs : Real.sin (-(Real.pi / 2)) = -1 := by rw [Real.sin_neg, Real.sin_pi_div_two]
    have hc : Real.cos (-(Real.pi / 2)) = 0 := by rw [Real.cos_neg, Real.cos_pi_div_two]
    have c1 : Real.cos (2 * Real.pi * i / 99 - Real.pi / 2) = -Real.cos (Real.pi / 2 + 2 * Real.pi * i / 99) := by
      rw [Real.cos_sub_pi_div_two, add_comm, Real.cos_add_pi_div_two, neg_neg]
    have c2 : Real.sin (2 * Real.pi * i / 99 - Real.pi / 2) = -Real.sin (Real.pi / 2 + 2 * Real.pi * i / 99) := by
      rw [Real.sin_sub_pi_div_two, add_comm, Real.sin_add_pi_div_two]
    have ht : (-CMath.pi / lit 2 1 : ℝ) = -(Real.pi / 2) := by simp [neg_div]
    rw [ht]
    ext
    · show e.axis.x * Real.sin _ * Real.cos _ = _
      rw [hs, c1]; ring
    · show e.axis.y * Real.sin _ * Real.sin _ = _
      rw [hs, c2]; ring
    · show e.axis.z * Real.cos _ = _
      rw [hc]; ring
  refine ⟨_, _, m, hd, hM, by rw [List.length_map, hlen], ?_, key⟩
  rw [key 0 (by norm_num), key 99 (by norm_num)]
  have e1 : Real.pi / 2 + 2 * Real.pi * ((99 : ℕ) : ℝ) / 99 = Real.pi / 2 + 2 * Real.pi := by push_cast; ring
  rw [e1, Real.cos_add_two_pi, Real.sin_add_two_pi]
  simp

/-- C71 is false in the plane "xz": for every ellipsoid without rotation the drawn line is a part of the vertical line
through its centre, whatever its length in x (the code fixes phi = -pi/2, where cos(phi) = 0). -/
theorem C71_negation_xz (e : Ellipsoid ℝ) {r : V3 ℝ} (hr : e.base.refPos = some r) (color : String)
    (hq : e.base.pose.orientation = Quat.one) :
    ∃ (xs zs : List ℝ) (rest : List (Cmd ℝ)), drawEllipsoid e color "xz" = .ok (.plot xs zs (color ++ "-") :: rest) ∧
      xs.length = 100 ∧ ∀ x ∈ xs, x = e.base.position.x := by
  obtain ⟨al, hal, -, ⟨m, hM, hd⟩⟩ := ellipsoid_cmds e hr color
  obtain ⟨al', hal', hlen, -⟩ := alpha_real
  rw [hal] at hal'
  cases hal'
  refine ⟨_, _, _, hd, by simp [hlen], ?_⟩
  intro x hx
  simp only [List.map_map, List.mem_map, Function.comp_apply] at hx
  obtain ⟨theta, -, rfl⟩ := hx
  have ht : (-CMath.pi / lit 2 1 : ℝ) = -(Real.pi / 2) := by simp [neg_div]
  have hc : CMath.cos (-(Real.pi / 2)) = (0 : ℝ) := by
    show Real.cos (-(Real.pi / 2)) = 0
    rw [Real.cos_neg, Real.cos_pi_div_two]
  rw [ht]
  simp only [Pose.apply, hq, param, hc]
  simp [Quat.one, Quat.rotate, Quat.vec, V3.cross, V3.smul, Base.position, State.position, Base.pose]

/-! ## C72 the dashed line -/

/-- C72 is false: for every ellipsoid, whatever its margin and whatever the arithmetic, the dashed line is the solid
line. -/
theorem C72_negation {α : Type} [Add α] [Sub α] [Mul α] [Div α] [Neg α] [Zero α] [One α]
    [LE α] [LT α] [DecidableLE α] [DecidableLT α] [CMath α] (e : Ellipsoid α) {r : V3 α} (hr : e.base.refPos = some r)
    (color axis : String) (ha : axis = "xy" ∨ axis = "xz") : ∃ xs ys rest, drawEllipsoid e color axis =
      .ok (.plot xs ys (color ++ "-") :: .plot xs ys (color ++ "--") :: rest) := by
  obtain ⟨al, -, ⟨m, -, hd⟩, ⟨m', -, hd'⟩⟩ := ellipsoid_cmds e hr color
  rcases ha with rfl | rfl
  · exact ⟨_, _, _, hd⟩
  · exact ⟨_, _, _, hd'⟩

/-- C72 holds without margin: then every point of the dashed line is on the boundary of the safety region.
Full statement: for every margin; false, see `C72_negation_boundary`. -/
theorem C72_no_margin_partial (e : Ellipsoid ℝ) {r : V3 ℝ} (hr : e.base.refPos = some r) (color : String)
    (hz : ZRotated e) (hax : e.axis.x ≠ 0) (hay : e.axis.y ≠ 0) (hmx : e.base.margin.x = 0) (hmy : e.base.margin.y = 0) :
    ∃ (xs ys : List ℝ) (solid : Cmd ℝ) (rest : List (Cmd ℝ)),
      drawEllipsoid e color "xy" = .ok (solid :: .plot xs ys (color ++ "--") :: rest) ∧
      xs.length = 100 ∧ ys.length = 100 ∧
      ∀ i : ℕ, i < 100 → ∃ x y, xs[i]? = some x ∧ ys[i]? = some y ∧ OnEllipse e (halfLengths e V3.zero) x y := by
  obtain ⟨pts, dashed, m, h1, -, h3, -, h5⟩ := C71_outline_partial e hr color
  obtain ⟨xs, ys, rest, h6⟩ := C72_negation e hr color "xy" (Or.inl rfl)
  rw [h1] at h6
  simp only [Res.ok.injEq, List.cons_append, List.nil_append, List.cons.injEq, Cmd.plot.injEq] at h6
  obtain ⟨⟨rfl, rfl, -⟩, h7, h8⟩ := h6
  rw [h7] at h1
  refine ⟨_, _, _, _, h1, by simp [h3], by simp [h3], ?_⟩
  intro i hi
  refine ⟨_, _, by rw [List.getElem?_map, h5 i hi]; rfl, by rw [List.getElem?_map, h5 i hi]; rfl, ?_⟩
  generalize Real.pi / 2 + 2 * Real.pi * (i : ℝ) / 99 = t
  refine ⟨e.axis.x * Real.cos t, e.axis.y * Real.sin t, ?_, ?_, ?_⟩
  · have hlx : (halfLengths e V3.zero).x = e.axis.x := by simp [halfLengths, V3.zero, hmx]
    have hly : (halfLengths e V3.zero).y = e.axis.y := by simp [halfLengths, V3.zero, hmy]
    rw [hlx, hly, mul_div_cancel_left₀ _ hax, mul_div_cancel_left₀ _ hay, Real.cos_sq_add_sin_sq]
  · rw [Ellipsoid.zrot_apply hz]
  · rw [Ellipsoid.zrot_apply hz]

/-- C72, in numbers: for an obstacle rotated about z with a positive margin no point of the dashed line is on the
boundary of the safety region. -/
theorem C72_negation_boundary (e : Ellipsoid ℝ) {r : V3 ℝ} (hr : e.base.refPos = some r) (color : String)
    (hz : ZRotated e) (hax : 0 < e.axis.x) (hay : 0 < e.axis.y) (hmx : 0 < e.base.margin.x) (hmy : 0 < e.base.margin.y) :
    ∃ (xs ys : List ℝ) (solid : Cmd ℝ) (rest : List (Cmd ℝ)),
      drawEllipsoid e color "xy" = .ok (solid :: .plot xs ys (color ++ "--") :: rest) ∧
      xs.length = 100 ∧ ys.length = 100 ∧
      ∀ i : ℕ, i < 100 → ∃ x y, xs[i]? = some x ∧ ys[i]? = some y ∧ ¬ OnEllipse e (halfLengths e V3.zero) x y := by
  obtain ⟨pts, dashed, m, h1, -, h3, -, h5⟩ := C71_outline_partial e hr color
  obtain ⟨xs, ys, rest, h6⟩ := C72_negation e hr color "xy" (Or.inl rfl)
  rw [h1] at h6
  simp only [Res.ok.injEq, List.cons_append, List.nil_append, List.cons.injEq, Cmd.plot.injEq] at h6
  obtain ⟨⟨rfl, rfl, -⟩, h7, h8⟩ := h6
  rw [h7] at h1
  refine ⟨_, _, _, _, h1, by simp [h3], by simp [h3], ?_⟩
  intro i hi
  refine ⟨_, _, by rw [List.getElem?_map, h5 i hi]; rfl, by rw [List.getElem?_map, h5 i hi]; rfl, ?_⟩
  rintro ⟨u, v, huv, hx, hy⟩
  generalize Real.pi / 2 + 2 * Real.pi * (i : ℝ) / 99 = t at hx hy
  have hsc := Real.sin_sq_add_cos_sq t
  simp only [Ellipsoid.zrot_apply hz] at hx hy
  have hrot : (e.base.orientation.w ^ 2 - e.base.orientation.z ^ 2) ^ 2 +
      (2 * e.base.orientation.w * e.base.orientation.z) ^ 2 = 1 := by
    have h2 : e.base.orientation.sqNorm = 1 := Ellipsoid.zrot_isUnit hz
    simp only [Quat.sqNorm, hz.2.1, hz.2.2] at h2
    have h3 : e.base.orientation.w ^ 2 + e.base.orientation.z ^ 2 = 1 := by nlinarith
    calc _ = (e.base.orientation.w ^ 2 + e.base.orientation.z ^ 2) ^ 2 := by ring
      _ = 1 := by rw [h3]; norm_num
  generalize e.base.orientation.w ^ 2 - e.base.orientation.z ^ 2 = c at *
  generalize 2 * e.base.orientation.w * e.base.orientation.z = d at *
  have hu : u = e.axis.x * Real.cos t := by
    linear_combination (-c) * hx - d * hy + (e.axis.x * Real.cos t - u) * hrot
  have hv : v = e.axis.y * Real.sin t := by
    linear_combination d * hx - c * hy + (e.axis.y * Real.sin t - v) * hrot
  have hlx : (halfLengths e V3.zero).x = e.axis.x + e.base.margin.x := by simp [halfLengths, V3.zero]
  have hly : (halfLengths e V3.zero).y = e.axis.y + e.base.margin.y := by simp [halfLengths, V3.zero]
  rw [hlx, hly, hu, hv] at huv
  have b1 : e.axis.x / (e.axis.x + e.base.margin.x) < 1 := by rw [div_lt_one (by linarith)]; linarith
  have b2 : e.axis.y / (e.axis.y + e.base.margin.y) < 1 := by rw [div_lt_one (by linarith)]; linarith
  have p1 : 0 < e.axis.x / (e.axis.x + e.base.margin.x) := by positivity
  have p2 : 0 < e.axis.y / (e.axis.y + e.base.margin.y) := by positivity
  rw [mul_div_right_comm, mul_div_right_comm] at huv
  generalize e.axis.x / (e.axis.x + e.base.margin.x) = a at *
  generalize e.axis.y / (e.axis.y + e.base.margin.y) = b at *
  have q1 : a ^ 2 < 1 := by nlinarith
  have q2 : b ^ 2 < 1 := by nlinarith
  rcases eq_or_ne (Real.cos t) 0 with h0 | h0
  · rw [h0] at huv hsc
    nlinarith
  · have : 0 < Real.cos t ^ 2 := by positivity
    nlinarith [mul_pos this (sub_pos.mpr q1), mul_nonneg (sq_nonneg (Real.sin t)) (sub_pos.mpr q2).le]

/-! ## C73 configurations -/

section
variable {α : Type} [Add α] [Sub α] [Mul α] [Div α] [Neg α] [Zero α] [One α]
  [LE α] [LT α] [DecidableLE α] [DecidableLT α] [CMath α]

/-- A hull that can be drawn. -/
def HullReady (k : Hull α) : Prop := k.cart.length = k.resolution ∧ ∃ r, k.base.refPos = some r

/-- An object all parts of which have been initialised. -/
def Drawable : Obj α → Prop
  | .plain _ => True
  | .ellipsoid e => ∃ r, e.base.refPos = some r
  | .hull k => HullReady k
  | .aggregate a => (∃ r, a.base.refPos = some r) ∧ HullReady a.inside ∧ HullReady a.outside

theorem drawHull_ok {k : Hull α} (hk : HullReady k) (color : String) : ∃ m, MarksOf k.base color V3.y m ∧
    drawHull k color = .ok (.plot (k.cart.map V3.x) (k.cart.map V3.y) (color ++ "--") :: m) := by
  obtain ⟨hl, r, hr⟩ := hk
  obtain ⟨m, hm, hM⟩ := marks_ok hr color V3.y
  refine ⟨m, hM, ?_⟩
  have : (List.range k.resolution).mapM (fun i => Res.index k.cart i) = .ok k.cart := by
    rw [mapM_ok, ← hl, List.forall₂_iff_get]
    refine ⟨by simp, ?_⟩
    intro i h1 h2
    simp [Res.index, List.getElem?_eq_getElem h2]
  simp only [drawHull, this, hm, Res.ok_bind]

theorem drawEllipsoid_ok {e : Ellipsoid α} (he : ∃ r, e.base.refPos = some r) (color axis : String) :
    ∃ l, drawEllipsoid e color axis = .ok l := by
  obtain ⟨r, hr⟩ := he
  obtain ⟨al, -, ⟨m, -, hd⟩, ⟨m', -, hd'⟩⟩ := ellipsoid_cmds e hr color
  obtain ⟨al', -, -, -, hg⟩ := grid_ok e
  by_cases h1 : axis = "xy"
  · subst h1; exact ⟨_, hd⟩
  · by_cases h2 : axis = "xz"
    · subst h2; exact ⟨_, hd'⟩
    · exact ⟨[], by simp only [drawEllipsoid, hg, Res.ok_bind, if_neg h1, if_neg h2]⟩

theorem drawAux_ok {h : Heap α} {rank : Ptr → Nat} (hr : Ranked rank h) (hd : ∀ (p : Ptr) o, h[p]? = some o → Drawable o)
    (color axis : String) : ∀ (fuel : Nat) (p : Ptr) (o : Obj α), rank p < fuel → h[p]? = some o →
      ∃ l, drawAux fuel h o color axis = .ok l := by
  intro fuel
  induction fuel with
  | zero => intro p o hp; omega
  | succ fuel ih =>
    intro p o hp ho
    have hD := hd p o ho
    cases o with
    | plain b => exact ⟨[], rfl⟩
    | ellipsoid e => exact drawEllipsoid_ok hD color axis
    | hull k =>
      obtain ⟨m, -, hm⟩ := drawHull_ok hD color
      exact ⟨_, hm⟩
    | aggregate a =>
      obtain ⟨⟨r, hr'⟩, hi, hout⟩ := hD
      obtain ⟨m1, -, e1⟩ := drawHull_ok hi "k"
      obtain ⟨m2, -, e2⟩ := drawHull_ok hout "k"
      obtain ⟨ps, hps⟩ : ∃ ps, a.prims.mapM (fun p => do
          let q ← h.deref p
          drawAux fuel h q color axis) = .ok ps := by
        refine mapM_total ?_
        intro q hq
        obtain ⟨h1, h2⟩ := hr.child p q ⟨a, ho, hq⟩
        obtain ⟨l, hl⟩ := ih q h[q] (by omega) (List.getElem?_eq_getElem h1)
        exact ⟨l, by simp only [Heap.deref, List.getElem?_eq_getElem h1, Res.ok_bind, hl]⟩
      refine ⟨_, by
        rw [drawAux]
        simp only [hps, Base.ref, hr', e1, e2, Res.ok_bind]
        rfl⟩

/-- C73: drawing never fails, provided all obstacles exist and are initialised; obstacle number `i` is drawn with colour
number `i mod 6` and the drawings are in the order of the list. -/
theorem C73_obstacles (h : Heap α) (ha : Acyclic h) (hd : ∀ (p : Ptr) o, h[p]? = some o → Drawable o) (obs : List Ptr)
    (hobs : ∀ p ∈ obs, p < h.length) (axis : String) :
    ∃ ds : List (List (Cmd α)), plotObstacles h obs axis = .ok ds.flatten ∧ ds.length = obs.length ∧
      ∀ i p, obs[i]? = some p → ∃ o c l, h[p]? = some o ∧ ["b", "g", "r", "c", "m", "y"][i % 6]? = some c ∧
        draw h o c axis = .ok l ∧ ds[i]? = some l := by
  obtain ⟨rank, hr⟩ := exists_ranked ha
  have key : ∀ (obs : List Ptr) (j : Nat), j < 6 → (∀ p ∈ obs, p < h.length) →
      ∃ ds : List (List (Cmd α)), plotLoop h axis obs j = .ok ds.flatten ∧ ds.length = obs.length ∧
        ∀ i p, obs[i]? = some p → ∃ o c l, h[p]? = some o ∧ ["b", "g", "r", "c", "m", "y"][(j + i) % 6]? = some c ∧
          draw h o c axis = .ok l ∧ ds[i]? = some l := by
    intro obs
    induction obs with
    | nil => intro j _ _; exact ⟨[], rfl, rfl, by intro i p hp; simp at hp⟩
    | cons p obs ih =>
      intro j hj hobs
      have hp : p < h.length := hobs p (by simp)
      obtain ⟨ds, h1, h2, h3⟩ := ih ((j + 1) % 6) (Nat.mod_lt _ (by norm_num)) (fun q hq => hobs q (by simp [hq]))
      obtain ⟨c, hc⟩ : ∃ c, ["b", "g", "r", "c", "m", "y"][j]? = some c :=
        ⟨_, List.getElem?_eq_getElem (by simpa using hj)⟩
      obtain ⟨l, hl⟩ := drawAux_ok hr hd c axis h.fuel p h[p]
        (by have := hr.bound p hp; simp only [Heap.fuel]; omega) (List.getElem?_eq_getElem hp)
      have hidx : Res.index colors j = .ok c := by simp only [Res.index, colors, hc]
      refine ⟨l :: ds, ?_, by simp [h2], ?_⟩
      · have hl' : draw h h[p] c axis = .ok l := hl
        have h1' : plotLoop h axis obs ((j + 1) % colors.length) = .ok ds.flatten := h1
        simp only [plotLoop, Heap.deref, List.getElem?_eq_getElem hp, hidx, hl', h1', Res.ok_bind, List.flatten_cons]
      · intro i q hq
        cases i with
        | zero =>
          simp only [List.getElem?_cons_zero, Option.some.injEq] at hq
          subst hq
          exact ⟨h[p], c, l, List.getElem?_eq_getElem hp, by rw [Nat.add_zero, Nat.mod_eq_of_lt hj]; exact hc, hl, rfl⟩
        | succ i =>
          rw [List.getElem?_cons_succ] at hq
          obtain ⟨o, c', l', g1, g2, g3, g4⟩ := h3 i q hq
          refine ⟨o, c', l', g1, ?_, g3, by simpa using g4⟩
          rw [← g2]
          congr 1
          rw [Nat.mod_add_mod]; congr 1; omega
  obtain ⟨ds, h1, h2, h3⟩ := key obs 0 (by norm_num) hobs
  exact ⟨ds, h1, h2, fun i p hp => by simpa using h3 i p hp⟩

/-- C73: an aggregate is drawn as its primitives (any nesting) in the colour of the aggregate, then the cross at its
reference point, then both hulls in black. -/
theorem C73_aggregate (h : Heap α) (ha : Acyclic h) (hd : ∀ (p : Ptr) o, h[p]? = some o → Drawable o) (p : Ptr)
    (a : Aggregate α) (hp : h[p]? = some (.aggregate a)) (color axis : String) :
    ∃ (ds : List (List (Cmd α))) (r : V3 α) (mo mi : List (Cmd α)),
      draw h (.aggregate a) color axis = .ok (ds.flatten ++ [.plot [r.x] [r.y] "bx"]
        ++ (.plot (a.outside.cart.map V3.x) (a.outside.cart.map V3.y) "k--" :: mo)
        ++ (.plot (a.inside.cart.map V3.x) (a.inside.cart.map V3.y) "k--" :: mi)) ∧
      a.base.refPos = some r ∧ MarksOf a.outside.base "k" V3.y mo ∧ MarksOf a.inside.base "k" V3.y mi ∧
      List.Forall₂ (fun q l => ∃ o, h[q]? = some o ∧ draw h o color axis = .ok l) a.prims ds := by
  obtain ⟨rank, hr⟩ := exists_ranked ha
  obtain ⟨⟨r, hr'⟩, hi, hout⟩ := hd p _ hp
  obtain ⟨m1, hm1, e1⟩ := drawHull_ok hi "k"
  obtain ⟨m2, hm2, e2⟩ := drawHull_ok hout "k"
  have hlen : p < h.length := by
    by_contra hn
    rw [List.getElem?_eq_none (Nat.le_of_not_lt hn)] at hp
    cases hp
  -- more fuel makes no difference
  have mono : ∀ (f : Nat) (o : Obj α) l, drawAux f h o color axis = .ok l → drawAux (f + 1) h o color axis = .ok l := by
    intro f
    induction f with
    | zero => intro o l hl; cases hl
    | succ f ih =>
      intro o l hl
      cases o with
      | plain b => exact hl
      | ellipsoid e => exact hl
      | hull k => exact hl
      | aggregate b =>
        rw [drawAux] at hl ⊢
        obtain ⟨ps, h1, h2⟩ := Res.bind_eq_ok.mp hl
        have : b.prims.mapM (fun p => do
            let q ← h.deref p
            drawAux (f + 1) h q color axis) = .ok ps := by
          rw [mapM_ok] at h1 ⊢
          refine h1.imp ?_
          intro q l hq
          obtain ⟨o, h3, h4⟩ := Res.bind_eq_ok.mp hq
          simp only [h3, Res.ok_bind]
          exact ih o l h4
        rw [this]
        exact h2
  have hfuel : h.fuel = h.length + 1 := rfl
  obtain ⟨ps, hps⟩ : ∃ ps, a.prims.mapM (fun p => do
      let q ← h.deref p
      drawAux h.length h q color axis) = .ok ps := by
    refine mapM_total ?_
    intro q hq
    obtain ⟨h1, h2⟩ := hr.child p q ⟨a, hp, hq⟩
    have := hr.bound p hlen
    obtain ⟨l, hl⟩ := drawAux_ok hr hd color axis h.length q h[q] (by omega) (List.getElem?_eq_getElem h1)
    exact ⟨l, by simp only [Heap.deref, List.getElem?_eq_getElem h1, Res.ok_bind, hl]⟩
  refine ⟨ps, r, m2, m1, ?_, hr', hm2, hm1, ?_⟩
  · rw [draw, hfuel, drawAux]
    simp only [hps, Base.ref, hr', e1, e2, Res.ok_bind]
    rfl
  · rw [mapM_ok] at hps
    refine hps.imp ?_
    intro q l hq
    obtain ⟨o, h3, h4⟩ := Res.bind_eq_ok.mp hq
    refine ⟨o, ?_, by rw [draw, hfuel]; exact mono _ _ _ h4⟩
    simp only [Heap.deref] at h3
    split at h3
    · rename_i heq; cases h3; exact heq
    · cases h3

/-- C73: frame of every plot: a new figure first, the file exactly if a name is given, the window exactly if asked for,
the figure closed last (three functions). -/
theorem C73_frame (h : Heap α) (a g : Agent α) (obs : List Ptr) (goal : V3 α) (hist : List (V3 α)) (savefile : String)
    (isShow is3D : Bool) (l : List (Cmd α))
    (hl : plotConfiguration h a obs goal hist savefile isShow is3D = .ok l ∨
      plotObstacleConfiguration h obs savefile isShow is3D = .ok l ∨
      plotGuardConfiguration h a g obs goal hist savefile isShow is3D = .ok l) :
    ∃ body save win, l = .figure :: body ++ save ++ win ++ [.close] ∧
      (savefile = "" → save = []) ∧ (savefile ≠ "" → save = [.save ("/tmp/" ++ savefile ++ ".png")]) ∧
      (isShow = false → win = []) ∧ (isShow = true → win = [.showWindow]) := by
  have key : ∀ body : List (Cmd α), l = [.figure] ++ body ++ finish savefile isShow →
      ∃ body save win, l = .figure :: body ++ save ++ win ++ [.close] ∧
      (savefile = "" → save = []) ∧ (savefile ≠ "" → save = [.save ("/tmp/" ++ savefile ++ ".png")]) ∧
      (isShow = false → win = []) ∧ (isShow = true → win = [.showWindow]) := by
    intro body hb
    refine ⟨body, if savefile ≠ "" then [.save ("/tmp/" ++ savefile ++ ".png")] else [],
      if isShow then [.showWindow] else [], ?_, ?_, ?_, ?_, ?_⟩
    · rw [hb, Plotting.finish]; simp [List.append_assoc]
    · intro h; rw [if_neg (by simpa using h)]
    · intro h; rw [if_pos h]
    · intro h; rw [h]; rfl
    · intro h; rw [h]; rfl
  rcases hl with hl | hl | hl
  · rw [plotConfiguration] at hl
    cases is3D
    · rw [if_neg (by decide)] at hl
      obtain ⟨d1, -, h2⟩ := Res.bind_eq_ok.mp hl
      exact key _ (by cases h2; rfl)
    · rw [if_pos rfl] at hl
      obtain ⟨d1, -, h2⟩ := Res.bind_eq_ok.mp hl
      obtain ⟨d2, -, h3⟩ := Res.bind_eq_ok.mp h2
      exact key _ (by cases h3; rfl)
  · rw [plotObstacleConfiguration] at hl
    cases is3D
    · rw [if_neg (by decide)] at hl
      obtain ⟨d1, -, h2⟩ := Res.bind_eq_ok.mp hl
      exact key _ (by cases h2; rfl)
    · rw [if_pos rfl] at hl
      obtain ⟨d1, -, h2⟩ := Res.bind_eq_ok.mp hl
      obtain ⟨d2, -, h3⟩ := Res.bind_eq_ok.mp h2
      exact key _ (by cases h3; rfl)
  · rw [plotGuardConfiguration] at hl
    cases is3D
    · rw [if_neg (by decide)] at hl
      obtain ⟨d1, -, h2⟩ := Res.bind_eq_ok.mp hl
      exact key _ (by cases h2; rfl)
    · rw [if_pos rfl] at hl
      obtain ⟨d1, -, h2⟩ := Res.bind_eq_ok.mp hl
      obtain ⟨d2, -, h3⟩ := Res.bind_eq_ok.mp h2
      exact key _ (by cases h3; rfl)

/-- C73: the single plot shows obstacles, agent, goal and the whole history, all in the x-y plane. -/
theorem C73_plane (h : Heap α) (a : Agent α) (obs : List Ptr) (goal : V3 α) (hist : List (V3 α)) (savefile : String)
    (isShow : Bool) (d : List (Cmd α)) (hd : plotObstacles h obs "xy" = .ok d) :
    plotConfiguration h a obs goal hist savefile isShow false = .ok ([.figure] ++ (d ++
      [.plot [a.state.position.x] [a.state.position.y] "bo", .plot [goal.x] [goal.y] "rx",
       .plot (hist.map V3.x) (hist.map V3.y) "k-", .xlim (-10) 10, .ylim (-10) 10]) ++ finish savefile isShow) := by
  simp [plotConfiguration, hd, plotAgent, plotTrajectory]

/-- C73 is false for the plot of three dimensions: the lower plot shows obstacles, goal and history in the x-z plane, but
the agent at `(x, y)`. -/
theorem C73_negation_agent (h : Heap α) (a : Agent α) (obs : List Ptr) (goal : V3 α) (hist : List (V3 α))
    (savefile : String) (isShow : Bool) (d d' : List (Cmd α)) (hd : plotObstacles h obs "xy" = .ok d)
    (hd' : plotObstacles h obs "xz" = .ok d') :
    plotConfiguration h a obs goal hist savefile isShow true = .ok ([.figure] ++ ([.subplot 2 1 1] ++ d ++
      [.plot [a.state.position.x] [a.state.position.y] "bo", .plot [goal.x] [goal.y] "rx",
       .plot (hist.map V3.x) (hist.map V3.y) "k-", .xlim (-10) 10, .ylim (-10) 10] ++ ([.subplot 2 1 2] ++ d' ++
      [.plot [a.state.position.x] [a.state.position.y] "bo", .plot [goal.x] [goal.z] "rx",
       .plot (hist.map V3.x) (hist.map V3.z) "k-", .xlim (-10) 10, .ylim (-10) 10])) ++ finish savefile isShow) := by
  simp [plotConfiguration, hd, hd', plotAgent, plotTrajectory]

/-- C73: the plot of the guard scenario shows both agents in the plane of the plot. -/
theorem C73_guard (h : Heap α) (a g : Agent α) (obs : List Ptr) (goal : V3 α) (hist : List (V3 α))
    (savefile : String) (isShow : Bool) (d : List (Cmd α)) (hd : plotObstacles h obs "xz" = .ok d) :
    plotGuardConfiguration h a g obs goal hist savefile isShow false = .ok ([.figure] ++ (d ++
      [.plot [a.state.position.x] [a.state.position.z] "bo", .plot [g.state.position.x] [g.state.position.z] "go",
       .plot [goal.x] [goal.z] "rx", .plot (hist.map V3.x) (hist.map V3.z) "k-", .xlim (-10) 20, .ylim (-10) 10])
      ++ finish savefile isShow) := by
  simp [plotGuardConfiguration, hd, plotAgent, plotTrajectory]

/-- C73: the plot of the guard scenario in three dimensions: seen from above in the upper half, from the side in the lower
half, with both agents, the goal and the history in the plane of each half. -/
theorem C73_guard_space (h : Heap α) (a g : Agent α) (obs : List Ptr) (goal : V3 α) (hist : List (V3 α))
    (savefile : String) (isShow : Bool) (d d' : List (Cmd α)) (hd : plotObstacles h obs "xy" = .ok d)
    (hd' : plotObstacles h obs "xz" = .ok d') :
    plotGuardConfiguration h a g obs goal hist savefile isShow true = .ok ([.figure] ++ ([.subplot 2 1 1] ++ d ++
      [.plot [a.state.position.x] [a.state.position.y] "bo", .plot [g.state.position.x] [g.state.position.y] "go",
       .plot [goal.x] [goal.y] "rx", .plot (hist.map V3.x) (hist.map V3.y) "k-", .xlim (-10) 10, .ylim (-10) 10]
      ++ [.subplot 2 1 2] ++ d' ++
      [.plot [a.state.position.x] [a.state.position.z] "bo", .plot [g.state.position.x] [g.state.position.z] "go",
       .plot [goal.x] [goal.z] "rx", .plot (hist.map V3.x) (hist.map V3.z) "k-", .xlim (-10) 10, .ylim (-10) 10])
      ++ finish savefile isShow) := by
  simp [plotGuardConfiguration, hd, hd', plotAgent, plotTrajectory]

/-- C73: the plots without agent show the obstacles from above, and in three dimensions from the side below. -/
theorem C73_obstacles_only (h : Heap α) (obs : List Ptr) (savefile : String) (isShow : Bool) (d d' : List (Cmd α))
    (hd : plotObstacles h obs "xy" = .ok d) (hd' : plotObstacles h obs "xz" = .ok d') :
    plotObstacleConfiguration h obs savefile isShow false = .ok ([.figure] ++ (d ++ [.xlim (-10) 10, .ylim (-10) 10])
      ++ finish savefile isShow) ∧
    plotObstacleConfiguration h obs savefile isShow true = .ok ([.figure] ++ ([.subplot 2 1 1] ++ d ++
      [.xlim (-10) 10, .ylim (-10) 10] ++ [.subplot 2 1 2] ++ d' ++ [.xlim (-10) 10, .ylim (-10) 10])
      ++ finish savefile isShow) := by
  simp [plotObstacleConfiguration, hd, hd']

end

/-! ## Non-vacuity -/

/-- A square hull around (1, 2, 0), placed and computed. -/
noncomputable def exDrawnHull : Hull ℝ :=
  ⟨⟨"", State.ofPosition ⟨1, 2, 0⟩, some ⟨1, 2, 0⟩, V3.zero⟩, false, 3, 1, [⟨0, 2, 0⟩, ⟨2, 2, 0⟩, ⟨0, 2, 0⟩],
    [⟨1, Real.pi / 2, -Real.pi⟩, ⟨1, Real.pi / 2, 0⟩, ⟨1, Real.pi / 2, Real.pi⟩]⟩

/-- An ellipse, a ball, an aggregate of both, and an aggregate of that aggregate. -/
noncomputable def drawing : Heap ℝ :=
  [.ellipsoid exZ, .ellipsoid exE,
   .aggregate ⟨⟨"", State.ofPosition V3.zero, some ⟨1, 2, 0⟩, V3.zero⟩, exDrawnHull, exDrawnHull, [0, 1]⟩,
   .aggregate ⟨⟨"", State.ofPosition V3.zero, some ⟨1, 2, 0⟩, V3.zero⟩, exDrawnHull, exDrawnHull, [2, 1]⟩]

theorem drawing_acyclic : Acyclic drawing := by
  refine ⟨id, ?_⟩
  rintro p q ⟨a, ha, hq⟩
  show q < 4 ∧ q < p
  rcases p with _ | _ | _ | _ | p <;> simp [drawing] at ha <;> subst ha <;> simp at hq <;>
    rcases hq with rfl | rfl <;> simp

theorem drawing_drawable : ∀ (p : Ptr) o, drawing[p]? = some o → Drawable o := by
  intro p o ho
  rcases p with _ | _ | _ | _ | p <;> simp [drawing] at ho <;> subst ho <;>
    simp [Drawable, HullReady, exZ, exE, exDrawnHull]

/-- Seven obstacles are drawn, the aggregates with everything below them; the colours start again after six. -/
example : ∃ ds : List (List (Cmd ℝ)), plotObstacles drawing [0, 1, 2, 3, 0, 1, 3] "xy" = .ok ds.flatten ∧ ds.length = 7 ∧
    ∃ l o, drawing[3]? = some o ∧ draw drawing o "b" "xy" = .ok l ∧ ds[6]? = some l := by
  obtain ⟨ds, h1, h2, h3⟩ := C73_obstacles drawing drawing_acyclic drawing_drawable [0, 1, 2, 3, 0, 1, 3]
    (by intro p hp; show p < 4; simp at hp; rcases hp with rfl | rfl | rfl | rfl | rfl | rfl | rfl <;> simp) "xy"
  obtain ⟨o, c, l, g1, g2, g3, g4⟩ := h3 6 3 rfl
  simp at g2
  subst g2
  exact ⟨ds, h1, h2, l, o, g1, g3, g4⟩

/-- An aggregate that has been created (with its constructor and a reference point) but whose hulls have not been
computed cannot be drawn: the reference point of the outer hull is uninitialised. -/
theorem C73_negation_fresh {α : Type} [Add α] [Sub α] [Mul α] [Div α] [Neg α] [Zero α] [One α]
    [LE α] [LT α] [DecidableLE α] [DecidableLT α] [CMath α] (r : V3 α) (color axis : String) :
    draw ([] : Heap α) (.aggregate { (Aggregate.default : Aggregate α) with
      base := { (Aggregate.default : Aggregate α).base with refPos := some r } }) color axis = .ub .uninitialised := by
  have hi : ∀ n : Nat, (List.range n).mapM (fun i => Res.index (List.replicate n (V3.zero : V3 α)) i) =
      .ok (List.replicate n V3.zero) := by
    intro n
    rw [mapM_ok, List.forall₂_iff_get]
    refine ⟨by simp, ?_⟩
    intro i h1 h2
    rw [List.length_replicate] at h2
    simp [Res.index, h2]
  have hh : drawHull (Aggregate.default : Aggregate α).outside "k" = .ub .uninitialised := by
    simp only [drawHull, Aggregate.default, Hull.mk', hi, marks, Base.ref, Base.mkName, Res.ok_bind, Res.ub_bind]
  show drawAux 1 _ _ color axis = _
  rw [drawAux]
  simp only [hh, Base.ref, Res.ok_bind, Res.ub_bind]
  rfl

example : ∃ (pts : List (V3 ℝ)) (dashed : Cmd ℝ) (m : List (Cmd ℝ)), drawEllipsoid exZ "b" "xy" =
      .ok ([.plot (pts.map V3.x) (pts.map V3.y) "b-", dashed] ++ m) ∧ pts.length = 100 :=
  let ⟨p, d, m, h, _, h', _⟩ := C71_outline_partial exZ (r := ⟨1, 2, 0⟩) rfl "b"
  ⟨p, d, m, h, h'⟩

example := C72_no_margin_partial { exZ with base := { exZ.base with margin := V3.zero } } (r := ⟨1, 2, 0⟩) rfl "b"
  exZ_rotated (by norm_num [exZ]) (by norm_num [exZ]) rfl rfl

example := C72_negation_boundary exZ (r := ⟨1, 2, 0⟩) rfl "b" exZ_rotated (by norm_num [exZ]) (by norm_num [exZ])
  (by norm_num [exZ]) (by norm_num [exZ])

example := C71_negation_xz { exZ with base := { exZ.base with state := State.ofPosition ⟨1, 2, 0⟩ } } (r := ⟨1, 2, 0⟩) rfl "b" rfl

end DOA.Props
