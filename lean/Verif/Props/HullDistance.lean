import Verif.Props.HullQueries

/-!
# C57, C58, C60, C63: distances of hulls, `is_closed`, the agent's margin, inside test of aggregates
-/

set_option linter.unusedSectionVars false
set_option linter.unusedSimpArgs false

namespace DOA.Props
open DOA DOA.Spec DOA.Hull DOA.Ellipsoid

/-! ## C57 distance and inside test -/

theorem polar_radius (y : V3 ℝ) : (MathTools.cartesianToPolar y).x = y.norm := by
  simp only [MathTools.cartesianToPolar, V3.norm, V3.sqNorm, V3.dot, sqrt_real]

/-- what the two queries compute -/
theorem hull_distance_eq (k : Hull ℝ) (hk : HullOK k) (p margin : V3 ℝ) {b : Bool} (h : k.pointIsInside p = .ok b) :
    ∃ s, s ∈ k.polar ∧ k.polar[k.column p]? = some s ∧
      (b = true ↔ (k.base.pose.inverse.apply p).norm < s.x) ∧
      k.distanceToPoint p margin = .ok (if k.isInside then s.x / (k.base.pose.inverse.apply p).norm
        else (k.base.pose.inverse.apply p).norm / s.x) := by
  have hne : k.polar ≠ [] := by
    intro he
    have := hk.2.1
    rw [he] at this
    have := hk.1
    simp at *; omega
  have hc := closest_eq hne p
  unfold Hull.pointIsInside at h
  rw [hc, Res.ok_bind] at h
  simp only [Res.index] at h
  cases hs : k.polar[k.column p]? with
  | none => rw [hs] at h; cases h
  | some s =>
    rw [hs] at h
    simp only [Res.ok_bind, polar_radius] at h
    injection h with h
    refine ⟨s, List.mem_of_getElem? hs, rfl, ?_, ?_⟩
    · rw [← h, decide_eq_true_iff]
    · unfold Hull.distanceToPoint
      rw [hc, Res.ok_bind]
      simp only [Res.index, hs, Res.ok_bind, polar_radius]
      split <;> rfl

/-- C57, outside hull: wherever the inside test is defined so is the distance, and it is below 1 exactly when the
test says inside, and exactly 1 on the surface (the point is as far from the centre as the surface point of its
column); for hulls with positive radii. -/
theorem C57_outside (k : Hull ℝ) (hk : HullOK k) (hin : k.isInside = false) (hpos : ∀ q ∈ k.polar, 0 < q.x)
    (p margin : V3 ℝ) {b : Bool} (h : k.pointIsInside p = .ok b) :
    ∃ d s, k.distanceToPoint p margin = .ok d ∧ k.polar[k.column p]? = some s ∧ (d < 1 ↔ b = true) ∧
      (d = 1 ↔ (k.base.pose.inverse.apply p).norm = s.x) := by
  obtain ⟨s, hs, hcol, hb, hd⟩ := hull_distance_eq k hk p margin h
  rw [hin] at hd
  have hs' := hpos s hs
  refine ⟨_, s, hd, hcol, ?_, ?_⟩
  · rw [hb]; simp only [Bool.false_eq_true, if_false]; rw [div_lt_one hs']
  · simp only [Bool.false_eq_true, if_false]; rw [div_eq_one_iff_eq hs'.ne']

/-- C57, inside hull: the distance exceeds 1 exactly when the point is inside, and is 1 exactly on the surface; every
point but the centre. -/
theorem C57_inside (k : Hull ℝ) (hk : HullOK k) (hin : k.isInside = true)
    (p margin : V3 ℝ) (hp : k.base.pose.inverse.apply p ≠ V3.zero) {b : Bool} (h : k.pointIsInside p = .ok b) :
    ∃ d s, k.distanceToPoint p margin = .ok d ∧ k.polar[k.column p]? = some s ∧ (1 < d ↔ b = true) ∧
      (d = 1 ↔ (k.base.pose.inverse.apply p).norm = s.x) := by
  obtain ⟨s, hs, hcol, hb, hd⟩ := hull_distance_eq k hk p margin h
  rw [hin] at hd
  have hn := V3.norm_pos hp
  refine ⟨_, s, hd, hcol, ?_, ?_⟩
  · rw [hb, if_pos rfl, one_lt_div hn]
  · rw [if_pos rfl, div_eq_one_iff_eq hn.ne', eq_comm]

/-- C57 for computed hulls with positive minimum radius (previous radii not negative, e.g. newly constructed): no
assumption on the surface is left. -/
theorem C57_computed {k k' : Hull ℝ} (hk : HullOK k) {prims : List (Oracle ℝ)} {ref : V3 ℝ}
    (h : k.compute prims ref = .ok k') (hm : 0 < k.minRadius) (hold : ∀ q ∈ k.polar, 0 ≤ q.x)
    (p margin : V3 ℝ) (hp : k'.isInside = true → k'.base.pose.inverse.apply p ≠ V3.zero)
    {b : Bool} (hb : k'.pointIsInside p = .ok b) :
    ∃ d, k'.distanceToPoint p margin = .ok d ∧
      (k'.isInside = false → (d < 1 ↔ b = true)) ∧ (k'.isInside = true → (1 < d ↔ b = true)) := by
  obtain ⟨k'', h', hk', -⟩ := compute_ok hk prims ref
  rw [h] at h'; injection h' with h'; subst h'
  have hpos : ∀ q ∈ k'.polar, 0 < q.x := by
    intro q hq
    have := C54_step_partial hk h hm.le (e := 1) zero_le_one (fun q hq => by simpa using hold q hq) q hq
    linarith
  cases hin : k'.isInside with
  | false =>
    obtain ⟨d, s, h1, -, h2, -⟩ := C57_outside k' hk' hin hpos p margin hb
    exact ⟨d, h1, fun _ => h2, by simp⟩
  | true =>
    obtain ⟨d, s, h1, -, h2, -⟩ := C57_inside k' hk' hin p margin (hp hin) hb
    exact ⟨d, h1, by simp, fun _ => h2⟩

/-- Non-vacuity: a computed hull of either kind, a point at which the test is defined. -/
example (b : Bool) : ∃ k' r, (Hull.mk' b 50 (1 / 2 : ℝ)).compute [(ballAt V3.zero).intersectionPoints] V3.zero = .ok k' ∧
    k'.pointIsInside ⟨2, 0, 0⟩ = .ok r ∧
    ∃ d, k'.distanceToPoint ⟨2, 0, 0⟩ V3.zero = .ok d ∧
      (k'.isInside = false → (d < 1 ↔ r = true)) ∧ (k'.isInside = true → (1 < d ↔ r = true)) := by
  have hk := hullOK_mk' b (show 2 ≤ 50 by norm_num) (1 / 2 : ℝ)
  obtain ⟨k', h, -, -, -, -, -, hpos, -⟩ := compute_ok hk [(ballAt V3.zero).intersectionPoints] V3.zero
  obtain ⟨-, -, -, -, -, -, hb, -⟩ := compute_inv hk h
  have hor : k'.base.pose.orientation = Quat.one := by rw [hb]; rfl
  have hfr : k'.base.pose.inverse.apply ⟨2, 0, 0⟩ = ⟨2, 0, 0⟩ := by
    rw [inverse_apply_one hor, show k'.base.pose.position = V3.zero from hpos]
    ext <;> simp [V3.zero]
  have hang : angleOf k' ⟨2, 0, 0⟩ ≤ Real.pi - 2 / 10000 := by
    rw [angleOf, hfr]
    have : (⟨2, 0⟩ : ℂ).arg = 0 := by
      rw [Complex.arg_eq_zero_iff]; norm_num
    simp only [MathTools.cartesianToPolar, atan2_real]
    rw [this]
    have := Real.two_le_pi
    linarith
  obtain ⟨-, ⟨r, hr⟩, -⟩ := C56_defined_partial hk h ⟨2, 0, 0⟩ V3.zero hang
  refine ⟨k', r, h, hr, C57_computed hk h (by norm_num [Hull.mk']) ?_ _ _ ?_ hr⟩
  · intro q hq
    have : q = V3.zero := List.eq_of_mem_replicate hq
    rw [this]; simp [V3.zero]
  · intro _
    rw [hfr]
    intro hh
    have := congrArg V3.x hh
    norm_num [V3.zero] at this

/-! ## C58 is_closed -/

theorem foldl_min_lt (t : ℝ) (l : List (V3 ℝ)) : ∀ m : ℝ,
    t < l.foldl (fun m c => if c.x < m then c.x else m) m ↔ t < m ∧ ∀ q ∈ l, t < q.x := by
  induction l with
  | nil => intro m; simp
  | cons a l ih =>
    intro m
    rw [List.foldl_cons, ih]
    simp only [List.mem_cons, forall_eq_or_imp]
    split
    · rename_i h
      constructor
      · rintro ⟨h1, h2⟩; exact ⟨h1.trans h, h1, h2⟩
      · rintro ⟨-, h1, h2⟩; exact ⟨h1, h2⟩
    · rename_i h
      constructor
      · rintro ⟨h1, h2⟩; exact ⟨h1, lt_of_lt_of_le h1 (not_lt.mp h), h2⟩
      · rintro ⟨h1, -, h2⟩; exact ⟨h1, h2⟩

/-- C58: `is_closed()` of a hull with at least one surface point returns, and says exactly whether every surface
radius exceeds 1.2 times the minimum radius. -/
theorem C58_hull (k : Hull ℝ) (hk : k.polar ≠ []) :
    ∃ b, k.isClosed = .ok b ∧ (b = true ↔ ∀ q ∈ k.polar, 12 / 10 * k.minRadius < q.x) := by
  unfold isClosed
  match hp : k.polar, hk with
  | q :: qs, _ =>
    refine ⟨_, rfl, ?_⟩
    rw [decide_eq_true_iff, foldl_min_lt]
    simp only [List.mem_cons, forall_eq_or_imp, lit_real]
    norm_num

/-- C58: an aggregate is closed exactly when its outside hull is; every obstacle that is neither a hull nor an
aggregate is closed. -/
theorem C58_others (a : Aggregate ℝ) (o : Obj ℝ) :
    (Obj.aggregate a).isClosed = a.outside.isClosed ∧
    ((∀ k, o ≠ .hull k) → (∀ a, o ≠ .aggregate a) → o.isClosed = .ok true) := by
  refine ⟨rfl, fun h1 h2 => ?_⟩
  cases o with
  | plain b => rfl
  | ellipsoid e => rfl
  | hull k => exact absurd rfl (h1 k)
  | aggregate a => exact absurd rfl (h2 a)

/-- Both answers occur: radii 2 and 3 with minimum radius 1, and radii 2 and 1. -/
example : (⟨Base.mkName "" V3.zero, false, 2, 1, [⟨2, 0, 0⟩, ⟨3, 0, 0⟩], [⟨2, 0, 0⟩, ⟨3, 0, 0⟩]⟩ : Hull ℝ).isClosed = .ok true ∧
    (⟨Base.mkName "" V3.zero, false, 2, 1, [⟨2, 0, 0⟩, ⟨3, 0, 0⟩], [⟨2, 0, 0⟩, ⟨1, 0, 0⟩]⟩ : Hull ℝ).isClosed = .ok false := by
  norm_num [isClosed]

/-! ## C60 the agent's margin -/

/-- C60 is false for aggregates (and hulls): the agent's margin has no influence at all.  All heaps, aggregates,
positions, margins, scalar types. -/
theorem C60_negation {α : Type} [Add α] [Sub α] [Mul α] [Div α] [Neg α] [Zero α] [One α]
    [LE α] [LT α] [DecidableLE α] [DecidableLT α] [CMath α] (h : Heap α) (a : Aggregate α) (k : Hull α) (p : V3 α)
    (r r' : α) :
    h.distanceToAgent (.aggregate a) p r = h.distanceToAgent (.aggregate a) p r' ∧
    h.distanceToAgent (.hull k) p r = h.distanceToAgent (.hull k) p r' := ⟨rfl, rfl⟩

theorem level_strict {l l' : V3 ℝ} (k1 k2 k3 : ℕ) (h1 : 1 ≤ k1) (h2 : 1 ≤ k2) (h3 : 1 ≤ k3) (y : V3 ℝ) (hl : AllGt l 0)
    (hx : l.x < l'.x) (hy : l.y < l'.y) (hz : l.z < l'.z) (hne : y ≠ V3.zero) :
    level l' k1 k2 k3 y < level l k1 k2 k3 y := by
  obtain ⟨p1, p2, p3⟩ := hl
  have term : ∀ (v a b : ℝ) (k : ℕ), 1 ≤ k → 0 < a → a < b → v ≠ 0 → (v / b) ^ (2 * k) < (v / a) ^ (2 * k) := by
    intro v a b k hk ha hab hv
    rw [← Even.pow_abs ⟨k, by ring⟩, ← Even.pow_abs (a := v / a) ⟨k, by ring⟩]
    refine pow_lt_pow_left₀ ?_ (abs_nonneg _) (by omega)
    rw [abs_div, abs_div, abs_of_pos ha, abs_of_pos (ha.trans hab)]
    exact div_lt_div_of_pos_left (abs_pos.mpr hv) ha hab
  have term' : ∀ (v a b : ℝ) (k : ℕ), 1 ≤ k → 0 < a → a < b → (v / b) ^ (2 * k) ≤ (v / a) ^ (2 * k) := by
    intro v a b k hk ha hab
    by_cases hv : v = 0
    · subst hv; simp
    · exact (term v a b k hk ha hab hv).le
  unfold level
  by_cases e1 : y.x = 0
  · by_cases e2 : y.y = 0
    · have e3 : y.z ≠ 0 := by
        intro e3; apply hne; ext <;> simp [V3.zero, *]
      have := term' y.x _ _ k1 h1 p1 hx
      have := term' y.y _ _ k2 h2 p2 hy
      have := term y.z _ _ k3 h3 p3 hz e3
      linarith
    · have := term' y.x _ _ k1 h1 p1 hx
      have := term y.y _ _ k2 h2 p2 hy e2
      have := term' y.z _ _ k3 h3 p3 hz
      linarith
  · have := term y.x _ _ k1 h1 p1 hx e1
    have := term' y.y _ _ k2 h2 p2 hy
    have := term' y.z _ _ k3 h3 p3 hz
    linarith

/-- C60, the part that holds: for ellipsoids, a strictly larger margin of the agent gives a strictly smaller distance,
everywhere except at the centre.
Full statement (false, see `C60_negation`): also for aggregates and hulls. -/
theorem C60_ellipsoid_partial (h : Heap ℝ) (e : Ellipsoid ℝ) (k1 k2 k3 : ℕ) (hk : HasCurv e k1 k2 k3)
    (hq : e.base.orientation.norm = 1) (r r' : ℝ) (hr : r < r') (hl : AllGt (halfLengths e (V3.const r)) (1 / 10000))
    (p : V3 ℝ) (hp : p ≠ e.base.position) :
    ∃ d d', h.distanceToAgent (.ellipsoid e) p r = .ok d ∧ h.distanceToAgent (.ellipsoid e) p r' = .ok d' ∧ d' < d := by
  refine ⟨_, _, rfl, rfl, ?_⟩
  have hq' : e.base.pose.orientation.IsUnit := (Quat.isUnit_iff_norm _).mpr hq
  obtain ⟨l1, l2, l3⟩ := hl
  have hs : ∀ (f : ℝ), f + r < f + r' := fun f => by linarith
  have g1 : (halfLengths e (V3.const r)).x < (halfLengths e (V3.const r')).x := hs _
  have g2 : (halfLengths e (V3.const r)).y < (halfLengths e (V3.const r')).y := hs _
  have g3 : (halfLengths e (V3.const r)).z < (halfLengths e (V3.const r')).z := hs _
  rw [distance_frame e _ p k1 k2 k3 hk ⟨l1, l2, l3⟩,
    distance_frame e _ p k1 k2 k3 hk ⟨l1.trans g1, l2.trans g2, l3.trans g3⟩]
  obtain ⟨-, c1, c2, c3⟩ := hk
  refine level_strict k1 k2 k3 c1 c2 c3 _ ⟨by linarith, by linarith, by linarith⟩ g1 g2 g3 ?_
  intro hz
  exact hp ((frame_zero_iff e hq' p).mp hz)

/-- Non-vacuity: the unit ball seen from (3,0,0) with margins 0 and 1. -/
example : ∃ d d', Heap.distanceToAgent ([] : Heap ℝ) (.ellipsoid (ballAt V3.zero)) ⟨3, 0, 0⟩ 0 = .ok d ∧
    Heap.distanceToAgent ([] : Heap ℝ) (.ellipsoid (ballAt V3.zero)) ⟨3, 0, 0⟩ 1 = .ok d' ∧ d' < d := by
  obtain ⟨h1, h2, h3, -⟩ := ballAt_smooth V3.zero
  refine C60_ellipsoid_partial [] _ 1 1 1 h1 h2 0 1 (by norm_num) ?_ _ ?_
  · norm_num [AllGt, halfLengths, ballAt, Base.mkRef, Ellipsoid.ofBase, V3.const, V3.zero]
  · intro h
    have := congrArg V3.x h
    norm_num [ballAt, Base.mkRef, Ellipsoid.ofBase, Base.position, State.position, State.ofPosition, Pose.ofPosition,
      V3.zero] at this

/-! ## C63 inside test of aggregates -/

section
variable {α : Type} [Add α] [Sub α] [Mul α] [Div α] [Neg α] [Zero α] [One α]
  [LE α] [LT α] [DecidableLE α] [DecidableLT α] [CMath α]

theorem foldlM_or {β : Type} (f : β → Res Bool) (l : List β) : ∀ (acc r : Bool),
    l.foldlM (fun acc q => do let b ← f q; Res.ok (acc || b)) acc = .ok r →
    (∀ q ∈ l, ∃ b, f q = .ok b) ∧ (r = true ↔ acc = true ∨ ∃ q ∈ l, f q = .ok true) := by
  induction l with
  | nil => intro acc r h; injection h with h; subst h; simp
  | cons a l ih =>
    intro acc r h
    rw [List.foldlM_cons] at h
    obtain ⟨c, hc, h⟩ := Res.bind_eq_ok.mp h
    obtain ⟨b, hb, hc⟩ := Res.bind_eq_ok.mp hc
    injection hc with hc
    subst hc
    obtain ⟨h1, h2⟩ := ih _ _ h
    refine ⟨?_, ?_⟩
    · intro q hq
      rcases List.mem_cons.mp hq with rfl | hq
      · exact ⟨b, hb⟩
      · exact h1 q hq
    · rw [h2]
      simp only [List.mem_cons, exists_eq_or_imp, hb, Bool.or_eq_true, Res.ok.injEq]
      tauto

/-- more fuel never changes an answer -/
theorem pointIsInsideAux_mono (n : Nat) : ∀ (h : Heap α) (o : Obj α) (p : V3 α) (b : Bool),
    Heap.pointIsInsideAux n h o p = .ok b → Heap.pointIsInsideAux (n + 1) h o p = .ok b := by
  induction n with
  | zero => intro h o p b hb; simp [Heap.pointIsInsideAux] at hb
  | succ n ih =>
    intro h o p b hb
    cases o with
    | plain _ => exact hb
    | ellipsoid _ => exact hb
    | hull _ => exact hb
    | aggregate a =>
      rw [Heap.pointIsInsideAux] at hb ⊢
      obtain ⟨i, hi, hb⟩ := Res.bind_eq_ok.mp hb
      rw [hi, Res.ok_bind]
      cases i with
      | true => exact hb
      | false =>
        simp only [Bool.false_eq_true, if_false] at hb ⊢
        generalize false = acc at hb
        generalize a.prims = l at hb
        induction l generalizing acc with
        | nil => exact hb
        | cons q l ihl =>
          rw [List.foldlM_cons] at hb ⊢
          obtain ⟨c, hc, hb⟩ := Res.bind_eq_ok.mp hb
          obtain ⟨oq, hoq, hc⟩ := Res.bind_eq_ok.mp hc
          obtain ⟨b', hb', hc⟩ := Res.bind_eq_ok.mp hc
          rw [hoq, Res.ok_bind, ih h oq p b' hb', Res.ok_bind, hc, Res.ok_bind]
          exact ihl c hb

/-- C63: when `point_is_inside` of an aggregate answers, the answer is yes exactly when the point is inside the
outside hull or inside one of the primitives (nested aggregates included). -/
theorem C63_aggregate_inside (h : Heap α) (a : Aggregate α) (p : V3 α) (b : Bool)
    (hb : h.pointIsInside (.aggregate a) p = .ok b) :
    b = true ↔ a.outside.pointIsInside p = .ok true ∨
      ∃ q ∈ a.prims, ∃ o, h[q]? = some o ∧ h.pointIsInside o p = .ok true := by
  unfold Heap.pointIsInside at hb
  obtain ⟨n, hn⟩ : ∃ n, h.fuel = n + 1 := ⟨h.length, rfl⟩
  rw [hn, Heap.pointIsInsideAux] at hb
  obtain ⟨i, hi, hb⟩ := Res.bind_eq_ok.mp hb
  cases i with
  | true => simp only [if_true] at hb; injection hb with hb; subst hb; simp [hi]
  | false =>
    simp only [Bool.false_eq_true, if_false] at hb
    have hb' : a.prims.foldlM (fun acc q => do
        let b ← (do let oq ← h.deref q; Heap.pointIsInsideAux n h oq p)
        Res.ok (acc || b)) false = .ok b := by
      simpa only [bind_assoc] using hb
    obtain ⟨h1, h2⟩ := foldlM_or _ _ _ _ hb'
    rw [h2, hi]
    simp only [Bool.false_eq_true, false_or, Res.ok.injEq]
    constructor
    · rintro ⟨q, hq, hq'⟩
      obtain ⟨oq, hoq, hq'⟩ := Res.bind_eq_ok.mp hq'
      refine ⟨q, hq, oq, ?_, ?_⟩
      · unfold Heap.deref at hoq
        cases hh : h[q]? with
        | none => rw [hh] at hoq; cases hoq
        | some o => rw [hh] at hoq; injection hoq with hoq; rw [hoq]
      · unfold Heap.pointIsInside
        rw [hn]
        exact pointIsInsideAux_mono n h oq p true hq'
    · rintro ⟨q, hq, o, ho, ho'⟩
      obtain ⟨c, hc⟩ := h1 q hq
      obtain ⟨oq, hoq, hc'⟩ := Res.bind_eq_ok.mp hc
      have : oq = o := by
        unfold Heap.deref at hoq
        rw [ho] at hoq; injection hoq with hoq; exact hoq.symm
      subst this
      have hm := pointIsInsideAux_mono n h oq p c hc'
      unfold Heap.pointIsInside at ho'
      rw [hn, hm] at ho'
      injection ho' with ho'
      subst ho'
      exact ⟨q, hq, hc⟩

end

/-- Non-vacuity, both answers: an aggregate with a small hull around the origin and the unit ball around (3,0,0). -/
noncomputable def exHull : Hull ℝ :=
  ⟨Base.mkName "" V3.zero, false, 2, 1, [⟨1, 0, 0⟩, ⟨1, 0, 0⟩], [⟨1, Real.pi / 2, 0⟩, ⟨1, Real.pi / 2, 4⟩]⟩

theorem exHull_inside (t : ℝ) (ht : 0 < t) : exHull.pointIsInside ⟨t, 0, 0⟩ = .ok (decide (t < 1)) := by
  have hfr : exHull.base.pose.inverse.apply ⟨t, 0, 0⟩ = ⟨t, 0, 0⟩ := by
    rw [inverse_apply_one rfl]
    ext <;> simp [exHull, Base.mkName, State.ofPosition, Pose.ofPosition, Base.pose, V3.zero]
  have harg : (⟨t, 0⟩ : ℂ).arg = 0 := by
    rw [Complex.arg_eq_zero_iff]; exact ⟨ht.le, rfl⟩
  have hcol : exHull.column ⟨t, 0, 0⟩ = 0 := by
    rw [column, hfr]
    simp only [MathTools.cartesianToPolar, atan2_real, harg]
    norm_num [exHull, MathTools.lowerBound, MathTools.lowerBoundLoop]
  unfold Hull.pointIsInside
  rw [closest_eq (by simp [exHull]), hcol, Res.ok_bind, hfr]
  simp only [polar_radius]
  have hn : V3.norm (⟨t, 0, 0⟩ : V3 ℝ) = t := by
    simp only [V3.norm, V3.sqNorm, V3.dot, sqrt_real, mul_zero, add_zero]
    exact Real.sqrt_mul_self ht.le
  rw [hn]
  rfl

example : ∃ (h : Heap ℝ) (a : Aggregate ℝ), a.prims = [0] ∧
    h.pointIsInside (.aggregate a) ⟨3, 0, 0⟩ = .ok true ∧ a.outside.pointIsInside ⟨3, 0, 0⟩ = .ok false ∧
    h.pointIsInside (.aggregate a) ⟨6, 0, 0⟩ = .ok false := by
  refine ⟨[.ellipsoid (ballAt ⟨3, 0, 0⟩)], { (Aggregate.default : Aggregate ℝ) with outside := exHull, prims := [0] },
    rfl, ?_, ?_, ?_⟩
  · have h1 := exHull_inside 3 (by norm_num)
    have h2 : (ballAt ⟨3, 0, 0⟩).pointIsInside (⟨3, 0, 0⟩ : V3 ℝ) = true := by
      rw [inside_frame, inverse_apply_one rfl]
      norm_num [ballAt, Ellipsoid.ofBase, Base.mkRef, State.ofPosition, Pose.ofPosition, Base.pose, V3.zero]
    norm_num [Heap.pointIsInside, Heap.fuel, Heap.pointIsInsideAux, h1, Heap.deref, h2]
  · have h1 := exHull_inside 3 (by norm_num)
    norm_num at h1
    exact h1
  · have h1 := exHull_inside 6 (by norm_num)
    have h2 : (ballAt ⟨3, 0, 0⟩).pointIsInside (⟨6, 0, 0⟩ : V3 ℝ) = false := by
      rw [← Bool.not_eq_true, inside_frame, inverse_apply_one rfl]
      norm_num [ballAt, Ellipsoid.ofBase, Base.mkRef, State.ofPosition, Pose.ofPosition, Base.pose, halfLengths,
        V3.const, V3.zero]
    norm_num [Heap.pointIsInside, Heap.fuel, Heap.pointIsInsideAux, h1, Heap.deref, h2]

end DOA.Props
