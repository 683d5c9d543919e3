import Verif.Spec.Sorting
import Verif.Spec.Finite
import Verif.Props.HullBuild
import Verif.Props.LibrarySearch
import Verif.Props.ExceptionalHull

/-!
# C102: the order of equal elements after `std::sort`
-/

set_option linter.unusedSectionVars false
set_option linter.unusedSimpArgs false

namespace DOA.Props
open DOA DOA.Spec DOA.Hull DOA.Ellipsoid

/-! ## Names -/

section
variable {α : Type}

/-- C102: whatever `std::sort` makes of primitives with equal names, the names come in the same order, so the name of the
aggregate is the same. -/
theorem C102_names {os l l' : List (Ptr × Obj α)} (h : SortResult Heap.namedBefore os l) (h' : SortResult Heap.namedBefore os l') :
    l.map (·.2.name) = l'.map (·.2.name) ∧
    Heap.aggregateName (l.map fun x => x.2.name) = Heap.aggregateName (l'.map fun x => x.2.name) := by
  have key : l.map (·.2.name) = l'.map (·.2.name) := by
    refine List.Perm.eq_of_pairwise (le := fun a b : String => ¬ b < a) ?_ ?_ ?_ ((h.perm.trans h'.perm.symm).map _)
    · intro a b _ _ h1 h2
      exact String.le_antisymm (String.not_lt.mp h1) (String.not_lt.mp h2)
    · rw [List.pairwise_map]
      exact h.ordered.imp fun h => by simpa using h
    · rw [List.pairwise_map]
      exact h'.ordered.imp fun h => by simpa using h
  exact ⟨key, by rw [key]⟩

/-- C102: with different names there is only one result. -/
theorem C102_distinct {os l l' : List (Ptr × Obj α)} (h : SortResult Heap.namedBefore os l)
    (h' : SortResult Heap.namedBefore os l') (hd : (os.map (·.2.name)).Nodup) : l = l' := by
  refine List.Perm.eq_of_pairwise (le := fun a b => Heap.namedBefore b a = false) ?_ h.ordered h'.ordered (h.perm.trans h'.perm.symm)
  intro a b ha hb h1 h2
  have hn : a.2.name = b.2.name := by
    simp only [Heap.namedBefore, decide_eq_false_iff_not] at h1 h2
    exact String.le_antisymm (String.not_lt.mp h1) (String.not_lt.mp h2)
  exact List.inj_on_of_nodup_map hd (h.perm.mem_iff.mp ha) (h'.perm.mem_iff.mp hb) hn

end

/-- C102: the mean of the positions does not depend on the order either. -/
theorem C102_mean {os l l' : List (Ptr × Obj ℝ)} (h : SortResult Heap.namedBefore os l) (h' : SortResult Heap.namedBefore os l') :
    mean (l.map (·.2.position)) = mean (l'.map (·.2.position)) :=
  mean_perm ((h.perm.trans h'.perm.symm).map _)

/-! ## Hulls -/

theorem surfaceOf_sortBy {α : Type} [Add α] [Sub α] [Mul α] [Div α] [Neg α] [Zero α] [One α] [LE α] [LT α] [DecidableLE α]
    [DecidableLT α] [CMath α] (b : Bool) (m margin phi : α) (pts : List (V3 α)) :
    surfacePoint b m margin phi pts = surfaceOf b m margin phi (MathTools.sortBy (radiusOrder b) pts) := by
  cases b <;> rfl

theorem sortResult_sortBy (b : Bool) (pts : List (V3 ℝ)) : SortResult (radiusOrder b) pts (MathTools.sortBy (radiusOrder b) pts) := by
  refine ⟨MathTools.sortBy_perm _ _, ?_⟩
  cases b
  · exact (MathTools.sortBy_key_sorted_desc (fun q : V3 ℝ => q.x) pts).imp fun h => by simpa [radiusOrder] using h
  · exact (MathTools.sortBy_key_sorted (fun q : V3 ℝ => q.x) pts).imp fun h => by simpa [radiusOrder] using h

/-- The model computes one of the outcomes. -/
theorem C102_model {k k' : Hull ℝ} {prims : List (Oracle ℝ)} {ref : V3 ℝ} (h : k.compute prims ref = .ok k') :
    Outcome k prims ref k' := by
  unfold Hull.compute at h
  obtain ⟨phi, h1, h2⟩ := Res.bind_eq_ok.mp h
  refine ⟨phi, _, h1, ?_, h2⟩
  rw [List.forall₂_map_right_iff]
  exact List.forall₂_same.mpr fun p _ => ⟨_, sortResult_sortBy _ _, surfaceOf_sortBy _ _ _ _ _⟩

/-- C102: the outcomes do not depend on the order of the primitives, which is unspecified if names are equal. -/
theorem C102_primitives {k k' : Hull ℝ} {prims prims' : List (Oracle ℝ)} (hp : prims.Perm prims') {ref : V3 ℝ}
    (h : Outcome k prims ref k') : Outcome k prims' ref k' := by
  obtain ⟨phi, sps, h1, h2, h3⟩ := h
  refine ⟨phi, sps, h1, h2.imp fun p sp => ?_, h3⟩
  rintro ⟨l, hl, rfl⟩
  exact ⟨l, ⟨hl.perm.trans (hp.flatMap_right _), hl.ordered⟩, rfl⟩

/-- What a permitted order makes of the points of a ray. -/
theorem surfaceOf_spec {b : Bool} {m margin phi : ℝ} {pts l : List (V3 ℝ)} (h : SortResult (radiusOrder b) pts l) :
    let s := if b then -margin else margin
    ((∀ q ∈ pts, ¬ OnRay phi q) → surfaceOf b m margin phi l = ⟨max m (m + s), Real.pi / 2, phi⟩) ∧
    ((∃ q ∈ pts, OnRay phi q) → ∃ q ∈ pts, OnRay phi q ∧ surfaceOf b m margin phi l = ⟨max m (q.x + s), q.y, q.z⟩ ∧
      ∀ q' ∈ pts, OnRay phi q' → if b then q.x ≤ q'.x else q'.x ≤ q.x) := by
  intro s
  have hmem : ∀ q, q ∈ l ↔ q ∈ pts := fun q => h.perm.mem_iff
  have hpw : l.Pairwise fun q q' => if b then q.x ≤ q'.x else q'.x ≤ q.x := by
    have := h.ordered
    cases b <;> exact this.imp fun h => by simpa [radiusOrder] using h
  unfold surfaceOf
  simp only []
  cases hd : l.dropWhile (offRay phi) with
  | nil =>
    have hall := dropWhile_nil _ _ hd
    refine ⟨fun _ => ?_, ?_⟩
    · simp only [maxS_real, acos_real, Real.arccos_zero]; rfl
    · rintro ⟨q, hq, hon⟩
      have := hall q ((hmem q).mpr hq)
      rw [(offRay_iff phi q).mpr hon] at this
      cases this
  | cons q rest =>
    obtain ⟨h1, h2, h3, h4⟩ := dropWhile_spec _ _ hd
    refine ⟨fun hno => absurd ((offRay_iff phi q).mp h1) (hno q ((hmem q).mp h2)), fun _ => ?_⟩
    refine ⟨q, (hmem q).mp h2, (offRay_iff phi q).mp h1, by simp only [maxS_real]; rfl, ?_⟩
    intro q' hq' hon
    have hq'' := h3 q' ((hmem q').mpr hq') ((offRay_iff phi q').mpr hon)
    have hpw' := List.pairwise_cons.mp (hpw.sublist h4)
    rcases List.mem_cons.mp hq'' with rfl | hr
    · cases b <;> simp
    · exact hpw'.1 q' hr

/-- Two permitted orders: the same radius, and the same angles `g` if these are the same for equally far points on the ray. -/
theorem surfaceOf_unique {γ : Type} {b : Bool} {m margin phi : ℝ} {pts l l' : List (V3 ℝ)} (h : SortResult (radiusOrder b) pts l)
    (h' : SortResult (radiusOrder b) pts l') (g : ℝ × ℝ → γ)
    (hg : ∀ q ∈ pts, ∀ q' ∈ pts, OnRay phi q → OnRay phi q' → q.x = q'.x → g (angles q) = g (angles q')) :
    (surfaceOf b m margin phi l).x = (surfaceOf b m margin phi l').x ∧
    g (angles (surfaceOf b m margin phi l)) = g (angles (surfaceOf b m margin phi l')) := by
  obtain ⟨h1, h2⟩ := surfaceOf_spec (m := m) (margin := margin) (phi := phi) h
  obtain ⟨h1', h2'⟩ := surfaceOf_spec (m := m) (margin := margin) (phi := phi) h'
  by_cases he : ∃ q ∈ pts, OnRay phi q
  · obtain ⟨q, hq, ho, e, hmax⟩ := h2 he
    obtain ⟨q', hq', ho', e', hmax'⟩ := h2' he
    have a1 := hmax q' hq' ho'
    have a2 := hmax' q hq ho
    have hx : q.x = q'.x := by
      cases b
      · simp at a1 a2; linarith
      · simp at a1 a2; linarith
    rw [e, e', hx]
    exact ⟨rfl, hg q hq q' hq' ho ho' hx⟩
  · have hno : ∀ q ∈ pts, ¬ OnRay phi q := fun q hq h => he ⟨q, hq, h⟩
    rw [h1 hno, h1' hno]
    exact ⟨rfl, rfl⟩

theorem loopResult_radii {sps sps' : List (V3 ℝ)} (hx : sps.map V3.x = sps'.map V3.x) (old : List (V3 ℝ)) :
    (loopResult sps old).map V3.x = (loopResult sps' old).map V3.x := by
  match sps, sps', hx with
  | [], [], _ => rfl
  | [a], [a'], _ => rfl
  | [a], a' :: b' :: sps', hx => simp at hx
  | a :: b :: sps, [a'], hx => simp at hx
  | a :: b :: sps, a' :: b' :: sps', hx =>
    simp only [List.map_cons, List.cons.injEq] at hx
    match old with
    | [] => rfl
    | [o] => rfl
    | o :: o' :: old =>
      simp only [loopResult, List.map_cons, hx.1, smoothF_radii sps sps' old a a' b b' hx.1 hx.2.1 hx.2.2]

/-- the hull with these columns -/
noncomputable def finished (k : Hull ℝ) (ref : V3 ℝ) (polar : List (V3 ℝ)) : Hull ℝ :=
  ⟨(k.base.setRef ref).setPosition ref, k.isInside, k.resolution, k.minRadius,
    polar.map fun q => ((k.base.setRef ref).setPosition ref).pose.apply (MathTools.polarToCartesian q), polar⟩

theorem assemble_inv {k k' : Hull ℝ} (hk : HullOK k) {ref : V3 ℝ} {sps : List (V3 ℝ)} (hl : sps.length = k.resolution)
    (h : assemble k ref sps = .ok k') :
    (∃ p2, smoothCol (loopResult sps k.polar) 0 (k.resolution - 1) 1 = .ok p2 ∧
      smoothCol p2 (k.resolution - 1) (k.resolution - 2) 0 = .ok k'.polar) ∧
    k' = finished k ref k'.polar ∧
    k'.polar.map angles = sps.map angles := by
  unfold assemble at h
  rw [loopResult_eq (by rw [hl, hk.2.1]) (by rw [hl]; exact hk.1), Res.ok_bind] at h
  obtain ⟨p2, h1, h⟩ := Res.bind_eq_ok.mp h
  obtain ⟨p3, h2, h⟩ := Res.bind_eq_ok.mp h
  cases h
  refine ⟨⟨p2, h1, h2⟩, rfl, ?_⟩
  show p3.map angles = _
  rw [smoothCol_angles h2, smoothCol_angles h1, loopResult_angles (by rw [hl, hk.2.1]) (by rw [hl]; exact hk.1)]

/-- The general comparison of two outcomes. -/
theorem outcome_compare {γ : Type} (g : ℝ × ℝ → γ) {k k1 k2 : Hull ℝ} (hk : HullOK k) {prims : List (Oracle ℝ)} {ref : V3 ℝ}
    (h1 : Outcome k prims ref k1) (h2 : Outcome k prims ref k2)
    (hg : ∀ phi, MathTools.linspace (-CMath.pi : ℝ) (CMath.pi - lit 1 10000) k.resolution = .ok phi → ∀ f ∈ phi,
      ∀ q ∈ rayPoints ((k.base.setRef ref).setPosition ref).pose ref prims f,
      ∀ q' ∈ rayPoints ((k.base.setRef ref).setPosition ref).pose ref prims f,
        OnRay f q → OnRay f q' → q.x = q'.x → g (angles q) = g (angles q')) :
    k1.polar.map V3.x = k2.polar.map V3.x ∧ k1.polar.map (fun q => g (angles q)) = k2.polar.map (fun q => g (angles q)) ∧
    ∀ k', k' = k1 ∨ k' = k2 → k' = finished k ref k'.polar := by
  obtain ⟨phi, s1, e1, f1, a1⟩ := h1
  obtain ⟨phi', s2, e2, f2, a2⟩ := h2
  rw [e1] at e2
  cases e2
  have hlen : phi.length = k.resolution := by
    obtain ⟨l, hl, hlen, -⟩ := MathTools.linspace_ok (-CMath.pi : ℝ) (CMath.pi - lit 1 10000) (k.resolution : Int)
      (by have := hk.1; omega)
    rw [e1] at hl
    cases hl
    simpa using hlen
  have l1 : s1.length = k.resolution := by rw [← f1.length_eq, hlen]
  have l2 : s2.length = k.resolution := by rw [← f2.length_eq, hlen]
  have hboth : s1.map V3.x = s2.map V3.x ∧ s1.map (fun q => g (angles q)) = s2.map (fun q => g (angles q)) := by
    have hg' := hg phi e1
    clear e1 hlen l1 l2 a1 a2 hg
    induction f1 generalizing s2 with
    | nil => cases f2; exact ⟨rfl, rfl⟩
    | @cons p a phi s1 ha f1 ih =>
      cases f2 with
      | @cons _ b _ s2 hb f2 =>
        obtain ⟨x1, x2⟩ := ih _ f2 fun f hf => hg' f (List.mem_cons_of_mem _ hf)
        obtain ⟨la, sa, rfl⟩ := ha
        obtain ⟨lb, sb, rfl⟩ := hb
        obtain ⟨y1, y2⟩ := surfaceOf_unique (m := k.minRadius) (margin := k.base.margin.x) sa sb g (hg' p List.mem_cons_self)
        simp only [List.map_cons, x1, x2, y1, y2, and_self]
  obtain ⟨⟨p, b1, c1⟩, d1, g1⟩ := assemble_inv hk l1 a1
  obtain ⟨⟨p', b2, c2⟩, d2, g2⟩ := assemble_inv hk l2 a2
  refine ⟨smoothCol_radii (smoothCol_radii (loopResult_radii hboth.1 k.polar) b1 b2) c1 c2, ?_, ?_⟩
  · have e1 : k1.polar.map (fun q => g (angles q)) = (k1.polar.map angles).map g := by rw [List.map_map]; rfl
    have e2 : k2.polar.map (fun q => g (angles q)) = (k2.polar.map angles).map g := by rw [List.map_map]; rfl
    rw [e1, e2, g1, g2, List.map_map, List.map_map]
    exact hboth.2
  · rintro k' (rfl | rfl)
    · exact d1
    · exact d2

/-- C102: whatever the order of equally far points, the radii of the hull are the same, as are its centre and all the rest but the
angles (and with them the Cartesian coordinates) of the surface points. -/
theorem C102_radii {k k1 k2 : Hull ℝ} (hk : HullOK k) {prims : List (Oracle ℝ)} {ref : V3 ℝ} (h1 : Outcome k prims ref k1)
    (h2 : Outcome k prims ref k2) :
    k1.polar.map V3.x = k2.polar.map V3.x ∧ k1.base = k2.base ∧ k1.isInside = k2.isInside ∧ k1.resolution = k2.resolution ∧
      k1.minRadius = k2.minRadius ∧ k1.isClosed = k2.isClosed := by
  obtain ⟨a, -, b⟩ := outcome_compare (fun _ => ()) hk h1 h2 fun _ _ _ _ _ _ _ _ _ _ _ => rfl
  have b1 := b k1 (.inl rfl)
  have b2 := b k2 (.inr rfl)
  refine ⟨a, ?_, ?_, ?_, ?_, ?_⟩
  · rw [b1, b2]; rfl
  · rw [b1, b2]; rfl
  · rw [b1, b2]; rfl
  · rw [b1, b2]; rfl
  · have hm : k1.minRadius = k2.minRadius := by rw [b1, b2]; rfl
    have key : ∀ k : Hull ℝ, k.isClosed = match k.polar.map V3.x with
        | [] => .ub .indexOOB
        | x :: xs => .ok (decide (lit 12 10 * k.minRadius < xs.foldl (fun m c => if c < m then c else m) x)) := by
      intro k
      unfold Hull.isClosed
      cases k.polar with
      | nil => rfl
      | cons q qs => simp only [List.map_cons, List.foldl_map]
    rw [key, key, a, hm]

/-! ## Angles -/

/-- The angle of a point on a ray, seen from the centre, is that of the ray (`π` for the first ray). -/
theorem ray_angle {f : ℝ} (h1 : -Real.pi ≤ f) (h2 : f < Real.pi) {y : V3 ℝ} (hl : OnRayLine f y) (hne : y.x ≠ 0 ∨ y.y ≠ 0)
    (hon : OnRay f (MathTools.cartesianToPolar y)) :
    (MathTools.cartesianToPolar y).z = (if f = -Real.pi then Real.pi else f) ∧
    ∃ t, 0 < t ∧ y.x = t * Real.cos f ∧ y.y = t * Real.sin f := by
  simp only [MathTools.cartesianToPolar, atan2_real, OnRay] at hon ⊢
  set c : ℂ := ⟨y.x, y.y⟩ with hc
  have hc0 : c ≠ 0 := by
    intro h0
    rcases hne with h | h
    · exact h (congrArg Complex.re h0)
    · exact h (congrArg Complex.im h0)
  have hx : y.x = ‖c‖ * Real.cos c.arg := (Complex.norm_mul_cos_arg c).symm
  have hy : y.y = ‖c‖ * Real.sin c.arg := (Complex.norm_mul_sin_arg c).symm
  have hpos : 0 < ‖c‖ := norm_pos_iff.mpr hc0
  have hsin : Real.sin (c.arg - f) = 0 := by
    rw [Real.sin_sub]
    unfold OnRayLine at hl
    rw [hx, hy] at hl
    have : ‖c‖ * (Real.sin c.arg * Real.cos f - Real.cos c.arg * Real.sin f) = 0 := by linear_combination hl
    rcases mul_eq_zero.mp this with h | h
    · exact absurd h hpos.ne'
    · exact h
  obtain ⟨n, hn⟩ := Real.sin_eq_zero_iff.mp hsin
  have hpi := Real.pi_gt_three
  have h3 := Complex.neg_pi_lt_arg c
  have h4 := Complex.arg_le_pi c
  have hint : ∀ m : ℤ, |(m : ℝ) * Real.pi| ≤ 1 / 10000 → m = 0 := by
    intro m hm
    by_contra h0
    have : (1 : ℝ) ≤ |(m : ℝ)| := by exact_mod_cast Int.one_le_abs h0
    rw [abs_mul, abs_of_pos Real.pi_pos] at hm
    nlinarith
  have hn' : c.arg = f ∨ (c.arg = f + 2 * Real.pi) := by
    rcases hon with h | h
    · left
      rw [← hn] at h
      have := hint n h
      rw [this] at hn
      simp at hn
      linarith
    · right
      have e : c.arg - 2 * Real.pi - f = ((n - 2 : ℤ) : ℝ) * Real.pi := by push_cast; linarith
      rw [e] at h
      have := hint (n - 2) h
      have : n = 2 := by omega
      rw [this] at hn
      push_cast at hn
      linarith
  rcases hn' with h | h
  · refine ⟨?_, ‖c‖, hpos, ?_, ?_⟩
    · rw [if_neg (by linarith), h]
    · rw [← h]; exact hx
    · rw [← h]; exact hy
  · have hf : f = -Real.pi := by linarith
    refine ⟨?_, ‖c‖, hpos, ?_, ?_⟩
    · rw [if_pos hf, h, hf]; ring
    · rw [hx, h, Real.cos_add_two_pi]
    · rw [hy, h, Real.sin_add_two_pi]

/-- The ellipsoids of the list are rotated about z, have nonzero half lengths, and no ray is parallel to their y axis. -/
def Turned (os : List (Obj ℝ)) : Prop := ∀ e, Obj.ellipsoid e ∈ os → ZRotated e ∧ FitE e

theorem intersection_height {e : Ellipsoid ℝ} (hz : ZRotated e) (x1 x2 : V3 ℝ) (h : (e.intersectionPoints x1 x2).1 = true) :
    (e.intersectionPoints x1 x2).2.1.z = e.base.position.z ∧ (e.intersectionPoints x1 x2).2.2.z = e.base.position.z := by
  unfold Ellipsoid.intersectionPoints at h ⊢
  simp only [] at h ⊢
  split at h
  · next hd =>
    rw [if_pos hd]
    simp only [zrot_apply hz]
    simp
  · cases h

/-- The points of a ray. -/
theorem ray_member {pose : Pose ℝ} (hor : pose.orientation = Quat.one) {ref : V3 ℝ} (hpos : pose.position = ref)
    {os : List (Obj ℝ)} (hos : Turned os) {f : ℝ} (hf : GridAngle f) {q : V3 ℝ}
    (hq : q ∈ rayPoints pose ref (os.map Obj.intersectionPoints) f) :
    ∃ e y, Obj.ellipsoid e ∈ os ∧ q = MathTools.cartesianToPolar y ∧ OnRayLine f y ∧ y.z = e.base.position.z - ref.z := by
  simp only [rayPoints, List.mem_flatMap, List.mem_map] at hq
  obtain ⟨o', ⟨o, ho, rfl⟩, hq⟩ := hq
  cases o with
  | plain b => simp [Obj.intersectionPoints] at hq
  | hull b => simp [Obj.intersectionPoints] at hq
  | aggregate b => simp [Obj.intersectionPoints] at hq
  | ellipsoid e =>
    obtain ⟨hz, hs, hray⟩ := hos e ho
    have hob : Obj.intersectionPoints (.ellipsoid e) = e.intersectionPoints := rfl
    rw [hob] at hq
    set x2 := pose.apply (MathTools.polarToCartesian ⟨1, CMath.acos 0, f⟩) with hx2
    have hd : x2 = ref + ⟨Real.cos f, Real.sin f, 0⟩ := by
      rw [hx2, apply_one hor, hpos]
      ext <;> simp [MathTools.polarToCartesian] <;> ring
    have hl := hs.1
    have hlx : (halfLengths e V3.zero).x ≠ 0 := by
      simpa [halfLengths, V3.zero] using hs.1
    have hly : (halfLengths e V3.zero).y ≠ 0 := by
      simpa [halfLengths, V3.zero] using hs.2
    have hne : (e.base.pose.inverse.apply ref).x ≠ (e.base.pose.inverse.apply x2).x := by
      rw [hd]
      simp only [Pose.apply, Pose.inverse, Quat.rotate_add, V3.add_x]
      intro h
      exact hray f hf (by linarith)
    by_cases hr : (e.intersectionPoints ref x2).1 = true
    · rw [if_pos hr] at hq
      obtain ⟨⟨t1, a1, b1⟩, ⟨t2, a2, b2⟩⟩ := intersection_on_line hz hlx hly ref x2 hne hr
      obtain ⟨z1, z2⟩ := intersection_height hz ref x2 hr
      rw [hd] at a1 b1 a2 b2 z1 z2
      simp only [List.mem_cons, List.not_mem_nil, or_false] at hq
      rw [hd, inverse_apply_one hor, inverse_apply_one hor, hpos] at hq
      rcases hq with rfl | rfl
      · refine ⟨e, _, ho, rfl, ?_, by rw [V3.sub_z, z1]⟩
        simp only [OnRayLine, V3.sub_x, V3.sub_y, a1, b1, V3.add_x, V3.add_y]
        ring
      · refine ⟨e, _, ho, rfl, ?_, by rw [V3.sub_z, z2]⟩
        simp only [OnRayLine, V3.sub_x, V3.sub_y, a2, b2, V3.add_x, V3.add_y]
        ring
    · rw [if_neg hr] at hq
      cases hq

theorem ray_point {pose : Pose ℝ} (hor : pose.orientation = Quat.one) {ref : V3 ℝ} (hpos : pose.position = ref)
    {os : List (Obj ℝ)} (hos : Turned os) {f : ℝ} (hf : GridAngle f) {q : V3 ℝ}
    (hq : q ∈ rayPoints pose ref (os.map Obj.intersectionPoints) f) (hon : OnRay f q) :
    q.z = (if f = -Real.pi then Real.pi else f) ∧ ∃ e t, Obj.ellipsoid e ∈ os ∧ 0 < t ∧
      q = MathTools.cartesianToPolar ⟨t * Real.cos f, t * Real.sin f, e.base.position.z - ref.z⟩ := by
  obtain ⟨e, y, he, rfl, hl, hz⟩ := ray_member hor hpos hos hf hq
  have hne : y.x ≠ 0 ∨ y.y ≠ 0 := by
    by_contra h0
    push Not at h0
    have h1 := grid_off hf (MathTools.cartesianToPolar y) (by
      simp only [MathTools.cartesianToPolar, atan2_real, h0.1, h0.2]
      exact Complex.arg_zero)
    rw [(offRay_iff f _).mpr hon] at h1
    cases h1
  have hr : -Real.pi ≤ f ∧ f < Real.pi := by
    obtain ⟨i, hi, rfl⟩ := hf
    have hpi := Real.pi_gt_three
    have : (i : ℝ) ≤ 499 := by exact_mod_cast (by omega : i ≤ 499)
    have h0 : (0 : ℝ) ≤ i := Nat.cast_nonneg i
    constructor
    · have : 0 ≤ (i : ℝ) * ((2 * Real.pi - 1 / 10000) / 499) := by
        apply mul_nonneg h0
        apply div_nonneg <;> linarith
      linarith
    · have : (i : ℝ) * ((2 * Real.pi - 1 / 10000) / 499) ≤ 499 * ((2 * Real.pi - 1 / 10000) / 499) := by
        apply mul_le_mul_of_nonneg_right this
        apply div_nonneg <;> linarith
      linarith
  obtain ⟨h1, t, ht, hx, hy⟩ := ray_angle hr.1 hr.2 hl hne hon
  refine ⟨h1, e, t, he, ht, ?_⟩
  rw [← hx, ← hy, ← hz]

theorem resolution_grid {k : Hull ℝ} (hf : FitK k) {phi : List ℝ}
    (h : MathTools.linspace (-CMath.pi : ℝ) (CMath.pi - lit 1 10000) k.resolution = .ok phi) {f : ℝ} (hm : f ∈ phi) : GridAngle f := by
  rw [hf.rays] at h
  exact grid500 h hm

theorem closest_map {k : Hull ℝ} (x : V3 ℝ) : k.closest x =
    (let pp := MathTools.cartesianToPolar (k.base.pose.inverse.apply x)
     if k.polar.map V3.z = [] then .ub .modZero else .ok (pp, MathTools.lowerBound (k.polar.map V3.z) pp.z,
      (MathTools.lowerBound (k.polar.map V3.z) pp.z + 1) % (k.polar.map V3.z).length)) := by
  by_cases h : k.polar = []
  · rw [h]
    unfold Hull.closest MathTools.findClosestPoints
    rw [h]
    rfl
  · rw [closest_eq h]
    simp only [List.map_eq_nil_iff, h, if_false, List.length_map]
    rfl

/-- C102: for hulls of aggregates (500 rays, axes of the world) of ellipsoids rotated about z, the distance and the test for inside
do not depend on the order either. -/
theorem C102_distance_partial {k k1 k2 : Hull ℝ} (hk : HullOK k) (hf : FitK k) {os : List (Obj ℝ)} (hos : Turned os) {ref : V3 ℝ}
    (h1 : Outcome k (os.map Obj.intersectionPoints) ref k1) (h2 : Outcome k (os.map Obj.intersectionPoints) ref k2)
    (x margin : V3 ℝ) :
    k1.distanceToPoint x margin = k2.distanceToPoint x margin ∧ k1.pointIsInside x = k2.pointIsInside x := by
  obtain ⟨a, b, c⟩ := outcome_compare Prod.snd hk h1 h2 fun phi hphi f hm q hq q' hq' ho ho' _ => by
    have hg := resolution_grid hf hphi hm
    exact ((ray_point (ref := ref) (pose := ((k.base.setRef ref).setPosition ref).pose) hf.axes rfl hos hg hq ho).1).trans ((ray_point (ref := ref) (pose := ((k.base.setRef ref).setPosition ref).pose) hf.axes rfl hos hg hq' ho').1).symm
  have b1 := c k1 (.inl rfl)
  have b2 := c k2 (.inr rfl)
  have hb : k1.base = k2.base := by rw [b1, b2]; rfl
  have hi : k1.isInside = k2.isInside := by rw [b1, b2]; rfl
  have hz : k1.polar.map V3.z = k2.polar.map V3.z := b
  have hl : k1.polar.length = k2.polar.length := by simpa using congrArg List.length a
  have hcl : k1.closest x = k2.closest x := by
    simp only [closest_map, hb, hz]
  have hidx : ∀ i, V3.x <$> Res.index k1.polar i = V3.x <$> Res.index k2.polar i := by
    intro i
    have := congrArg (·[i]?) a
    simp only [List.getElem?_map] at this
    unfold Res.index
    cases g1 : k1.polar[i]? with
    | none =>
      cases g2 : k2.polar[i]? with
      | none => rfl
      | some b => rw [g1, g2] at this; cases this
    | some a =>
      cases g2 : k2.polar[i]? with
      | none => rw [g1, g2] at this; cases this
      | some b => rw [g1, g2] at this; exact congrArg Res.ok (Option.some.inj this)
  have hbind : ∀ {γ : Type} (i : ℕ) (F : ℝ → Res γ), (Res.index k1.polar i >>= fun s => F s.x) =
      (Res.index k2.polar i >>= fun s => F s.x) := by
    intro γ i F
    have h1 : ∀ k : Hull ℝ, (Res.index k.polar i >>= fun s => F s.x) = ((V3.x <$> Res.index k.polar i) >>= F) := by
      intro k
      cases Res.index k.polar i <;> rfl
    rw [h1, h1, hidx]
  constructor
  · unfold Hull.distanceToPoint
    rw [hcl, hi]
    cases k2.closest x with
    | throw e => rfl
    | ub u => rfl
    | ok r => exact hbind r.2.1 fun s => if k2.isInside then .ok (s / r.1.x) else .ok (r.1.x / s)
  · unfold Hull.pointIsInside
    rw [hcl]
    cases k2.closest x with
    | throw e => rfl
    | ub u => rfl
    | ok r => exact hbind r.2.1 fun s => .ok (decide (r.1.x < s))

/-- C102: if moreover the ellipsoids are all at the same height, the whole hull is the same, so that nothing depends on the
order. -/
theorem C102_level_partial {k k1 k2 : Hull ℝ} (hk : HullOK k) (hf : FitK k) {os : List (Obj ℝ)} (hos : Turned os) {z : ℝ}
    (hz : ∀ e, Obj.ellipsoid e ∈ os → e.base.position.z = z) {ref : V3 ℝ}
    (h1 : Outcome k (os.map Obj.intersectionPoints) ref k1) (h2 : Outcome k (os.map Obj.intersectionPoints) ref k2) :
    k1 = k2 := by
  obtain ⟨a, b, c⟩ := outcome_compare id hk h1 h2 fun phi hphi f hm q hq q' hq' ho ho' hx => by
    have hg := resolution_grid hf hphi hm
    obtain ⟨-, e, t, he, ht, rfl⟩ := ray_point (ref := ref) (pose := ((k.base.setRef ref).setPosition ref).pose) hf.axes rfl hos hg hq ho
    obtain ⟨-, e', t', he', ht', rfl⟩ := ray_point (ref := ref) (pose := ((k.base.setRef ref).setPosition ref).pose) hf.axes rfl hos hg hq' ho'
    rw [hz e he, hz e' he'] at hx ⊢
    have htt : t = t' := by
      simp only [MathTools.cartesianToPolar, sqrt_real] at hx
      have hcs := Real.sin_sq_add_cos_sq f
      have hw : ∀ s : ℝ, s * Real.cos f * (s * Real.cos f) + s * Real.sin f * (s * Real.sin f) + (z - ref.z) * (z - ref.z) =
          s ^ 2 + (z - ref.z) ^ 2 := by
        intro s
        linear_combination s ^ 2 * hcs
      rw [hw, hw] at hx
      have := (Real.sqrt_inj (by positivity) (by positivity)).mp hx
      nlinarith
    rw [htt]
  have hp : k1.polar = k2.polar := by
    apply List.ext_getElem?
    intro i
    have e1 := congrArg (·[i]?) a
    have e2 := congrArg (·[i]?) b
    simp only [List.getElem?_map] at e1 e2
    cases g1 : k1.polar[i]? with
    | none =>
      rw [g1] at e1
      simpa using e1
    | some q =>
      cases g2 : k2.polar[i]? with
      | none => rw [g1, g2] at e1; cases e1
      | some q' =>
        rw [g1, g2] at e1 e2
        simp only [Option.map_some, Option.some.injEq, angles, id, Prod.mk.injEq] at e1 e2
        rw [V3.ext e1 e2.1 e2.2]
  rw [c k1 (.inl rfl), c k2 (.inr rfl), hp]

/-! ## Where the order matters -/

private theorem disc_points (n : String) {r z : ℝ} (hr : 0 < r) {f : ℝ} (hf : Real.cos f < 0) :
    (circ n ⟨0, 0, z⟩ r).intersectionPoints V3.zero ⟨Real.cos f, Real.sin f, 0⟩ =
      (true, ⟨r * Real.cos f, r * Real.sin f, z⟩, ⟨-(r * Real.cos f), -(r * Real.sin f), z⟩) := by
  have hor : (circ n ⟨0, 0, z⟩ r).base.pose.orientation = Quat.one := rfl
  have hpos : (circ n ⟨0, 0, z⟩ r).base.pose.position = ⟨0, 0, z⟩ := rfl
  have hc : Real.cos f ≠ 0 := hf.ne
  have hA : 1 / (r * r) + Real.sin f / Real.cos f * (Real.sin f / Real.cos f) / (r * r) = (1 / (r * Real.cos f)) ^ 2 := by
    field_simp
    linear_combination Real.sin_sq_add_cos_sq f
  have hl : (circ n ⟨0, 0, z⟩ r).axis + (circ n ⟨0, 0, z⟩ r).base.margin = ⟨r, r, r⟩ := by
    ext <;> simp [circ, Ellipsoid.ofBase, Base.mkPos, V3.const]
  have hneg : r * Real.cos f < 0 := mul_neg_of_pos_of_neg hr hf
  have hsq : Real.sqrt (4 * (1 / (r * Real.cos f)) ^ 2) = -(2 / (r * Real.cos f)) := by
    rw [show 4 * (1 / (r * Real.cos f)) ^ 2 = (-(2 / (r * Real.cos f))) ^ 2 by ring]
    exact Real.sqrt_sq (by rw [neg_nonneg]; exact (div_neg_of_pos_of_neg two_pos hneg).le)
  have hd : (0 : ℝ) ≤ 4 * (1 / (r * Real.cos f)) ^ 2 := by positivity
  unfold Ellipsoid.intersectionPoints
  simp only [inverse_apply_one hor, apply_one hor, hpos, hl]
  simp only [V3.zero, V3.sub_x, V3.sub_y, sub_zero, mul_zero, zero_div, hA, zero_mul, zero_sub]
  have hd' : -(lit 4 1 * (1 / (r * Real.cos f)) ^ 2 * -1) = 4 * (1 / (r * Real.cos f)) ^ 2 := by rw [lit_four]; ring
  rw [hd', if_pos hd, sqrt_real, hsq, lit_two]
  have hx1 : (-0 - -(2 / (r * Real.cos f))) / (2 * (1 / (r * Real.cos f)) ^ 2) = r * Real.cos f := by
    have := hneg.ne
    field_simp
    ring
  have hx2 : (-0 + -(2 / (r * Real.cos f))) / (2 * (1 / (r * Real.cos f)) ^ 2) = -(r * Real.cos f) := by
    have := hneg.ne
    field_simp
    ring
  rw [hx1, hx2]
  have hy : Real.sin f / Real.cos f * (r * Real.cos f) = r * Real.sin f := by field_simp
  congr 2
  · ext
    · simp
    · simp [hy]
    · simp
  · ext
    · simp
    · simp [hy]
    · simp

/-- the angle stored for the ray -/
private noncomputable def stored (f : ℝ) : ℝ := if f = -Real.pi then Real.pi else f

private theorem polar_point {r z f : ℝ} (hr : 0 < r) (hrz : r ^ 2 + z ^ 2 = 1) (h1 : -Real.pi ≤ f) (h2 : f ≤ Real.pi) :
    MathTools.cartesianToPolar ⟨r * Real.cos f, r * Real.sin f, z⟩ = ⟨1, Real.arccos z, stored f⟩ := by
  have hs : r * Real.cos f * (r * Real.cos f) + r * Real.sin f * (r * Real.sin f) + z * z = 1 := by
    linear_combination hrz + r ^ 2 * Real.sin_sq_add_cos_sq f
  have harg : (⟨r * Real.cos f, r * Real.sin f⟩ : ℂ).arg = stored f := by
    unfold stored
    split
    · next h =>
      rw [h]
      simp only [Real.cos_neg, Real.sin_neg, Real.cos_pi, Real.sin_pi, neg_zero, mul_zero]
      exact Complex.arg_eq_pi_iff.mpr ⟨by simpa using hr, rfl⟩
    · next h =>
      have := Complex.arg_mul_cos_add_sin_mul_I hr (θ := f) ⟨lt_of_le_of_ne h1 (Ne.symm h), h2⟩
      refine Eq.trans ?_ this
      congr 1
      apply Complex.ext
      · simp [Complex.cos_ofReal_re, Complex.sin_ofReal_im, Complex.cos_ofReal_im]
      · simp [Complex.cos_ofReal_re, Complex.sin_ofReal_im, Complex.cos_ofReal_im, Complex.sin_ofReal_re]
  ext
  · simp [MathTools.cartesianToPolar, hs]
  · simp [MathTools.cartesianToPolar, hs]
  · simp only [MathTools.cartesianToPolar, atan2_real]
    exact harg

private theorem anti_radius {r z f : ℝ} (hrz : r ^ 2 + z ^ 2 = 1) :
    (MathTools.cartesianToPolar ⟨-(r * Real.cos f), -(r * Real.sin f), z⟩).x = 1 := by
  have hs : -(r * Real.cos f) * -(r * Real.cos f) + -(r * Real.sin f) * -(r * Real.sin f) + z * z = 1 := by
    linear_combination hrz + r ^ 2 * Real.sin_sq_add_cos_sq f
  simp only [MathTools.cartesianToPolar, hs, sqrt_real, Real.sqrt_one]


private theorem ray_points {r1 r2 z1 z2 f : ℝ} (hr1 : 0 < r1) (hr2 : 0 < r2) (h1 : r1 ^ 2 + z1 ^ 2 = 1) (h2 : r2 ^ 2 + z2 ^ 2 = 1)
    (hf : Real.cos f < 0) (hlo : -Real.pi ≤ f) (hhi : f ≤ Real.pi) :
    ∃ a b, a.x = 1 ∧ b.x = 1 ∧ rayPoints (Pose.ofPosition V3.zero) V3.zero
        ([Obj.ellipsoid (circ "a" ⟨0, 0, z1⟩ r1), Obj.ellipsoid (circ "b" ⟨0, 0, z2⟩ r2)].map Obj.intersectionPoints) f =
      [⟨1, Real.arccos z1, stored f⟩, a, ⟨1, Real.arccos z2, stored f⟩, b] := by
  refine ⟨_, _, anti_radius (f := f) h1, anti_radius (f := f) h2, ?_⟩
  have hp : (Pose.ofPosition (V3.zero : V3 ℝ)).apply (MathTools.polarToCartesian ⟨1, CMath.acos 0, f⟩) =
      ⟨Real.cos f, Real.sin f, 0⟩ := by
    rw [apply_one rfl]
    ext <;> simp [MathTools.polarToCartesian, Pose.ofPosition, V3.zero]
  have hi : ∀ p : V3 ℝ, (Pose.ofPosition (V3.zero : V3 ℝ)).inverse.apply p = p := fun p => by
    rw [inverse_apply_one rfl]
    ext <;> simp [Pose.ofPosition, V3.zero]
  have e1 : Obj.intersectionPoints (.ellipsoid (circ "a" ⟨0, 0, z1⟩ r1)) = (circ "a" ⟨0, 0, z1⟩ r1).intersectionPoints := rfl
  have e2 : Obj.intersectionPoints (.ellipsoid (circ "b" ⟨0, 0, z2⟩ r2)) = (circ "b" ⟨0, 0, z2⟩ r2).intersectionPoints := rfl
  simp only [rayPoints, List.map_cons, List.map_nil, e1, e2, List.flatMap_cons, List.flatMap_nil, hp, disc_points _ hr1 hf,
    disc_points _ hr2 hf, hi, if_true, List.cons_append, List.nil_append, polar_point hr1 h1 hlo hhi, polar_point hr2 h2 hlo hhi]

private theorem sorted_equal {l l' : List (V3 ℝ)} (hp : l'.Perm l) (h : ∀ q ∈ l, q.x = 1) : SortResult (radiusOrder false) l l' := by
  refine ⟨hp, List.pairwise_iff_forall_sublist.mpr fun {a b} hab => ?_⟩
  have ha : a ∈ l' := hab.subset (by simp)
  have hb : b ∈ l' := hab.subset (by simp)
  simp [radiusOrder, h a (hp.mem_iff.mp ha), h b (hp.mem_iff.mp hb)]

private theorem surface_first {f t : ℝ} (l : List (V3 ℝ)) :
    surfaceOf false (1 / 2) 0 f (⟨1, t, stored f⟩ :: l) = ⟨1, t, stored f⟩ := by
  have : offRay f ⟨1, t, stored f⟩ = false := by
    unfold offRay stored
    split
    · next h => subst h; simp [absS_real]; intro _; rw [show Real.pi - 2 * Real.pi + Real.pi = 0 by ring]; simp
    · simp [absS_real]
  simp only [surfaceOf, List.dropWhile_cons, this]
  simp [maxS_real]
  norm_num

private noncomputable def f1 : ℝ := Real.pi - lit 1 10000

private noncomputable def two (c : V3 ℝ) : Hull ℝ :=
  ⟨((Hull.mk' false 2 (1 / 2) : Hull ℝ).base.setRef V3.zero).setPosition V3.zero, false, 2, 1 / 2,
    [MathTools.polarToCartesian c, MathTools.polarToCartesian ⟨1, Real.pi / 2, f1⟩], [c, ⟨1, Real.pi / 2, f1⟩]⟩

private theorem assemble_two (t : ℝ) : assemble (Hull.mk' false 2 (1 / 2)) V3.zero [⟨1, t, Real.pi⟩, ⟨1, Real.pi / 2, f1⟩] =
    .ok (two ⟨1, t, Real.pi⟩) := by
  have hp : ∀ v : V3 ℝ, (((Hull.mk' false 2 (1 / 2) : Hull ℝ).base.setRef V3.zero).setPosition V3.zero).pose.apply v = v := fun v => by
    rw [apply_one rfl]
    ext <;> simp [Base.setPosition, Base.pose, State.pose, State.setPosition, Pose.setPosition, V3.zero]
  have h1 : smoothCol [(⟨1, t, Real.pi⟩ : V3 ℝ), ⟨1, Real.pi / 2, f1⟩] 0 1 1 = .ok [⟨1, t, Real.pi⟩, ⟨1, Real.pi / 2, f1⟩] := by
    simp [smoothCol, Res.index]
    norm_num
  have h2 : smoothCol [(⟨1, t, Real.pi⟩ : V3 ℝ), ⟨1, Real.pi / 2, f1⟩] 1 0 0 = .ok [⟨1, t, Real.pi⟩, ⟨1, Real.pi / 2, f1⟩] := by
    simp [smoothCol, Res.index]
    norm_num
  have hl : computeLoop 0 [(⟨1, t, Real.pi⟩ : V3 ℝ), ⟨1, Real.pi / 2, f1⟩] (Hull.mk' false 2 (1 / 2) : Hull ℝ).polar =
      .ok [⟨1, t, Real.pi⟩, ⟨1, Real.pi / 2, f1⟩] := by
    simp [computeLoop, computeStep, Hull.mk', List.replicate]
  have hr : (Hull.mk' false 2 (1 / 2) : Hull ℝ).resolution = 2 := rfl
  unfold assemble
  rw [hl]
  simp only [hr, Res.ok_bind, Nat.reduceSub, h1, h2, hp, List.map_cons, List.map_nil]
  rfl

private theorem two_normal (t : ℝ) : (two ⟨1, t, Real.pi⟩).normalToAgent ⟨2, 0, 0⟩ =
    .ok ⟨-Real.sin f1, Real.sin t + Real.cos f1, 0⟩ := by
  have hf : ¬ f1 < 0 := by
    have := Real.pi_gt_three
    simp only [f1, lit_real]
    norm_num
    linarith
  have hp : (two ⟨1, t, Real.pi⟩).base.pose.inverse.apply ⟨2, 0, 0⟩ = ⟨2, 0, 0⟩ := by
    rw [inverse_apply_one rfl]
    ext <;> simp [two, Base.setPosition, Base.pose, State.pose, State.setPosition, Pose.setPosition, V3.zero]
  have harg : (MathTools.cartesianToPolar (⟨2, 0, 0⟩ : V3 ℝ)).z = 0 := by
    simp only [MathTools.cartesianToPolar, atan2_real]
    exact Complex.arg_ofReal_of_nonneg (x := 2) (by norm_num)
  have hcol : (two ⟨1, t, Real.pi⟩).column ⟨2, 0, 0⟩ = 0 := by
    simp only [Hull.column, hp, harg]
    simp [two, MathTools.lowerBound, MathTools.lowerBoundLoop, hf, Real.pi_pos.not_gt]
  unfold Hull.normalToAgent
  rw [closest_eq (by simp [two]), hcol]
  simp [two, Res.index, V3.cross, V3.unitZ, MathTools.polarToCartesian]
  ring_nf

theorem circles_turned {os : List (Obj ℝ)} (h : ∀ o ∈ os, ∃ n c r, 0 < r ∧ o = .ellipsoid (circ n c r)) : Turned os := by
  intro e he
  obtain ⟨n, c, r, hr, h'⟩ := h _ he
  cases h'
  exact ⟨circ_rot n c r, fit_unrotated ⟨by simpa [circ, Ellipsoid.ofBase, Base.mkPos, V3.const] using hr.ne',
    by simpa [circ, Ellipsoid.ofBase, Base.mkPos, V3.const] using hr.ne'⟩ rfl⟩

/-- C102: if the primitives are not all at one height, the outcomes can differ: these two discs have the same distance from the
reference point in every direction, and the direction of the normal depends on which of the two points is first after
sorting. -/
theorem C102_negation : ∃ (os : List (Obj ℝ)) (k k1 k2 : Hull ℝ) (n1 n2 : V3 ℝ), HullOK k ∧ Turned os ∧
    Outcome k (os.map Obj.intersectionPoints) V3.zero k1 ∧ Outcome k (os.map Obj.intersectionPoints) V3.zero k2 ∧
    k1.normalToAgent ⟨2, 0, 0⟩ = .ok n1 ∧ k2.normalToAgent ⟨2, 0, 0⟩ = .ok n2 ∧ V3.cross n1 n2 ≠ V3.zero := by
  have hpi := Real.pi_gt_three
  have hr1 : (0 : ℝ) < 1 := one_pos
  have hr2 : (0 : ℝ) < 4 / 5 := by norm_num
  have h1 : (1 : ℝ) ^ 2 + 0 ^ 2 = 1 := by norm_num
  have h2 : (4 / 5 : ℝ) ^ 2 + (3 / 5) ^ 2 = 1 := by norm_num
  have hf1 : f1 = Real.pi - 1 / 10000 := by simp [f1]
  have hc0 : Real.cos (-Real.pi) < 0 := by simp
  have hc1 : Real.cos f1 < 0 := by
    rw [hf1, Real.cos_pi_sub, neg_lt_zero]
    exact Real.cos_pos_of_mem_Ioo ⟨by linarith, by linarith⟩
  have hsin : 0 < Real.sin f1 := Real.sin_pos_of_pos_of_lt_pi (by rw [hf1]; linarith) (by rw [hf1]; linarith)
  obtain ⟨a0, b0, ha0, hb0, hq0⟩ := ray_points hr1 hr2 h1 h2 hc0 le_rfl (by linarith)
  obtain ⟨a1, b1, ha1, hb1, hq1⟩ := ray_points hr1 hr2 h1 h2 hc1 (by rw [hf1]; linarith) (by rw [hf1]; linarith)
  have hst0 : stored (-Real.pi) = Real.pi := by simp [stored]
  have hst1 : stored f1 = f1 := by
    rw [stored, if_neg]
    rw [hf1]
    intro h
    linarith
  have hlin : MathTools.linspace (-CMath.pi : ℝ) (CMath.pi - lit 1 10000) (Hull.mk' false 2 (1 / 2) : Hull ℝ).resolution =
      .ok [-Real.pi, f1] := by
    simp [MathTools.linspace, Hull.mk', f1]
  rw [hst0, Real.arccos_zero] at hq0
  rw [hst1, Real.arccos_zero] at hq1
  have hs0 : ∀ {t : ℝ} (l : List (V3 ℝ)), (⟨1, t, Real.pi⟩ : V3 ℝ) = surfaceOf (Hull.mk' false 2 (1 / 2) : Hull ℝ).isInside
      (Hull.mk' false 2 (1 / 2) : Hull ℝ).minRadius (Hull.mk' false 2 (1 / 2) : Hull ℝ).base.margin.x (-Real.pi) (⟨1, t, Real.pi⟩ :: l) :=
    fun {t} l => by
      have := surface_first (f := -Real.pi) (t := t) l
      rw [hst0] at this
      exact this.symm
  have hs1 : ∀ {t : ℝ} (l : List (V3 ℝ)), (⟨1, t, f1⟩ : V3 ℝ) = surfaceOf (Hull.mk' false 2 (1 / 2) : Hull ℝ).isInside
      (Hull.mk' false 2 (1 / 2) : Hull ℝ).minRadius (Hull.mk' false 2 (1 / 2) : Hull ℝ).base.margin.x f1 (⟨1, t, f1⟩ :: l) :=
    fun {t} l => by
      have := surface_first (f := f1) (t := t) l
      rw [hst1] at this
      exact this.symm
  have hpose : (((Hull.mk' false 2 (1 / 2) : Hull ℝ).base.setRef V3.zero).setPosition V3.zero).pose = Pose.ofPosition V3.zero := rfl
  have hin : (Hull.mk' false 2 (1 / 2) : Hull ℝ).isInside = false := rfl
  have hsort0 : ∀ l, l.Perm [(⟨1, Real.pi / 2, Real.pi⟩ : V3 ℝ), a0, ⟨1, Real.arccos (3 / 5), Real.pi⟩, b0] →
      SortResult (radiusOrder false) [(⟨1, Real.pi / 2, Real.pi⟩ : V3 ℝ), a0, ⟨1, Real.arccos (3 / 5), Real.pi⟩, b0] l :=
    fun l hl => sorted_equal hl (by simp [ha0, hb0])
  have hsort1 : SortResult (radiusOrder false) [(⟨1, Real.pi / 2, f1⟩ : V3 ℝ), a1, ⟨1, Real.arccos (3 / 5), f1⟩, b1]
      [(⟨1, Real.pi / 2, f1⟩ : V3 ℝ), a1, ⟨1, Real.arccos (3 / 5), f1⟩, b1] :=
    sorted_equal (List.Perm.refl _) (by simp [ha1, hb1])
  refine ⟨[Obj.ellipsoid (circ "a" ⟨0, 0, 0⟩ 1), Obj.ellipsoid (circ "b" ⟨0, 0, 3 / 5⟩ (4 / 5))], Hull.mk' false 2 (1 / 2),
    two ⟨1, Real.pi / 2, Real.pi⟩, two ⟨1, Real.arccos (3 / 5), Real.pi⟩, _, _, hullOK_mk' false le_rfl _, ?_,
    ⟨_, [⟨1, Real.pi / 2, Real.pi⟩, ⟨1, Real.pi / 2, f1⟩], hlin, ?_, assemble_two _⟩,
    ⟨_, [⟨1, Real.arccos (3 / 5), Real.pi⟩, ⟨1, Real.pi / 2, f1⟩], hlin, ?_, assemble_two _⟩, two_normal _, two_normal _, ?_⟩
  · exact circles_turned (by simp only [List.mem_cons, List.not_mem_nil, or_false]; rintro o (rfl | rfl); exacts [⟨_, _, _, hr1, rfl⟩, ⟨_, _, _, hr2, rfl⟩])
  · rw [hpose, hin]
    refine .cons ⟨_, ?_, hs0 [a0, ⟨1, Real.arccos (3 / 5), Real.pi⟩, b0]⟩
      (.cons ⟨_, ?_, hs1 [a1, ⟨1, Real.arccos (3 / 5), f1⟩, b1]⟩ .nil)
    · rw [hq0]; exact hsort0 _ (List.Perm.refl _)
    · rw [hq1]; exact hsort1
  · rw [hpose, hin]
    refine .cons ⟨_, ?_, hs0 [⟨1, Real.pi / 2, Real.pi⟩, a0, b0]⟩
      (.cons ⟨_, ?_, hs1 [a1, ⟨1, Real.arccos (3 / 5), f1⟩, b1]⟩ .nil)
    · rw [hq0]
      exact hsort0 _ (List.perm_middle (a := (⟨1, Real.arccos (3 / 5), Real.pi⟩ : V3 ℝ))
        (l₁ := [⟨1, Real.pi / 2, Real.pi⟩, a0]) (l₂ := [b0])).symm
    · rw [hq1]; exact hsort1
  · intro h
    have := congrArg V3.z h
    have h45 : Real.sin (Real.arccos (3 / 5)) = 4 / 5 := by
      rw [Real.sin_arccos, show (1 : ℝ) - (3 / 5) ^ 2 = (4 / 5) ^ 2 by norm_num]
      exact Real.sqrt_sq (by norm_num)
    simp only [V3.cross, V3.zero, h45, Real.sin_pi_div_two] at this
    nlinarith

/-! The positive statements on concrete cases: two primitives of the same name, and two discs at one height. -/

example (l l' : List (Ptr × Obj ℝ))
    (h : SortResult Heap.namedBefore [(0, Obj.ellipsoid (circ "a" V3.zero 1)), (1, .ellipsoid (circ "a" V3.unitX 1))] l)
    (h' : SortResult Heap.namedBefore [(0, Obj.ellipsoid (circ "a" V3.zero 1)), (1, .ellipsoid (circ "a" V3.unitX 1))] l') :
    l.map (·.2.name) = l'.map (·.2.name) ∧ mean (l.map (·.2.position)) = mean (l'.map (·.2.position)) :=
  ⟨(C102_names h h').1, C102_mean h h'⟩

/-- Both orders are permitted. -/
example : SortResult Heap.namedBefore [(0, Obj.ellipsoid (circ "a" V3.zero 1)), (1, .ellipsoid (circ "a" V3.unitX 1))]
      [(0, Obj.ellipsoid (circ "a" V3.zero 1)), (1, .ellipsoid (circ "a" V3.unitX 1))] ∧
    SortResult Heap.namedBefore [(0, Obj.ellipsoid (circ "a" V3.zero 1)), (1, .ellipsoid (circ "a" V3.unitX 1))]
      [(1, Obj.ellipsoid (circ "a" V3.unitX 1)), (0, .ellipsoid (circ "a" V3.zero 1))] := by
  have h : ∀ c c' : V3 ℝ, ∀ p p' : Ptr, Heap.namedBefore (p, Obj.ellipsoid (circ "a" c 1)) (p', .ellipsoid (circ "a" c' 1)) = false :=
    fun c c' p p' => decide_eq_false (String.lt_irrefl "a")
  refine ⟨⟨List.Perm.refl _, ?_⟩, ⟨List.Perm.swap _ _ _, ?_⟩⟩ <;> simp only [List.pairwise_cons, List.mem_cons, List.not_mem_nil,
    or_false, forall_eq, h, false_imp_iff, implies_true, List.Pairwise.nil, and_self]

example (b : Bool) (m : ℝ) (ref : V3 ℝ) (k1 k2 : Hull ℝ)
    (h1 : Outcome (Hull.mk' b 500 m) ([Obj.ellipsoid (circ "a" V3.zero 1), .ellipsoid (circ "b" V3.unitX 1)].map Obj.intersectionPoints) ref k1)
    (h2 : Outcome (Hull.mk' b 500 m) ([Obj.ellipsoid (circ "a" V3.zero 1), .ellipsoid (circ "b" V3.unitX 1)].map Obj.intersectionPoints) ref k2) :
    k1 = k2 :=
  C102_level_partial (z := 0) (hullOK_mk' b (by norm_num) m) ⟨rfl, rfl⟩ (circles_turned (by
    simp only [List.mem_cons, List.not_mem_nil, or_false]
    rintro o (rfl | rfl)
    exacts [⟨_, _, _, one_pos, rfl⟩, ⟨_, _, _, one_pos, rfl⟩])) (by
    simp only [List.mem_cons, List.not_mem_nil, or_false, Obj.ellipsoid.injEq]
    rintro e (rfl | rfl) <;> rfl) h1 h2

end DOA.Props
