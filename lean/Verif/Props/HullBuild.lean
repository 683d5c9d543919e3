import Verif.Model.HullBuild
import Verif.Props.HullSurface
import Verif.Lemmas.AggregateApi
import Verif.Model.Dbl

/-!
# C93: a hull built from a list of obstacles

It is centred at their centroid, does not depend on their order, and moves with them.
-/

set_option linter.unusedSectionVars false
set_option linter.unusedSimpArgs false

namespace DOA.Props
open DOA DOA.Spec DOA.Hull DOA.Ellipsoid

section
variable {α : Type} [Add α] [Sub α] [Mul α] [Div α] [Neg α] [Zero α] [One α]
  [LE α] [LT α] [DecidableLE α] [DecidableLT α] [CMath α]

theorem smoothCol_length {l l' : List (V3 α)} {i j k : Nat} (h : smoothCol l i j k = .ok l') : l'.length = l.length := by
  obtain ⟨a, b, c, -, -, -, rfl⟩ := smoothCol_inv h
  simp

theorem computeLoop_length (sps : List (V3 α)) : ∀ {i : Nat} {l l' : List (V3 α)}, computeLoop i sps l = .ok l' →
    l'.length = l.length := by
  induction sps with
  | nil => intro i l l' h; cases h; rfl
  | cons sp sps ih =>
    intro i l l' h
    simp only [computeLoop] at h
    obtain ⟨l1, h1, h2⟩ := Res.bind_eq_ok.1 h
    rw [ih h2]
    unfold computeStep at h1
    dsimp only at h1
    by_cases h1i : 1 < i
    · rw [if_pos h1i] at h1
      obtain ⟨l2, h3, h4⟩ := Res.bind_eq_ok.1 h1
      have e : l2.length = l.length := smoothCol_length h3
      split at h4
      · cases h4; simpa using e
      · cases h4
    · rw [if_neg h1i, Res.ok_bind] at h1
      split at h1
      · cases h1; simp
      · cases h1

theorem mapM_deref {h : Heap α} {ps : List Ptr} {os : List (Obj α)} (hm : ps.mapM h.deref = .ok os) :
    (∀ p ∈ ps, p < h.length) ∧ os.map Obj.position = positions h ps ∧ os.map some = ps.map (h[·]?) := by
  induction ps generalizing os with
  | nil => simp only [List.mapM_nil] at hm; cases hm; exact ⟨by simp, rfl, rfl⟩
  | cons p ps ih =>
    rw [List.mapM_cons] at hm
    obtain ⟨o, ho, hm⟩ := Res.bind_eq_ok.1 hm
    obtain ⟨os', hos, hm⟩ := Res.bind_eq_ok.1 hm
    cases hm
    have hp : h[p]? = some o := by
      unfold Heap.deref at ho
      split at ho
      · rename_i x hx; rw [hx]; exact congrArg some (Res.ok.inj ho)
      · cases ho
    obtain ⟨h1, h2, h3⟩ := ih hos
    refine ⟨?_, ?_, ?_⟩
    · intro q hq
      rcases List.mem_cons.1 hq with rfl | hq
      · exact (List.getElem?_eq_some_iff.1 hp).1
      · exact h1 q hq
    · simp [positions, hp] at h2 ⊢
      exact h2
    · simp [hp, h3]

/-- C93: the constructor from a list of obstacles returns exactly if all the pointers are valid and the resolution is at
least 2. -/
theorem C93_defined (h : Heap α) (ps : List Ptr) (b : Bool) (res : Nat) (m : α) :
    (∃ k, h.mkHull ps b res m = .ok k) ↔ (∀ p ∈ ps, p < h.length) ∧ 2 ≤ res := by
  constructor
  · rintro ⟨k, hk⟩
    unfold Heap.mkHull Heap.computeHull at hk
    obtain ⟨os, ho, hk⟩ := Res.bind_eq_ok.1 hk
    refine ⟨(mapM_deref ho).1, ?_⟩
    unfold Hull.compute at hk
    obtain ⟨phi, -, hk⟩ := Res.bind_eq_ok.1 hk
    obtain ⟨p1, h1, hk⟩ := Res.bind_eq_ok.1 hk
    obtain ⟨p2, h2, hk⟩ := Res.bind_eq_ok.1 hk
    have e := computeLoop_length _ h1
    obtain ⟨a, c, d, -, -, h3, -⟩ := smoothCol_inv h2
    have := (List.getElem?_eq_some_iff.1 h3).1
    rw [e] at this
    simp [Hull.mk'] at this
    omega
  · rintro ⟨hp, hres⟩
    have : ∃ os, ps.mapM h.deref = .ok os := by
      induction ps with
      | nil => exact ⟨[], rfl⟩
      | cons p ps ih =>
        obtain ⟨os, ho⟩ := ih fun q hq => hp q (List.mem_cons_of_mem _ hq)
        have : h.deref p = .ok (h[p]'(hp p List.mem_cons_self)) := by
          simp [Heap.deref, List.getElem?_eq_getElem (hp p List.mem_cons_self)]
        exact ⟨_, by rw [List.mapM_cons, this, Res.ok_bind, ho, Res.ok_bind]; rfl⟩
    obtain ⟨os, ho⟩ := this
    obtain ⟨k', hk', -⟩ := compute_ok (hullOK_mk' b hres m) (os.map Obj.intersectionPoints) (Hull.baricenter (os.map Obj.position))
    exact ⟨k', by unfold Heap.mkHull Heap.computeHull; rw [ho, Res.ok_bind, hk']⟩

end

/-! ### The centre -/

theorem baricenter_mean (l : List (V3 ℝ)) : Hull.baricenter l = mean l := by
  have key : ∀ (l : List (V3 ℝ)) (acc : V3 ℝ), l.foldl (fun acc p => acc + p) acc =
      ⟨acc.x + (l.map (·.x)).sum, acc.y + (l.map (·.y)).sum, acc.z + (l.map (·.z)).sum⟩ := by
    intro l
    induction l with
    | nil => intro acc; simp
    | cons a l ih =>
      intro acc
      rw [List.foldl_cons, ih]
      simp only [V3.add_x, V3.add_y, V3.add_z, List.map_cons, List.sum_cons, V3.mk.injEq]
      refine ⟨?_, ?_, ?_⟩ <;> ring
  simp [Hull.baricenter, key, mean, V3.sdiv, V3.zero, MathTools.ofInt]

theorem mkHull_inv {h : Heap ℝ} {k k' : Hull ℝ} {ps : List Ptr} (hk : h.computeHull k ps = .ok k') :
    ∃ os, ps.mapM h.deref = .ok os ∧ k.compute (os.map Obj.intersectionPoints) (mean (positions h ps)) = .ok k' := by
  unfold Heap.computeHull at hk
  obtain ⟨os, ho, hk⟩ := Res.bind_eq_ok.1 hk
  rw [baricenter_mean, (mapM_deref ho).2.1] at hk
  exact ⟨os, ho, hk⟩

/-- C93: position and reference position of the hull are the mean of the positions of the obstacles. -/
theorem C93_centre {h : Heap ℝ} {ps : List Ptr} {b : Bool} {res : ℕ} {m : ℝ} {k : Hull ℝ} (hk : h.mkHull ps b res m = .ok k) :
    k.base.position = mean (positions h ps) ∧ k.base.refPos = some (mean (positions h ps)) := by
  have hd := (C93_defined h ps b res m).1 ⟨k, hk⟩
  obtain ⟨os, -, hc⟩ := mkHull_inv hk
  obtain ⟨k', e, -, -, -, -, e1, e2, -⟩ := compute_ok (hullOK_mk' b hd.2 m) (os.map Obj.intersectionPoints) (mean (positions h ps))
  rw [hc] at e
  cases e
  exact ⟨e2, e1⟩

/-- C93: of all points the centre has the least sum of squared distances to the positions. -/
theorem C93_least {h : Heap ℝ} {ps : List Ptr} {b : Bool} {res : ℕ} {m : ℝ} {k : Hull ℝ} (hk : h.mkHull ps b res m = .ok k)
    (c : V3 ℝ) : ((positions h ps).map fun p => (p - k.base.position).sqNorm).sum ≤ ((positions h ps).map fun p => (p - c).sqNorm).sum := by
  rw [(C93_centre hk).1]
  have key : ∀ (l : List (V3 ℝ)) (c : V3 ℝ), (l.map fun p => (p - c).sqNorm).sum =
      (l.map fun p => p.sqNorm).sum - 2 * (c.x * (l.map (·.x)).sum + c.y * (l.map (·.y)).sum + c.z * (l.map (·.z)).sum)
        + l.length * c.sqNorm := by
    intro l c
    induction l with
    | nil => simp
    | cons a l ih =>
      have e : (a - c).sqNorm = a.sqNorm - 2 * (c.x * a.x + c.y * a.y + c.z * a.z) + c.sqNorm := by
        simp only [V3.sqNorm, V3.dot, V3.sub_x, V3.sub_y, V3.sub_z]
        ring
      simp only [List.map_cons, List.sum_cons, ih, List.length_cons, Nat.cast_add, Nat.cast_one, e]
      ring
  rw [key, key]
  generalize positions h ps = l
  rcases l with _ | ⟨a, l⟩
  · simp
  · have hn : (0 : ℝ) < (a :: l).length := by simp; positivity
    simp only [mean]
    generalize ((a :: l).map (·.x)).sum = sx
    generalize ((a :: l).map (·.y)).sum = sy
    generalize ((a :: l).map (·.z)).sum = sz
    generalize ((a :: l).map fun p => p.sqNorm).sum = s2
    generalize ((a :: l).length : ℝ) = n at *
    have e : s2 - 2 * (c.x * sx + c.y * sy + c.z * sz) + n * c.sqNorm
        - (s2 - 2 * (sx / n * sx + sy / n * sy + sz / n * sz) + n * V3.sqNorm ⟨sx / n, sy / n, sz / n⟩)
        = n * ((c.x - sx / n) ^ 2 + (c.y - sy / n) ^ 2 + (c.z - sz / n) ^ 2) := by
      simp only [V3.sqNorm, V3.dot]
      field_simp
      ring
    have : 0 ≤ n * ((c.x - sx / n) ^ 2 + (c.y - sy / n) ^ 2 + (c.z - sz / n) ^ 2) := by positivity
    linarith

/-! ### The order of the obstacles -/

theorem smoothF_radii (sps : List (V3 ℝ)) : ∀ (sps' old : List (V3 ℝ)) (prev prev' cur cur' : V3 ℝ), prev.x = prev'.x → cur.x = cur'.x →
    sps.map V3.x = sps'.map V3.x → (smoothF prev cur sps old).map V3.x = (smoothF prev' cur' sps' old).map V3.x := by
  induction sps with
  | nil =>
    intro sps' old prev prev' cur cur' _ hc hs
    cases sps' with
    | nil => simp [smoothF, hc]
    | cons => simp at hs
  | cons a sps ih =>
    intro sps' old prev prev' cur cur' hp hc hs
    cases sps' with
    | nil => simp at hs
    | cons a' sps' =>
      simp only [List.map_cons, List.cons.injEq] at hs
      cases old with
      | nil => simp [smoothF, hc]
      | cons o old =>
        have : (mix cur prev o).x = (mix cur' prev' o).x := by simp [mix, hp, hc]
        simp only [smoothF, List.map_cons, this, ih sps' old _ (mix cur' prev' o) a a' this hs.1 hs.2]

theorem smoothCol_radii {l l' l1 l1' : List (V3 ℝ)} {i j k : Nat} (h : l.map V3.x = l'.map V3.x) (h1 : smoothCol l i j k = .ok l1)
    (h1' : smoothCol l' i j k = .ok l1') : l1.map V3.x = l1'.map V3.x := by
  obtain ⟨a, b, c, hc, ha, hb, rfl⟩ := smoothCol_inv h1
  obtain ⟨a', b', c', hc', ha', hb', rfl⟩ := smoothCol_inv h1'
  have key : ∀ {i : ℕ} {c c' : V3 ℝ}, l[i]? = some c → l'[i]? = some c' → c.x = c'.x := by
    intro i c c' hc hc'
    have := congrArg (·[i]?) h
    simpa [hc, hc'] using this
  have : (mix c a b).x = (mix c' a' b').x := by simp [mix, key hc hc', key ha ha', key hb hb']
  rw [List.map_set, List.map_set, h, this]

/-- Radii of a computed hull are determined by the radii of the surface points. -/
theorem compute_radii {k k1 k2 : Hull ℝ} (hk : HullOK k) {prims prims' : List (Oracle ℝ)} {ref : V3 ℝ}
    (h1 : k.compute prims ref = .ok k1) (h2 : k.compute prims' ref = .ok k2)
    (hs : ∀ phi, (surfacePoint k.isInside k.minRadius k.base.margin.x phi
        (rayPoints ((k.base.setRef ref).setPosition ref).pose ref prims phi)).x =
      (surfacePoint k.isInside k.minRadius k.base.margin.x phi
        (rayPoints ((k.base.setRef ref).setPosition ref).pose ref prims' phi)).x) :
    k1.polar.map V3.x = k2.polar.map V3.x := by
  obtain ⟨phi, p1, e1, -, s1, t1, -⟩ := compute_inv hk h1
  obtain ⟨phi', p2, e2, -, s2, t2, -⟩ := compute_inv hk h2
  rw [e1] at e2
  cases e2
  refine smoothCol_radii (smoothCol_radii ?_ s1 s2) t1 t2
  have hx : (surfacePoints k prims ref phi).map V3.x = (surfacePoints k prims' ref phi).map V3.x := by
    simp only [surfacePoints, List.map_map]
    exact List.map_congr_left fun p _ => hs p
  generalize surfacePoints k prims ref phi = sps at hx
  generalize surfacePoints k prims' ref phi = sps' at hx
  generalize k.polar = old
  match sps, sps', hx with
  | [], [], _ => rfl
  | [a], [a'], _ => rfl
  | [a], a' :: b' :: sps', hx => simp at hx
  | a :: b :: sps, [a'], hx => simp at hx
  | a :: b :: sps, a' :: b' :: sps', hx =>
    simp only [List.map_cons, List.cons.injEq] at hx
    match old with
    | [] => rfl
    | [o] => rfl
    | o :: o' :: old =>
      simp only [loopResult, List.map_cons, hx.1, smoothF_radii sps sps' old a a' b b' hx.1 hx.2.1 hx.2.2]

/-- The radius of a surface point does not depend on the order of the intersection points. -/
theorem surfacePoint_perm (b : Bool) (m margin phi : ℝ) {pts pts' : List (V3 ℝ)} (hp : pts.Perm pts') :
    (surfacePoint b m margin phi pts).x = (surfacePoint b m margin phi pts').x := by
  obtain ⟨h1, h2⟩ := C62_surface_point b m margin phi pts
  obtain ⟨h1', h2'⟩ := C62_surface_point b m margin phi pts'
  by_cases he : ∃ q ∈ pts, OnRay phi q
  · obtain ⟨q, hq, ho, e, hmax⟩ := h2 he
    obtain ⟨q', hq', ho', e', hmax'⟩ := h2' (by obtain ⟨x, hx, h⟩ := he; exact ⟨x, hp.mem_iff.1 hx, h⟩)
    have a1 := hmax q' (hp.mem_iff.2 hq') ho'
    have a2 := hmax' q (hp.mem_iff.1 hq) ho
    have : q.x = q'.x := by
      cases b
      · simp at a1 a2; linarith
      · simp at a1 a2; linarith
    rw [e, e', this]
  · rw [h1 (fun q hq h => he ⟨q, hq, h⟩), h1' (fun q hq h => he ⟨q, hp.mem_iff.2 hq, h⟩)]

/-- C93: hulls of the same obstacles listed in another order have the same centre and the same radius in every
direction. -/
theorem C93_order {h : Heap ℝ} {ps ps' : List Ptr} (hp : ps.Perm ps') {b : Bool} {res : ℕ} {m : ℝ} {k : Hull ℝ}
    (hk : h.mkHull ps b res m = .ok k) :
    ∃ k', h.mkHull ps' b res m = .ok k' ∧ k'.base = k.base ∧ k'.polar.map V3.x = k.polar.map V3.x := by
  have hd := (C93_defined h ps b res m).1 ⟨k, hk⟩
  obtain ⟨k', hk'⟩ := (C93_defined h ps' b res m).2 ⟨fun p hx => hd.1 p (hp.mem_iff.2 hx), hd.2⟩
  refine ⟨k', hk', ?_⟩
  obtain ⟨os, ho, hc⟩ := mkHull_inv hk
  obtain ⟨os', ho', hc'⟩ := mkHull_inv hk'
  have hm : mean (positions h ps) = mean (positions h ps') := mean_perm (hp.filterMap _)
  rw [← hm] at hc'
  have hok := hullOK_mk' b hd.2 m
  have hperm : os.Perm os' := by
    have h1 := (mapM_deref ho).2.2
    have h2 := (mapM_deref ho').2.2
    have : (os.map some).Perm (os'.map some) := by rw [h1, h2]; exact hp.map _
    simpa [List.filterMap_map] using this.filterMap id
  refine ⟨?_, ?_⟩
  · obtain ⟨-, -, -, -, -, -, e, -⟩ := compute_inv hok hc
    obtain ⟨-, -, -, -, -, -, e', -⟩ := compute_inv hok hc'
    rw [e, e']
  · refine compute_radii hok hc' hc fun phi => surfacePoint_perm _ _ _ _ ?_
    exact ((hperm.symm.map _).flatMap_right _)

/-! ### Moving the obstacles -/

/-- The obstacle moved by `t`. -/
def displaced (t : V3 ℝ) (o : Obj ℝ) : Obj ℝ := o.mapBase fun b => b.setPosition (b.position + t)

theorem mean_displaced (t : V3 ℝ) (l : List (V3 ℝ)) (hl : l ≠ []) : mean (l.map (· + t)) = mean l + t := by
  have key : ∀ f : V3 ℝ → ℝ, (∀ a b : V3 ℝ, f (a + b) = f a + f b) →
      ((l.map (· + t)).map f).sum / (l.map (· + t)).length = (l.map f).sum / l.length + f t := by
    intro f hf
    have hn : (l.length : ℝ) ≠ 0 := by simpa using hl
    have : ∀ l : List (V3 ℝ), ((l.map (· + t)).map f).sum = (l.map f).sum + l.length * f t := by
      intro l
      induction l with
      | nil => simp
      | cons a l ih =>
        simp only [List.map_cons, List.sum_cons, ih, hf, List.length_cons, Nat.cast_add, Nat.cast_one]
        ring
    rw [this, List.length_map]
    field_simp
  ext
  · exact key V3.x fun _ _ => rfl
  · exact key V3.y fun _ _ => rfl
  · exact key V3.z fun _ _ => rfl

theorem inverse_moved (p : Pose ℝ) (t v : V3 ℝ) : (Pose.inverse ⟨p.position + t, p.orientation⟩).apply (v + t) = p.inverse.apply v := by
  simp only [Pose.inverse, Pose.apply, Quat.rotate_add, Quat.rotate_neg]
  ext <;> simp only [V3.add_x, V3.add_y, V3.add_z, V3.neg_x, V3.neg_y, V3.neg_z] <;> ring

theorem apply_moved (p : Pose ℝ) (t v : V3 ℝ) : (⟨p.position + t, p.orientation⟩ : Pose ℝ).apply v = p.apply v + t := by
  simp only [Pose.apply]
  ext <;> simp only [V3.add_x, V3.add_y, V3.add_z] <;> ring

theorem intersection_moved (o : Obj ℝ) (t x1 x2 : V3 ℝ) :
    ((displaced t o).intersectionPoints (x1 + t) (x2 + t)).1 = (o.intersectionPoints x1 x2).1 ∧
    ((o.intersectionPoints x1 x2).1 = true →
      ((displaced t o).intersectionPoints (x1 + t) (x2 + t)).2.1 = (o.intersectionPoints x1 x2).2.1 + t ∧
      ((displaced t o).intersectionPoints (x1 + t) (x2 + t)).2.2 = (o.intersectionPoints x1 x2).2.2 + t) := by
  cases o with
  | ellipsoid e =>
    have hi : ∀ v, ((e.base.setPosition (e.base.position + t)).pose.inverse.apply (v + t)) = e.base.pose.inverse.apply v :=
      fun v => inverse_moved e.base.pose t v
    have ha : ∀ v, (e.base.setPosition (e.base.position + t)).pose.apply v = e.base.pose.apply v + t :=
      fun v => apply_moved e.base.pose t v
    have hm : (e.base.setPosition (e.base.position + t)).margin = e.base.margin := rfl
    simp only [displaced, Obj.mapBase, Obj.intersectionPoints, Ellipsoid.intersectionPoints, hi, ha, hm]
    generalize e.base.pose.inverse.apply x1 = r1
    generalize e.base.pose.inverse.apply x2 = r2
    generalize e.axis + e.base.margin = l
    generalize (r2.y - r1.y) / (r2.x - r1.x) = a
    generalize r1.y - a * r1.x = b
    by_cases hd : 0 ≤ (lit 2 1 * a * b) / (l.y * l.y) * ((lit 2 1 * a * b) / (l.y * l.y))
        - lit 4 1 * (1 / (l.x * l.x) + (a * a) / (l.y * l.y)) * ((b * b) / (l.y * l.y) - 1)
    · rw [if_pos hd, if_pos hd]
      exact ⟨rfl, fun _ => ⟨rfl, rfl⟩⟩
    · rw [if_neg hd, if_neg hd]
      exact ⟨rfl, fun hf => absurd hf (by simp)⟩
  | _ => simp [displaced, Obj.mapBase, Obj.intersectionPoints]

/-- C93: when all the obstacles are moved by `t`, the surface in polar coordinates stays and the surface points, the
position and the reference position move by `t`. -/
theorem C93_moves {h : Heap ℝ} {ps : List Ptr} (hne : ps ≠ []) (t : V3 ℝ) {b : Bool} {res : ℕ} {m : ℝ} {k : Hull ℝ}
    (hk : h.mkHull ps b res m = .ok k) :
    ∃ k', Heap.mkHull (h.map (displaced t)) ps b res m = .ok k' ∧ k'.polar = k.polar ∧ k'.cart = k.cart.map (· + t) ∧
      k'.base.position = k.base.position + t ∧ k'.base.refPos = k.base.refPos.map (· + t) := by
  have hd := (C93_defined h ps b res m).1 ⟨k, hk⟩
  obtain ⟨k', hk'⟩ := (C93_defined (h.map (displaced t)) ps b res m).2 ⟨by simpa using hd.1, hd.2⟩
  refine ⟨k', hk', ?_⟩
  have hpos : positions (h.map (displaced t)) ps = (positions h ps).map (· + t) := by
    unfold positions
    rw [List.map_filterMap]
    refine List.filterMap_congr fun p _ => ?_
    rw [List.getElem?_map]
    rcases h[p]? with _ | o
    · rfl
    · cases o <;> rfl
  have hpne : positions h ps ≠ [] := by
    rcases ps with _ | ⟨p, ps⟩
    · exact absurd rfl hne
    · have : h[p]? = some (h[p]'(hd.1 p List.mem_cons_self)) := List.getElem?_eq_getElem _
      simp [positions, this]
  have hmean : mean (positions (h.map (displaced t)) ps) = mean (positions h ps) + t := by rw [hpos, mean_displaced t _ hpne]
  obtain ⟨c1, c2⟩ := C93_centre hk
  obtain ⟨c1', c2'⟩ := C93_centre hk'
  obtain ⟨os, ho, hc⟩ := mkHull_inv hk
  obtain ⟨os', ho', hc'⟩ := mkHull_inv hk'
  rw [hmean] at hc'
  have hos : os' = os.map (displaced t) := by
    have h1 := (mapM_deref ho).2.2
    have h2 := (mapM_deref ho').2.2
    have : os'.map some = (os.map (displaced t)).map some := by
      rw [h2, List.map_map]
      have : (os.map fun o => some (displaced t o)) = (os.map some).map (Option.map (displaced t)) := by simp
      rw [show (some ∘ displaced t) = fun o => some (displaced t o) from rfl, this, h1, List.map_map]
      refine List.map_congr_left fun p _ => ?_
      simp
    exact List.map_injective_iff.2 (Option.some_injective _) this
  have hok := hullOK_mk' b hd.2 m
  generalize mean (positions h ps) = c at *
  have hsp : ∀ phi, surfacePoints (Hull.mk' b res m) (os'.map Obj.intersectionPoints) (c + t) phi =
      surfacePoints (Hull.mk' b res m) (os.map Obj.intersectionPoints) c phi := by
    intro phi
    unfold surfacePoints
    refine List.map_congr_left fun f _ => congrArg _ ?_
    unfold rayPoints
    dsimp only
    rw [hos, List.map_map, List.flatMap_map, List.flatMap_map]
    refine List.flatMap_congr fun o _ => ?_
    have hap : ∀ v, (((Hull.mk' b res m).base.setRef (c + t)).setPosition (c + t)).pose.apply v =
        (((Hull.mk' b res m).base.setRef c).setPosition c).pose.apply v + t :=
      fun v => apply_moved (((Hull.mk' b res m).base.setRef c).setPosition c).pose t v
    have hin : ∀ v, (((Hull.mk' b res m).base.setRef (c + t)).setPosition (c + t)).pose.inverse.apply (v + t) =
        (((Hull.mk' b res m).base.setRef c).setPosition c).pose.inverse.apply v :=
      fun v => inverse_moved (((Hull.mk' b res m).base.setRef c).setPosition c).pose t v
    obtain ⟨i1, i2⟩ := intersection_moved o t c ((((Hull.mk' b res m).base.setRef c).setPosition c).pose.apply
      (MathTools.polarToCartesian ⟨1, CMath.acos 0, f⟩))
    simp only [Function.comp, hap]
    rw [i1]
    split
    · rename_i hh
      rw [(i2 hh).1, (i2 hh).2, hin, hin]
    · rfl
  obtain ⟨phi, p1, e1, -, s1, t1, b1, -, -, -, ca1⟩ := compute_inv hok hc
  obtain ⟨phi', p2, e2, -, s2, t2, b2, -, -, -, ca2⟩ := compute_inv hok hc'
  rw [e1] at e2
  cases e2
  rw [hsp, s1] at s2
  cases s2
  rw [t1] at t2
  have hpolar : k'.polar = k.polar := (Res.ok.inj t2).symm
  refine ⟨hpolar, ?_, ?_, ?_⟩
  · rw [ca1, ca2, hpolar, List.map_map]
    refine List.map_congr_left fun q _ => ?_
    rw [b1, b2]
    exact apply_moved (((Hull.mk' b res m).base.setRef c).setPosition c).pose t _
  · rw [c1, c1', hmean]
  · rw [c2, c2', hmean]; rfl

/-! ### Nothing to enclose -/

/-- C93: the centre of no obstacles is not a number, so the hull of an empty list is unusable. -/
theorem C93_empty {h : Heap Dbl} {b : Bool} {res : ℕ} {m : Dbl} {k : Hull Dbl} (hk : h.mkHull [] b res m = .ok k) :
    k.base.position = ⟨.nan, .nan, .nan⟩ := by
  have hd := (C93_defined h [] b res m).1 ⟨k, hk⟩
  unfold Heap.mkHull Heap.computeHull at hk
  rw [List.mapM_nil] at hk
  obtain ⟨k', e, -, -, -, -, -, e2, -⟩ := compute_ok (hullOK_mk' b hd.2 m) (([] : List (Obj Dbl)).map Obj.intersectionPoints)
    (Hull.baricenter (([] : List (Obj Dbl)).map Obj.position))
  have : (Hull.mk' b res m).compute (([] : List (Obj Dbl)).map Obj.intersectionPoints)
    (Hull.baricenter (([] : List (Obj Dbl)).map Obj.position)) = .ok k := hk
  rw [e] at this
  cases this
  rw [e2]
  have hz : ∀ z : Dbl, z = .fin 0 → z / MathTools.ofInt (([] : List (V3 Dbl)).length : Int) = .nan := by
    rintro z rfl
    have : (MathTools.ofInt (([] : List (V3 Dbl)).length : Int) : Dbl) = .fin 0 := by
      simp [MathTools.ofInt, Dbl.lit_def]
    rw [this, Dbl.fin_div_zero]
    simp [Dbl.signed]
  simp only [Hull.baricenter, List.map_nil, List.foldl_nil, V3.sdiv, V3.zero, V3.mk.injEq]
  exact ⟨hz _ rfl, hz _ rfl, hz _ rfl⟩

/-! ### Concrete cases -/

/-- Two discs and a point. -/
noncomputable def trio : Heap ℝ :=
  [.ellipsoid (ballAt ⟨0, 0, 0⟩), .ellipsoid (ballAt ⟨3, 0, 0⟩), .plain (Base.mkPos "point" ⟨0, 3, 0⟩ ⟨0, 0, 0⟩)]

example : ∃ k, trio.mkHull [0, 1, 2] false 500 (1 / 2) = .ok k ∧ k.base.position = ⟨1, 1, 0⟩ := by
  obtain ⟨k, hk⟩ := (C93_defined trio [0, 1, 2] false 500 (1 / 2)).2 (by simp [trio])
  refine ⟨k, hk, ?_⟩
  rw [(C93_centre hk).1]
  simp [mean, positions, trio, ballAt, Obj.position, Obj.base, Base.position, State.position, Base.mkPos, Base.mkRef, State.ofPosition,
    Pose.ofPosition, Ellipsoid.ofBase]

example : ∃ k k', trio.mkHull [0, 1, 2] false 500 (1 / 2) = .ok k ∧ trio.mkHull [2, 0, 1] false 500 (1 / 2) = .ok k' ∧
    k'.polar.map V3.x = k.polar.map V3.x := by
  obtain ⟨k, hk⟩ := (C93_defined trio [0, 1, 2] false 500 (1 / 2)).2 (by simp [trio])
  have hp : [0, 1, 2].Perm [2, 0, 1] := by decide
  obtain ⟨k', hk', -, h⟩ := C93_order hp hk
  exact ⟨k, k', hk, hk', h⟩

example : ∃ k k', trio.mkHull [0, 1, 2] true 500 (1 / 2) = .ok k ∧
    Heap.mkHull (trio.map (displaced ⟨5, 6, 0⟩)) [0, 1, 2] true 500 (1 / 2) = .ok k' ∧ k'.cart = k.cart.map (· + ⟨5, 6, 0⟩) := by
  obtain ⟨k, hk⟩ := (C93_defined trio [0, 1, 2] true 500 (1 / 2)).2 (by simp [trio])
  obtain ⟨k', hk', -, h, -⟩ := C93_moves (by simp) ⟨5, 6, 0⟩ hk
  exact ⟨k, k', hk, hk', h⟩

example : ∃ k, Heap.mkHull ([] : Heap Dbl) [] false 500 (.fin (1 / 2)) = .ok k ∧ k.base.position.x = .nan := by
  obtain ⟨k, hk⟩ := (C93_defined ([] : Heap Dbl) [] false 500 (.fin (1 / 2))).2 (by simp)
  exact ⟨k, hk, by rw [C93_empty hk]⟩

/-- The hull of one disc, built by the constructor, deviates from the disc by at most a nineteenth (cf. C65). -/
theorem C93_disc (b : Bool) (res : ℕ) (hres : 2 ≤ res) (m : ℝ) (hm : 0 ≤ m) (c : V3 ℝ) :
    ∃ k, Heap.mkHull [.ellipsoid (ballAt c)] [0] b res m = .ok k ∧ k.base.position = c ∧
      ∀ q ∈ k.polar, |q.x - max m 1| ≤ max m 1 / 19 := by
  obtain ⟨k, hk⟩ := (C93_defined [.ellipsoid (ballAt c)] [0] b res m).2 (by simp [hres])
  have hpos : mean (positions ([.ellipsoid (ballAt c)] : Heap ℝ) [0]) = c := by
    simp [mean, positions, ballAt, Obj.position, Obj.base, Base.position, State.position, Base.mkPos, Base.mkRef, State.ofPosition,
      Pose.ofPosition, Ellipsoid.ofBase]
  refine ⟨k, hk, by rw [(C93_centre hk).1, hpos], ?_⟩
  obtain ⟨os, ho, hc⟩ := mkHull_inv hk
  have : os = [.ellipsoid (ballAt c)] := by
    have : ([0] : List Ptr).mapM (Heap.deref ([.ellipsoid (ballAt c)] : Heap ℝ)) = .ok [.ellipsoid (ballAt c)] := rfl
    rw [this] at ho
    exact (Res.ok.inj ho).symm
  subst this
  rw [hpos] at hc
  obtain ⟨k', hk', h⟩ := C65_hull_of_disc b res hres m hm c 1
  have e : computes (Hull.mk' b res m) (List.replicate 1 ([(ballAt c).intersectionPoints], c)) = .ok k := by
    simp only [List.replicate_one, computes]
    have : (Hull.mk' b res m).compute [(ballAt c).intersectionPoints] c = .ok k := hc
    simp [this]
  rw [hk'] at e
  cases e
  simpa using h

end DOA.Props
