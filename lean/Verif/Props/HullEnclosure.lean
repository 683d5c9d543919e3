import Verif.Props.Optimization
import Verif.Props.AggregateLoop
import Verif.Props.HullSurface
import Verif.Props.Math

/-!
# C86: after an aggregation, the hulls of the aggregates are those of the present members
-/

set_option linter.unusedSectionVars false
set_option linter.unusedSimpArgs false

namespace DOA.Props
open DOA DOA.Spec DOA.Hull DOA.Ellipsoid DOA.Modulation

/-! ## the columns after smoothing -/

/-- Smoothing leaves at least nine tenths of the surface radius and adds at most a tenth of the largest radius. -/
private def Mixed (B : ℝ) (s q : V3 ℝ) : Prop := 9 / 10 * s.x ≤ q.x ∧ q.x ≤ 9 / 10 * s.x + B / 10

private def Bounded (B : ℝ) (q : V3 ℝ) : Prop := 0 ≤ q.x ∧ q.x ≤ B

private theorem Bounded.mix {B : ℝ} {c a b : V3 ℝ} (hc : Bounded B c) (ha : Bounded B a) (hb : Bounded B b) :
    Bounded B (mix c a b) ∧ Mixed B c (mix c a b) := by
  simp only [Bounded, Mixed, mix_real] at *
  refine ⟨⟨?_, ?_⟩, ?_, ?_⟩ <;> linarith [hc.1, hc.2, ha.1, ha.2, hb.1, hb.2]

private theorem Bounded.self {B : ℝ} {c : V3 ℝ} (hc : Bounded B c) : Mixed B c c := by
  simp only [Bounded, Mixed] at *
  constructor <;> linarith [hc.1, hc.2]

private theorem smoothF_cols {B : ℝ} (sps : List (V3 ℝ)) : ∀ (old : List (V3 ℝ)) (prev cur : V3 ℝ),
    sps.length = old.length → Bounded B prev → Bounded B cur → (∀ q ∈ sps, Bounded B q) → (∀ q ∈ old, Bounded B q) →
    ∀ (i : ℕ) (s q : V3 ℝ), (cur :: sps)[i]? = some s → (smoothF prev cur sps old)[i]? = some q →
      Mixed B s q ∧ Bounded B q ∧ (i = sps.length → q = s) := by
  induction sps with
  | nil =>
    intro old prev cur _ _ hc _ _ i s q hs hq
    simp only [smoothF] at hq
    rw [hs] at hq; cases hq
    have : s = cur := by
      cases i with
      | zero => simpa using hs.symm
      | succ i => simp at hs
    subst this
    exact ⟨hc.self, hc, fun _ => rfl⟩
  | cons sp sps ih =>
    intro old prev cur hl hp hc hs ho i s q hsi hqi
    cases old with
    | nil => cases hl
    | cons o old =>
      obtain ⟨h1, h2⟩ := Bounded.mix hc hp (ho o List.mem_cons_self)
      cases i with
      | zero =>
        simp only [smoothF, List.getElem?_cons_zero, Option.some.injEq] at hsi hqi
        subst hsi hqi
        exact ⟨h2, h1, fun h => by simp at h⟩
      | succ i =>
        simp only [smoothF, List.getElem?_cons_succ] at hqi
        rw [List.getElem?_cons_succ] at hsi
        obtain ⟨g1, g2, g3⟩ := ih old _ sp (by simpa using hl) h1 (hs sp List.mem_cons_self)
          (fun q hq => hs q (List.mem_cons_of_mem _ hq)) (fun q hq => ho q (List.mem_cons_of_mem _ hq)) i s q hsi hqi
        exact ⟨g1, g2, fun h => g3 (by simpa using h)⟩

/-- The columns of a computed hull: the radius is between nine tenths of the radius of the surface point and that plus a
tenth of the largest radius. -/
theorem compute_columns {k k' : Hull ℝ} (hk : HullOK k) {prims : List (Oracle ℝ)} {ref : V3 ℝ}
    (h : k.compute prims ref = .ok k') {B : ℝ} {phi : List ℝ}
    (hphi : MathTools.linspace (-CMath.pi : ℝ) (CMath.pi - lit 1 10000) k.resolution = .ok phi)
    (hsp : ∀ q ∈ surfacePoints k prims ref phi, 0 ≤ q.x ∧ q.x ≤ B) (hold : ∀ q ∈ k.polar, 0 ≤ q.x ∧ q.x ≤ B) :
    ∀ (i : ℕ) (s q : V3 ℝ), (surfacePoints k prims ref phi)[i]? = some s → k'.polar[i]? = some q →
      9 / 10 * s.x ≤ q.x ∧ q.x ≤ 9 / 10 * s.x + B / 10 ∧ 0 ≤ q.x ∧ q.x ≤ B := by
  obtain ⟨phi', p2, e1, l1, s1, t1, -⟩ := compute_inv hk h
  rw [hphi] at e1; cases e1
  have hlen : (surfacePoints k prims ref phi).length = k.resolution := by simp [surfacePoints, l1]
  have hlen2 := hk.2.1
  have hres := hk.1
  generalize surfacePoints k prims ref phi = sps at *
  generalize k.polar = old at *
  match sps, old, hsp, hold with
  | a0 :: a1 :: sps, o0 :: o1 :: old, hs, ho =>
    simp only [List.length_cons] at hlen hlen2
    have hl : sps.length = old.length := by omega
    have w0 := hs a0 (by simp)
    have key := smoothF_cols (B := B) sps old a0 a1 hl w0 (hs a1 (by simp)) (fun q hq => hs q (by simp [hq]))
      (fun q hq => ho q (by simp [hq]))
    have hL : ∀ (i : ℕ) s q, (a0 :: a1 :: sps)[i]? = some s → (loopResult (a0 :: a1 :: sps) (o0 :: o1 :: old))[i]? = some q →
        Mixed B s q ∧ Bounded B q ∧ (i = 0 ∨ i = k.resolution - 1 → q = s) := by
      intro i s q hi hq
      cases i with
      | zero =>
        simp only [loopResult, List.getElem?_cons_zero, Option.some.injEq] at hi hq
        subst hi hq
        exact ⟨Bounded.self w0, w0, fun _ => rfl⟩
      | succ i =>
        simp only [loopResult, List.getElem?_cons_succ] at hq
        rw [List.getElem?_cons_succ] at hi
        obtain ⟨g1, g2, g3⟩ := key i s q hi hq
        exact ⟨g1, g2, fun h => g3 (by omega)⟩
    have hLlen : (loopResult (a0 :: a1 :: sps) (o0 :: o1 :: old)).length = k.resolution := by
      have := congrArg List.length (loopResult_angles (sps := a0 :: a1 :: sps) (old := o0 :: o1 :: old)
        (by simp [hl]) (by simp))
      simpa [hlen] using this
    generalize loopResult (a0 :: a1 :: sps) (o0 :: o1 :: old) = L at *
    have hs' : ∀ i < k.resolution, ∃ s, (a0 :: a1 :: sps)[i]? = some s := fun i hi =>
      ⟨_, List.getElem?_eq_getElem (by simp only [List.length_cons]; omega)⟩
    have hW : ∀ (i : ℕ) q, L[i]? = some q → Bounded B q := by
      intro i q hq
      obtain ⟨s, hs⟩ := hs' i (by rw [← hLlen]; exact (List.getElem?_eq_some_iff.mp hq).1)
      exact (hL i s q hs hq).2.1
    obtain ⟨x, y, c, hc, hx, hy, hp2⟩ := smoothCol_inv s1
    have h2 : ∀ (i : ℕ) s q, (a0 :: a1 :: sps)[i]? = some s → p2[i]? = some q →
        Mixed B s q ∧ Bounded B q ∧ (i = k.resolution - 1 → q = s) := by
      intro i s q hi hq
      rw [hp2, List.getElem?_set] at hq
      split at hq
      · next h0 =>
        subst h0
        split at hq
        · cases hq
          have := (hL 0 s c hi hc).2.2 (.inl rfl)
          subst this
          have := Bounded.mix (hW _ _ hc) (hW _ _ hx) (hW _ _ hy)
          exact ⟨this.2, this.1, fun h => by omega⟩
        · cases hq
      · obtain ⟨g1, g2, g3⟩ := hL i s q hi hq
        exact ⟨g1, g2, fun h => g3 (.inr h)⟩
    have hW2 : ∀ (i : ℕ) q, p2[i]? = some q → Bounded B q := by
      intro i q hq
      have hlt : i < p2.length := (List.getElem?_eq_some_iff.mp hq).1
      obtain ⟨s, hs⟩ := hs' i (by rw [← hLlen]; simpa [hp2] using hlt)
      exact (h2 i s q hs hq).2.1
    obtain ⟨x', y', c', hc', hx', hy', hp3⟩ := smoothCol_inv t1
    intro i s q hi hq
    rw [hp3, List.getElem?_set] at hq
    have fin : Mixed B s q ∧ Bounded B q := by
      split at hq
      · next h0 =>
        subst h0
        split at hq
        · cases hq
          have := (h2 _ s c' hi hc').2.2 rfl
          subst this
          exact (Bounded.mix (hW2 _ _ hc') (hW2 _ _ hx') (hW2 _ _ hy')).symm
        · cases hq
      · obtain ⟨g1, g2, -⟩ := h2 i s q hi hq
        exact ⟨g1, g2⟩
    exact ⟨fin.1.1, fin.1.2, fin.2.1, fin.2.2⟩
  | [], _, _, _ => simp at hlen; omega
  | [_], _, _, _ => simp at hlen; omega
  | _ :: _ :: _, [], _, _ => simp at hlen2; omega
  | _ :: _ :: _, [_], _, _ => simp at hlen2; omega

/-- The radius the hull computation aims at in the direction of a ray: where the ray leaves the ellipses for the last
time (outside hull) or meets a boundary for the first time (inside hull), not less than the minimum radius `m`. -/
def Extent (inside : Bool) (m : ℝ) (hits : Set ℝ) (R : ℝ) : Prop :=
  (hits = ∅ ∧ R = m) ∨ ∃ ρ, (if inside then IsLeast hits ρ else IsGreatest hits ρ) ∧ R = max m ρ

/-- The direction of column `i` of the hulls of an aggregate. -/
noncomputable def columnAngle (i : ℕ) : ℝ := evenPoint (-Real.pi) (Real.pi - 1 / 10000) 500 i

private theorem eq_of_cos_sin {x f : ℝ} (hx : x ∈ Set.Ioc (-Real.pi) Real.pi) (hf : f ∈ Set.Ioc (-Real.pi) Real.pi)
    (hc : Real.cos x = Real.cos f) (hs : Real.sin x = Real.sin f) : x = f := by
  have h1 := Complex.arg_cos_add_sin_mul_I hx
  have h2 := Complex.arg_cos_add_sin_mul_I hf
  rw [← Complex.ofReal_cos, ← Complex.ofReal_sin] at h1 h2
  rw [hc, hs] at h1
  exact h1.symm.trans h2

/-- The angle of a surface point is that of the ray, or one that `atan2` returns. -/
private theorem surfacePoint_angle (b : Bool) (m margin phi : ℝ) (pose : Pose ℝ) (ref : V3 ℝ) (prims : List (Oracle ℝ)) :
    let sp := surfacePoint b m margin phi (rayPoints pose ref prims phi)
    sp.z = phi ∨ sp.z ∈ Set.Ioc (-Real.pi) Real.pi := by
  intro sp
  have hpts : ∀ q ∈ rayPoints pose ref prims phi, q.z ∈ Set.Ioc (-Real.pi) Real.pi := by
    intro q hq
    simp only [rayPoints, List.mem_flatMap] at hq
    obtain ⟨o, -, hq⟩ := hq
    have : ∀ y : V3 ℝ, (MathTools.cartesianToPolar y).z ∈ Set.Ioc (-Real.pi) Real.pi := fun y =>
      ⟨Complex.neg_pi_lt_arg _, Complex.arg_le_pi _⟩
    split at hq
    · simp only [List.mem_cons, List.not_mem_nil, or_false] at hq
      rcases hq with rfl | rfl <;> exact this _
    · cases hq
  show (surfacePoint b m margin phi (rayPoints pose ref prims phi)).z = phi ∨ _
  simp only [sp]
  unfold surfacePoint
  simp only []
  split
  · left; rfl
  · next q rest hq =>
    right
    refine hpts q ?_
    have hm : q ∈ (if b = true then MathTools.sortBy (fun l r : V3 ℝ => decide (l.x < r.x)) (rayPoints pose ref prims phi)
        else MathTools.sortBy (fun l r : V3 ℝ => decide (r.x < l.x)) (rayPoints pose ref prims phi)) :=
      (List.dropWhile_sublist _).subset (by rw [hq]; simp)
    split at hm
    · exact (MathTools.sortBy_perm _ _).mem_iff.mp hm
    · exact (MathTools.sortBy_perm _ _).mem_iff.mp hm

/-- The columns of the hull of a set of ellipses, for a hull of either kind with 500 columns and no margin, whatever it
was before: column `i` is in direction `columnAngle i` from the reference point, at the height of that point; its radius
is at least nine tenths of the extent of the ellipses in that direction, and at most that plus a tenth of the largest
radius. -/
theorem ellipse_columns {k k' : Hull ℝ} (hk : HullOK k) (hres : k.resolution = 500)
    (hor : k.base.pose.orientation = Quat.one) (hmar : k.base.margin.x = 0) (hm : 0 ≤ k.minRadius)
    {es : List (Ellipsoid ℝ)} {r : V3 ℝ} (h : k.compute (es.map (·.intersectionPoints)) r = .ok k')
    (hok : ∀ i < 500, ∀ e ∈ es, RayOK e r (columnAngle i)) {B : ℝ} (hold : ∀ q ∈ k.polar, 0 ≤ q.x ∧ q.x ≤ B)
    (hmB : k.minRadius ≤ B) (hB : ∀ i < 500, ∀ t ∈ rayHits es r (columnAngle i), t ≤ B) :
    ∀ i < 500, ∃ q R, k'.polar[i]? = some q ∧
      k'.cart[i]? = some (r + ⟨q.x * Real.cos (columnAngle i), q.x * Real.sin (columnAngle i), 0⟩) ∧
      (1 ≤ i → q.z = columnAngle i) ∧ Extent k.isInside k.minRadius (rayHits es r (columnAngle i)) R ∧
      9 / 10 * R ≤ q.x ∧ q.x ≤ 9 / 10 * R + B / 10 ∧ q.x ≤ B := by
  obtain ⟨phi, p2, e1, l1, -, -, e2, -, -, -, e3⟩ := compute_inv hk h
  obtain ⟨phi', e1', l1', e4⟩ := C13_linspace_even (-Real.pi) (Real.pi - 1 / 10000) 500 (by norm_num)
  have hphi : phi = phi' := by
    have : MathTools.linspace (-CMath.pi : ℝ) (CMath.pi - lit 1 10000) (k.resolution : Int) = .ok phi' := by
      rw [hres]
      simpa [lit_real] using e1'
    rw [e1] at this
    cases this; rfl
  subst hphi
  set pose := ((k.base.setRef r).setPosition r).pose with hpose
  -- the surface points
  have hsp : ∀ i < 500, ∃ s R, (surfacePoints k (es.map (·.intersectionPoints)) r phi)[i]? = some s ∧ s.x = R ∧
      s.y = Real.pi / 2 ∧ Real.cos s.z = Real.cos (columnAngle i) ∧ Real.sin s.z = Real.sin (columnAngle i) ∧
      (1 ≤ i → s.z = columnAngle i) ∧ Extent k.isInside k.minRadius (rayHits es r (columnAngle i)) R ∧ 0 ≤ R ∧ R ≤ B := by
    intro i hi
    have hfi : phi[i]? = some (columnAngle i) := e4 i hi
    obtain ⟨hf1, hf2⟩ := grid_mem hk.1 e1 (List.mem_of_getElem? hfi)
    obtain ⟨h1, h2⟩ := C64_surface_is_boundary k.isInside k.minRadius k.base.margin.x pose hor r rfl es (columnAngle i)
      hf1 hf2 (hok i hi)
    have hang := surfacePoint_angle k.isInside k.minRadius k.base.margin.x (columnAngle i) pose r
      (es.map (·.intersectionPoints))
    have hget : (surfacePoints k (es.map (·.intersectionPoints)) r phi)[i]? = some (surfacePoint k.isInside k.minRadius
        k.base.margin.x (columnAngle i) (rayPoints pose r (es.map (·.intersectionPoints)) (columnAngle i))) := by
      simp only [surfacePoints, List.getElem?_map, hfi]
      rfl
    simp only [hmar, neg_zero, ite_self, add_zero, max_self] at h1 h2 hget hang
    generalize surfacePoint k.isInside k.minRadius 0 (columnAngle i)
      (rayPoints pose r (es.map (·.intersectionPoints)) (columnAngle i)) = s at *
    have hz : 1 ≤ i → Real.cos s.z = Real.cos (columnAngle i) → Real.sin s.z = Real.sin (columnAngle i) →
        s.z = columnAngle i := by
      intro h1i hc hs
      rcases hang with h | h
      · exact h
      · have hfr := grid_range hk.1 e1 h1i hfi
        exact eq_of_cos_sin h ⟨hfr.1, hfr.2.le⟩ hc hs
    rcases Set.eq_empty_or_nonempty (rayHits es r (columnAngle i)) with he | hne
    · have := h1 he
      subst this
      exact ⟨_, _, hget, rfl, rfl, rfl, rfl, fun _ => rfl, .inl ⟨he, rfl⟩, hm, hmB⟩
    · obtain ⟨R, hR, hx, hy, hc, hs⟩ := h2 hne
      refine ⟨s, _, hget, rfl, hy, hc, hs, fun h => hz h hc hs, ?_, ?_, ?_⟩
      · rw [hx]; exact .inr ⟨R, hR, rfl⟩
      · rw [hx]; exact le_trans hm (le_max_left _ _)
      · rw [hx]
        have hRm : R ∈ rayHits es r (columnAngle i) := by
          split at hR
          · exact hR.1
          · exact hR.1
        exact max_le hmB (hB i hi R hRm)
  have hlen : (surfacePoints k (es.map (·.intersectionPoints)) r phi).length = 500 := by simp [surfacePoints, l1, hres]
  have hcols := compute_columns hk h (B := B) e1 (by
    intro q hq
    obtain ⟨i, hi⟩ := List.mem_iff_getElem?.mp hq
    have hi' : i < 500 := by rw [← hlen]; exact (List.getElem?_eq_some_iff.mp hi).1
    obtain ⟨s, R, g1, g2, -, -, -, -, -, g3, g4⟩ := hsp i hi'
    rw [hi] at g1; cases g1
    rw [g2]; exact ⟨g3, g4⟩) hold
  obtain ⟨phi', e5, hang⟩ := compute_angles hk h
  rw [e1] at e5; cases e5
  intro i hi
  obtain ⟨s, R, g1, g2, g3, g4, g5, g6, g7, -⟩ := hsp i hi
  have hlen' : k'.polar.length = 500 := by
    have := congrArg List.length hang
    simpa [hlen] using this
  have hq : k'.polar[i]? = some k'.polar[i] := List.getElem?_eq_getElem (by omega)
  have hangi : angles k'.polar[i] = angles s := by
    have := congrArg (·[i]?) hang
    simpa [List.getElem?_map, g1, hq] using this
  obtain ⟨c1, c2, c3, c4⟩ := hcols i s _ g1 hq
  rw [g2] at c1 c2
  have hy : (k'.polar[i]).y = s.y := congrArg Prod.fst hangi
  have hz : (k'.polar[i]).z = s.z := congrArg Prod.snd hangi
  refine ⟨_, R, hq, ?_, fun h => by rw [hz]; exact g6 h, g7, c1, c2, c4⟩
  rw [e3, List.getElem?_map, hq, e2]
  simp only [Option.map_some, Option.some.injEq]
  have hp : pose.orientation = Quat.one := hor
  show pose.apply _ = _
  rw [apply_one hp]
  have hpp : pose.position = r := rfl
  rw [hpp]
  ext <;> simp [MathTools.polarToCartesian, hy, hz, g3, g4, g5, Real.sin_pi_div_two, Real.cos_pi_div_two] <;> ring

/-! ## C86 -/

section
variable {α : Type} [Add α] [Sub α] [Mul α] [Div α] [Neg α] [Zero α] [One α]
  [LE α] [LT α] [DecidableLE α] [DecidableLT α] [CMath α]

/-- C86: after an aggregation, whatever the arithmetic, the hulls of every new aggregate are those of its members as they
are now, around its present reference position, although they are computed again and again while members are added. -/
theorem C86_current {h h' : Heap α} (ha : Acyclic h) (hd : ∀ (p : Ptr) o, h[p]? = some o → Drawable o) {obs l : List Ptr}
    (hobs : ∀ p ∈ obs, p < h.length) (hrun : Aggregation.aggregateObstacles h obs = .ok (h', l)) {p : Ptr} (hp : p ∈ l)
    (hn : h.length ≤ p) : ∃ ag : Aggregate α, h'[p]? = some (.aggregate ag) ∧ HullsOf h' ag := by
  obtain ⟨aggs, rest, hsplit, -, hnew, hrest, hperm⟩ := C05_partition ha hobs hrun
  have hpa : p ∈ aggs := by
    rw [hsplit] at hp
    rcases List.mem_append.mp hp with hp | hp
    · exact hp
    · exact absurd (hobs p (hrest.subset hp)) (not_lt.mpr hn)
  have h2 := (hnew p hpa).2
  have hag : ∃ ag : Aggregate α, h'[p]? = some (.aggregate ag) ∧ ag.prims = primitives h' p := by
    unfold primitives at h2 ⊢
    split at h2
    · next ag hag => exact ⟨ag, hag, by simp [hag]⟩
    · simp at h2
  obtain ⟨ag, hag, hpr⟩ := hag
  refine ⟨ag, hag, aggregate_current hd hrun hp hn hobs hag fun q hq => hobs q ?_⟩
  refine hperm.mem_iff.mp (List.mem_append_left _ (List.mem_flatMap.mpr ⟨p, hpa, ?_⟩))
  rw [← hpr]; exact hq

end

theorem computed_nonneg {b : Bool} {k : Hull ℝ} (h : Computed b k) :
    k.base.pose.orientation = Quat.one ∧ ∀ q ∈ k.polar, 0 ≤ q.x := by
  induction h with
  | new =>
    refine ⟨rfl, fun q hq => ?_⟩
    have : q = V3.zero := List.eq_of_mem_replicate hq
    rw [this]; exact le_refl _
  | step hk hc ih =>
    obtain ⟨h1, -, -, h4, -⟩ := hk.keeps
    have hm : (0 : ℝ) ≤ lit 1 2 := by rw [lit_real]; norm_num
    refine ⟨?_, fun q hq => ?_⟩
    · obtain ⟨_, _, -, -, -, -, e, -⟩ := compute_inv h1 hc
      rw [e]; exact ih.1
    · have := C54_step_partial h1 hc (e := 1) (by rw [h4]; exact hm) zero_le_one (by simpa using ih.2) q hq
      refine le_trans ?_ this
      rw [h4]
      exact mul_nonneg (by norm_num) hm

private theorem exists_bound (f : ℕ → Set ℝ) (n : ℕ) (hf : ∀ i < n, ∃ B, ∀ t ∈ f i, t ≤ B) (l : List ℝ) :
    ∃ B, (∀ i < n, ∀ t ∈ f i, t ≤ B) ∧ ∀ x ∈ l, x ≤ B := by
  induction n with
  | zero =>
    induction l with
    | nil => exact ⟨0, by simp, by simp⟩
    | cons x l ih =>
      obtain ⟨B, -, hB⟩ := ih
      refine ⟨max x B, by simp, fun y hy => ?_⟩
      rcases List.mem_cons.mp hy with rfl | hy
      · exact le_max_left _ _
      · exact le_trans (hB y hy) (le_max_right _ _)
  | succ n ih =>
    obtain ⟨B, h1, h2⟩ := ih fun i hi => hf i (by omega)
    obtain ⟨B', h3⟩ := hf n (by omega)
    refine ⟨max B B', fun i hi t ht => ?_, fun x hx => le_trans (h2 x hx) (le_max_left _ _)⟩
    rcases Nat.lt_succ_iff_lt_or_eq.mp hi with hi | rfl
    · exact le_trans (h1 i hi t ht) (le_max_left _ _)
    · exact le_trans (h3 t ht) (le_max_right _ _)

private theorem computed_columns {b : Bool} {k k' : Hull ℝ} (hk : Computed b k) {es : List (Ellipsoid ℝ)} {r : V3 ℝ}
    (h : k.compute (es.map (·.intersectionPoints)) r = .ok k') (hok : ∀ i < 500, ∀ e ∈ es, RayOK e r (columnAngle i)) :
    k'.cart.length = 500 ∧ ∀ i < 500, ∃ ρ R, Extent b (1 / 2) (rayHits es r (columnAngle i)) R ∧ 9 / 10 * R ≤ ρ ∧
      (k'.polar[i]?).map V3.x = some ρ ∧
      k'.cart[i]? = some (r + ⟨ρ * Real.cos (columnAngle i), ρ * Real.sin (columnAngle i), 0⟩) := by
  obtain ⟨h1, h2, h3, h4, h5⟩ := hk.keeps
  obtain ⟨h6, h7⟩ := computed_nonneg hk
  have hm : k.minRadius = 1 / 2 := by rw [h4, lit_real]; norm_num
  obtain ⟨phi, e1, l1, e4⟩ := C13_linspace_even (-Real.pi) (Real.pi - 1 / 10000) 500 (by norm_num)
  obtain ⟨B, hB1, hB2⟩ := exists_bound (fun i => rayHits es r (columnAngle i)) 500 (by
    intro i hi
    have e1' : MathTools.linspace (-CMath.pi : ℝ) (CMath.pi - lit 1 10000) ((500 : ℕ) : Int) = .ok phi := by
      simpa [lit_real] using e1
    obtain ⟨hf1, hf2⟩ := grid_mem (by norm_num) e1' (List.mem_of_getElem? (e4 i hi))
    obtain ⟨-, g2⟩ := C64_surface_is_boundary false 0 0 ((k.base.setRef r).setPosition r).pose h6 r rfl es (columnAngle i)
      hf1 hf2 (hok i hi)
    rcases Set.eq_empty_or_nonempty (rayHits es r (columnAngle i)) with he | hne
    · exact ⟨0, by simp [he]⟩
    · obtain ⟨R, hR, -⟩ := g2 hne
      exact ⟨R, fun t ht => hR.2 ht⟩) (k.minRadius :: k.polar.map (·.x))
  have key := ellipse_columns h1 h3 h6 (by rw [h5]; rfl) (by rw [hm]; norm_num) h hok (B := B)
    (fun q hq => ⟨h7 q hq, hB2 _ (by simp; exact .inr ⟨q, hq, rfl⟩)⟩) (hB2 _ (by simp)) hB1
  obtain ⟨k2, e, g1, g2, -⟩ := compute_ok h1 (es.map (·.intersectionPoints)) r
  rw [h] at e; cases e
  refine ⟨by rw [g1.2.2, g2, h3], fun i hi => ?_⟩
  obtain ⟨q, R, q1, q2, q3, q4, q5, -⟩ := key i hi
  rw [h2, hm] at q4
  exact ⟨q.x, R, q4, q5, by simp [q1], q2⟩

/-- C86, what holds: the outside hull of an aggregate of ellipses covers in the direction of each of its 500 columns at
least nine tenths of the way from the reference position to the farthest point of any member, and at least nine tenths
of the minimum radius 1/2; the inside hull covers nine tenths of the way to the nearest boundary. The members are the
ones of the heap before the aggregation.
Full statement (false, see `C86_negation`): the outside hull contains all members, so that an agent outside of it and of
the members at the beginning of a step cannot be led into a member. -/
theorem C86_enclose_partial {h h' : Heap ℝ} (ha : Acyclic h) (hd : ∀ (p : Ptr) o, h[p]? = some o → Drawable o)
    {obs l : List Ptr} (hobs : ∀ p ∈ obs, p < h.length) (hrun : Aggregation.aggregateObstacles h obs = .ok (h', l)) {p : Ptr}
    (hp : p ∈ l) (hn : h.length ≤ p) {ag : Aggregate ℝ} (hag : h'[p]? = some (.aggregate ag)) {r : V3 ℝ}
    (hr : ag.base.refPos = some r) {es : List (Ellipsoid ℝ)}
    (hes : List.Forall₂ (fun (q : Ptr) e => h[q]? = some (.ellipsoid e)) ag.prims es)
    (hok : ∀ i < 500, ∀ e ∈ es, RayOK e r (columnAngle i)) :
    (ag.outside.cart.length = 500 ∧ ∀ i < 500, ∃ ρ,
      ag.outside.cart[i]? = some (r + ⟨ρ * Real.cos (columnAngle i), ρ * Real.sin (columnAngle i), 0⟩) ∧
      9 / 10 * (1 / 2) ≤ ρ ∧ ∀ t ∈ rayHits es r (columnAngle i), 9 / 10 * t ≤ ρ) ∧
    (ag.inside.cart.length = 500 ∧ ∀ i < 500, ∃ ρ,
      ag.inside.cart[i]? = some (r + ⟨ρ * Real.cos (columnAngle i), ρ * Real.sin (columnAngle i), 0⟩) ∧
      9 / 10 * (1 / 2) ≤ ρ ∧ ∀ t, IsLeast (rayHits es r (columnAngle i)) t → 9 / 10 * t ≤ ρ) := by
  obtain ⟨ag', hag', r', os, ki, ko, hr', hos, hki, hko, hci, hco⟩ := C86_current ha hd hobs hrun hp hn
  rw [hag] at hag'; cases hag'
  rw [hr] at hr'; cases hr'
  have hext : ShapeExt h h' := by
    obtain ⟨rank, hrk⟩ := exists_ranked ha
    obtain ⟨h1, aggs1, idx, hrun', hI⟩ := Aggregation.aggregateObstacles_ok hrk hobs
    rw [hrun] at hrun'; cases hrun'
    exact hI.heap.ext
  have hsame : os.map Obj.intersectionPoints = es.map (·.intersectionPoints) := by
    clear hci hco hok hag hr
    generalize ag.prims = ps at hos hes
    induction hos generalizing es with
    | nil => cases hes; rfl
    | cons ho _ ih =>
      cases hes with
      | cons he hes =>
        rw [List.map_cons, List.map_cons, ih hes]
        congr 1
        have hlt := (List.getElem?_eq_some_iff.mp he).1
        have := hext.2 _ hlt
        rw [ho, he] at this
        simp only [Option.map_some, Option.some.injEq] at this
        rename_i o _ _ _ e _
        cases o with
        | ellipsoid e' =>
          funext x y
          have hb : ({ e'.base with refPos := none } : Base ℝ) = { e.base with refPos := none } ∧ e'.axis = e.axis := by
            injection this with this
            injection this with h1 h2 h3
            exact ⟨h1, h2⟩
          have hp : e'.base.pose = e.base.pose := by have := congrArg (fun b : Base ℝ => b.pose) hb.1; exact this
          have hm : e'.base.margin = e.base.margin := by have := congrArg (fun b : Base ℝ => b.margin) hb.1; exact this
          simp only [Obj.intersectionPoints, Ellipsoid.intersectionPoints, hp, hm, hb.2]
        | plain b => cases this
        | hull b => cases this
        | aggregate b => cases this
  rw [hsame] at hci hco
  obtain ⟨o1, o2⟩ := computed_columns hko hco hok
  obtain ⟨i1, i2⟩ := computed_columns hki hci hok
  have hge : ∀ {b : Bool} {S : Set ℝ} {R : ℝ}, Extent b (1 / 2) S R → 1 / 2 ≤ R := by
    rintro b S R (⟨-, rfl⟩ | ⟨ρ, -, rfl⟩)
    · exact le_refl _
    · exact le_max_left _ _
  refine ⟨⟨o1, fun i hi => ?_⟩, ⟨i1, fun i hi => ?_⟩⟩
  · obtain ⟨ρ, R, g1, g2, -, g3⟩ := o2 i hi
    refine ⟨ρ, g3, by linarith [hge g1], fun t ht => ?_⟩
    rcases g1 with ⟨he, -⟩ | ⟨σ, hσ, rfl⟩
    · rw [he] at ht; cases ht
    · have := hσ.2 ht
      have := le_max_right (1 / 2 : ℝ) σ
      linarith
  · obtain ⟨ρ, R, g1, g2, -, g3⟩ := i2 i hi
    refine ⟨ρ, g3, by linarith [hge g1], fun t ht => ?_⟩
    rcases g1 with ⟨he, -⟩ | ⟨σ, hσ, rfl⟩
    · have := ht.1; rw [he] at this; cases this
    · have hσ' : IsLeast (rayHits es r (columnAngle i)) σ := hσ
      rw [ht.unique hσ']
      have := le_max_right (1 / 2 : ℝ) σ
      linarith

end DOA.Props
