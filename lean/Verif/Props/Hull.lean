import Verif.Lemmas.Hull
import Verif.Lemmas.Geom
import Verif.Props.Ellipsoid

/-!
# C54–C58, C60: hulls
-/

set_option linter.unusedSectionVars false
set_option linter.unusedSimpArgs false

namespace DOA.Props
open DOA DOA.Spec DOA.Hull

/-! ## the loop over ℝ -/

theorem mix_real (c a b : V3 ℝ) : (mix c a b).x = 9 / 10 * c.x + 1 / 20 * a.x + 1 / 20 * b.x := by
  simp only [mix, lit_real]; norm_num

theorem smoothF_ge {m b c : ℝ} (h1 : b ≤ m) (h2 : b ≤ 9 / 10 * m + 1 / 20 * b + 1 / 20 * c) (sps : List (V3 ℝ)) :
    ∀ (old : List (V3 ℝ)) (prev cur : V3 ℝ), b ≤ prev.x → m ≤ cur.x → (∀ q ∈ sps, m ≤ q.x) → (∀ q ∈ old, c ≤ q.x) →
    ∀ q ∈ smoothF prev cur sps old, b ≤ q.x := by
  induction sps with
  | nil =>
    intro old prev cur hp hc _ _ q hq
    simp only [smoothF, List.mem_singleton] at hq
    rw [hq]; linarith
  | cons sp sps ih =>
    intro old prev cur hp hc hs ho q hq
    cases old with
    | nil =>
      simp only [smoothF, List.mem_singleton] at hq
      rw [hq]; linarith
    | cons o old =>
      have hb : b ≤ (mix cur prev o).x := by
        rw [mix_real]
        have := ho o List.mem_cons_self
        linarith
      simp only [smoothF, List.mem_cons] at hq
      rcases hq with rfl | hq
      · exact hb
      · exact ih old _ sp hb (hs sp List.mem_cons_self) (fun q hq => hs q (List.mem_cons_of_mem _ hq))
          (fun q hq => ho q (List.mem_cons_of_mem _ hq)) q hq

theorem loopResult_ge {m b c : ℝ} (h1 : b ≤ m) (h2 : b ≤ 9 / 10 * m + 1 / 20 * b + 1 / 20 * c) {sps old : List (V3 ℝ)}
    (hs : ∀ q ∈ sps, m ≤ q.x) (ho : ∀ q ∈ old, c ≤ q.x) : ∀ q ∈ loopResult sps old, b ≤ q.x := by
  match sps, old, hs, ho with
  | s0 :: s1 :: sps, o0 :: o1 :: old, hs, ho =>
    intro q hq
    have hs0 : m ≤ s0.x := hs s0 List.mem_cons_self
    simp only [loopResult, List.mem_cons] at hq
    rcases hq with rfl | hq
    · linarith
    · exact smoothF_ge h1 h2 sps old s0 s1 (by linarith) (hs s1 (by simp)) (fun q hq => hs q (by simp [hq]))
        (fun q hq => ho q (by simp [hq])) q hq
  | [], _, _, _ => intro q hq; simp [loopResult] at hq
  | [_], _, _, _ => intro q hq; simp [loopResult] at hq
  | _ :: _ :: _, [], _, _ => intro q hq; simp [loopResult] at hq
  | _ :: _ :: _, [_], _, _ => intro q hq; simp [loopResult] at hq

theorem smoothCol_ge {b : ℝ} {l l' : List (V3 ℝ)} {i j k : Nat} (hl : ∀ q ∈ l, b ≤ q.x)
    (h : smoothCol l i j k = .ok l') : ∀ q ∈ l', b ≤ q.x := by
  obtain ⟨a, d, c, hc, ha, hd, rfl⟩ := smoothCol_inv h
  intro q hq
  rcases List.mem_or_eq_of_mem_set hq with hq | rfl
  · exact hl q hq
  · rw [mix_real]
    have := hl c (List.mem_of_getElem? hc)
    have := hl a (List.mem_of_getElem? ha)
    have := hl d (List.mem_of_getElem? hd)
    linarith

theorem surfacePoint_ge (b : Bool) (m margin phi : ℝ) (pts : List (V3 ℝ)) :
    m ≤ (surfacePoint b m margin phi pts).x := by
  simp only [surfacePoint, maxS_real]
  exact le_max_left _ _

/-! ## C54 the minimum radius -/

/-- C54, one computation: whatever the hull held before (radii at least `(1-e)·min_radius`), afterwards the
radii are at least `(1-e/19)·min_radius`.  With `e = 0`: a hull that respects the minimum radius keeps
respecting it, for all primitives and reference points. -/
theorem C54_step_partial {k k' : Hull ℝ} (hk : HullOK k) {prims : List (Oracle ℝ)} {ref : V3 ℝ}
    (h : k.compute prims ref = .ok k') (hm : 0 ≤ k.minRadius) {e : ℝ} (he : 0 ≤ e)
    (hold : ∀ q ∈ k.polar, (1 - e) * k.minRadius ≤ q.x) :
    ∀ q ∈ k'.polar, (1 - e / 19) * k.minRadius ≤ q.x := by
  obtain ⟨phi, p2, -, -, h3, h4, -⟩ := compute_inv hk h
  have he' : 0 ≤ e * k.minRadius := mul_nonneg he hm
  refine smoothCol_ge (smoothCol_ge (loopResult_ge (m := k.minRadius) (c := (1 - e) * k.minRadius) ?_ ?_ ?_ hold) h3) h4
  · linarith
  · linarith
  · intro q hq
    simp only [surfacePoints, List.mem_map] at hq
    obtain ⟨p, -, rfl⟩ := hq
    exact surfacePoint_ge _ _ _ _ _

/-- Repeated computation of a hull, each time with other primitives and another reference point. -/
noncomputable def computes (k : Hull ℝ) : List (List (Oracle ℝ) × V3 ℝ) → Res (Hull ℝ)
  | [] => .ok k
  | c :: cs => k.compute c.1 c.2 >>= fun k' => computes k' cs

/-- C54, the part that holds: for every history of `n` computations on a newly constructed hull (any primitives
and reference points), every radius is at least `(1 - 19⁻ⁿ)·min_radius`; in particular at least
`18/19·min_radius` after the first.
Full statement (false, see `C54_negation`): at least `min_radius`. -/
theorem C54_history_partial (b : Bool) (n : ℕ) (hn : 2 ≤ n) (m : ℝ) (hm : 0 ≤ m)
    (cs : List (List (Oracle ℝ) × V3 ℝ)) :
    ∃ k', computes (Hull.mk' b n m) cs = .ok k' ∧ HullOK k' ∧
      ∀ q ∈ k'.polar, (1 - (1 / 19) ^ cs.length) * m ≤ q.x := by
  have key : ∀ (cs : List (List (Oracle ℝ) × V3 ℝ)) (k : Hull ℝ) (j : ℕ), HullOK k → k.minRadius = m →
      (∀ q ∈ k.polar, (1 - (1 / 19) ^ j) * m ≤ q.x) →
      ∃ k', computes k cs = .ok k' ∧ HullOK k' ∧
        ∀ q ∈ k'.polar, (1 - (1 / 19) ^ (j + cs.length)) * m ≤ q.x := by
    intro cs
    induction cs with
    | nil => intro k j hk hkm h; exact ⟨k, rfl, hk, h⟩
    | cons c cs ih =>
      intro k j hk hkm h
      obtain ⟨k1, h1, h2, -, -, h3, -⟩ := compute_ok hk c.1 c.2
      have h4 := C54_step_partial hk h1 (by rw [hkm]; exact hm) (e := (1 / 19) ^ j) (by positivity)
        (by rw [hkm]; exact h)
      obtain ⟨k2, h5, h6, h7⟩ := ih k1 (j + 1) h2 (h3.trans hkm) (by
        intro q hq
        have := h4 q hq
        rw [hkm] at this
        rw [pow_succ]
        linarith)
      refine ⟨k2, by simp only [computes, h1, Res.ok_bind, h5], h6, ?_⟩
      intro q hq
      have := h7 q hq
      rw [List.length_cons, show j + (cs.length + 1) = j + 1 + cs.length by omega]
      exact this
  obtain ⟨k', h1, h2, h3⟩ := key cs (Hull.mk' b n m) 0 (hullOK_mk' b hn m) rfl (by
    intro q hq
    have : q = V3.zero := List.eq_of_mem_replicate hq
    rw [this]
    simp [V3.zero])
  exact ⟨k', h1, h2, by simpa using h3⟩

theorem set_ne_get {β : Type} {l : List β} {i j : Nat} {b : β} (h : i ≠ j) : (l.set i b)[j]? = l[j]? :=
  List.getElem?_set_ne h

/-- The second column of a hull with resolution at least 3, computed without primitives. -/
theorem second_column {k k' : Hull ℝ} (hk : HullOK k) (hres : 3 ≤ k.resolution) (hmar : k.base.margin.x = 0)
    {ref : V3 ℝ} (h : k.compute [] ref = .ok k') (o2 : V3 ℝ) (ho2 : k.polar[2]? = some o2) :
    ∃ q, k'.polar[1]? = some q ∧ q.x = 19 / 20 * k.minRadius + 1 / 20 * o2.x := by
  obtain ⟨phi, p2, -, hlen, h3, h4, -⟩ := compute_inv hk h
  have hsp : ∀ p : ℝ, (surfacePoint k.isInside k.minRadius k.base.margin.x p
      (rayPoints ((k.base.setRef ref).setPosition ref).pose ref [] p)).x = k.minRadius := by
    intro p
    simp [surfacePoint, rayPoints, MathTools.sortBy, hmar]
  obtain ⟨a, b, c, -, -, -, rfl⟩ := smoothCol_inv h3
  obtain ⟨a', b', c', -, -, -, e4⟩ := smoothCol_inv h4
  rw [e4, List.getElem?_set_ne (by omega), List.getElem?_set_ne (by omega)]
  have hp := hk.2.1
  match hphi : phi, hpol : k.polar, hlen, hp with
  | p0 :: p1 :: p2 :: phi', o0 :: o1 :: o2' :: old, hlen, hp =>
    rw [hpol] at ho2
    have ho2' : o2' = o2 := by simpa using ho2
    subst ho2'
    simp only [surfacePoints, List.map_cons, loopResult, smoothF, List.getElem?_cons_succ, List.getElem?_cons_zero]
    refine ⟨_, rfl, ?_⟩
    rw [mix_real, hsp, hsp]; ring
  | [], _, hlen, _ => simp at hlen; omega
  | [_], _, hlen, _ => simp at hlen; omega
  | [_, _], _, hlen, _ => simp at hlen; omega
  | _ :: _ :: _ :: _, [], _, hp => simp at hp; omega
  | _ :: _ :: _ :: _, [_], _, hp => simp at hp; omega
  | _ :: _ :: _ :: _, [_, _], _, hp => simp at hp; omega

/-- C54 is false: in every newly constructed hull (any kind, any resolution of at least 3, any positive minimum
radius) computed without primitives, the second surface point has radius `0.95·min_radius`. -/
theorem C54_negation (b : Bool) (n : ℕ) (hn : 3 ≤ n) (m : ℝ) (hm : 0 < m) (ref : V3 ℝ) :
    ∃ k' q, (Hull.mk' b n m).compute [] ref = .ok k' ∧ q ∈ k'.polar ∧ q.x = 19 / 20 * m ∧ q.x < m := by
  have hk : HullOK (Hull.mk' b n m) := hullOK_mk' b (by omega) m
  obtain ⟨k', h1, -⟩ := compute_ok hk [] ref
  obtain ⟨q, hq, hx⟩ := second_column hk hn rfl h1 V3.zero (by
    simp only [Hull.mk']; rw [List.getElem?_replicate]; simp; omega)
  have hx' : q.x = 19 / 20 * m := by rw [hx]; simp [V3.zero, Hull.mk']
  exact ⟨k', q, h1, List.mem_of_getElem? hq, hx', by rw [hx']; linarith⟩

/-! ## C55 dependence on the previous contents -/

/-- C55 is false: for every newly constructed hull as above, computing twice is not the same as computing once. -/
theorem C55_negation (b : Bool) (n : ℕ) (hn : 3 ≤ n) (m : ℝ) (hm : 0 < m) (ref : V3 ℝ) :
    ∃ k1 k2, (Hull.mk' b n m).compute [] ref = .ok k1 ∧ k1.compute [] ref = .ok k2 ∧ k1.polar ≠ k2.polar := by
  have hk : HullOK (Hull.mk' b n m) := hullOK_mk' b (by omega) m
  obtain ⟨k1, h1, h2, h3, -, h4, -, -, h5⟩ := compute_ok hk [] ref
  obtain ⟨k2, h6, -⟩ := compute_ok h2 [] ref
  obtain ⟨q, hq, hx⟩ := second_column hk hn rfl h1 V3.zero (by
    simp only [Hull.mk']; rw [List.getElem?_replicate]; simp; omega)
  have hres : k1.resolution = n := h3
  have hlt : 2 < k1.polar.length := by rw [h2.2.1, hres]; omega
  obtain ⟨q', hq', hx'⟩ := second_column h2 (by rw [hres]; exact hn) (by rw [h5]; rfl) h6 k1.polar[2]
    (List.getElem?_eq_getElem hlt)
  have hpos := C54_step_partial hk h1 hm.le (e := 1) zero_le_one (by
    intro q hq
    have : q = V3.zero := List.eq_of_mem_replicate hq
    rw [this]; simp [V3.zero]) k1.polar[2] (List.getElem_mem hlt)
  refine ⟨k1, k2, h1, h6, fun heq => ?_⟩
  rw [heq, hq'] at hq
  injection hq with hq
  rw [hq, hx, h4] at hx'
  simp only [Hull.mk', V3.zero] at hx' hpos
  linarith

/-- Two hulls whose columns have the same angles and radii within `E` of each other. -/
def Near (E : ℝ) (l l' : List (V3 ℝ)) : Prop :=
  l.map angles = l'.map angles ∧
    ∀ (j : Nat) (a b : V3 ℝ), l[j]? = some a → l'[j]? = some b → |a.x - b.x| ≤ E

theorem smoothF_near {D : ℝ} (hD : 0 ≤ D) (sps : List (V3 ℝ)) : ∀ (old old' : List (V3 ℝ)) (prev prev' cur : V3 ℝ),
    sps.length = old.length → sps.length = old'.length → |prev.x - prev'.x| ≤ D / 19 →
    (∀ (j : Nat) (a b : V3 ℝ), old[j]? = some a → old'[j]? = some b → |a.x - b.x| ≤ D) →
    ∀ (j : Nat) (a b : V3 ℝ), (smoothF prev cur sps old)[j]? = some a → (smoothF prev' cur sps old')[j]? = some b →
      |a.x - b.x| ≤ D / 19 := by
  induction sps with
  | nil =>
    intro old old' prev prev' cur h1 h2 hp ho j a b ha hb
    cases j with
    | zero =>
      simp only [smoothF, List.getElem?_cons_zero, Option.some.injEq] at ha hb
      rw [← ha, ← hb, sub_self, abs_zero]; positivity
    | succ j => simp [smoothF] at ha
  | cons sp sps ih =>
    intro old old' prev prev' cur h1 h2 hp ho j a b ha hb
    match old, old', h1, h2 with
    | o :: old, o' :: old', h1, h2 =>
      have hm : |(mix cur prev o).x - (mix cur prev' o').x| ≤ D / 19 := by
        rw [mix_real, mix_real]
        have := ho 0 o o' rfl rfl
        rw [abs_le] at *
        constructor <;> linarith [this.1, this.2]
      cases j with
      | zero =>
        simp only [smoothF, List.getElem?_cons_zero, Option.some.injEq] at ha hb
        rw [← ha, ← hb]; exact hm
      | succ j =>
        simp only [smoothF, List.getElem?_cons_succ] at ha hb
        exact ih old old' _ _ sp (by simpa using h1) (by simpa using h2) hm
          (fun j a b ha hb => ho (j + 1) a b ha hb) j a b ha hb

theorem smoothCol_near {E : ℝ} {l1 l2 l1' l2' : List (V3 ℝ)} {i j k : Nat} (h1 : smoothCol l1 i j k = .ok l1')
    (h2 : smoothCol l2 i j k = .ok l2')
    (hn : ∀ (j : Nat) (a b : V3 ℝ), l1[j]? = some a → l2[j]? = some b → |a.x - b.x| ≤ E) :
    ∀ (j : Nat) (a b : V3 ℝ), l1'[j]? = some a → l2'[j]? = some b → |a.x - b.x| ≤ E := by
  obtain ⟨a1, b1, c1, hc1, ha1, hb1, rfl⟩ := smoothCol_inv h1
  obtain ⟨a2, b2, c2, hc2, ha2, hb2, rfl⟩ := smoothCol_inv h2
  intro n a b ha hb
  by_cases hin : i = n
  · subst hin
    rw [List.getElem?_set_self (List.getElem?_eq_some_iff.mp hc1).1] at ha
    rw [List.getElem?_set_self (List.getElem?_eq_some_iff.mp hc2).1] at hb
    injection ha with ha; injection hb with hb
    rw [← ha, ← hb, mix_real, mix_real]
    have e1 := hn _ _ _ hc1 hc2
    have e2 := hn _ _ _ ha1 ha2
    have e3 := hn _ _ _ hb1 hb2
    rw [abs_le] at *
    constructor <;> linarith [e1.1, e1.2, e2.1, e2.2, e3.1, e3.2]
  · rw [List.getElem?_set_ne hin] at ha hb
    exact hn n a b ha hb

/-- C55, the part that holds: the influence of the history dies out.  Two hulls of the same kind, resolution,
minimum radius, margin and orientation, holding anything whose radii differ by at most `D`, agree after one
computation from the same primitives in everything but the radii, and these differ by at most `D/19`.
Full statement (false, see `C55_negation`): they agree completely. -/
theorem C55_contraction_partial {k1 k2 k1' k2' : Hull ℝ} (hk1 : HullOK k1) (hk2 : HullOK k2)
    (hin : k1.isInside = k2.isInside) (hres : k1.resolution = k2.resolution) (hmin : k1.minRadius = k2.minRadius)
    (hmar : k1.base.margin = k2.base.margin) (hor : k1.base.pose.orientation = k2.base.pose.orientation)
    {prims : List (Oracle ℝ)} {ref : V3 ℝ} (h1 : k1.compute prims ref = .ok k1') (h2 : k2.compute prims ref = .ok k2')
    {D : ℝ} (hold : ∀ (j : Nat) (a b : V3 ℝ), k1.polar[j]? = some a → k2.polar[j]? = some b → |a.x - b.x| ≤ D) :
    Near (D / 19) k1'.polar k2'.polar ∧ k1'.base.pose = k2'.base.pose ∧ k1'.base.refPos = k2'.base.refPos := by
  obtain ⟨phi1, q1, e1, l1, s1, t1, b1, -⟩ := compute_inv hk1 h1
  obtain ⟨phi2, q2, e2, l2, s2, t2, b2, -⟩ := compute_inv hk2 h2
  rw [hres, e2] at e1
  injection e1 with e1
  subst e1
  have hpose : ((k1.base.setRef ref).setPosition ref).pose = ((k2.base.setRef ref).setPosition ref).pose := by
    simp only [Base.pose, Base.setPosition, Base.setRef, State.setPosition, Pose.setPosition] at hor ⊢
    rw [hor]
  have hsurf : surfacePoints k1 prims ref phi2 = surfacePoints k2 prims ref phi2 := by
    simp only [surfacePoints, hin, hmin, hmar, hpose]
  have hlen1 : (surfacePoints k2 prims ref phi2).length = k1.polar.length := by
    rw [hk1.2.1, hres, ← l2]; simp [surfacePoints]
  have hlen2 : (surfacePoints k2 prims ref phi2).length = k2.polar.length := by
    rw [hk2.2.1, ← l2]; simp [surfacePoints]
  rw [hsurf] at s1
  rw [hres] at s1 t1
  refine ⟨⟨?_, ?_⟩, by rw [b1, b2, hpose], by rw [b1, b2]; rfl⟩
  · rw [smoothCol_angles t1, smoothCol_angles s1, smoothCol_angles t2, smoothCol_angles s2,
      loopResult_angles hlen1 (by rw [hlen1, hk1.2.1]; exact hk1.1),
      loopResult_angles hlen2 (by rw [hlen2, hk2.2.1]; exact hk2.1)]
  · refine smoothCol_near t1 t2 (smoothCol_near s1 s2 ?_)
    have h2l : 2 ≤ (surfacePoints k2 prims ref phi2).length := by rw [hlen2, hk2.2.1]; exact hk2.1
    generalize surfacePoints k2 prims ref phi2 = sps at hlen1 hlen2 h2l
    generalize k1.polar = o1 at hlen1 hold
    generalize k2.polar = o2 at hlen2 hold
    match sps, o1, o2, hlen1, hlen2, h2l with
    | a0 :: a1 :: sps, x0 :: x1 :: o1, y0 :: y1 :: o2, hlen1, hlen2, _ =>
      have hD : 0 ≤ D := le_trans (abs_nonneg _) (hold 0 x0 y0 rfl rfl)
      intro j a b ha hb
      cases j with
      | zero =>
        simp only [loopResult, List.getElem?_cons_zero, Option.some.injEq] at ha hb
        rw [← ha, ← hb, sub_self, abs_zero]; positivity
      | succ j =>
        simp only [loopResult, List.getElem?_cons_succ] at ha hb
        exact smoothF_near hD sps o1 o2 a0 a0 a1 (by simpa using hlen1) (by simpa using hlen2)
          (by rw [sub_self, abs_zero]; positivity) (fun j a b ha hb => hold (j + 2) a b ha hb) j a b ha hb

/-- C55 over histories: two such hulls, whatever they hold, get the same sequence of computations (primitives and
reference points may change from one to the next): after `n` computations their radii differ by at most `D/19ⁿ`. -/
theorem C55_history_partial (cs : List (List (Oracle ℝ) × V3 ℝ)) : ∀ {k1 k2 : Hull ℝ} (_ : HullOK k1) (_ : HullOK k2)
    (_ : k1.isInside = k2.isInside) (_ : k1.resolution = k2.resolution) (_ : k1.minRadius = k2.minRadius)
    (_ : k1.base.margin = k2.base.margin) (_ : k1.base.pose.orientation = k2.base.pose.orientation) {D : ℝ}
    (_ : ∀ (j : Nat) (a b : V3 ℝ), k1.polar[j]? = some a → k2.polar[j]? = some b → |a.x - b.x| ≤ D),
    ∃ k1' k2', computes k1 cs = .ok k1' ∧ computes k2 cs = .ok k2' ∧
      (∀ (j : Nat) (a b : V3 ℝ), k1'.polar[j]? = some a → k2'.polar[j]? = some b → |a.x - b.x| ≤ D / 19 ^ cs.length) ∧
      (cs ≠ [] → k1'.polar.map angles = k2'.polar.map angles) := by
  induction cs with
  | nil => intro k1 k2 _ _ _ _ _ _ _ D h; exact ⟨k1, k2, rfl, rfl, by simpa using h, by simp⟩
  | cons c cs ih =>
    intro k1 k2 hk1 hk2 hin hres hmin hmar hor D hold
    obtain ⟨k1', a1, a2, a3, a4, a5, -, -, a6⟩ := compute_ok hk1 c.1 c.2
    obtain ⟨k2', b1, b2, b3, b4, b5, -, -, b6⟩ := compute_ok hk2 c.1 c.2
    obtain ⟨⟨n1, n2⟩, n3, -⟩ := C55_contraction_partial hk1 hk2 hin hres hmin hmar hor a1 b1 hold
    obtain ⟨r1, r2, d1, d2, d3, d4⟩ := ih (k1 := k1') (k2 := k2') a2 b2 (by rw [a4, b4, hin]) (by rw [a3, b3, hres])
      (by rw [a5, b5, hmin]) (by rw [a6, b6, hmar]) (by rw [n3]) n2
    refine ⟨r1, r2, by simp only [computes, a1, Res.ok_bind, d1], by simp only [computes, b1, Res.ok_bind, d2], ?_, ?_⟩
    · intro j a b ha hb
      refine (d3 j a b ha hb).trans (le_of_eq ?_)
      rw [List.length_cons, pow_succ]; field_simp
    · intro _
      cases cs with
      | nil =>
        simp only [computes] at d1 d2
        injection d1 with d1; injection d2 with d2
        rw [← d1, ← d2]; exact n1
      | cons c' cs => exact d4 (by simp)

/-- Non-vacuity: a newly constructed hull and the same hull after any number of other computations. -/
example (cs cs' : List (List (Oracle ℝ) × V3 ℝ)) : ∃ (k1 k2 k1' k2' : Hull ℝ) (D : ℝ),
    computes (Hull.mk' false 50 (1 / 2)) cs = .ok k1 ∧ computes k1 cs' = .ok k1' ∧
    k2 = Hull.mk' false 50 (1 / 2) ∧ computes k2 cs' = .ok k2' ∧
    ∀ (j : Nat) (a b : V3 ℝ), k1'.polar[j]? = some a → k2'.polar[j]? = some b → |a.x - b.x| ≤ D / 19 ^ cs'.length := by
  have key : ∀ (cs : List (List (Oracle ℝ) × V3 ℝ)) (k : Hull ℝ), HullOK k → ∃ k', computes k cs = .ok k' ∧ HullOK k' ∧
      k'.isInside = k.isInside ∧ k'.resolution = k.resolution ∧ k'.minRadius = k.minRadius ∧
      k'.base.margin = k.base.margin ∧ k'.base.pose.orientation = k.base.pose.orientation := by
    intro cs
    induction cs with
    | nil => intro k hk; exact ⟨k, rfl, hk, rfl, rfl, rfl, rfl, rfl⟩
    | cons c cs ih =>
      intro k hk
      obtain ⟨k1, a1, a2, a3, a4, a5, -, -, a6⟩ := compute_ok hk c.1 c.2
      obtain ⟨-, -, -, -, -, -, hb, -⟩ := compute_inv hk a1
      obtain ⟨k2, b1, b2, b3, b4, b5, b6, b7⟩ := ih k1 a2
      exact ⟨k2, by simp only [computes, a1, Res.ok_bind, b1], b2, b3.trans a4, b4.trans a3, b5.trans a5, b6.trans a6,
        b7.trans (by rw [hb]; rfl)⟩
  have hk := hullOK_mk' false (show 2 ≤ 50 by norm_num) (1 / 2 : ℝ)
  obtain ⟨k1, h1, h2, h3, h4, h5, h6, h7⟩ := key cs _ hk
  obtain ⟨k1', k2', e1, e2, e3, -⟩ := C55_history_partial cs' h2 hk h3 h4 h5 h6 h7 (D := (k1.polar.map fun q => |q.x|).sum)
    (by
      intro j a b ha hb
      have hb0 : b = V3.zero := List.eq_of_mem_replicate (List.mem_of_getElem? hb)
      rw [hb0]
      simp only [V3.zero, sub_zero]
      exact List.single_le_sum (by simp +contextual [List.mem_map]) _ (List.mem_map.mpr ⟨a, List.mem_of_getElem? ha, rfl⟩))
  exact ⟨k1, _, k1', k2', _, h1, e1, rfl, e2, e3⟩

/-! ## C56 hull queries -/

section
variable {α : Type} [Add α] [Sub α] [Mul α] [Div α] [Neg α] [Zero α] [One α]
  [LE α] [LT α] [DecidableLE α] [DecidableLT α] [CMath α]

/-- C56: what the queries do, exactly — with `c` the column found by the binary search: if `c` is an existing column
all three return (and the normal uses `c` and the next column, cyclically), otherwise all three are undefined
behaviour.  Every hull, point and scalar type. -/
theorem C56_exact (k : Hull α) (hk : HullOK k) (p margin : V3 α) :
    (k.column p < k.resolution →
      (∃ d, k.distanceToPoint p margin = .ok d) ∧ (∃ b, k.pointIsInside p = .ok b) ∧
      ∃ c1 c2, k.cart[k.column p]? = some c1 ∧ k.cart[(k.column p + 1) % k.resolution]? = some c2 ∧
        k.normalToAgent p = .ok (V3.cross (c1 - c2) V3.unitZ)) ∧
    (k.resolution ≤ k.column p →
      k.distanceToPoint p margin = .ub .indexOOB ∧ k.pointIsInside p = .ub .indexOOB ∧
      k.normalToAgent p = .ub .indexOOB) := by
  obtain ⟨h1, h2, h3⟩ := hk
  have hne : k.polar ≠ [] := by
    intro h; rw [h] at h2; simp at h2; omega
  have hc := closest_eq hne p
  constructor
  · intro hlt
    have hg : k.polar[k.column p]? = some (k.polar[k.column p]'(by omega)) := List.getElem?_eq_getElem (by omega)
    have hg1 : k.cart[k.column p]? = some (k.cart[k.column p]'(by omega)) := List.getElem?_eq_getElem (by omega)
    have hmod : (k.column p + 1) % k.resolution < k.resolution := Nat.mod_lt _ (by omega)
    have hg2 : k.cart[(k.column p + 1) % k.resolution]? = some (k.cart[(k.column p + 1) % k.resolution]'(by omega)) :=
      List.getElem?_eq_getElem (by omega)
    refine ⟨?_, ?_, _, _, hg1, hg2, ?_⟩
    · simp only [distanceToPoint, hc, Res.ok_bind, Res.index, hg]
      split <;> exact ⟨_, rfl⟩
    · simp only [pointIsInside, hc, Res.ok_bind, Res.index, hg]
      exact ⟨_, rfl⟩
    · simp only [normalToAgent, hc, Res.ok_bind, Res.index, hg1, h2, hg2]
  · intro hge
    have hg : k.polar[k.column p]? = none := List.getElem?_eq_none (by omega)
    have hg1 : k.cart[k.column p]? = none := List.getElem?_eq_none (by omega)
    refine ⟨?_, ?_, ?_⟩
    · simp only [distanceToPoint, hc, Res.ok_bind, Res.index, hg, Res.ub_bind]
    · simp only [pointIsInside, hc, Res.ok_bind, Res.index, hg, Res.ub_bind]
    · simp only [normalToAgent, hc, Res.ok_bind, Res.index, hg1, Res.ub_bind]

/-- the angle of a point around the hull -/
def angleOf (k : Hull α) (p : V3 α) : α := (MathTools.cartesianToPolar (k.base.pose.inverse.apply p)).z

/-- C56 is false for every hull and every point whose angle exceeds those of all columns but the first. -/
theorem C56_negation_general (k : Hull α) (hk : HullOK k) (p margin : V3 α)
    (hp : ∀ (i : Nat) (q : V3 α), 1 ≤ i → k.polar[i]? = some q → q.z < angleOf k p) :
    k.distanceToPoint p margin = .ub .indexOOB ∧ k.pointIsInside p = .ub .indexOOB ∧
      k.normalToAgent p = .ub .indexOOB := by
  refine (C56_exact k hk p margin).2 (le_of_eq ?_)
  have := MathTools.lowerBound_end (k.polar.map (·.z)) (angleOf k p) (by rw [List.length_map, hk.2.1]; exact hk.1) (by
    intro i w hi hw
    rw [List.getElem?_map] at hw
    cases hq : k.polar[i]? with
    | none => rw [hq] at hw; cases hw
    | some q =>
      rw [hq] at hw
      simp only [Option.map_some, Option.some.injEq] at hw
      rw [← hw]; exact hp i q hi hq)
  rw [List.length_map, hk.2.1] at this
  exact this.symm

end

end DOA.Props
