import Verif.Model.Optimization
import Verif.Lemmas.DrawReady
import Verif.Props.Aggregation
import Verif.Props.Intersection
import Mathlib.Analysis.Real.Pi.Bounds
import Mathlib.Tactic.IntervalCases

/-!
# C85: the program testOptimization.cpp: aggregate the obstacles, then draw them
-/

set_option linter.unusedSectionVars false
set_option linter.unusedSimpArgs false

namespace DOA.Props
open DOA DOA.Spec DOA.Plotting DOA.Ellipsoid

section
variable {α : Type} [Add α] [Sub α] [Mul α] [Div α] [Neg α] [Zero α] [One α]
  [LE α] [LT α] [DecidableLE α] [DecidableLT α] [CMath α]

/-- `d` is a drawing in colour `c` of an obstacle that differs from obstacle `q` of the heap `h` at most in its reference
position (`h'` is the heap after aggregation). -/
def Drawn (h h' : Heap α) (c : String) (q : Ptr) (d : List (Cmd α)) : Prop :=
  ∃ o o', h[q]? = some o ∧ h'[q]? = some o' ∧ shape o' = shape o ∧ draw h' o' c "xy" = .ok d

/-- `d` shows the group `g` of obstacles in colour `c`. An obstacle on its own is drawn as it is. Of several obstacles all
members are drawn, then the cross of the group at its reference point, which satisfies `cross`, and in black the outside
and the inside hull of the members as they are in `h'`, around the same point, with their marks. -/
def GroupDrawn (cross : List Ptr → V3 α → Prop) (h h' : Heap α) (c : String) (g : List Ptr) (d : List (Cmd α)) : Prop :=
  (∃ q, g = [q] ∧ Drawn h h' c q d) ∨
  (2 ≤ g.length ∧ ∃ (ds : List (List (Cmd α))) (r : V3 α) (ag : Aggregate α) (mo mi : List (Cmd α)),
    List.Forall₂ (Drawn h h' c) g ds ∧ cross g r ∧ (ag.prims = g ∧ ag.base.refPos = some r ∧ HullsOf h' ag) ∧
    (MarksOf ag.outside.base "k" V3.y mo ∧ MarksOf ag.inside.base "k" V3.y mi) ∧
    d = ds.flatten ++ [.plot [r.x] [r.y] "bx"]
      ++ (.plot (ag.outside.cart.map V3.x) (ag.outside.cart.map V3.y) "k--" :: mo)
      ++ (.plot (ag.inside.cart.map V3.x) (ag.inside.cart.map V3.y) "k--" :: mi))

theorem GroupDrawn.mono {P Q : List Ptr → V3 α → Prop} {h h' : Heap α} {c : String} {g : List Ptr} {d : List (Cmd α)}
    (hd : GroupDrawn P h h' c g d) (hi : ∀ r, P g r → Q g r) : GroupDrawn Q h h' c g d := by
  rcases hd with hd | ⟨h1, ds, r, ag, mo, mi, h2, h3, h4⟩
  · exact .inl hd
  · exact .inr ⟨h1, ds, r, ag, mo, mi, h2, hi r h3, h4⟩

/-- The figure that shows the groups. -/
def figureOf (a : Agent α) (goal : V3 α) (file : String) (isShow : Bool) (ds : List (List (Cmd α))) : List (Cmd α) :=
  [.figure] ++ ds.flatten ++
    [.plot [a.state.position.x] [a.state.position.y] "bo", .plot [goal.x] [goal.y] "rx", .plot [] [] "k-",
      .xlim (-10) 10, .ylim (-10) 10] ++
    ((if file ≠ "" then [.save ("/tmp/" ++ file ++ ".png")] else []) ++ (if isShow then [.showWindow] else []) ++ [.close])

private theorem program_core {h : Heap α} (ha : Acyclic h) (hd : ∀ (p : Ptr) o, h[p]? = some o → Drawable o)
    {obs : List Ptr} (hobs : ∀ p ∈ obs, p < h.length) (a : Agent α) (goal : V3 α) (file : String) (isShow : Bool) :
    ∃ (h' : Heap α) (l : List Ptr) (groups : List (List Ptr)) (ds : List (List (Cmd α))),
      Aggregation.aggregateObstacles h obs = .ok (h', l) ∧
      Optimization.aggregateAndPlot h a obs goal file isShow = .ok (figureOf a goal file isShow ds) ∧
      groups.flatten.Perm obs ∧ ds.length = groups.length ∧
      (∀ (i : ℕ) g d, groups[i]? = some g → ds[i]? = some d →
        ∃ c, ["b", "g", "r", "c", "m", "y"][i % 6]? = some c ∧
          GroupDrawn (fun g r => ∃ p ∈ l, h.length ≤ p ∧ primitives h' p = g ∧ refOf h' p = some r) h h' c g d) ∧
      (obs.Nodup → ∀ (i j : ℕ) p q, i ≠ j → obs[i]? = some p → obs[j]? = some q →
        ((∃ g ∈ groups, p ∈ g ∧ q ∈ g) ↔ Linked h obs i j)) := by
  obtain ⟨h', l, hrun⟩ := C07_defined ha hobs
  obtain ⟨ha', -, hl⟩ := C07_closed ha hobs hrun
  have hd' := aggregate_drawable hd hrun
  obtain ⟨aggs, rest, hsplit, -, hnew, hrest, hperm⟩ := C05_partition ha hobs hrun
  have hext : ShapeExt h h' := by
    obtain ⟨rank, hr⟩ := exists_ranked ha
    obtain ⟨h1, aggs1, idx, hrun', hI⟩ := Aggregation.aggregateObstacles_ok hr hobs
    rw [hrun] at hrun'; cases hrun'
    exact hI.heap.ext
  have hsh : ∀ {c : String} {q : Ptr} {o' : Obj α} {d : List (Cmd α)}, q < h.length → h'[q]? = some o' →
      draw h' o' c "xy" = .ok d → Drawn h h' c q d := by
    intro c q o' d hq ho' hdr
    have := hext.2 q hq
    rw [ho', List.getElem?_eq_getElem hq] at this
    exact ⟨h[q], o', List.getElem?_eq_getElem hq, ho', by simpa using this, hdr⟩
  obtain ⟨ds, e1, e2, e3⟩ := C73_obstacles h' ha' hd' l hl "xy"
  refine ⟨h', l, aggs.map (primitives h') ++ rest.map (fun p => [p]), ds, hrun, ?_, ?_, ?_, ?_, ?_⟩
  · unfold Optimization.aggregateAndPlot
    rw [hrun, Res.ok_bind]
    simp [plotConfiguration, e1, plotAgent, plotTrajectory, finish, figureOf]
  · rw [List.flatten_append, ← List.flatMap_def]
    have : ∀ rest : List Ptr, (rest.map (fun p => [p])).flatten = rest := by intro rest; induction rest <;> simp_all
    rw [this]
    exact hperm
  · rw [e2, hsplit]; simp
  · intro i g d hg hdi
    have hi : i < l.length := by
      have := (List.getElem?_eq_some_iff.mp hdi).1
      omega
    obtain ⟨o, c, d', h1, h2, h3, h4⟩ := e3 i l[i] (List.getElem?_eq_getElem hi)
    rw [hdi] at h4; cases h4
    refine ⟨c, h2, ?_⟩
    by_cases hia : i < aggs.length
    · have hli : l[i] = aggs[i] := by simp [hsplit, List.getElem_append_left hia]
      rw [List.getElem?_append_left (by simpa using hia)] at hg
      simp [List.getElem?_eq_getElem hia] at hg
      obtain ⟨n1, n2⟩ := hnew aggs[i] (List.getElem_mem hia)
      have hil : aggs[i] ∈ l := by rw [hsplit]; exact List.mem_append_left _ (List.getElem_mem hia)
      rw [hli] at h1
      rw [hg] at n2
      have hag : ∃ ag, o = .aggregate ag ∧ ag.prims = g := by
        have hg' := hg
        unfold primitives at hg'
        rw [h1] at hg'
        cases o with
        | aggregate ag => exact ⟨ag, rfl, hg'⟩
        | _ => simp at hg'; subst hg'; simp at n2
      obtain ⟨ag, rfl, hpr⟩ := hag
      obtain ⟨ds', r, mo, mi, k1, k2, k3, k4, k5⟩ := C73_aggregate h' ha' hd' aggs[i] ag h1 c "xy"
      rw [h3] at k1; cases k1
      have hmem : ∀ q ∈ ag.prims, q < h.length := by
        intro q hq
        apply hobs
        refine hperm.mem_iff.mp (List.mem_append_left _ (List.mem_flatMap.mpr ⟨aggs[i], List.getElem_mem hia, ?_⟩))
        rw [hg, ← hpr]; exact hq
      refine .inr ⟨n2, ds', r, ag, mo, mi, ?_, ⟨aggs[i], hil, n1, hg, ?_⟩, ⟨hpr, k2, ?_⟩, ⟨k3, k4⟩, rfl⟩
      · rw [← hpr]
        refine List.forall₂_iff_get.mpr ⟨k5.length_eq, fun n m1 m2 => ?_⟩
        obtain ⟨o, w1, w2⟩ := (List.forall₂_iff_get.mp k5).2 n m1 m2
        exact hsh (hmem _ (List.get_mem _ _)) w1 w2
      · simp [refOf, h1, Obj.base, k2]
      · exact aggregate_current hd hrun hil n1 hobs h1 hmem
    · have hge : aggs.length ≤ i := not_lt.mp hia
      rw [List.getElem?_append_right (by simpa using hge)] at hg
      simp only [List.length_map] at hg
      have hir : i - aggs.length < rest.length := by
        have := (List.getElem?_eq_some_iff.mp hg).1
        simpa using this
      have hli : l[i] = rest[i - aggs.length] := by simp [hsplit, List.getElem_append_right hge]
      simp [List.getElem?_eq_getElem hir] at hg
      refine .inl ⟨l[i], by rw [← hg, hli], ?_⟩
      refine hsh (hobs _ (hrest.subset ?_)) h1 h3
      rw [hli]; exact List.getElem_mem hir
  · intro hnd i j p q hij hp hq
    rw [← (C06_components ha hobs hnd hrun hp hq hij).1]
    have hpq : p ≠ q := by
      rintro rfl
      obtain ⟨i1, i2⟩ := List.getElem?_eq_some_iff.mp hp
      obtain ⟨j1, j2⟩ := List.getElem?_eq_some_iff.mp hq
      exact hij ((hnd.getElem_inj_iff).mp (i2.trans j2.symm))
    constructor
    · rintro ⟨g, hg, h1, h2⟩
      rcases List.mem_append.mp hg with hg | hg
      · obtain ⟨b, hb, rfl⟩ := List.mem_map.mp hg
        exact ⟨b, by rw [hsplit]; exact List.mem_append_left _ hb, (hnew b hb).1, h1, h2⟩
      · obtain ⟨b, hb, rfl⟩ := List.mem_map.mp hg
        simp at h1 h2
        exact absurd (h1.trans h2.symm) hpq
    · rintro ⟨b, hb, h1, h2, h3⟩
      rw [hsplit] at hb
      rcases List.mem_append.mp hb with hb | hb
      · exact ⟨_, List.mem_append_left _ (List.mem_map_of_mem hb), h2, h3⟩
      · exact absurd (hobs b (hrest.subset hb)) (not_lt.mpr h1)

/-- C85: aggregating and drawing returns normally, for every list of initialised obstacles. The figure contains, between
`figure()` and the agent, one drawing for each group of obstacles. The colours are used in turn, and all members of a
group have the same colour. Every obstacle is in exactly one group, and two obstacles are in the same group exactly if
they are linked by a chain of obstacles that meet. -/
theorem C85_program {h : Heap α} (ha : Acyclic h) (hd : ∀ (p : Ptr) o, h[p]? = some o → Drawable o) {obs : List Ptr}
    (hobs : ∀ p ∈ obs, p < h.length) (a : Agent α) (goal : V3 α) (file : String) (isShow : Bool) :
    ∃ (h' : Heap α) (groups : List (List Ptr)) (ds : List (List (Cmd α))),
      Optimization.aggregateAndPlot h a obs goal file isShow = .ok (figureOf a goal file isShow ds) ∧
      groups.flatten.Perm obs ∧ ds.length = groups.length ∧
      (∀ (i : ℕ) g d, groups[i]? = some g → ds[i]? = some d →
        ∃ c, ["b", "g", "r", "c", "m", "y"][i % 6]? = some c ∧ GroupDrawn (fun _ _ => True) h h' c g d) ∧
      (obs.Nodup → ∀ (i j : ℕ) p q, i ≠ j → obs[i]? = some p → obs[j]? = some q →
        ((∃ g ∈ groups, p ∈ g ∧ q ∈ g) ↔ Linked h obs i j)) := by
  obtain ⟨h', l, groups, ds, -, h1, h2, h3, h4, h5⟩ := program_core ha hd hobs a goal file isShow
  refine ⟨h', groups, ds, h1, h2, h3, fun i g d hg hdi => ?_, h5⟩
  obtain ⟨c, hc, hG⟩ := h4 i g d hg hdi
  exact ⟨c, hc, hG.mono fun _ _ => trivial⟩

end

/-- C85: with exact arithmetic, if no two of the obstacles share parts, the cross of each group of several obstacles is
drawn at the mean of the positions of its members. -/
theorem C85_cross {h : Heap ℝ} (ha : Acyclic h) (hd : ∀ (p : Ptr) o, h[p]? = some o → Drawable o) {obs : List Ptr}
    (hobs : ∀ p ∈ obs, p < h.length)
    (hdis : ∀ (i j : ℕ) (p q r : Ptr), i ≠ j → obs[i]? = some p → obs[j]? = some q →
      Within h p r → Within h q r → False)
    (a : Agent ℝ) (goal : V3 ℝ) (file : String) (isShow : Bool) :
    ∃ (h' : Heap ℝ) (groups : List (List Ptr)) (ds : List (List (Cmd ℝ))),
      Optimization.aggregateAndPlot h a obs goal file isShow = .ok (figureOf a goal file isShow ds) ∧
      groups.flatten.Perm obs ∧ ds.length = groups.length ∧
      ∀ (i : ℕ) g d, groups[i]? = some g → ds[i]? = some d →
        ∃ c, ["b", "g", "r", "c", "m", "y"][i % 6]? = some c ∧
          GroupDrawn (fun g r => r = mean (positions h g) ∧ ∀ q ∈ g, refOf h' q = some r) h h' c g d := by
  obtain ⟨h', l, groups, ds, h0, h1, h2, h3, h4, -⟩ := program_core ha hd hobs a goal file isShow
  refine ⟨h', groups, ds, h1, h2, h3, fun i g d hg hdi => ?_⟩
  obtain ⟨c, hc, hG⟩ := h4 i g d hg hdi
  refine ⟨c, hc, hG.mono ?_⟩
  rintro r ⟨p, hp, hn, rfl, hr⟩
  obtain ⟨-, k⟩ := C09_update ha hobs hdis h0 hp hn
  have := k p .refl
  rw [hr] at this
  cases this
  refine ⟨rfl, fun q hq => k q (.single ?_)⟩
  unfold primitives at hq
  split at hq
  · next ag hag => exact ⟨ag, hag, hq⟩
  · cases hq

/-! ## The scene of the program -/

section
variable {α : Type} [Add α] [Sub α] [Mul α] [Div α] [Neg α] [Zero α] [One α]
  [LE α] [LT α] [DecidableLE α] [DecidableLT α] [CMath α]

theorem scene_get (p : Ptr) (o : Obj α) (ho : (Optimization.scene (α := α)).1[p]? = some o) :
    ∃ e : Ellipsoid α, o = .ellipsoid e ∧ ∃ r, e.base.refPos = some r := by
  rcases p with _ | _ | _ | _ | _ | _ | _ | _ | _ | p <;>
    simp [Optimization.scene, Agent.mk2, Agent.newEnvelope, Optimization.obstacles] at ho <;> subst ho <;>
    exact ⟨_, rfl, _, rfl⟩

theorem scene_acyclic : Acyclic (Optimization.scene (α := α)).1 := by
  refine ⟨id, ?_⟩
  rintro p q ⟨a, ha, hq⟩
  obtain ⟨e, he, -⟩ := scene_get p _ ha
  cases he

theorem scene_drawable : ∀ (p : Ptr) o, (Optimization.scene (α := α)).1[p]? = some o → Drawable o := by
  intro p o ho
  obtain ⟨e, rfl, hr⟩ := scene_get p o ho
  exact hr

theorem scene_length : (Optimization.scene (α := α)).1.length = 9 := rfl

theorem scene_list : ∀ p ∈ Optimization.obstacleList, p < (Optimization.scene (α := α)).1.length := by
  intro p hp
  rw [scene_length]
  simp [Optimization.obstacleList] at hp
  rcases hp with rfl | rfl | rfl | rfl | rfl | rfl | rfl | rfl <;> decide

/-- C85: testOptimization.cpp returns normally, whatever the arithmetic; each of its eight obstacles is in one group. -/
theorem C85_optimization : ∃ (h' : Heap α) (groups : List (List Ptr)) (ds : List (List (Cmd α))),
    Optimization.program = .ok (figureOf (Optimization.scene (α := α)).2 ⟨lit 418 100, lit 384 100, 0⟩ "test" true ds) ∧
    groups.flatten.Perm [1, 2, 3, 4, 5, 6, 7, 8] ∧ ds.length = groups.length ∧
    ∀ (i : ℕ) g d, groups[i]? = some g → ds[i]? = some d →
      ∃ c, ["b", "g", "r", "c", "m", "y"][i % 6]? = some c ∧
        GroupDrawn (fun _ _ => True) (Optimization.scene (α := α)).1 h' c g d := by
  obtain ⟨h', groups, ds, h1, h2, h3, h4, -⟩ := C85_program (scene_acyclic (α := α)) scene_drawable scene_list
    (Optimization.scene (α := α)).2 ⟨lit 418 100, lit 384 100, 0⟩ "test" true
  exact ⟨h', groups, ds, h1, h2, h3, h4⟩

end

/-- An obstacle of the scene, with exact arithmetic: turned by `angle` about z, at (`x`/100, `y`/100). -/
theorem scene_place (name : String) (x y : ℕ) {t : ℝ} (ht : 0 < Real.cos (t / 2)) (a b : ℕ) :
    ZRotated (Optimization.obstacle name x y t a b) ∧
    (halfLengths (Optimization.obstacle name x y t a b) V3.zero).x = a / 100 ∧
    (halfLengths (Optimization.obstacle name x y t a b) V3.zero).y = b / 100 ∧
    (Optimization.obstacle name x y t a b).base.position = ⟨x / 100, y / 100, 0⟩ ∧
    ∀ u v, ((Optimization.obstacle name x y t a b).base.pose.apply ⟨u, v, 0⟩).x = Real.cos t * u - Real.sin t * v + x / 100 ∧
      ((Optimization.obstacle name x y t a b).base.pose.apply ⟨u, v, 0⟩).y = Real.sin t * u + Real.cos t * v + y / 100 := by
  have hq : (Quat.ofAngleZ t : Quat ℝ) = ⟨Real.cos (t / 2), 0, 0, Real.sin (t / 2)⟩ := by
    have : (1 : ℝ) / 2 * t = t / 2 := by ring
    simp only [Quat.ofAngleZ, lit_real]
    norm_num
    rw [this]
    exact ⟨rfl, rfl⟩
  have hu : (⟨Real.cos (t / 2), 0, 0, Real.sin (t / 2)⟩ : Quat ℝ).IsUnit := by
    have := Real.sin_sq_add_cos_sq (t / 2)
    simp only [Quat.IsUnit, Quat.sqNorm]
    linarith
  have hn : (⟨Real.cos (t / 2), 0, 0, Real.sin (t / 2)⟩ : Quat ℝ).norm = 1 := by
    rw [← Quat.isUnit_iff_norm]; exact hu
  have hfix : Pose.fixOrientation (⟨Real.cos (t / 2), 0, 0, Real.sin (t / 2)⟩ : Quat ℝ) =
      ⟨Real.cos (t / 2), 0, 0, Real.sin (t / 2)⟩ := by
    rw [Pose.fixOrientation_eq _ (by rw [hn]; norm_num)]
    have : (⟨Real.cos (t / 2), 0, 0, Real.sin (t / 2)⟩ : Quat ℝ).normalized =
        ⟨Real.cos (t / 2), 0, 0, Real.sin (t / 2)⟩ := by
      have h1 : Quat.sqNorm (⟨Real.cos (t / 2), 0, 0, Real.sin (t / 2)⟩ : Quat ℝ) = 1 := hu
      simp [Quat.normalized, h1, CMath.sqrt]
    rw [this, if_neg (not_lt.mpr ht.le)]
  have hor : (Optimization.obstacle name x y t a b).base.orientation = ⟨Real.cos (t / 2), 0, 0, Real.sin (t / 2)⟩ := by
    show Pose.fixOrientation (Quat.ofAngleZ t) = _
    rw [hq, hfix]
  have hz : ZRotated (Optimization.obstacle name x y t a b) := ⟨by rw [hor]; exact hn, by rw [hor], by rw [hor]⟩
  have hpos : (Optimization.obstacle name x y t a b).base.position = ⟨x / 100, y / 100, 0⟩ := by
    show (⟨lit x 100, lit y 100, 0⟩ : V3 ℝ) = _
    simp
  have hc : Real.cos t = Real.cos (t / 2) ^ 2 - Real.sin (t / 2) ^ 2 := by
    rw [← Real.cos_two_mul']; congr 1; ring
  have hs : Real.sin t = 2 * Real.cos (t / 2) * Real.sin (t / 2) := by
    have h2 := Real.sin_two_mul (t / 2)
    rw [show 2 * (t / 2) = t by ring] at h2
    rw [h2]; ring
  refine ⟨hz, ?_, ?_, hpos, fun u v => ?_⟩
  · simp [halfLengths, Optimization.obstacle, Ellipsoid.ofBase, Base.mkState, V3.const, V3.zero]
  · simp [halfLengths, Optimization.obstacle, Ellipsoid.ofBase, Base.mkState, V3.const, V3.zero]
  · rw [zrot_apply hz, hor, hpos, hc, hs]
    constructor <;> ring

/-- The ellipse covers only points near its centre. -/
theorem scene_bound (name : String) (x y : ℕ) {t : ℝ} (ht : 0 < Real.cos (t / 2)) {a b : ℕ} (hb : 0 < b) (hab : b ≤ a)
    {X Y : ℝ} (h : InEllipse (Optimization.obstacle name x y t a b) (halfLengths (Optimization.obstacle name x y t a b) V3.zero) X Y) :
    |X - x / 100| ≤ a / 100 ∧ |Y - y / 100| ≤ a / 100 := by
  obtain ⟨-, hx, hy, -, hp⟩ := scene_place name x y ht a b
  obtain ⟨u, v, h1, h2, h3⟩ := h
  rw [hx, hy] at h1
  rw [(hp u v).1] at h2
  rw [(hp u v).2] at h3
  have hb' : (0 : ℝ) < b / 100 := by positivity
  have hab' : (b : ℝ) / 100 ≤ a / 100 := by gcongr
  have ha' : (0 : ℝ) < a / 100 := lt_of_lt_of_le hb' hab'
  have h4 : u ^ 2 + v ^ 2 ≤ (a / 100) ^ 2 := by
    have e1 : u ^ 2 = (u / (a / 100)) ^ 2 * (a / 100 : ℝ) ^ 2 := by
      rw [← mul_pow, div_mul_cancel₀ _ ha'.ne']
    have e2 : v ^ 2 ≤ (v / (b / 100)) ^ 2 * (a / 100 : ℝ) ^ 2 := by
      have : v ^ 2 = (v / (b / 100)) ^ 2 * (b / 100 : ℝ) ^ 2 := by
        rw [← mul_pow, div_mul_cancel₀ _ hb'.ne']
      rw [this]
      gcongr
    calc u ^ 2 + v ^ 2 ≤ ((u / (a / 100)) ^ 2 + (v / (b / 100)) ^ 2) * (a / 100 : ℝ) ^ 2 := by rw [add_mul]; linarith
      _ ≤ 1 * (a / 100 : ℝ) ^ 2 := by gcongr
      _ = _ := one_mul _
  have h5 := Real.sin_sq_add_cos_sq t
  constructor
  · refine abs_le_of_sq_le_sq ?_ ha'.le
    have : (X - x / 100) ^ 2 + (Real.sin t * u + Real.cos t * v) ^ 2 = (Real.sin t ^ 2 + Real.cos t ^ 2) * (u ^ 2 + v ^ 2) := by
      rw [h2]; ring
    rw [h5, one_mul] at this
    nlinarith [sq_nonneg (Real.sin t * u + Real.cos t * v)]
  · refine abs_le_of_sq_le_sq ?_ ha'.le
    have : (Y - y / 100) ^ 2 + (Real.cos t * u - Real.sin t * v) ^ 2 = (Real.sin t ^ 2 + Real.cos t ^ 2) * (u ^ 2 + v ^ 2) := by
      rw [h3]; ring
    rw [h5, one_mul] at this
    nlinarith [sq_nonneg (Real.cos t * u - Real.sin t * v)]

/-- The same for an ellipse that is not turned. -/
theorem scene_box (name : String) (x y : ℕ) {a b : ℕ} (ha : 0 < a) (hb : 0 < b)
    {X Y : ℝ} (h : InEllipse (Optimization.obstacle name x y (0 : ℝ) a b)
      (halfLengths (Optimization.obstacle name x y (0 : ℝ) a b) V3.zero) X Y) :
    |X - x / 100| ≤ a / 100 ∧ |Y - y / 100| ≤ b / 100 := by
  obtain ⟨-, hx, hy, -, hp⟩ := scene_place name x y (t := 0) (by simp) a b
  obtain ⟨u, v, h1, h2, h3⟩ := h
  rw [hx, hy] at h1
  rw [(hp u v).1] at h2
  rw [(hp u v).2] at h3
  simp at h2 h3
  have hb' : (0 : ℝ) < b / 100 := by positivity
  have ha' : (0 : ℝ) < a / 100 := by positivity
  have k : ∀ w l : ℝ, 0 < l → (w / l) ^ 2 ≤ 1 → |w| ≤ l := by
    intro w l hl hw
    rw [sq_le_one_iff_abs_le_one, abs_div, abs_of_pos hl, div_le_one hl] at hw
    exact hw
  rw [h2, h3, add_sub_cancel_right, add_sub_cancel_right]
  exact ⟨k _ _ ha' (by nlinarith [sq_nonneg (v / (b / 100 : ℝ))]), k _ _ hb' (by nlinarith [sq_nonneg (u / (a / 100 : ℝ))])⟩

/-- The groups of the scene. -/
def sceneGroup (i : ℕ) : ℕ := [0, 0, 1, 1, 2, 2, 3, 1].getD i 4

/-- Where the obstacles of a group are. -/
def SceneRegion (g : ℕ) (X Y : ℝ) : Prop :=
  (g = 0 ∧ 27 / 10 ≤ X ∧ Y ≤ 33 / 10) ∨ (g = 1 ∧ X ≤ 17 / 10 ∧ Y ≤ 5) ∨
  (g = 2 ∧ 3 ≤ X ∧ 4 ≤ Y ∧ Y ≤ 54 / 10) ∨ (g = 3 ∧ 55 / 10 ≤ Y)

theorem region_unique {g g' : ℕ} {X Y : ℝ} (h : SceneRegion g X Y) (h' : SceneRegion g' X Y) : g = g' := by
  rcases h with ⟨rfl, h1, h2⟩ | ⟨rfl, h1, h2⟩ | ⟨rfl, h1, h2, h3⟩ | ⟨rfl, h1⟩ <;>
  rcases h' with ⟨rfl, k1, k2⟩ | ⟨rfl, k1, k2⟩ | ⟨rfl, k1, k2, k3⟩ | ⟨rfl, k1⟩ <;>
  first | rfl | (exfalso; linarith)

theorem cos_small {t : ℝ} (h : |t| ≤ 1) : 0 < Real.cos (t / 2) := by
  have := abs_le.mp h
  have := Real.pi_gt_three
  exact Real.cos_pos_of_mem_Ioo ⟨by linarith, by linarith⟩

theorem scene_region (i : ℕ) (e : Ellipsoid ℝ) (he : Optimization.obstacles[i]? = some e) {X Y : ℝ}
    (h : InEllipse e (halfLengths e V3.zero) X Y) : SceneRegion (sceneGroup i) X Y := by
  have c0 : |(38 : ℝ) / 100| ≤ 1 := by norm_num
  have c1 : |(75 : ℝ) / 100| ≤ 1 := by norm_num
  have c2 : |-((75 : ℝ) / 100)| ≤ 1 := by norm_num
  rcases i with _ | _ | _ | _ | _ | _ | _ | _ | i <;> simp [Optimization.obstacles] at he <;> subst he
  · obtain ⟨h1, h2⟩ := scene_box _ _ _ (by norm_num) (by norm_num) h
    rw [abs_le] at h1 h2; norm_num at h1 h2
    exact .inl ⟨rfl, by linarith, by linarith⟩
  · obtain ⟨h1, h2⟩ := scene_box _ _ _ (by norm_num) (by norm_num) h
    rw [abs_le] at h1 h2; norm_num at h1 h2
    exact .inl ⟨rfl, by linarith, by linarith⟩
  · obtain ⟨h1, h2⟩ := scene_box _ _ _ (by norm_num) (by norm_num) h
    rw [abs_le] at h1 h2; norm_num at h1 h2
    exact .inr (.inl ⟨rfl, by linarith, by linarith⟩)
  · obtain ⟨h1, h2⟩ := scene_bound _ _ _ (cos_small c0) (by norm_num) (by norm_num) h
    rw [abs_le] at h1 h2; norm_num at h1 h2
    exact .inr (.inl ⟨rfl, by linarith, by linarith⟩)
  · obtain ⟨h1, h2⟩ := scene_bound _ _ _ (cos_small c1) (by norm_num) (by norm_num) h
    rw [abs_le] at h1 h2; norm_num at h1 h2
    exact .inr (.inr (.inl ⟨rfl, by linarith, by linarith, by linarith⟩))
  · obtain ⟨h1, h2⟩ := scene_bound _ _ _ (cos_small c2) (by norm_num) (by norm_num) h
    rw [abs_le] at h1 h2; norm_num at h1 h2
    exact .inr (.inr (.inl ⟨rfl, by linarith, by linarith, by linarith⟩))
  · obtain ⟨h1, h2⟩ := scene_box _ _ _ (by norm_num) (by norm_num) h
    rw [abs_le] at h1 h2; norm_num at h1 h2
    exact .inr (.inr (.inr ⟨rfl, by linarith⟩))
  · obtain ⟨h1, h2⟩ := scene_box _ _ _ (by norm_num) (by norm_num) h
    rw [abs_le] at h1 h2; norm_num at h1 h2
    exact .inr (.inl ⟨rfl, by linarith, by linarith⟩)

/-- A sample of the second ellipse inside the first one is found. -/
theorem sample_hit {e o : Ellipsoid ℝ} (he : ZRotated e) (ho : ZRotated o) (k : ℕ) (hk : k < 100)
    (h : InEllipse e (halfLengths e V3.zero)
      (o.base.pose.apply ⟨(halfLengths o V3.zero).x * Real.cos (2 * Real.pi * k / 99),
        (halfLengths o V3.zero).y * Real.sin (2 * Real.pi * k / 99), 0⟩).x
      (o.base.pose.apply ⟨(halfLengths o V3.zero).x * Real.cos (2 * Real.pi * k / 99),
        (halfLengths o V3.zero).y * Real.sin (2 * Real.pi * k / 99), 0⟩).y) :
    e.isIntersectingEllipsoid o = .ok true := by
  unfold isIntersectingEllipsoid
  split
  · rfl
  · split
    · rfl
    · obtain ⟨s, hs, -, hp⟩ := C28_samples o ho 100 (by norm_num) true
      obtain ⟨p, h1, -, h2, h3⟩ := hp k hk
      simp only [if_true] at h2 h3
      rw [hs]
      have h99 : ((100 : ℕ) : ℝ) - 1 = 99 := by norm_num
      rw [h99] at h2 h3
      rw [← h2, ← h3] at h
      have : s.any e.pointIsInside = true :=
        List.any_eq_true.mpr ⟨p, List.mem_of_getElem? h1, (inside_iff_inEllipse he p).mpr h⟩
      simp [this]

/-- The inside of an obstacle of the scene, in coordinates. -/
theorem scene_inside (name : String) (x y : ℕ) {t : ℝ} (ht : 0 < Real.cos (t / 2)) (a b : ℕ) (X Y : ℝ)
    (h : ((Real.cos t * (X - x / 100) + Real.sin t * (Y - y / 100)) / (a / 100)) ^ 2 +
      ((Real.cos t * (Y - y / 100) - Real.sin t * (X - x / 100)) / (b / 100)) ^ 2 ≤ 1) :
    InEllipse (Optimization.obstacle name x y t a b) (halfLengths (Optimization.obstacle name x y t a b) V3.zero) X Y := by
  obtain ⟨-, hx, hy, -, hp⟩ := scene_place name x y ht a b
  refine ⟨_, _, by rw [hx, hy]; exact h, ?_, ?_⟩
  · rw [(hp _ _).1]
    have h5 := Real.sin_sq_add_cos_sq t
    linear_combination (-(X - x / 100)) * h5
  · rw [(hp _ _).2]
    have h5 := Real.sin_sq_add_cos_sq t
    linear_combination (-(Y - y / 100)) * h5

theorem small_angle : 999 / 1000 ≤ Real.cos (Real.pi / 99) ∧ Real.cos (Real.pi / 99) ≤ 1 ∧ 0 ≤ Real.sin (Real.pi / 99) ∧
    Real.sin (Real.pi / 99) ≤ 4 / 100 := by
  have h1 := Real.pi_gt_three
  have h2 := Real.pi_lt_d2
  have h0 : Real.pi / 99 ≤ 4 / 100 := by linarith
  have hp : 0 < Real.pi / 99 := by positivity
  refine ⟨?_, Real.cos_le_one _, Real.sin_nonneg_of_nonneg_of_le_pi hp.le (by linarith), (Real.sin_le hp.le).trans h0⟩
  have := Real.one_sub_sq_div_two_le_cos (x := Real.pi / 99)
  nlinarith

theorem meet_12 : (Optimization.obstacle "e1" 295 250 (0 : ℝ) 20 75).isIntersectingEllipsoid
    (Optimization.obstacle "e2" 440 200 0 150 15) = .ok true := by
  obtain ⟨z1, -⟩ := scene_place "e1" 295 250 (t := 0) (by simp) 20 75
  obtain ⟨z2, lx, ly, -, ap⟩ := scene_place "e2" 440 200 (t := 0) (by simp) 150 15
  refine sample_hit z1 z2 49 (by norm_num) (scene_inside _ _ _ (by simp) _ _ _ _ ?_)
  rw [(ap _ _).1, (ap _ _).2, lx, ly]
  have e1 : 2 * Real.pi * ((49 : ℕ) : ℝ) / 99 = Real.pi - Real.pi / 99 := by push_cast; ring
  rw [e1, Real.cos_pi_sub, Real.sin_pi_sub]
  obtain ⟨h1, h2, h3, h4⟩ := small_angle
  generalize Real.cos (Real.pi / 99) = C at *
  generalize Real.sin (Real.pi / 99) = S at *
  norm_num
  nlinarith

theorem meet_38 : (Optimization.obstacle "e3" 30 300 (0 : ℝ) 20 200).isIntersectingEllipsoid
    (Optimization.obstacle "e8" 50 350 0 50 50) = .ok true := by
  obtain ⟨z1, -⟩ := scene_place "e3" 30 300 (t := 0) (by simp) 20 200
  obtain ⟨z2, lx, ly, -, ap⟩ := scene_place "e8" 50 350 (t := 0) (by simp) 50 50
  refine sample_hit z1 z2 33 (by norm_num) (scene_inside _ _ _ (by simp) _ _ _ _ ?_)
  rw [(ap _ _).1, (ap _ _).2, lx, ly]
  have e1 : 2 * Real.pi * ((33 : ℕ) : ℝ) / 99 = Real.pi - Real.pi / 3 := by push_cast; ring
  rw [e1, Real.cos_pi_sub, Real.sin_pi_sub, Real.cos_pi_div_three, Real.sin_pi_div_three]
  have h3 : Real.sqrt 3 ^ 2 = 3 := Real.sq_sqrt (by norm_num)
  have h4 : 0 ≤ Real.sqrt 3 := Real.sqrt_nonneg 3
  have h5 : Real.sqrt 3 ≤ 2 := by nlinarith
  generalize Real.sqrt 3 = w at *
  norm_num
  nlinarith

theorem meet_48 : (Optimization.obstacle "e4" 100 375 (38 / 100 : ℝ) 70 30).isIntersectingEllipsoid
    (Optimization.obstacle "e8" 50 350 0 50 50) = .ok true := by
  have ht : 0 < Real.cos ((38 / 100 : ℝ) / 2) := cos_small (by norm_num)
  obtain ⟨z1, -⟩ := scene_place "e4" 100 375 ht 70 30
  obtain ⟨z2, -, -, hp, -⟩ := scene_place "e8" 50 350 (t := 0) (by simp) 50 50
  refine C29_detects_centres _ _ z1 z2 (.inl ?_)
  rw [hp]
  refine scene_inside _ _ _ ht _ _ _ _ ?_
  have h1 := Real.cos_bound (x := (38 / 100 : ℝ)) (by norm_num)
  have h2 := Real.sin_bound (x := (38 / 100 : ℝ)) (by norm_num)
  rw [abs_le] at h1 h2
  generalize Real.cos (38 / 100) = c at *
  generalize Real.sin (38 / 100) = s at *
  norm_num at h1 h2 ⊢
  nlinarith

private theorem numbers {c s C S : ℝ} (c1 : 731 / 1000 ≤ c) (c2 : c ≤ 733 / 1000) (s1 : 677 / 1000 ≤ s)
    (s2 : s ≤ 683 / 1000) (h1 : 999 / 1000 ≤ C) (h2 : C ≤ 1) (h3 : 0 ≤ S) (h4 : S ≤ 4 / 100) :
    |9 / 10 * c - 55 / 100 * (C * (c ^ 2 - s ^ 2)) - 4 / 10 * (S * (s * c))| ≤ 627 / 1000 ∧
    |-(9 / 10 * s) + 11 / 10 * (C * (s * c)) - 2 / 10 * (S * (c ^ 2 - s ^ 2))| ≤ 74 / 1000 := by
  have e1 : (731 / 1000 : ℝ) ^ 2 ≤ c ^ 2 := pow_le_pow_left₀ (by norm_num) c1 2
  have e2 : c ^ 2 ≤ (733 / 1000 : ℝ) ^ 2 := pow_le_pow_left₀ (by linarith) c2 2
  have e3 : (677 / 1000 : ℝ) ^ 2 ≤ s ^ 2 := pow_le_pow_left₀ (by norm_num) s1 2
  have e4 : s ^ 2 ≤ (683 / 1000 : ℝ) ^ 2 := pow_le_pow_left₀ (by linarith) s2 2
  have d1 : 67 / 1000 ≤ c ^ 2 - s ^ 2 := by norm_num at e1 e4; linarith
  have d2 : c ^ 2 - s ^ 2 ≤ 80 / 1000 := by norm_num at e2 e3; linarith
  have p1 : (677 / 1000 : ℝ) * (731 / 1000) ≤ s * c := mul_le_mul s1 c1 (by norm_num) (by linarith)
  have p2 : s * c ≤ (683 / 1000 : ℝ) * (733 / 1000) := mul_le_mul s2 c2 (by linarith) (by norm_num)
  generalize c ^ 2 - s ^ 2 = D at *
  generalize s * c = P at *
  have q1 : (999 / 1000 : ℝ) * (67 / 1000) ≤ C * D := mul_le_mul h1 d1 (by norm_num) (by linarith)
  have q2 : C * D ≤ 1 * (80 / 1000) := mul_le_mul h2 d2 (by linarith) (by norm_num)
  have q3 : (999 / 1000 : ℝ) * ((677 / 1000 : ℝ) * (731 / 1000)) ≤ C * P := mul_le_mul h1 p1 (by norm_num) (by linarith)
  have q4 : C * P ≤ 1 * ((683 / 1000 : ℝ) * (733 / 1000)) := mul_le_mul h2 p2 (by linarith) (by norm_num)
  have q5 : 0 ≤ S * D := mul_nonneg h3 (by linarith)
  have q6 : S * D ≤ 4 / 100 * (80 / 1000) := mul_le_mul h4 d2 (by linarith) (by norm_num)
  have q7 : 0 ≤ S * P := mul_nonneg h3 (by linarith)
  have q8 : S * P ≤ 4 / 100 * ((683 / 1000 : ℝ) * (733 / 1000)) := mul_le_mul h4 p2 (by linarith) (by norm_num)
  exact ⟨abs_le.mpr ⟨by linarith, by linarith⟩, abs_le.mpr ⟨by linarith, by linarith⟩⟩

theorem meet_56 : (Optimization.obstacle "e5" 370 470 (75 / 100 : ℝ) 65 30).isIntersectingEllipsoid
    (Optimization.obstacle "e6" 460 470 (-(75 / 100) : ℝ) 55 20) = .ok true := by
  have ht : 0 < Real.cos ((75 / 100 : ℝ) / 2) := cos_small (by norm_num)
  have ht' : 0 < Real.cos ((-(75 / 100) : ℝ) / 2) := cos_small (by norm_num)
  obtain ⟨z1, -⟩ := scene_place "e5" 370 470 ht 65 30
  obtain ⟨z2, lx, ly, -, ap⟩ := scene_place "e6" 460 470 ht' 55 20
  refine sample_hit z1 z2 50 (by norm_num) (scene_inside _ _ _ ht _ _ _ _ ?_)
  rw [(ap _ _).1, (ap _ _).2, lx, ly]
  have e1 : 2 * Real.pi * ((50 : ℕ) : ℝ) / 99 = Real.pi / 99 + Real.pi := by push_cast; ring
  rw [e1, Real.cos_add_pi, Real.sin_add_pi, Real.cos_neg, Real.sin_neg]
  obtain ⟨h1, h2, h3, h4⟩ := small_angle
  have h5 := Real.sin_bound (x := (75 / 100 : ℝ)) (by norm_num)
  have h6 := Real.sin_bound (x := (375 / 1000 : ℝ)) (by norm_num)
  have h7 : Real.cos (75 / 100) = 1 - 2 * Real.sin (375 / 1000) ^ 2 := by
    have := Real.cos_two_mul (375 / 1000 : ℝ)
    have h8 := Real.sin_sq_add_cos_sq (375 / 1000 : ℝ)
    rw [show (2 : ℝ) * (375 / 1000) = 75 / 100 by norm_num] at this
    linarith
  have h8 := Real.sin_sq_add_cos_sq (75 / 100 : ℝ)
  rw [abs_le] at h5 h6
  have h9 : 731 / 1000 ≤ Real.cos (75 / 100) ∧ Real.cos (75 / 100) ≤ 733 / 1000 := by
    rw [h7]
    generalize Real.sin (375 / 1000) = w at *
    norm_num at h6
    constructor <;> nlinarith
  generalize Real.cos (75 / 100) = c at *
  generalize Real.sin (75 / 100) = s at *
  generalize Real.cos (Real.pi / 99) = C at *
  generalize Real.sin (Real.pi / 99) = S at *
  have s1 : 677 / 1000 ≤ s := by norm_num at h5; linarith
  have s2 : s ≤ 683 / 1000 := by norm_num at h5; linarith
  obtain ⟨c1, c2⟩ := h9
  obtain ⟨x1, y1⟩ := numbers c1 c2 s1 s2 h1 h2 h3 h4
  have ex : c * (c * (55 / 100 * -C) - -s * (20 / 100 * -S) + 460 / 100 - 370 / 100) +
      s * (-s * (55 / 100 * -C) + c * (20 / 100 * -S) + 470 / 100 - 470 / 100) =
      9 / 10 * c - 55 / 100 * (C * (c ^ 2 - s ^ 2)) - 4 / 10 * (S * (s * c)) := by ring
  have ey : c * (-s * (55 / 100 * -C) + c * (20 / 100 * -S) + 470 / 100 - 470 / 100) -
      s * (c * (55 / 100 * -C) - -s * (20 / 100 * -S) + 460 / 100 - 370 / 100) =
      -(9 / 10 * s) + 11 / 10 * (C * (s * c)) - 2 / 10 * (S * (c ^ 2 - s ^ 2)) := by ring
  push_cast
  rw [ex, ey]
  generalize 9 / 10 * c - 55 / 100 * (C * (c ^ 2 - s ^ 2)) - 4 / 10 * (S * (s * c)) = A at *
  generalize -(9 / 10 * s) + 11 / 10 * (C * (s * c)) - 2 / 10 * (S * (c ^ 2 - s ^ 2)) = B at *
  have x2 := sq_le_sq' (abs_le.mp x1).1 (abs_le.mp x1).2
  have y2 := sq_le_sq' (abs_le.mp y1).1 (abs_le.mp y1).2
  simp only [div_pow]
  linarith

/-- Two obstacles of the scene are tested against each other with the test for ellipsoids. -/
theorem scene_meets {i j : ℕ} : Meets (Optimization.scene (α := ℝ)).1 Optimization.obstacleList i j ↔
    i < j ∧ ∃ e o : Ellipsoid ℝ, Optimization.obstacles[i]? = some e ∧ Optimization.obstacles[j]? = some o ∧
      e.isIntersectingEllipsoid o = .ok true := by
  have hget : ∀ (k : ℕ) (p : Ptr) (x : Obj ℝ), (Optimization.obstacleList[k]? = some p ∧ (Optimization.scene (α := ℝ)).1[p]? = some x) ↔
      ∃ e, Optimization.obstacles[k]? = some e ∧ p = k + 1 ∧ x = .ellipsoid e := by
    intro k p x
    have hl : Optimization.obstacleList[k]? = some p ↔ k < 8 ∧ p = k + 1 := by
      rcases k with _ | _ | _ | _ | _ | _ | _ | _ | k <;> simp [Optimization.obstacleList, eq_comm]
    rw [hl]
    constructor
    · rintro ⟨⟨h1, rfl⟩, h2⟩
      have : (Optimization.scene (α := ℝ)).1[k + 1]? = (Optimization.obstacles.map Obj.ellipsoid)[k]? := rfl
      rw [this, List.getElem?_map] at h2
      cases he : (Optimization.obstacles (α := ℝ))[k]? with
      | none => rw [he] at h2; cases h2
      | some e => rw [he] at h2; cases h2; exact ⟨e, rfl, rfl, rfl⟩
    · rintro ⟨e, he, rfl, rfl⟩
      refine ⟨⟨(List.getElem?_eq_some_iff.mp he).1, rfl⟩, ?_⟩
      have : (Optimization.scene (α := ℝ)).1[k + 1]? = (Optimization.obstacles.map Obj.ellipsoid)[k]? := rfl
      rw [this, List.getElem?_map, he]
      rfl
  constructor
  · rintro ⟨hij, p, q, op, oq, h1, h2, h3, h4, h5⟩
    obtain ⟨e, he, -, rfl⟩ := (hget i p op).mp ⟨h1, h3⟩
    obtain ⟨o, ho, -, rfl⟩ := (hget j q oq).mp ⟨h2, h4⟩
    exact ⟨hij, e, o, he, ho, h5⟩
  · rintro ⟨hij, e, o, he, ho, h⟩
    obtain ⟨h1, h3⟩ := (hget i (i + 1) (.ellipsoid e)).mpr ⟨e, he, rfl, rfl⟩
    obtain ⟨h2, h4⟩ := (hget j (j + 1) (.ellipsoid o)).mpr ⟨o, ho, rfl, rfl⟩
    exact ⟨hij, _, _, _, _, h1, h2, h3, h4, h⟩

/-- With exact arithmetic the obstacles of the scene are linked exactly as listed. -/
theorem scene_linked {i j : ℕ} (hi : i < 8) (hj : j < 8) :
    Linked (Optimization.scene (α := ℝ)).1 Optimization.obstacleList i j ↔ sceneGroup i = sceneGroup j := by
  have hz : ∀ (i : ℕ) (e : Ellipsoid ℝ), Optimization.obstacles[i]? = some e →
      ZRotated e ∧ (halfLengths e V3.zero).x ≠ 0 ∧ (halfLengths e V3.zero).y ≠ 0 := by
    have key : ∀ (name : String) (x y : ℕ) (t : ℝ) (a b : ℕ), |t| ≤ 1 → a ≠ 0 → b ≠ 0 →
        ZRotated (Optimization.obstacle name x y t a b) ∧
        (halfLengths (Optimization.obstacle name x y t a b) V3.zero).x ≠ 0 ∧
        (halfLengths (Optimization.obstacle name x y t a b) V3.zero).y ≠ 0 := by
      intro name x y t a b ht ha hb
      obtain ⟨h1, h2, h3, -⟩ := scene_place name x y (cos_small ht) a b
      refine ⟨h1, ?_, ?_⟩
      · rw [h2]; positivity
      · rw [h3]; positivity
    intro i e he
    rcases i with _ | _ | _ | _ | _ | _ | _ | _ | i <;> simp [Optimization.obstacles] at he <;> subst he <;>
      apply key <;> norm_num
  constructor
  · intro h
    clear hi hj
    induction h with
    | rel i j h =>
      obtain ⟨-, e, o, he, ho, hm⟩ := scene_meets.mp h
      obtain ⟨z1, -⟩ := hz i e he
      obtain ⟨z2, o1, o2⟩ := hz j o ho
      obtain ⟨X, Y, k1, k2⟩ := C29_sound_partial e o z1 z2 o1 o2 hm
      exact region_unique (scene_region i e he k1) (scene_region j o ho k2)
    | refl i => rfl
    | symm i j _ ih => exact ih.symm
    | trans i j k _ _ ih1 ih2 => exact ih1.trans ih2
  · intro h
    have l01 : Linked (Optimization.scene (α := ℝ)).1 Optimization.obstacleList 0 1 :=
      .rel _ _ (scene_meets.mpr ⟨by norm_num, _, _, rfl, rfl, meet_12⟩)
    have l27 : Linked (Optimization.scene (α := ℝ)).1 Optimization.obstacleList 2 7 :=
      .rel _ _ (scene_meets.mpr ⟨by norm_num, _, _, rfl, rfl, meet_38⟩)
    have l37 : Linked (Optimization.scene (α := ℝ)).1 Optimization.obstacleList 3 7 :=
      .rel _ _ (scene_meets.mpr ⟨by norm_num, _, _, rfl, rfl, by simpa using meet_48⟩)
    have l45 : Linked (Optimization.scene (α := ℝ)).1 Optimization.obstacleList 4 5 :=
      .rel _ _ (scene_meets.mpr ⟨by norm_num, _, _, rfl, rfl, by simpa using meet_56⟩)
    interval_cases i <;> interval_cases j <;> simp [sceneGroup] at h <;>
      first
      | exact .refl _ | exact l01 | exact l27 | exact l37 | exact l45
      | exact .symm _ _ l01 | exact .symm _ _ l27 | exact .symm _ _ l37 | exact .symm _ _ l45
      | exact .trans _ _ _ l27 (.symm _ _ l37) | exact .trans _ _ _ l37 (.symm _ _ l27)

/-- C85: with exact arithmetic testOptimization.cpp forms the groups {e1, e2}, {e3, e4, e8}, {e5, e6} and {e7}; the obstacles
are numbered 1 to 8. -/
theorem C85_optimization_groups : ∃ (h' : Heap ℝ) (groups : List (List Ptr)) (ds : List (List (Cmd ℝ))),
    Optimization.program = .ok (figureOf (Optimization.scene (α := ℝ)).2 ⟨418 / 100, 384 / 100, 0⟩ "test" true ds) ∧
    groups.flatten.Perm [1, 2, 3, 4, 5, 6, 7, 8] ∧ ds.length = groups.length ∧
    (∀ (i : ℕ) g d, groups[i]? = some g → ds[i]? = some d →
      ∃ c, ["b", "g", "r", "c", "m", "y"][i % 6]? = some c ∧
        GroupDrawn (fun _ _ => True) (Optimization.scene (α := ℝ)).1 h' c g d) ∧
    ∀ p ∈ [1, 2, 3, 4, 5, 6, 7, 8], ∀ q ∈ [1, 2, 3, 4, 5, 6, 7, 8], p ≠ q →
      ((∃ g ∈ groups, p ∈ g ∧ q ∈ g) ↔ ∃ g ∈ [[1, 2], [3, 4, 8], [5, 6], [7]], p ∈ g ∧ q ∈ g) := by
  obtain ⟨h', groups, ds, h1, h2, h3, h4, h5⟩ := C85_program (scene_acyclic (α := ℝ)) scene_drawable scene_list
    (Optimization.scene (α := ℝ)).2 ⟨lit 418 100, lit 384 100, 0⟩ "test" true
  refine ⟨h', groups, ds, ?_, h2, h3, h4, ?_⟩
  · have : (⟨lit 418 100, lit 384 100, 0⟩ : V3 ℝ) = ⟨418 / 100, 384 / 100, 0⟩ := by simp
    rw [← this]; exact h1
  · intro p hp q hq hpq
    have h5 := h5 (by decide)
    have hget : ∀ p ∈ [1, 2, 3, 4, 5, 6, 7, 8], p - 1 < 8 ∧ Optimization.obstacleList[p - 1]? = some p := by decide
    have hne : ∀ p ∈ [1, 2, 3, 4, 5, 6, 7, 8], ∀ q ∈ [1, 2, 3, 4, 5, 6, 7, 8], p ≠ q → p - 1 ≠ q - 1 := by decide
    have hgr : ∀ p ∈ [1, 2, 3, 4, 5, 6, 7, 8], ∀ q ∈ [1, 2, 3, 4, 5, 6, 7, 8],
        (sceneGroup (p - 1) = sceneGroup (q - 1) ↔ ∃ g ∈ [[1, 2], [3, 4, 8], [5, 6], [7]], p ∈ g ∧ q ∈ g) := by decide
    rw [h5 (p - 1) (q - 1) p q (hne p hp q hq hpq) (hget p hp).2 (hget q hq).2, scene_linked (hget p hp).1 (hget q hq).1]
    exact hgr p hp q hq

/-- The hypotheses of `C85_program` and `C85_cross` can be met: the scene of the program. -/
example := C85_program (scene_acyclic (α := ℝ)) scene_drawable scene_list (Optimization.scene (α := ℝ)).2 ⟨1, 2, 0⟩ "" false

example := C85_cross scene_acyclic scene_drawable scene_list (by
    intro i j p q r hij hp hq h1 h2
    have hw : ∀ {p r : Ptr}, Within (Optimization.scene (α := ℝ)).1 p r → r = p := by
      intro p r h
      induction h with
      | refl => rfl
      | tail _ hc ih =>
        obtain ⟨a, ha, -⟩ := hc
        obtain ⟨e, he, -⟩ := scene_get _ _ ha
        cases he
    have := (hw h1).symm.trans (hw h2)
    subst this
    obtain ⟨i1, i2⟩ := List.getElem?_eq_some_iff.mp hp
    obtain ⟨j1, j2⟩ := List.getElem?_eq_some_iff.mp hq
    exact hij ((List.Nodup.getElem_inj_iff (by decide)).mp (i2.trans j2.symm)))
  (Optimization.scene (α := ℝ)).2 ⟨1, 2, 0⟩ "" false

end DOA.Props
