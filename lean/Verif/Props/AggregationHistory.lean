import Verif.Props.Aggregation
import Verif.Props.Env
import Verif.Lemmas.Repeat
import Verif.Props.Intersection
import Verif.Model.Modulation

/-!
# C03, C10, C11 and concrete cases for C04–C09: aggregation in histories of updates
-/

set_option linter.unusedSectionVars false

namespace DOA.Props
open DOA.Spec Aggregation DOA.Ellipsoid

variable {α : Type} [Add α] [Sub α] [Mul α] [Div α] [Neg α] [Zero α] [One α]
  [LE α] [LT α] [DecidableLE α] [DecidableLT α] [CMath α]

/-! ### C06: obstacles that do not meet -/

private theorem inner_noMeets {h : Heap α} (ha : Acyclic h) {obs : List Ptr} (hobs : ∀ p ∈ obs, p < h.length)
    (hno : ∀ i j, ¬ Meets h obs i j) {i : Nat} {pi : Ptr} (hpi : obs[i]? = some pi) (aggs : List Ptr)
    (idx : List Int) :
    ∀ L : List (Nat × Ptr), (∀ x ∈ L, i < x.1 ∧ obs[x.1]? = some x.2) →
      innerLoop obs i pi L ⟨h, aggs, idx⟩ = .ok ⟨h, aggs, idx⟩ := by
  obtain ⟨rank, hr⟩ := exists_ranked ha
  intro L
  induction L with
  | nil => intro _; rfl
  | cons x L ih =>
    intro hL
    obtain ⟨j, pj⟩ := x
    obtain ⟨hij, hpj⟩ := hL (j, pj) (by simp)
    have h1 := hobs pi (List.mem_of_getElem? hpi)
    have h2 := hobs pj (List.mem_of_getElem? hpj)
    obtain ⟨b, hb, -⟩ := isIntersecting_ok hr (ShapeExt.refl h) (List.getElem?_eq_getElem h1)
      (List.getElem?_eq_getElem h1) (List.getElem?_eq_getElem h2) (List.getElem?_eq_getElem h2)
    have hbf : b = false := by
      cases b with
      | false => rfl
      | true =>
        exact absurd ⟨hij, pi, pj, h[pi], h[pj], hpi, hpj, List.getElem?_eq_getElem h1,
          List.getElem?_eq_getElem h2, hb⟩ (hno i j)
    subst hbf
    have hp : pairStep obs i pi j pj ⟨h, aggs, idx⟩ = .ok ⟨h, aggs, idx⟩ := by
      simp [pairStep, Heap.deref, List.getElem?_eq_getElem h1, List.getElem?_eq_getElem h2, hb]
    simp only [innerLoop, hp, Res.ok_bind]
    exact ih fun x hx => hL x (by simp [hx])

/-- C06: if no two obstacles meet, nothing happens: the list is returned as it is and no object
changes. -/
theorem C06_no_meets {h : Heap α} (ha : Acyclic h) {obs : List Ptr} (hobs : ∀ p ∈ obs, p < h.length)
    (hno : ∀ i j, ¬ Meets h obs i j) : aggregateObstacles h obs = .ok (h, obs) := by
  have key : ∀ L : List (Nat × Ptr), (∀ x ∈ L, obs[x.1]? = some x.2) → (L.map (·.1)).Pairwise (· < ·) →
      ∀ idx, outerLoop obs L (⟨h, [], idx⟩ : St α) = .ok ⟨h, [], idx⟩ := by
    intro L
    induction L with
    | nil => intros; rfl
    | cons x L ih =>
      intro hL hp idx
      obtain ⟨i, pi⟩ := x
      simp only [List.map_cons, List.pairwise_cons] at hp
      have h1 := inner_noMeets ha hobs hno (hL (i, pi) (by simp)) [] idx L
        fun y hy => ⟨hp.1 y.1 (List.mem_map_of_mem hy), hL y (by simp [hy])⟩
      simp only [outerLoop, h1, Res.ok_bind]
      exact ih (fun x hx => hL x (by simp [hx])) hp.2 idx
  have hL : ∀ x ∈ indexed obs, obs[x.1]? = some x.2 := by
    intro x hx
    obtain ⟨k, hk⟩ := List.mem_iff_getElem?.mp hx
    rw [indexed, List.getElem?_zip_eq_some] at hk
    obtain ⟨h1, h2⟩ := hk
    rw [List.getElem?_range (by have := (List.getElem?_eq_some_iff.mp h2).1; omega)] at h1
    cases h1; exact h2
  have hP : ((indexed obs).map (·.1)).Pairwise (· < ·) := by
    have : (indexed obs).map (·.1) = List.range obs.length := by
      simp [indexed, List.map_fst_zip]
    rw [this]; exact List.pairwise_lt_range
  have hrem : remaining obs (List.replicate obs.length (-1)) = obs := by
    unfold remaining
    rw [List.filter_eq_self.mpr, List.map_fst_zip (by simp)]
    intro x hx
    simpa using (List.mem_replicate.mp (List.of_mem_zip hx).2).2
  simp [aggregateObstacles, key _ hL hP, updateHulls, hrem]

/-! ### C03 after an update -/

/-- C03: once `update` has run (in aggregated mode), a name that is not live can only resolve to an
aggregate built by this very update; all other dead names throw.  (For obstacles that kept the name
they were added under.) -/
theorem C03_after_update {h : Heap α} {b : Bool} {es : List Event} {w w' : World α}
    (hh : History (World.init h b) es w) (ha : Acyclic w.heap)
    (hl : ∀ k p, live es k = some p → p < w.heap.length ∧ nameOf w.heap p = k)
    (hup : w.exec .update = .ok w') (k : String) (hk : live es k = none) :
    w'.env.lookup w'.heap k = .throw (.notInEnvironment k) ∨
    ∃ p ∈ w'.env.list, w.heap.length ≤ p ∧ nameOf w'.heap p = k ∧ w'.env.lookup w'.heap k = .ok p := by
  obtain ⟨hs, hm⟩ := history_map hh
  have hmap : ∀ e ∈ w.env.map, live es e.1 = some e.2 := by
    intro e he
    rw [← hm]; exact (Env.find_eq_some_iff hs).mpr he
  obtain ⟨w1, hw1, hle, hmp, hold⟩ := C04_update (w := w) ha fun e he => (hl _ _ (hmap e he)).1
  rw [hup] at hw1; cases hw1
  have hh' : History (World.init h b) (es ++ [event w .update]) w' :=
    hh.call .update (by simp [World.step, hup])
  have hk' : live (es ++ [event w .update]) k = none := by
    have : event w .update = .nothing := by simp [event, hup]
    rw [this]; simpa [live, Spec.apply] using hk
  cases hagg : w.env.aggregated with
  | false =>
    left
    refine (C01_lookup hh' k).2 hk' ?_
    simp only [World.exec, Env.update, hagg, Bool.false_eq_true, if_false, Res.ok_bind] at hup
    cases hup; rfl
  | true =>
    have hobs : ∀ p ∈ w.env.map.map (·.2), p < w.heap.length := by
      intro p hp
      obtain ⟨e, he, rfl⟩ := List.mem_map.mp hp
      exact (hl _ _ (hmap e he)).1
    obtain ⟨h1, l, hrun⟩ := C07_defined ha hobs
    have hw' : w' = ⟨h1, { w.env with list := l }⟩ := by
      simp only [World.exec, Env.update, hagg, if_true, hrun, Res.ok_bind] at hup
      cases hup; simp [hagg]
    obtain ⟨-, -, hll⟩ := C07_closed ha hobs hrun
    obtain ⟨aggs, rest, hl1, -, hag, hsub, -⟩ := C05_partition ha hobs hrun
    have hlook := C03_lookup_partial hh' (by subst hw'; exact hll) k
    rw [hk'] at hlook
    subst hw'
    simp only [hagg, if_true] at hlook
    cases hf : firstNamed h1 k l with
    | none => rw [hf] at hlook; exact .inl (by simpa only [hagg] using hlook)
    | some p =>
      rw [hf] at hlook
      have hpl : p ∈ l := List.mem_of_find?_eq_some hf
      have hpn : nameOf h1 p = k := by simpa using List.find?_some hf
      refine .inr ⟨p, hpl, ?_, hpn, by simpa only [hagg] using hlook⟩
      rw [hl1] at hpl
      rcases List.mem_append.mp hpl with hp | hp
      · exact (hag p hp).1
      · exfalso
        obtain ⟨e, he, rfl⟩ := List.mem_map.mp (hsub.subset hp)
        obtain ⟨hlt, hn⟩ := hl _ _ (hmap e he)
        obtain ⟨o', ho', hsh, -⟩ := hold e.2 w.heap[e.2] (List.getElem?_eq_getElem hlt)
        have h2 : nameOf h1 e.2 = nameOf w.heap e.2 := by
          simp only at ho'
          simp only [nameOf, ho', List.getElem?_eq_getElem hlt, Option.map_some]
          rw [(C04_shape_covers hsh).1]
        rw [h2, hn] at hpn
        have := hmap e he
        rw [hpn, hk] at this
        cases this

/-! ### C10 -/

/-- C10, the part that holds: `update` leaves the reference point of every obstacle alone that is not
nested in an aggregate built by it; so an obstacle whose reference point was inside it before still
has that after.
Full statement (false, see `C10_negation`): after `update` the reference point of every obstacle
listed on its own lies inside it, whatever happened before. -/
theorem C10_untouched_partial {w w' : World α} (ha : Acyclic w.heap)
    (hm : ∀ e ∈ w.env.map, e.2 < w.heap.length) (hup : w.exec .update = .ok w') {p : Ptr}
    (hp : p < w.heap.length)
    (hout : ∀ a ∈ w'.env.list, w.heap.length ≤ a → ¬ Within w'.heap a p) :
    w'.heap[p]? = w.heap[p]? := by
  obtain ⟨w1, hw1, -, -, hold⟩ := C04_update ha hm
  rw [hup] at hw1; cases hw1
  obtain ⟨o', h1, -, h2⟩ := hold p w.heap[p] (List.getElem?_eq_getElem hp)
  rw [h1, List.getElem?_eq_getElem hp]
  by_contra hne
  obtain ⟨-, a, ha1, ha2, ha3⟩ := h2 fun h => hne (by rw [h])
  exact hout a ha1 ha2 ha3

/-! #### concrete circles -/

/-- A circular obstacle of radius `r` without margin. -/
noncomputable def circ (name : String) (c : V3 ℝ) (r : ℝ) : Ellipsoid ℝ :=
  { Ellipsoid.ofBase (Base.mkPos name c (V3.const 0)) with axis := V3.const r }

theorem circ_rot (n : String) (c : V3 ℝ) (r : ℝ) : ZRotated (circ n c r) := by
  refine ⟨?_, rfl, rfl⟩
  rw [← Quat.isUnit_iff_norm]
  simp [Quat.IsUnit, Quat.sqNorm, circ, Ellipsoid.ofBase, Base.mkPos, Base.orientation,
    State.orientation, State.ofPosition, Pose.ofPosition, Quat.one]

theorem circ_len (n : String) (c : V3 ℝ) (r : ℝ) : halfLengths (circ n c r) V3.zero = ⟨r, r, r⟩ := by
  ext <;> simp [halfLengths, circ, Ellipsoid.ofBase, Base.mkPos, V3.zero, V3.const]

theorem circ_inside (n : String) (c : V3 ℝ) {r : ℝ} (hr : 0 < r) (p : V3 ℝ) :
    (circ n c r).pointIsInside p = true ↔ (p.x - c.x) ^ 2 + (p.y - c.y) ^ 2 ≤ r ^ 2 := by
  rw [circle_inside (circ_rot n c r) r hr (by rw [circ_len]) (by rw [circ_len])]
  rfl

/-- Intersection does not look at the reference position. -/
theorem circ_isIntersecting_ref (e o : Ellipsoid ℝ) (u v : Option (V3 ℝ)) :
    Ellipsoid.isIntersectingEllipsoid { e with base := { e.base with refPos := u } }
      { o with base := { o.base with refPos := v } } = e.isIntersectingEllipsoid o := rfl

theorem circ_meet {n m : String} {c d : V3 ℝ} {r s : ℝ} (hs : 0 < s)
    (h : (c.x - d.x) ^ 2 + (c.y - d.y) ^ 2 ≤ s ^ 2) :
    (circ n c r).isIntersectingEllipsoid (circ m d s) = .ok true := by
  apply C29_detects_centres _ _ (circ_rot n c r) (circ_rot m d s)
  right
  exact (inside_iff_inEllipse (circ_rot m d s) c).mp ((circ_inside m d hs c).mpr h)

theorem circ_apart {n m : String} {c d : V3 ℝ} {r s : ℝ} (hr : 0 < r) (hs : 0 < s)
    (h : r + s < d.x - c.x) :
    (circ n c r).isIntersectingEllipsoid (circ m d s) = .ok false := by
  obtain ⟨b, hb⟩ := C29_total (circ n c r) (circ m d s)
  cases b with
  | false => exact hb
  | true =>
    exfalso
    obtain ⟨x, y, h1, h2⟩ := C29_sound_partial _ _ (circ_rot n c r) (circ_rot m d s)
      (by rw [circ_len]; exact hs.ne') (by rw [circ_len]; exact hs.ne') hb
    have h1 := (circ_inside n c hr ⟨x, y, 0⟩).mp ((inside_iff_inEllipse (circ_rot n c r) ⟨x, y, 0⟩).mpr h1)
    have h2 := (circ_inside m d hs ⟨x, y, 0⟩).mp ((inside_iff_inEllipse (circ_rot m d s) ⟨x, y, 0⟩).mpr h2)
    simp only at h1 h2
    have a1 : x - c.x ≤ r := abs_le_of_sq_le_sq' (by nlinarith [sq_nonneg (y - c.y)]) hr.le |>.2
    have a2 : -s ≤ x - d.x := abs_le_of_sq_le_sq' (by nlinarith [sq_nonneg (y - d.y)]) hs.le |>.1
    linarith

theorem acyclic_flat {h : Heap α} (hf : ∀ (p : Ptr) a, h[p]? ≠ some (.aggregate a)) : Acyclic h :=
  ⟨fun _ => 0, fun p _ ⟨a, ha, _⟩ => absurd ha (hf p a)⟩

/-- An object with the shape of an ellipsoid is that ellipsoid, up to the reference position. -/
theorem shape_ellipsoid {o : Obj α} {e : Ellipsoid α} (h : shape o = shape (.ellipsoid e)) :
    o = .ellipsoid { e with base := { e.base with refPos := o.base.refPos } } := by
  cases o <;> simp [shape, Obj.mapBase] at h
  rename_i e'
  obtain ⟨⟨⟨b1, b2, b3, b4⟩, b5, b6⟩, c1, c2⟩ := e'
  obtain ⟨⟨d1, d2, d3, d4⟩, d5, d6⟩ := e
  simp_all [Obj.base]

/-- Two ellipsoids that meet are replaced by one aggregate of both. -/
theorem two_update {ea eb : Ellipsoid ℝ} (hm : ea.isIntersectingEllipsoid eb = .ok true) :
    ∃ h1 a, aggregateObstacles [.ellipsoid ea, .ellipsoid eb] [0, 1] = .ok (h1, [a]) ∧ Acyclic h1 ∧
      2 ≤ a ∧ (primitives h1 a).Perm [0, 1] ∧
      h1[0]? = some (.ellipsoid { ea with base := { ea.base with
        refPos := some (mean [ea.base.position, eb.base.position]) } }) ∧
      h1[1]? = some (.ellipsoid { eb with base := { eb.base with
        refPos := some (mean [ea.base.position, eb.base.position]) } }) := by
  set h : Heap ℝ := [.ellipsoid ea, .ellipsoid eb] with hh
  have hlen : h.length = 2 := rfl
  have hf : ∀ (p : Ptr) a, h[p]? ≠ some (.aggregate a) := by
    intro p a hp
    match p with
    | 0 => simp [hh] at hp
    | 1 => simp [hh] at hp
    | n + 2 => simp [hh] at hp
  have ha : Acyclic h := acyclic_flat hf
  have hobs : ∀ p ∈ [0, 1], p < h.length := by simp [hlen]
  obtain ⟨h1, l, hrun⟩ := C07_defined ha hobs
  have hmeets : Meets h [0, 1] 0 1 :=
    ⟨by omega, 0, 1, _, _, rfl, rfl, rfl, rfl, hm⟩
  obtain ⟨⟨-, hcomp⟩, -⟩ := C06_components ha hobs (by simp) hrun (i := 0) (j := 1) (p := 0) (q := 1)
    rfl rfl (by omega)
  obtain ⟨a, hal, hnew, h0a, h1a⟩ := hcomp (.rel _ _ hmeets)
  obtain ⟨aggs, rest, hl, -, hagg, hsub, hperm⟩ := C05_partition ha hobs hrun
  have haa : a ∈ aggs := by
    rw [hl] at hal
    rcases List.mem_append.mp hal with h2 | h2
    · exact h2
    · exact absurd (hobs a (hsub.subset h2)) (not_lt.mpr hnew)
  have hlen2 := hperm.length_eq
  have hone : aggs = [a] ∧ rest = [] := by
    cases aggs with
    | nil => simp at haa
    | cons x xs =>
      have hx := (hagg x (by simp)).2
      simp only [List.flatMap_cons, List.length_append, List.length_cons, List.length_nil] at hlen2
      cases xs with
      | nil =>
        simp at haa
        subst haa
        refine ⟨rfl, List.length_eq_zero_iff.mp (by omega)⟩
      | cons y ys =>
        have hy := (hagg y (by simp)).2
        simp only [List.flatMap_cons, List.length_append] at hlen2
        omega
  obtain ⟨rfl, rfl⟩ := hone
  simp only [List.append_nil, List.flatMap_cons, List.flatMap_nil] at hperm hl
  subst hl
  have hdis : ∀ (i j : Nat) (p q r : Ptr), i ≠ j → [0, 1][i]? = some p → [0, 1][j]? = some q →
      Within h p r → Within h q r → False := by
    have hw : ∀ p r, Within h p r → r = p := by
      intro p r hw
      rcases Relation.ReflTransGen.cases_head hw with h1 | ⟨q, ⟨b, hb, -⟩, -⟩
      · exact h1.symm
      · exact absurd hb (hf p b)
    intro i j p q r hij hi hj h1 h2
    obtain rfl := hw _ _ h1
    obtain rfl := hw _ _ h2
    obtain ⟨h3, h4⟩ := List.getElem?_eq_some_iff.mp hi
    obtain ⟨h5, h6⟩ := List.getElem?_eq_some_iff.mp hj
    exact hij ((List.Nodup.getElem_inj_iff (by simp : [0, 1].Nodup)).mp (h4.trans h6.symm))
  obtain ⟨-, hrefs⟩ := C09_update ha hobs hdis hrun (a := a) (by simp) hnew
  have hmean : mean (positions h (primitives h1 a)) = mean [ea.base.position, eb.base.position] := by
    have : (positions h (primitives h1 a)).Perm (positions h [0, 1]) := List.Perm.filterMap _ hperm
    rw [mean_perm this]
    rfl
  rw [hmean] at hrefs
  have hchild : ∀ q, q ∈ primitives h1 a → Within h1 a q := by
    intro q hq
    unfold primitives at hq
    split at hq
    · rename_i ag hag
      exact .single ⟨ag, hag, hq⟩
    · simp at hq
  obtain ⟨w', hw', -, -, hold⟩ := C04_update (w := ⟨h, ⟨[("", 0), ("", 1)], true, []⟩⟩) ha
    (by simp [hlen])
  have hw1 : w'.heap = h1 := by
    simp only [World.exec, Env.update, if_true, List.map_cons, List.map_nil, hrun, Res.ok_bind] at hw'
    cases hw'; rfl
  rw [hw1] at hold
  refine ⟨h1, a, hrun, (C07_closed ha hobs hrun).1, hnew, hperm, ?_, ?_⟩
  · obtain ⟨o', ho', hs, -⟩ := hold 0 (.ellipsoid ea) rfl
    have := hrefs 0 (hchild 0 h0a)
    unfold refOf at this
    rw [ho', shape_ellipsoid hs] at this ⊢
    simp only [Option.bind_some, Obj.base] at this ⊢
    rw [this]
  · obtain ⟨o', ho', hs, -⟩ := hold 1 (.ellipsoid eb) rfl
    have := hrefs 1 (hchild 1 h1a)
    unfold refOf at this
    rw [ho', shape_ellipsoid hs] at this ⊢
    simp only [Option.bind_some, Obj.base] at this ⊢
    rw [this]

/-- A unit circle "a" at the origin and a circle "b" of radius 10 around (5,0,0); both have their
reference point in the centre. -/
noncomputable def pair : Heap ℝ :=
  [.ellipsoid (circ "a" V3.zero 1), .ellipsoid (circ "b" ⟨5, 0, 0⟩ 10)]

theorem pair_meet : (circ "a" V3.zero 1).isIntersectingEllipsoid (circ "b" ⟨5, 0, 0⟩ 10) = .ok true :=
  circ_meet (by norm_num) (by norm_num [V3.zero])

/-- The client moves obstacle `p` together with its reference point
(`set_position(v); set_reference_position(v)`). -/
def moveObstacle (h : Heap α) (p : Ptr) (v : V3 α) : Heap α :=
  match h[p]? with
  | some o => h.set p (o.mapBase fun b => (b.setPosition v).setRef v)
  | none => h

/-- C10 is false: the client adds "a" and "b", updates (which aggregates them), moves "b" far away
(with its reference point) and updates again.  Both are then listed on their own again; "a" was never
touched by the client, but its reference point is outside it. -/
theorem C10_negation : ∃ (w1 w2 : World ℝ) (e : Ellipsoid ℝ) (r : V3 ℝ),
    [.add 0, .add 1, .update].foldlM World.exec (World.init pair true) = .ok w1 ∧
    [.client (moveObstacle w1.heap 1 ⟨100, 0, 0⟩), .update].foldlM World.exec w1 = .ok w2 ∧
    w2.env.list = [0, 1] ∧ w2.heap[0]? = some (.ellipsoid e) ∧
    shape (.ellipsoid e) = shape (.ellipsoid (circ "a" V3.zero 1)) ∧
    e.base.ref = .ok r ∧ e.pointIsInside r = false := by
  obtain ⟨h1, a, hrun, hac, hnew, -, hh0, hh1⟩ := two_update pair_meet
  have hm : mean [(circ "a" V3.zero 1).base.position, (circ "b" ⟨5, 0, 0⟩ 10).base.position]
      = ⟨5 / 2, 0, 0⟩ := by
    ext <;> simp [mean, circ, Ellipsoid.ofBase, Base.mkPos, Base.position, State.position,
      State.ofPosition, Pose.ofPosition, V3.zero]
  rw [hm] at hh0 hh1
  set e : Ellipsoid ℝ := { circ "a" V3.zero 1 with base :=
    { (circ "a" V3.zero 1).base with refPos := some ⟨5 / 2, 0, 0⟩ } } with he
  let b2 : Ellipsoid ℝ := circ "b" ⟨100, 0, 0⟩ 10
  have hl1 : 1 < h1.length := (List.getElem?_eq_some_iff.mp hh1).1
  have hmove : moveObstacle h1 1 ⟨100, 0, 0⟩ = h1.set 1 (.ellipsoid b2) := by
    simp only [moveObstacle, hh1]; rfl
  have hac2 : Acyclic (h1.set 1 (.ellipsoid b2)) := by
    obtain ⟨rank, hr⟩ := hac
    refine ⟨rank, fun p q ⟨c, hc, hq⟩ => ?_⟩
    rw [List.length_set]
    by_cases hp : p = 1
    · subst hp; rw [List.getElem?_set_self hl1] at hc; cases hc
    · rw [List.getElem?_set_ne (Ne.symm hp)] at hc
      exact hr p q ⟨c, hc, hq⟩
  have h2a : (h1.set 1 (.ellipsoid b2))[0]? = some (.ellipsoid e) := by
    rw [List.getElem?_set_ne (by omega), hh0]
  have h2b : (h1.set 1 (.ellipsoid b2))[1]? = some (.ellipsoid b2) := List.getElem?_set_self hl1
  have hno : ∀ i j, ¬ Meets (h1.set 1 (.ellipsoid b2)) [0, 1] i j := by
    rintro i j ⟨hij, p, q, op, oq, hp, hq, hop, hoq, hi⟩
    have hj : j < 2 := (List.getElem?_eq_some_iff.mp hq).1
    obtain rfl : i = 0 := by omega
    obtain rfl : j = 1 := by omega
    cases hp; cases hq
    rw [h2a] at hop; cases hop
    rw [h2b] at hoq; cases hoq
    have : e.isIntersectingEllipsoid b2 = .ok false :=
      (circ_isIntersecting_ref (circ "a" V3.zero 1) b2 _ b2.base.refPos).trans
        (circ_apart (by norm_num) (by norm_num) (by norm_num [V3.zero]))
    have h3 : Heap.isIntersecting (h1.set 1 (.ellipsoid b2)) (.ellipsoid e) (.ellipsoid b2) = .ok false := this
    rw [h3] at hi
    cases hi
  have hfin := C06_no_meets hac2 (obs := [0, 1])
    (by intro p hp; rw [List.length_set]; simp at hp; rcases hp with rfl | rfl; exacts [lt_trans one_pos hl1, hl1]) hno
  refine ⟨⟨h1, ⟨[("a", 0), ("b", 1)], true, [a]⟩⟩,
    ⟨h1.set 1 (.ellipsoid b2), ⟨[("a", 0), ("b", 1)], true, [0, 1]⟩⟩, e, ⟨5 / 2, 0, 0⟩, ?_, ?_, rfl, h2a,
    rfl, rfl, ?_⟩
  · have e1 : (World.init pair true).exec (.add 0) = .ok ⟨pair, ⟨[("a", 0)], true, []⟩⟩ := rfl
    have e2 : (World.mk pair ⟨[("a", 0)], true, []⟩).exec (.add 1) =
      .ok ⟨pair, ⟨[("a", 0), ("b", 1)], true, []⟩⟩ := rfl
    have e3 : (World.mk pair ⟨[("a", 0), ("b", 1)], true, []⟩).exec .update =
        .ok ⟨h1, ⟨[("a", 0), ("b", 1)], true, [a]⟩⟩ := by
      have : aggregateObstacles pair [0, 1] = .ok (h1, [a]) := hrun
      simp [World.exec, Env.update, this]
    simp only [List.foldlM_cons, List.foldlM_nil, e1, e2, e3, Res.ok_bind, Res.pure_eq]
  · simp only [List.foldlM_cons, List.foldlM_nil, World.exec, Res.ok_bind, hmove, Env.update, if_true,
      List.map_cons, List.map_nil, hfin, Res.pure_eq]
  · have : e.pointIsInside ⟨5 / 2, 0, 0⟩ = (circ "a" V3.zero 1).pointIsInside ⟨5 / 2, 0, 0⟩ := rfl
    rw [this, ← Bool.not_eq_true, circ_inside "a" V3.zero one_pos]
    norm_num [V3.zero]

/-! ### C11 -/

/-- C11 is false for every environment: the aggregates built by `update` have zero linear and angular
velocity, whatever the velocities of their members. -/
theorem C11_negation_velocity {h h' : Heap α} (ha : Acyclic h) {obs l : List Ptr}
    (hobs : ∀ p ∈ obs, p < h.length) (hrun : aggregateObstacles h obs = .ok (h', l)) {a : Ptr}
    (hal : a ∈ l) (hnew : h.length ≤ a) :
    ∃ ag, h'[a]? = some (.aggregate ag) ∧ ag.base.state.linearVelocity = V3.zero ∧
      ag.base.state.angularVelocity = V3.zero := by
  obtain ⟨rank, hr⟩ := exists_ranked ha
  obtain ⟨h1, aggs, idx, hrun', hI⟩ := aggregateObstacles_ok hr hobs
  rw [hrun] at hrun'; cases hrun'
  have haggs : a ∈ aggs := by
    rcases List.mem_append.mp hal with h1 | h1
    · exact h1
    · exact absurd (members_lt hobs a h1) (not_lt.mpr hnew)
  obtain ⟨n, hn⟩ := List.mem_iff_getElem?.mp haggs
  obtain ⟨-, ag, hag, hok⟩ := hI.agg n a hn
  obtain ⟨ps, -, -, h3⟩ := hok.canon
  exact ⟨ag, hag, by rw [h3]; rfl, by rw [h3]; rfl⟩

/-- An obstacle with zero velocities contributes the velocity zero. -/
theorem obstacleVelocity_zero (x : V3 ℝ) (o : Base ℝ) (d w : ℝ) (B : M3 ℝ)
    (h1 : o.state.linearVelocity = V3.zero) (h2 : o.state.angularVelocity = V3.zero) :
    Modulation.obstacleVelocity x o d w B = V3.zero := by
  ext <;> simp [Modulation.obstacleVelocity, h1, h2, V3.cross, V3.zero, V3.smul, M3.mulVec, M3.transpose]

private theorem collect_aggs {a : Agent ℝ} {planar : Bool} : ∀ (l : List Ptr) (h : Heap ℝ) r,
    (∀ p ∈ l, ∃ ag, h[p]? = some (.aggregate ag) ∧ ag.base.state.linearVelocity = V3.zero ∧
      ag.base.state.angularVelocity = V3.zero) →
    Modulation.collect planar a h l = .ok r →
    ∀ x ∈ r.2, x.base.state.linearVelocity = V3.zero ∧ x.base.state.angularVelocity = V3.zero := by
  intro l
  induction l with
  | nil => intro h r _ hc; cases hc; simp
  | cons p l ih =>
    intro h r hl hc
    obtain ⟨ag, hag, h1, h2⟩ := hl p (by simp)
    have hshift : h.shiftReferencePoint p a.state.position a.state.linearVelocity = .ok h := by
      simp [Heap.shiftReferencePoint, Heap.deref, hag, Obj.intersectionPoints]
    have hc' : ∃ m, Modulation.modulationMatrix h a (.aggregate ag) = .ok m ∧
        ∃ r', Modulation.collect planar a h l = .ok r' ∧
          Res.ok (r'.1, Modulation.Item.mk (Obj.aggregate ag).base m.1 m.2.1 m.2.2 :: r'.2) = .ok r := by
      cases planar <;>
      simpa only [Modulation.collect, hshift, Res.ok_bind, Heap.deref, hag, Res.bind_eq_ok,
        Bool.false_eq_true, if_true, if_false] using hc
    obtain ⟨m, -, r', hr', hr⟩ := hc'
    cases hr
    intro x hx
    rcases List.mem_cons.mp hx with rfl | hx
    · exact ⟨h1, h2⟩
    · exact ih h r' (fun q hq => hl q (by simp [hq])) hr' x hx

/-- C11: consequently, when all obstacles are in aggregates, the modulation works with the agent's own
velocity as relative velocity and adds no obstacle velocity: the motion of the members is lost. -/
theorem C11_negation_modulation {w w' : World ℝ} (ha : Acyclic w.heap)
    (hm : ∀ e ∈ w.env.map, e.2 < w.heap.length) (hagg : w.env.aggregated = true)
    (hup : w.exec .update = .ok w') (hall : ∀ p ∈ w'.env.list, w.heap.length ≤ p)
    (a : Agent ℝ) (planar : Bool) {r : Heap ℝ × List (Modulation.Item ℝ)}
    (hc : Modulation.collect planar a w'.heap w'.env.list = .ok r) (weights : List ℝ) :
    Modulation.relativeVelocities a.state.position a.state.linearVelocity r.2 weights =
      (a.state.linearVelocity, V3.zero) := by
  have hobs : ∀ p ∈ w.env.map.map (·.2), p < w.heap.length := by
    intro p hp
    obtain ⟨e, he, rfl⟩ := List.mem_map.mp hp
    exact hm e he
  obtain ⟨h1, l, hrun⟩ := C07_defined ha hobs
  simp only [World.exec, Env.update, hagg, if_true, hrun, Res.ok_bind] at hup
  cases hup
  have hz := collect_aggs _ _ r (fun p hp => C11_negation_velocity ha hobs hrun hp (hall p hp)) hc
  have key : ∀ (L : List (Modulation.Item ℝ × ℝ)),
      (∀ x ∈ L, x.1.base.state.linearVelocity = V3.zero ∧ x.1.base.state.angularVelocity = V3.zero) →
      L.foldl (fun acc x => acc + Modulation.obstacleVelocity a.state.position x.1.base x.1.dist x.2 x.1.basis)
        V3.zero = V3.zero := by
    intro L
    induction L with
    | nil => intro _; rfl
    | cons x L ih =>
      intro hL
      obtain ⟨h2, h3⟩ := hL x (by simp)
      rw [List.foldl_cons, obstacleVelocity_zero _ _ _ _ _ h2 h3]
      have : (V3.zero + V3.zero : V3 ℝ) = V3.zero := by ext <;> simp [V3.zero]
      rw [this]
      exact ih fun y hy => hL y (by simp [hy])
  have := key (r.2.zip weights) fun x hx => hz x.1 (List.of_mem_zip hx).1
  simp only [Modulation.relativeVelocities, this]
  congr 1
  ext <;> simp [V3.zero]

/-- A circle that moves with velocity (1,0,0). -/
noncomputable def mover (name : String) (c : V3 ℝ) (r : ℝ) : Ellipsoid ℝ :=
  { circ name c r with base := (circ name c r).base.setLinearVelocity ⟨1, 0, 0⟩ }

/-- C11 on a concrete world: both obstacles move with velocity (1,0,0).  Without aggregation an
obstacle contributes velocity; the aggregate of the two contributes none. -/
theorem C11_negation : ∃ (h1 : Heap ℝ) (a : Ptr) (ag : Aggregate ℝ),
    aggregateObstacles [.ellipsoid (mover "a" V3.zero 1), .ellipsoid (mover "b" ⟨5, 0, 0⟩ 10)] [0, 1]
      = .ok (h1, [a]) ∧ h1[a]? = some (.aggregate ag) ∧
    (∀ x d w B, Modulation.obstacleVelocity x ag.base d w B = V3.zero) ∧
    (∀ x, Modulation.obstacleVelocity x (mover "a" V3.zero 1).base 1 1 ⟨V3.unitX, V3.unitY, V3.unitZ⟩
      = ⟨1, 0, 0⟩) := by
  have hm : (mover "a" V3.zero 1).isIntersectingEllipsoid (mover "b" ⟨5, 0, 0⟩ 10) = .ok true := pair_meet
  obtain ⟨h1, a, hrun, -, hnew, -, -⟩ := two_update hm
  obtain ⟨ag, hag, hl, hw⟩ := C11_negation_velocity
    (acyclic_flat (by
      intro p a hp
      match p with
      | 0 => simp at hp
      | 1 => simp at hp
      | n + 2 => simp at hp)) (by simp) hrun (a := a) (by simp) hnew
  refine ⟨h1, a, ag, hrun, hag, fun x d w B => obstacleVelocity_zero x _ d w B hl hw, fun x => ?_⟩
  ext <;> simp [Modulation.obstacleVelocity, mover, circ, Ellipsoid.ofBase, Base.mkPos, Base.setLinearVelocity,
    State.setLinearVelocity, State.ofPosition, V3.cross, V3.zero, V3.smul, M3.mulVec, M3.transpose,
    V3.unitX, V3.unitY, V3.unitZ]

/-! ### C12 -/

/-- C12: after an `update`, a second `update` yields a list of the same length in which every entry
refers to an object equal to the one before in every respect (name, members, centre, reference point,
hulls); the obstacles listed on their own are the very same objects, and no existing object changes
(in particular no reference point).  The aggregates themselves are new objects. -/
theorem C12_idempotent {w w1 : World α} (ha : Acyclic w.heap) (hm : ∀ e ∈ w.env.map, e.2 < w.heap.length)
    (hup : w.exec .update = .ok w1) :
    ∃ w2, w1.exec .update = .ok w2 ∧ w2.env.map = w1.env.map ∧
      w2.env.list.map (w2.heap[·]?) = w1.env.list.map (w1.heap[·]?) ∧
      (∀ (i : Nat) (p : Ptr), p < w.heap.length → w1.env.list[i]? = some p → w2.env.list[i]? = some p) ∧
      ∀ r, r < w1.heap.length → w2.heap[r]? = w1.heap[r]? := by
  cases hagg : w.env.aggregated with
  | false =>
    simp only [World.exec, Env.update, hagg, Bool.false_eq_true, if_false, Res.ok_bind] at hup
    cases hup
    exact ⟨⟨w.heap, ⟨w.env.map, false, w.env.map.map (·.2)⟩⟩, by simp [World.exec, Env.update],
      rfl, rfl, fun i p _ h => h, fun r _ => rfl⟩
  | true =>
    have hobs : ∀ p ∈ w.env.map.map (·.2), p < w.heap.length := by
      intro p hp
      obtain ⟨e, he, rfl⟩ := List.mem_map.mp hp
      exact hm e he
    obtain ⟨h1, l, hrun⟩ := C07_defined ha hobs
    simp only [World.exec, Env.update, hagg, if_true, hrun, Res.ok_bind] at hup
    cases hup
    obtain ⟨rank, hr⟩ := exists_ranked ha
    obtain ⟨h2, hrun2, hle, hold, hnew⟩ := aggregateObstacles_repeat hr hobs hrun
    obtain ⟨-, -, hll⟩ := C07_closed ha hobs hrun
    have hle0 : w.heap.length ≤ h1.length := by
      obtain ⟨hx, lx, ix, ex, hI⟩ := aggregateObstacles_ok hr hobs
      rw [hrun] at ex
      cases ex
      exact hI.heap.ext.1
    refine ⟨⟨h2, ⟨w.env.map, true, l.map fun p => if p < w.heap.length then p
      else p + (h1.length - w.heap.length)⟩⟩, by simp [World.exec, Env.update, hrun2], rfl, ?_, ?_, hold⟩
    · simp only [List.map_map]
      apply List.map_congr_left
      intro p hp
      simp only [Function.comp]
      by_cases hpl : p < w.heap.length
      · rw [if_pos hpl]; exact hold p (lt_of_lt_of_le hpl hle0)
      · rw [if_neg hpl]; exact hnew p (not_lt.mp hpl)
    · intro i p hp hi
      simp only at hi
      simp [hi, hp]

/-! ### Concrete cases for C04–C09 -/

/-- Non-vacuity of C04–C07: `pair` satisfies the hypotheses, and the two obstacles do meet. -/
example : Acyclic pair ∧ (∀ p ∈ [0, 1], p < pair.length) ∧ Meets pair [0, 1] 0 1 ∧
    ∃ h1 a, aggregateObstacles pair [0, 1] = .ok (h1, [a]) ∧ (primitives h1 a).Perm [0, 1] := by
  refine ⟨acyclic_flat ?_, by simp [pair], ⟨by omega, 0, 1, _, _, rfl, rfl, rfl, rfl, pair_meet⟩, ?_⟩
  · intro p a hp
    match p with
    | 0 => simp [pair] at hp
    | 1 => simp [pair] at hp
    | n + 2 => simp [pair] at hp
  · obtain ⟨h1, a, h2, -, -, h3, -⟩ := two_update pair_meet
    exact ⟨h1, a, h2, h3⟩

/-- Non-vacuity of C12: two obstacles that do get merged. -/
example : ∃ w1 : World ℝ, (⟨pair, ⟨[("a", 0), ("b", 1)], true, []⟩⟩ : World ℝ).exec .update = .ok w1 ∧
    w1.env.list.length = 1 := by
  obtain ⟨h1, a, h2, -⟩ := two_update pair_meet
  have h2' : aggregateObstacles pair [0, 1] = .ok (h1, [a]) := h2
  exact ⟨⟨h1, ⟨[("a", 0), ("b", 1)], true, [a]⟩⟩, by simp [World.exec, Env.update, h2'], rfl⟩

/-- Non-vacuity of C08 and C09: the aggregate built from `pair` by hand, in either order, is called
"aggregate_a_b". -/
example : ∃ h1 h2 : Heap ℝ, pair.mkAggregate [0, 1] = .ok (h1, 2) ∧ pair.mkAggregate [1, 0] = .ok (h2, 2) ∧
    primitives h1 2 = [0, 1] ∧ (h1[2]?).map Obj.name = some "aggregate_a_b" ∧
    primitives h2 2 = [0, 1] ∧ (h2[2]?).map Obj.name = some "aggregate_a_b" := by
  have hac : Acyclic pair := acyclic_flat (by
    intro p a hp
    match p with
    | 0 => simp [pair] at hp
    | 1 => simp [pair] at hp
    | n + 2 => simp [pair] at hp)
  have key : ∀ ps : List Ptr, ps.Perm [0, 1] → ∃ h1 : Heap ℝ, pair.mkAggregate ps = .ok (h1, 2) ∧
      primitives h1 2 = [0, 1] ∧ (h1[2]?).map Obj.name = some "aggregate_a_b" := by
    intro ps hps
    obtain ⟨h1, hmk, -, hwf, hperm, hsh, -⟩ := C08_constructor hac (ps := ps)
      (by intro q hq; have := hps.mem_iff.mp hq; simp at this; rcases this with rfl | rfl <;> decide)
    have hn : ∀ q : Nat, q < 2 → nameOf h1 q = nameOf pair q := by
      intro q hq
      have h1 := hsh q hq
      unfold nameOf
      have := congrArg (Option.map Obj.name) h1
      simp only [Option.map_map] at this
      have hname : (Obj.name ∘ shape : Obj ℝ → String) = Obj.name := by
        funext o; cases o <;> rfl
      rw [hname] at this
      rw [this]
    have hn0 := hn 0 (by decide)
    have hn1 := hn 1 (by decide)
    have hp : (primitives h1 2).Perm [0, 1] := hperm.trans hps
    have hs : primitives h1 2 = [0, 1] := by
      have hsort := hwf.sorted
      have h2 : (primitives h1 2) = [0, 1] ∨ (primitives h1 2) = [1, 0] := by
        have hl := hp.length_eq
        match hq : primitives h1 2, hl with
        | [x, y], _ =>
          rw [hq] at hp
          have hx := hp.mem_iff.mp (show x ∈ [x, y] by simp)
          have hy := hp.mem_iff.mp (show y ∈ [x, y] by simp)
          have hnd := hp.nodup_iff.mpr (by simp)
          simp at hx hy hnd
          rcases hx with rfl | rfl <;> rcases hy with rfl | rfl <;> simp_all
      rcases h2 with h2 | h2
      · exact h2
      · exfalso
        have hsort : (primitives h1 2).Pairwise fun a b => nameOf h1 a ≤ nameOf h1 b := hsort
        rw [h2] at hsort
        simp only [List.pairwise_cons, List.mem_singleton, forall_eq] at hsort
        have h3 := hsort.1
        rw [hn1, hn0] at h3
        exact absurd h3 (by decide)
    refine ⟨h1, hmk, hs, ?_⟩
    have h3 : (h1[2]?).map Obj.name = some (canonicalName ((primitives h1 2).map (nameOf h1))) := hwf.name
    rw [h3, hs]
    simp only [List.map_cons, List.map_nil, hn1, hn0]
    rfl
  obtain ⟨h1, a1, a2, a3⟩ := key [0, 1] (List.Perm.refl _)
  obtain ⟨h2, b1, b2, b3⟩ := key [1, 0] (List.Perm.swap _ _ _)
  exact ⟨h1, h2, a1, b1, a2, a3, b2, b3⟩

end DOA.Props
