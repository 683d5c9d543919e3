import Verif.Lemmas.UnitTests
import Verif.Lemmas.AddressLoop

/-!
# Helpers for the unit tests of the environment
-/

namespace DOA.UnitTests

open DOA DOA.Spec DOA.Ellipsoid DOA.Props DOA.Aggregation

set_option linter.unusedSimpArgs false

theorem within_ellipsoid {h : Heap ℝ} {p r : Ptr} {e : Ellipsoid ℝ} (he : h[p]? = some (.ellipsoid e)) (hw : Within h p r) :
    r = p := by
  rcases Relation.ReflTransGen.cases_head hw with h1 | ⟨q, ⟨b, hb, -⟩, -⟩
  · exact h1.symm
  · rw [he] at hb; cases hb

theorem nodup_inj {l : List Ptr} (hnd : l.Nodup) {i j : Nat} {p : Ptr} (hi : l[i]? = some p) (hj : l[j]? = some p) : i = j := by
  obtain ⟨h3, h4⟩ := List.getElem?_eq_some_iff.mp hi
  obtain ⟨h5, h6⟩ := List.getElem?_eq_some_iff.mp hj
  exact (List.Nodup.getElem_inj_iff hnd).mp (h4.trans h6.symm)

/-- The old objects after an aggregation. -/
theorem kept {h h1 : Heap ℝ} {obs l : List Ptr} (ha : Acyclic h) (hobs : ∀ p ∈ obs, p < h.length)
    (hrun : aggregateObstacles h obs = .ok (h1, l)) (r : Ptr) (o : Obj ℝ) (hr : h[r]? = some o) :
    ∃ o', h1[r]? = some o' ∧ shape o' = shape o := by
  obtain ⟨w', hw', -, -, hold⟩ := C04_update (w := ⟨h, ⟨obs.map fun p => ("", p), true, []⟩⟩) ha (by
    intro e he
    obtain ⟨p, hp, rfl⟩ := List.mem_map.mp he
    exact hobs p hp)
  have hw1 : w'.heap = h1 := by
    have e : (obs.map fun p => (("", p) : String × Ptr)).map (·.2) = obs := by simp [Function.comp_def]
    simp only [World.exec, Env.update, if_true, e, hrun, Res.ok_bind] at hw'
    cases hw'; rfl
  rw [hw1] at hold
  obtain ⟨o', h2, h3, -⟩ := hold r o hr
  exact ⟨o', h2, h3⟩

/-- Ellipsoids that meet pairwise are replaced by one aggregate of all of them. -/
theorem merged {h : Heap ℝ} (ha : Acyclic h) {obs : List Ptr} (hnd : obs.Nodup) (h2 : 2 ≤ obs.length)
    (hell : ∀ p ∈ obs, ∃ e, h[p]? = some (.ellipsoid e))
    (hmeet : ∀ i j, i < j → j < obs.length → Meets h obs i j) :
    ∃ h1 a, aggregateObstacles h obs = .ok (h1, [a]) ∧ Acyclic h1 ∧ a < h1.length ∧ h.length ≤ h1.length ∧
      (∀ (r : Ptr) (o : Obj ℝ), h[r]? = some o → ∃ o', h1[r]? = some o' ∧ shape o' = shape o) ∧
      (∀ p ∈ obs, Within h1 a p) ∧
      (∀ r, Within h1 a r → refOf h1 r = some (mean (positions h obs))) ∧
      ∃ ns, ns.Perm (obs.map (nameOf h)) ∧ ns.Pairwise (· ≤ ·) ∧ nameOf h1 a = canonicalName ns := by
  have hobs : ∀ p ∈ obs, p < h.length := by
    intro p hp
    obtain ⟨e, he⟩ := hell p hp
    exact (List.getElem?_eq_some_iff.mp he).1
  obtain ⟨h1, l, hrun⟩ := C07_defined ha hobs
  obtain ⟨aggs, rest, hl, hndA, hagg, hsub, hperm⟩ := C05_partition ha hobs hrun
  have hpn : (aggs.flatMap (primitives h1) ++ rest).Nodup := hperm.nodup_iff.mpr hnd
  obtain ⟨p0, hp0⟩ : ∃ p, obs[0]? = some p := ⟨obs[0], List.getElem?_eq_getElem (by omega)⟩
  -- every other input shares an aggregate with the first
  have share : ∀ j q, j ≠ 0 → obs[j]? = some q → ∃ a ∈ aggs, p0 ∈ primitives h1 a ∧ q ∈ primitives h1 a := by
    intro j q hj hq
    have hlt := (List.getElem?_eq_some_iff.mp hq).1
    obtain ⟨⟨-, hc⟩, -⟩ := C06_components ha hobs hnd hrun hp0 hq (Ne.symm hj)
    obtain ⟨a, hal, hnew, h0, h1'⟩ := hc (.rel _ _ (hmeet 0 j (Nat.pos_of_ne_zero hj) hlt))
    refine ⟨a, ?_, h0, h1'⟩
    rw [hl] at hal
    rcases List.mem_append.mp hal with h3 | h3
    · exact h3
    · exact absurd (hobs a (hsub.subset h3)) (not_lt.mpr hnew)
  obtain ⟨p1, hp1⟩ : ∃ p, obs[1]? = some p := ⟨obs[1], List.getElem?_eq_getElem (by omega)⟩
  obtain ⟨a, haa, h0a, -⟩ := share 1 p1 (by omega) hp1
  obtain ⟨s, t, rfl⟩ := List.append_of_mem haa
  -- no other aggregate, and nothing left
  simp only [List.flatMap_append, List.flatMap_cons] at hpn hperm
  have uniq : ∀ b ∈ s ++ a :: t, p0 ∈ primitives h1 b → b = a := by
    intro b hb h0b
    rcases List.mem_append.mp hb with hb | hb
    · exfalso
      have : p0 ∈ s.flatMap (primitives h1) := List.mem_flatMap.mpr ⟨b, hb, h0b⟩
      have hd := (List.nodup_append.mp (List.nodup_append.mp hpn).1).2.2
      exact hd p0 this p0 (List.mem_append_left _ h0a) rfl
    · rcases List.mem_cons.mp hb with hb | hb
      · exact hb
      · exfalso
        have : p0 ∈ t.flatMap (primitives h1) := List.mem_flatMap.mpr ⟨b, hb, h0b⟩
        have hd := (List.nodup_append.mp ((List.nodup_append.mp (List.nodup_append.mp hpn).1).2.1)).2.2
        exact hd p0 h0a p0 this rfl
  have all : ∀ q ∈ obs, q ∈ primitives h1 a := by
    intro q hq
    obtain ⟨j, hj⟩ := List.mem_iff_getElem?.mp hq
    by_cases hj0 : j = 0
    · subst hj0
      rw [hp0] at hj
      cases hj
      exact h0a
    · obtain ⟨b, hb, h3, h4⟩ := share j q hj0 hj
      rw [uniq b hb h3] at h4
      exact h4
  have hlen := hperm.length_eq
  have hlenA : obs.length ≤ (primitives h1 a).length := (hnd.subperm all).length_le
  simp only [List.length_append] at hlen
  have hrest : rest = [] := List.length_eq_zero_iff.mp (by omega)
  have hnil : ∀ u : List Ptr, (∀ b ∈ u, b ∈ s ++ a :: t) → (u.flatMap (primitives h1)).length = 0 → u = [] := by
    intro u hu h0
    cases u with
    | nil => rfl
    | cons b bs =>
      exfalso
      have := (hagg b (hu b (List.mem_cons_self ..))).2
      simp only [List.flatMap_cons, List.length_append] at h0
      omega
  have hs : s = [] := hnil s (fun b hb => List.mem_append_left _ hb) (by omega)
  have ht : t = [] := hnil t (fun b hb => List.mem_append_right _ (List.mem_cons_of_mem _ hb)) (by omega)
  subst hs ht hrest
  simp only [List.flatMap_nil, List.nil_append, List.append_nil] at hperm hl
  subst hl
  have hnew := (hagg a (List.mem_cons_self ..)).1
  have hdis : ∀ (i j : Nat) (p q r : Ptr), i ≠ j → obs[i]? = some p → obs[j]? = some q →
      Within h p r → Within h q r → False := by
    intro i j p q r hij hi hj w1 w2
    obtain ⟨e, he⟩ := hell p (List.mem_of_getElem? hi)
    obtain ⟨e', he'⟩ := hell q (List.mem_of_getElem? hj)
    obtain rfl := within_ellipsoid he w1
    obtain rfl := within_ellipsoid he' w2
    exact hij (nodup_inj hnd hi hj)
  obtain ⟨-, hrefs⟩ := C09_update ha hobs hdis hrun (a := a) (by simp) hnew
  obtain ⟨hpw, hname⟩ := C08_update ha hobs hrun (a := a) (by simp) hnew
  have hmean : mean (positions h (primitives h1 a)) = mean (positions h obs) := mean_perm (List.Perm.filterMap _ hperm)
  rw [hmean] at hrefs
  obtain ⟨hac, -, hlt⟩ := C07_closed ha hobs hrun
  refine ⟨h1, a, hrun, hac, hlt a (by simp), (hnew.trans_lt (hlt a (by simp))).le, kept ha hobs hrun, ?_, hrefs,
    (primitives h1 a).map (nameOf h), hperm.map _, List.pairwise_map.mpr hpw, hname⟩
  intro p hp
  have hq := all p hp
  unfold primitives at hq
  split at hq
  · rename_i ag hag
    exact .single ⟨ag, hag, hq⟩
  · simp at hq

/-- Two ellipsoids that do not meet are left alone. -/
theorem alone {h : Heap ℝ} (ha : Acyclic h) {p q : Ptr} {e o : Ellipsoid ℝ} (hpq : p ≠ q)
    (hp : h[p]? = some (.ellipsoid e)) (hq : h[q]? = some (.ellipsoid o))
    (hm : e.isIntersectingEllipsoid o = .ok false) :
    ∃ h1, aggregateObstacles h [p, q] = .ok (h1, [p, q]) := by
  have hobs : ∀ r ∈ [p, q], r < h.length := by
    intro r hr
    simp only [List.mem_cons, List.not_mem_nil, or_false] at hr
    rcases hr with rfl | rfl
    · exact (List.getElem?_eq_some_iff.mp hp).1
    · exact (List.getElem?_eq_some_iff.mp hq).1
  obtain ⟨h1, l, hrun⟩ := C07_defined ha hobs
  obtain ⟨aggs, rest, hl, hndA, hagg, hsub, hperm⟩ := C05_partition ha hobs hrun
  have hnd : [p, q].Nodup := by simp [hpq]
  have no : ∀ i j, ¬ Meets h [p, q] i j := by
    rintro i j ⟨hij, p', q', op, oq, h1, h2, h3, h4, h5⟩
    have hj : j < 2 := by
      obtain ⟨h6, -⟩ := List.getElem?_eq_some_iff.mp h2
      simpa using h6
    obtain rfl : i = 0 := by omega
    obtain rfl : j = 1 := by omega
    simp at h1 h2
    subst h1 h2
    rw [hp] at h3; cases h3
    rw [hq] at h4; cases h4
    have h5 : e.isIntersectingEllipsoid o = .ok true := h5
    rw [hm] at h5; cases h5
  have lk : ∀ i j, Linked h [p, q] i j → i = j := by
    intro i j hlk
    induction hlk with
    | rel x y h => exact absurd h (no x y)
    | refl => rfl
    | symm _ _ _ ih => exact ih.symm
    | trans _ _ _ _ _ ih1 ih2 => exact ih1.trans ih2
  obtain ⟨-, c1⟩ := C06_components ha hobs hnd hrun (i := 0) (j := 1) (p := p) (q := q) rfl rfl (by omega)
  obtain ⟨-, c2⟩ := C06_components ha hobs hnd hrun (i := 1) (j := 0) (p := q) (q := p) rfl rfl (by omega)
  have hpl := c1.mpr (fun k hk hl => hk (lk _ _ hl).symm)
  have hql := c2.mpr (fun k hk hl => hk (lk _ _ hl).symm)
  have inrest : ∀ r ∈ [p, q], r ∈ l → r ∈ rest := by
    intro r hr hrl
    rw [hl] at hrl
    rcases List.mem_append.mp hrl with h2 | h2
    · exact absurd (hobs r hr) (not_lt.mpr (hagg r h2).1)
    · exact h2
  have hlen : [p, q].length ≤ rest.length := (hnd.subperm (by
    intro r hr
    rcases List.mem_cons.mp hr with rfl | hr'
    · exact inrest _ hr hpl
    · rw [List.mem_singleton] at hr'
      subst hr'
      exact inrest _ hr hql)).length_le
  have hr2 : rest = [p, q] := hsub.eq_of_length_le hlen
  subst hr2
  have h0 := hperm.length_eq
  simp only [List.length_append, List.length_cons, List.length_nil] at h0
  have : aggs = [] := by
    cases aggs with
    | nil => rfl
    | cons b bs =>
      have := (hagg b (List.mem_cons_self ..)).2
      simp only [List.flatMap_cons, List.length_append] at h0
      omega
  subst this
  exact ⟨h1, by rw [hrun, hl]; rfl⟩

/-! ### the obstacles of the test `Aggregation` -/

def who : Ptr → String
  | 0 => "e1"
  | 1 => "e2"
  | _ => "e0"

noncomputable def wher (c : V3 ℝ) : Ptr → V3 ℝ
  | 0 => c
  | 1 => ⟨-(1 / 2), 0, 0⟩
  | _ => ⟨0, 0, 0⟩

/-- The objects 0, 1, 2 are unit spheres, the first one around `c`. -/
structure Stage (c : V3 ℝ) (h : Heap ℝ) : Prop where
  acyclic : Acyclic h
  objs : ∀ p : Ptr, p < 3 → (h[p]?).map shape = some (shape (.ellipsoid (circ (who p) (wher c p) 1)))

theorem Stage.obj {c : V3 ℝ} {h : Heap ℝ} (s : Stage c h) {p : Ptr} (hp : p < 3) :
    ∃ r, h[p]? = some (.ellipsoid { circ (who p) (wher c p) 1 with
      base := { (circ (who p) (wher c p) 1).base with refPos := r } }) := by
  have := s.objs p hp
  cases ho : h[p]? with
  | none => rw [ho] at this; cases this
  | some o =>
    rw [ho] at this
    simp only [Option.map_some, Option.some.injEq] at this
    exact ⟨_, by rw [← shape_ellipsoid this]⟩

theorem Stage.name {c : V3 ℝ} {h : Heap ℝ} (s : Stage c h) {p : Ptr} (hp : p < 3) : nameOf h p = who p := by
  obtain ⟨r, hr⟩ := s.obj hp
  simp [nameOf, hr, Obj.name, Obj.base, circ, Ellipsoid.ofBase, Base.mkPos]

theorem Stage.positions {c : V3 ℝ} {h : Heap ℝ} (s : Stage c h) {obs : List Ptr} (hobs : ∀ p ∈ obs, p < 3) :
    positions h obs = obs.map (wher c) := by
  induction obs with
  | nil => rfl
  | cons p ps ih =>
    obtain ⟨r, hr⟩ := s.obj (hobs p (List.mem_cons_self ..))
    have h1 := ih fun q hq => hobs q (List.mem_cons_of_mem _ hq)
    unfold Spec.positions at h1 ⊢
    rw [List.filterMap_cons, hr, h1]
    rfl

/-- Updating with at least two of the spheres in the environment. -/
theorem Stage.update {h : Heap ℝ} (s : Stage ⟨1 / 2, 0, 0⟩ h) {obs : List Ptr} (hobs : ∀ p ∈ obs, p < 3)
    (hnd : obs.Nodup) (h2 : 2 ≤ obs.length) {ns : List String} (hp : ns.Perm (obs.map who)) (hs : ns.Pairwise (· ≤ ·)) :
    ∃ h1 a, aggregateObstacles h obs = .ok (h1, [a]) ∧ Stage ⟨1 / 2, 0, 0⟩ h1 ∧ a < h1.length ∧
      (∀ p ∈ obs, Within h1 a p) ∧ refOf h1 a = some (mean (obs.map (wher ⟨1 / 2, 0, 0⟩))) ∧
      nameOf h1 a = canonicalName ns := by
  have near : ∀ p q : Ptr, p < 3 → q < 3 → ((wher ⟨1 / 2, 0, 0⟩ p).x - (wher ⟨1 / 2, 0, 0⟩ q).x) ^ 2 +
      ((wher ⟨1 / 2, 0, 0⟩ p).y - (wher ⟨1 / 2, 0, 0⟩ q).y) ^ 2 ≤ 1 ^ 2 := by
    intro p q _ _
    have one : ∀ p : Ptr, (wher ⟨1 / 2, 0, 0⟩ p).x ∈ Set.Icc (-(1 / 2) : ℝ) (1 / 2) ∧ (wher ⟨1 / 2, 0, 0⟩ p).y = 0 := by
      intro p
      match p with
      | 0 => exact ⟨by show (1 / 2 : ℝ) ∈ _; norm_num, rfl⟩
      | 1 => exact ⟨by show (-(1 / 2) : ℝ) ∈ _; norm_num, rfl⟩
      | _ + 2 => exact ⟨by show (0 : ℝ) ∈ _; norm_num, rfl⟩
    obtain ⟨⟨a1, a2⟩, a3⟩ := one p
    obtain ⟨⟨b1, b2⟩, b3⟩ := one q
    rw [a3, b3]
    nlinarith
  obtain ⟨h1, a, hrun, hac, hal, -, hkept, hw, hrefs, ms, hm1, hm2, hname⟩ := merged s.acyclic hnd h2
    (fun p hp => by
      obtain ⟨r, hr⟩ := s.obj (hobs p hp)
      exact ⟨_, hr⟩)
    (by
      intro i j hij hj
      have hi : i < obs.length := by omega
      obtain ⟨r, hr⟩ := s.obj (hobs obs[i] (List.getElem_mem hi))
      obtain ⟨r', hr'⟩ := s.obj (hobs obs[j] (List.getElem_mem hj))
      refine ⟨hij, obs[i], obs[j], _, _, List.getElem?_eq_getElem hi, List.getElem?_eq_getElem hj, hr, hr', ?_⟩
      exact circ_meet (n := who obs[i]) (m := who obs[j]) one_pos (near _ _ (hobs obs[i] (List.getElem_mem hi)) (hobs obs[j] (List.getElem_mem hj))))
  refine ⟨h1, a, hrun, ⟨hac, ?_⟩, hal, hw, ?_, ?_⟩
  · intro p hp
    obtain ⟨r, hr⟩ := s.obj hp
    obtain ⟨o', ho', hsh⟩ := hkept p _ hr
    rw [ho', Option.map_some, hsh]
    rfl
  · rw [hrefs a .refl, s.positions hobs]
  · have e : obs.map (nameOf h) = obs.map who := List.map_congr_left fun p hp => s.name (hobs p hp)
    rw [e] at hm1
    have : ms = ns := (hm1.trans hp.symm).eq_of_pairwise (fun x y _ _ h1 h2 => le_antisymm h1 h2) hm2 hs
    rw [hname, this]

/-- Moving the reference point of the aggregate. -/
theorem Stage.setRef {c : V3 ℝ} {h : Heap ℝ} (s : Stage c h) {a : Ptr} (ha : a < h.length) (v : V3 ℝ) :
    ∃ h', h.setRef a v = .ok h' ∧ Stage c h' ∧ ∀ r, Within h a r → refOf h' r = some v := by
  obtain ⟨h', h1, -, h3, h4, -⟩ := C09_set_reference s.acyclic ha v
  exact ⟨h', h1, ⟨acyclic_sameShape h4 s.acyclic, fun p hp => by rw [h4 p, s.objs p hp]⟩, h3⟩

/-- Moving the first sphere. -/
theorem Stage.move {c : V3 ℝ} {h : Heap ℝ} (s : Stage c h) (v : V3 ℝ) :
    ∃ o, h.deref 0 = .ok o ∧ Stage v (h.set 0 (o.mapBase (·.setPosition v))) := by
  obtain ⟨r, hr⟩ := s.obj (p := 0) (by decide)
  refine ⟨_, by unfold Heap.deref; rw [hr], ⟨acyclic_set s.acyclic _ _, ?_⟩⟩
  intro p hp
  match p with
  | 0 =>
    rw [List.getElem?_set_self (List.getElem?_eq_some_iff.mp hr).1]
    rfl
  | 1 =>
    rw [List.getElem?_set_ne (by decide)]
    exact s.objs 1 hp
  | n + 2 =>
    rw [List.getElem?_set_ne (Ne.symm (Nat.succ_ne_zero _))]
    exact s.objs (n + 2) hp

/-! ### looking up -/

/-- A name that is not in the map but in the list. -/
theorem lookup_list {h : Heap ℝ} {m : List (String × Ptr)} {a : Ptr} {k : String} (ha : a < h.length)
    (hm : Env.find m k = none) (hn : nameOf h a = k) : Env.lookup h ⟨m, true, [a]⟩ k = .ok a := by
  have ho : h[a]? = some h[a] := List.getElem?_eq_getElem ha
  have hname : (h[a]).name = k := by simpa [nameOf, ho] using hn
  simp only [Env.lookup, Env.lookupSlot, hm, if_true, Env.findInList, Heap.deref, ho, Res.ok_bind, hname]
  rfl

theorem lookup_map {h : Heap ℝ} {m : List (String × Ptr)} {l : List Ptr} {p : Ptr} {k : String}
    (hm : Env.find m k = some p) : Env.lookup h ⟨m, true, l⟩ k = .ok p := by
  simp only [Env.lookup, Env.lookupSlot, hm, Res.ok_bind, Env.readSlot]

theorem refX_ok {h : Heap ℝ} {e : Env} {k : String} {p : Ptr} {v : V3 ℝ} (hl : e.lookup h k = .ok p)
    (hr : refOf h p = some v) : refX h e k = .ok v.x := by
  unfold refOf at hr
  cases ho : h[p]? with
  | none => rw [ho] at hr; cases hr
  | some o =>
    rw [ho, Option.bind_some] at hr
    simp only [refX, hl, Res.ok_bind, Heap.deref, ho, Base.ref, hr]

theorem circ_apart' {n m : String} {c d : V3 ℝ} {r s : ℝ} (hr : 0 < r) (hs : 0 < s)
    (h : r + s < c.x - d.x) :
    (circ n c r).isIntersectingEllipsoid (circ m d s) = .ok false := by
  obtain ⟨b, hb⟩ := C29_total (circ n c r) (circ m d s)
  cases b with
  | false => exact hb
  | true =>
    exfalso
    obtain ⟨x, y, h1, h2⟩ := C29_sound_partial _ _ (circ_rot n c r) (circ_rot m d s)
      (by rw [circ_len]; exact hs.ne') (by rw [circ_len]; exact hs.ne') hb
    have h1 := (circ_inside n c hr ⟨x, y, 0⟩).mp ((inside_iff_inEllipse (circ_rot n c r) ⟨x, y, 0⟩).mpr h1)
    have h2 := (circ_inside m d hs ⟨x, y, 0⟩).mp ((inside_iff_inEllipse (circ_rot m d s) ⟨x, y, 0⟩).mpr h2)
    simp only at h1 h2
    have a1 : -r ≤ x - c.x := abs_le_of_sq_le_sq' (by nlinarith [sq_nonneg (y - c.y)]) hr.le |>.1
    have a2 : x - d.x ≤ s := abs_le_of_sq_le_sq' (by nlinarith [sq_nonneg (y - d.y)]) hs.le |>.2
    linarith

/-- Updating after the first sphere has gone far away. -/
theorem Stage.update_alone {h : Heap ℝ} (s : Stage ⟨2, 0, 0⟩ h) :
    ∃ h1, aggregateObstacles h [0, 1] = .ok (h1, [0, 1]) := by
  obtain ⟨r, hr⟩ := s.obj (p := 0) (by decide)
  obtain ⟨r', hr'⟩ := s.obj (p := 1) (by decide)
  exact alone s.acyclic (by decide) hr hr' (circ_apart' (n := "e1") (m := "e2") (c := ⟨2, 0, 0⟩) (d := ⟨-(1 / 2), 0, 0⟩)
    one_pos one_pos (by norm_num))

/-- The heap the test begins with. -/
theorem stage_start : Stage ⟨1 / 2, 0, 0⟩ [.ellipsoid (circ "e1" ⟨1 / 2, 0, 0⟩ 1),
    .ellipsoid (circ "e2" ⟨-(1 / 2), 0, 0⟩ 1), .ellipsoid (circ "e0" ⟨0, 0, 0⟩ 1)] := by
  refine ⟨acyclic_flat fun p a h => ?_, fun p hp => ?_⟩
  · match p with
    | 0 => cases h
    | 1 => cases h
    | 2 => cases h
    | _ + 3 => cases h
  · match p with
    | 0 => rfl
    | 1 => rfl
    | 2 => rfl

theorem add_ok {h : Heap ℝ} {m : List (String × Ptr)} {b : Bool} {l : List Ptr} {p : Ptr} {k : String}
    (hp : p < h.length) (hn : nameOf h p = k) (hm : Env.find m k = none) :
    Env.addObstacle h ⟨m, b, l⟩ p = .ok ⟨Env.insert m k p, b, l⟩ := by
  have ho : h[p]? = some h[p] := List.getElem?_eq_getElem hp
  have hname : (h[p]).name = k := by simpa [nameOf, ho] using hn
  simp only [Env.addObstacle, Heap.deref, ho, Res.ok_bind, hname, hm]

end DOA.UnitTests
