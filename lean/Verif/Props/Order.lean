import Verif.Lemmas.Order
import Verif.Props.Moving

/-!
# C46, C47: order of the obstacles; what `modulate_velocity` changes
-/

set_option linter.unusedSectionVars false
set_option linter.unusedSimpArgs false

namespace DOA.Props
open DOA DOA.Spec DOA.Modulation

/-! ## C46 -/

/-- The sight test gives the same answer for every order of the list, once all obstacles exist. -/
theorem sight_perm {h : Heap ℝ} (hac : Acyclic h) {a : Agent ℝ} {l l' : List Ptr} (hp : l.Perm l') {env : Obj ℝ}
    (henv : a.getEnvelope h = .ok env) {b : Bool} (hval : b = true → ∀ q ∈ l, ∃ o, h[q]? = some o)
    (hs : h.isIntersectingList env l = .ok b) : h.isIntersectingList env l' = .ok b := by
  cases b with
  | false => exact sight_of_false fun q hq => sight_false hs q (hp.mem_iff.mpr hq)
  | true =>
    obtain ⟨rank, hr⟩ := exists_ranked hac
    obtain ⟨q, hq, o, h1, h2⟩ := sight_found hs
    refine sight_of_true ?_ ⟨q, hp.mem_iff.mp hq, o, h1, h2⟩
    intro q hq
    obtain ⟨o, ho⟩ := hval rfl q (hp.mem_iff.mpr hq)
    obtain ⟨p, hpe⟩ : ∃ p : Ptr, h[p]? = some env := by
      unfold Agent.getEnvelope at henv
      cases hae : a.envelope with
      | none => simp [hae] at henv
      | some p =>
        refine ⟨p, ?_⟩
        simp only [hae, Heap.deref] at henv
        cases hh : h[p]? with
        | none => simp [hh] at henv
        | some o => simp [hh] at henv; rw [henv]
    obtain ⟨b, hb, -⟩ := isIntersecting_ok hr (ShapeExt.refl h) hpe hpe ho ho
    exact ⟨o, b, ho, hb⟩

theorem items_valid {planar : Bool} {h : Heap ℝ} {a : Agent ℝ} {l : List Ptr} {its : List (Item ℝ)}
    (hf : List.Forall₂ (fun p i => itemFor planar h a p = .ok i) l its) : ∀ q ∈ l, ∃ o, h[q]? = some o := by
  induction hf with
  | nil => intro q hq; cases hq
  | cons hx _ ih =>
    intro q hq
    rcases List.mem_cons.mp hq with rfl | hq
    · exact itemFor_valid hx
    · exact ih q hq

theorem order_aux (h : Heap ℝ) (hac : Acyclic h) (a : Agent ℝ) (e e' : Env) (hp : e.list.Perm e'.list)
    (loc rep planar : Bool) (critical power : ℝ) (r : Heap ℝ × V3 ℝ)
    (hm : modulateVelocity h a e loc rep planar critical power = .ok r) :
    modulateVelocity h a e' loc rep planar critical power = .ok r := by
  rw [modulateVelocity_eq] at hm ⊢
  generalize e.list = l at hm hp
  generalize e'.list = l' at hp ⊢
  have hempty : l.isEmpty = l'.isEmpty := by
    rw [Bool.eq_iff_iff, List.isEmpty_iff, List.isEmpty_iff]
    constructor
    · rintro rfl; exact hp.symm.eq_nil
    · rintro rfl; exact hp.eq_nil
  rw [← hempty]
  cases hl : l.isEmpty with
  | true => simpa [hl] using hm
  | false =>
    simp only [hl, Bool.false_eq_true, if_false] at hm ⊢
    obtain ⟨sight, hs, hm⟩ := Res.bind_eq_ok.mp hm
    have hval : sight = true → ∀ q ∈ l, ∃ o, h[q]? = some o := by
      rintro rfl
      simp only [if_true] at hm
      obtain ⟨c, hc, -⟩ := Res.bind_eq_ok.mp hm
      rw [collect_eq] at hc
      obtain ⟨its, hits, -⟩ := Res.bind_eq_ok.mp hc
      exact items_valid ((mapM_ok _ _ _).mp hits)
    have hs' : sightOf h a loc l' = .ok sight := by
      cases loc with
      | false => exact hs
      | true =>
        obtain ⟨env, henv, hs⟩ := Res.bind_eq_ok.mp hs
        simp only [sightOf, henv, Res.ok_bind]
        exact sight_perm hac hp henv hval hs
    rw [hs', Res.ok_bind]
    cases sight with
    | false => simpa using hm
    | true =>
      simp only [if_true, collect_eq] at hm ⊢
      obtain ⟨c, hc, hm⟩ := Res.bind_eq_ok.mp hm
      obtain ⟨its, hits, hc⟩ := Res.bind_eq_ok.mp hc
      cases hc
      obtain ⟨its', hits', hperm⟩ := mapM_perm hp hits
      rw [hits', Res.ok_bind, Res.ok_bind, ← heapAfter_perm hp, ← combine_perm hperm]
      cases rep with
      | false => simpa [repOf] using hm
      | true =>
        simp only [repOf] at hm ⊢
        obtain ⟨rp, hrp, hm⟩ := Res.bind_eq_ok.mp hm
        obtain ⟨v, hv, hrp⟩ := Res.bind_eq_ok.mp hrp
        cases hrp
        rw [repulsionSum_perm hp hv]
        exact hm

/-- C46: for every permutation of the obstacle list, every agent and every choice of the options, the
result (velocity and obstacles afterwards) is the same.  `Acyclic` says that the nesting of
aggregates is well-founded. -/
theorem C46_order (h : Heap ℝ) (hac : Acyclic h) (a : Agent ℝ) (e e' : Env) (hp : e.list.Perm e'.list)
    (loc rep planar : Bool) (critical power : ℝ) (r : Heap ℝ × V3 ℝ) :
    modulateVelocity h a e loc rep planar critical power = .ok r ↔
      modulateVelocity h a e' loc rep planar critical power = .ok r :=
  ⟨order_aux h hac a e e' hp loc rep planar critical power r,
    order_aux h hac a e' e hp.symm loc rep planar critical power r⟩

/-- C46: two environments (without aggregation) that hold the same obstacles under any names give the
same velocity after their `update`. -/
theorem C46_names (h : Heap ℝ) (hac : Acyclic h) (a : Agent ℝ) (e e' : Env) (h1 : e.aggregated = false)
    (h2 : e'.aggregated = false) (hp : (e.map.map (·.2)).Perm (e'.map.map (·.2)))
    (loc rep planar : Bool) (critical power : ℝ) (r : Heap ℝ × V3 ℝ) :
    (∃ h0 e0, e.update h = .ok (h0, e0) ∧ modulateVelocity h0 a e0 loc rep planar critical power = .ok r) ↔
    (∃ h0 e0, e'.update h = .ok (h0, e0) ∧ modulateVelocity h0 a e0 loc rep planar critical power = .ok r) := by
  have key : ∀ e : Env, e.aggregated = false → e.update h = .ok (h, { e with list := e.map.map (·.2) }) := by
    intro e he
    simp [Env.update, he]
  rw [key e h1, key e' h2]
  constructor
  · rintro ⟨h0, e0, h3, h4⟩
    cases h3
    exact ⟨_, _, rfl, (C46_order h hac a _ _ hp loc rep planar critical power r).mp h4⟩
  · rintro ⟨h0, e0, h3, h4⟩
    cases h3
    exact ⟨_, _, rfl, (C46_order h hac a _ _ hp loc rep planar critical power r).mpr h4⟩

/-- Non-vacuity: two obstacles, in both orders, with repulsion and all options. -/
example : ([0, 1] : List Ptr).Perm [1, 0] ∧
    Acyclic [.ellipsoid (ballAt ⟨0, 0, 0⟩), .ellipsoid (ballAt ⟨0, 3, 0⟩)] := by
  refine ⟨by decide, fun _ => 0, ?_⟩
  rintro p q ⟨a, ha, -⟩
  match p, ha with
  | 0, ha => simp at ha
  | 1, ha => simp at ha
  | n + 2, ha => simp at ha

/-! ## C47 -/

section
variable {α : Type} [Add α] [Sub α] [Mul α] [Div α] [Neg α] [Zero α] [One α]
  [LE α] [LT α] [DecidableLE α] [DecidableLT α] [CMath α]

theorem collect_unchanged (a : Agent α) (l : List Ptr) : ∀ (h : Heap α) (r : Heap α × List (Item α)),
    collect false a h l = .ok r → r.1 = h := by
  induction l with
  | nil => intro h r hr; simp [collect] at hr; rw [← hr]
  | cons p l ih =>
    intro h r hr
    simp only [collect, Bool.false_eq_true, if_false, Res.ok_bind] at hr
    obtain ⟨o, -, hr⟩ := Res.bind_eq_ok.mp hr
    obtain ⟨m, -, hr⟩ := Res.bind_eq_ok.mp hr
    obtain ⟨r', h1, hr⟩ := Res.bind_eq_ok.mp hr
    cases hr
    exact ih h r' h1

/-- The obstacles after `modulate_velocity`: unchanged, or all shifted. -/
theorem heap_after {h h' : Heap α} {a : Agent α} {e : Env} {loc rep planar : Bool} {critical power : α} {v : V3 α}
    (hm : modulateVelocity h a e loc rep planar critical power = .ok (h', v)) :
    h' = h ∨ (planar = true ∧ h' = shiftAll h a.state.position a.state.linearVelocity e.list) := by
  rw [modulateVelocity_eq] at hm
  by_cases hl : e.list.isEmpty = true
  · rw [if_pos hl] at hm; cases hm; exact Or.inl rfl
  · rw [if_neg hl] at hm
    obtain ⟨sight, -, hm⟩ := Res.bind_eq_ok.mp hm
    cases sight with
    | false => cases hm; exact Or.inl rfl
    | true =>
      simp only [if_true] at hm
      obtain ⟨r, hr, hm⟩ := Res.bind_eq_ok.mp hm
      obtain ⟨rp, -, hm⟩ := Res.bind_eq_ok.mp hm
      cases hm
      cases planar with
      | false => exact Or.inl (collect_unchanged _ _ _ _ hr)
      | true =>
        rw [collect_true] at hr
        obtain ⟨its, -, hr⟩ := Res.bind_eq_ok.mp hr
        cases hr
        exact Or.inr ⟨rfl, rfl⟩

/-- C47: without `planar_modulation` no obstacle is changed (every scalar type). -/
theorem C47_not_planar {h h' : Heap α} {a : Agent α} {e : Env} {loc rep : Bool} {critical power : α} {v : V3 α}
    (hm : modulateVelocity h a e loc rep false critical power = .ok (h', v)) : h' = h := by
  rcases heap_after hm with h1 | ⟨h1, -⟩
  · exact h1
  · cases h1

/-- C47: with `planar_modulation` nothing changes except reference positions, and only of obstacles in
the list which are ellipsoids hit by the heading line (every scalar type). -/
theorem C47_frame {h h' : Heap α} {a : Agent α} {e : Env} {loc rep planar : Bool} {critical power : α} {v : V3 α}
    (hm : modulateVelocity h a e loc rep planar critical power = .ok (h', v)) :
    SameShape h h' ∧
    (∀ p : Ptr, p ∉ e.list → h'[p]? = h[p]?) ∧
    (∀ (p : Ptr) (o : Obj α), h[p]? = some o →
      (o.intersectionPoints a.state.position (a.state.position + a.state.linearVelocity)).1 = false →
      h'[p]? = some o) := by
  rcases heap_after hm with rfl | ⟨-, rfl⟩
  · exact ⟨SameShape.refl _, fun _ _ => rfl, fun _ _ ho _ => ho⟩
  · refine ⟨sameShape_shiftAll _ _ _ _, fun p hp => ?_, fun p o ho hmiss => ?_⟩
    · rw [getElem?_shiftAll]
      cases h[p]? <;> simp [hp]
    · rw [getElem?_shiftAll, ho]
      have : shifted a.state.position a.state.linearVelocity o = o := by
        cases o with
        | ellipsoid el =>
          simp only [Obj.intersectionPoints] at hmiss
          simp [shifted, hmiss]
        | _ => rfl
      simp [this]

/-- C47: when something is in sight, an ellipsoid of the list which the heading line meets gets the
reference position half way between the two computed points (every scalar type). -/
theorem C47_shifted {h h' : Heap α} {a : Agent α} {e : Env} {loc rep : Bool} {critical power : α} {v : V3 α}
    (hm : modulateVelocity h a e loc rep true critical power = .ok (h', v))
    (hsight : loc = true → ∃ env, a.getEnvelope h = .ok env ∧ h.isIntersectingList env e.list = .ok true)
    {p : Ptr} (hp : p ∈ e.list) {el : Ellipsoid α} (ho : h[p]? = some (.ellipsoid el)) {P Q : V3 α}
    (hit : el.intersectionPoints a.state.position (a.state.position + a.state.linearVelocity) = (true, P, Q)) :
    refOf h' p = some ((P + Q).sdiv (lit 2 1)) := by
  have hne : e.list.isEmpty = false := by
    cases hl : e.list with
    | nil => rw [hl] at hp; cases hp
    | cons _ _ => rfl
  have hs : sightOf h a loc e.list = .ok true := by
    cases loc with
    | false => rfl
    | true =>
      obtain ⟨env, h1, h2⟩ := hsight rfl
      simp [sightOf, h1, h2]
  rw [modulateVelocity_eq, hne, hs] at hm
  simp only [Bool.false_eq_true, if_false, Res.ok_bind, if_true, collect_true] at hm
  obtain ⟨r, hr, hm⟩ := Res.bind_eq_ok.mp hm
  obtain ⟨rp, -, hm⟩ := Res.bind_eq_ok.mp hm
  obtain ⟨its, -, hr⟩ := Res.bind_eq_ok.mp hr
  cases hm; cases hr
  simp only [refOf, getElem?_shiftAll, ho, Option.map_some, hp, if_true, shifted, hit, Option.bind_some]
  rfl

end

/-- C47: the shifted reference position is the midpoint of the chord.  `y1`, `y2` are the agent
position and the next position `x + v` in the frame of the obstacle; the line through them, seen in
the x-y plane of that frame, cuts the ellipse in `P = (u1, v1)` and `Q = (u2, v2)` and nowhere else;
the new reference is their midpoint.  It is on the line and inside the obstacle, both in the sense of
`point_is_inside` and of the distance function, for all curvatures.
PARTIAL: the heading must not be parallel to the y axis of the obstacle frame (`y1.x ≠ y2.x`; there
the C++ code divides by zero, see `C27_negation`). -/
theorem C47_chord_partial {h h' : Heap ℝ} {a : Agent ℝ} {e : Env} {loc rep : Bool} {critical power : ℝ} {v : V3 ℝ}
    (hm : modulateVelocity h a e loc rep true critical power = .ok (h', v))
    (hsight : loc = true → ∃ env, a.getEnvelope h = .ok env ∧ h.isIntersectingList env e.list = .ok true)
    {p : Ptr} (hp : p ∈ e.list) {el : Ellipsoid ℝ} (ho : h[p]? = some (.ellipsoid el))
    (hq : el.base.orientation.norm = 1) {k1 k2 k3 : ℕ} (hk : HasCurv el k1 k2 k3)
    (hl : AllGt (halfLengths el V3.zero) (1 / 10000)) (y1 y2 : V3 ℝ)
    (hy1 : a.state.position = el.base.pose.apply y1)
    (hy2 : a.state.position + a.state.linearVelocity = el.base.pose.apply y2) (hne : y1.x ≠ y2.x)
    (hit : ∃ u w, OnLine y1.x y1.y y2.x y2.y u w ∧
      (u / (halfLengths el V3.zero).x) ^ 2 + (w / (halfLengths el V3.zero).y) ^ 2 ≤ 1) :
    ∃ u1 v1 u2 v2 ref,
      (∀ u w, (OnLine y1.x y1.y y2.x y2.y u w ∧
        (u / (halfLengths el V3.zero).x) ^ 2 + (w / (halfLengths el V3.zero).y) ^ 2 = 1) ↔
        ((u = u1 ∧ w = v1) ∨ (u = u2 ∧ w = v2))) ∧
      refOf h' p = some ref ∧
      ref = el.base.pose.apply ⟨(u1 + u2) / 2, (v1 + v2) / 2, 0⟩ ∧
      OnLine y1.x y1.y y2.x y2.y ((u1 + u2) / 2) ((v1 + v2) / 2) ∧
      el.pointIsInside ref = true ∧ el.distanceToPoint ref V3.zero ≤ 1 := by
  have hq' : el.base.pose.orientation.IsUnit := (Quat.isUnit_iff_norm _).mpr hq
  have hlx : 0 < (halfLengths el V3.zero).x := by have := hl.1; linarith
  have hly : 0 < (halfLengths el V3.zero).y := by have := hl.2.1; linarith
  obtain ⟨hiff, hpts, -⟩ := C27_line_intersection_partial el hq hlx.ne' hly.ne' y1 y2 hne
  rw [← hy1, ← hy2] at hiff hpts
  have htrue := hiff.mpr hit
  obtain ⟨u1, v1, u2, v2, -, hP, hQ, h1, h2, hall⟩ := hpts htrue
  have hres : el.intersectionPoints a.state.position (a.state.position + a.state.linearVelocity) =
      (true, el.base.pose.apply ⟨u1, v1, 0⟩, el.base.pose.apply ⟨u2, v2, 0⟩) := by
    rw [← htrue, ← hP, ← hQ]
  have href := C47_shifted hm hsight hp ho hres
  have hmid : ((el.base.pose.apply ⟨u1, v1, 0⟩ + el.base.pose.apply ⟨u2, v2, 0⟩ : V3 ℝ).sdiv (lit 2 1)) =
      el.base.pose.apply ⟨(u1 + u2) / 2, (v1 + v2) / 2, 0⟩ := by
    rw [Pose.apply, Pose.apply, Pose.apply]
    have e1 : (⟨(u1 + u2) / 2, (v1 + v2) / 2, 0⟩ : V3 ℝ) = V3.smul (1 / 2) (⟨u1, v1, 0⟩ + ⟨u2, v2, 0⟩) := by
      ext <;> simp [V3.smul] <;> ring
    rw [e1, Quat.rotate_smul, Quat.rotate_add]
    rw [show (lit 2 1 : ℝ) = 2 by simp]
    ext <;> simp [V3.sdiv, V3.smul] <;> ring
  rw [hmid] at href
  have hin : ((u1 + u2) / 2 / (halfLengths el V3.zero).x) ^ 2 +
      ((v1 + v2) / 2 / (halfLengths el V3.zero).y) ^ 2 ≤ 1 := by
    have e1 := h1.2
    have e2 := h2.2
    have : (u1 + u2) / 2 / (halfLengths el V3.zero).x =
      (u1 / (halfLengths el V3.zero).x + u2 / (halfLengths el V3.zero).x) / 2 := by ring
    rw [this]
    have : (v1 + v2) / 2 / (halfLengths el V3.zero).y =
      (v1 / (halfLengths el V3.zero).y + v2 / (halfLengths el V3.zero).y) / 2 := by ring
    rw [this]
    nlinarith [sq_nonneg (u1 / (halfLengths el V3.zero).x - u2 / (halfLengths el V3.zero).x),
      sq_nonneg (v1 / (halfLengths el V3.zero).y - v2 / (halfLengths el V3.zero).y)]
  refine ⟨u1, v1, u2, v2, _, ?_, href, rfl, ?_, ?_, ?_⟩
  · intro u w
    constructor
    · rintro ⟨g1, g2⟩; exact hall u w g1 g2
    · rintro (⟨rfl, rfl⟩ | ⟨rfl, rfl⟩)
      · exact h1
      · exact h2
  · obtain ⟨⟨s, hs1, hs2⟩, -⟩ := h1
    obtain ⟨⟨t, ht1, ht2⟩, -⟩ := h2
    refine ⟨(s + t) / 2, ?_, ?_⟩
    · rw [hs1, ht1]; ring
    · rw [hs2, ht2]; ring
  · rw [Ellipsoid.inside_eq el hq']; simpa using hin
  · rw [Ellipsoid.distance_eq el _ _ k1 k2 k3 hk hq' hl]
    simp only [level, zero_div]
    obtain ⟨-, c1, c2, c3⟩ := hk
    have b1 := sq_nonneg ((u1 + u2) / 2 / (halfLengths el V3.zero).x)
    have b2 := sq_nonneg ((v1 + v2) / 2 / (halfLengths el V3.zero).y)
    have p1 : ((u1 + u2) / 2 / (halfLengths el V3.zero).x) ^ (2 * k1) ≤ ((u1 + u2) / 2 / (halfLengths el V3.zero).x) ^ 2 := by
      rw [pow_mul]
      exact pow_le_of_le_one b1 (by linarith) (by omega)
    have p2 : ((v1 + v2) / 2 / (halfLengths el V3.zero).y) ^ (2 * k2) ≤ ((v1 + v2) / 2 / (halfLengths el V3.zero).y) ^ 2 := by
      rw [pow_mul]
      exact pow_le_of_le_one b2 (by linarith) (by omega)
    have p3 : (0 : ℝ) ^ (2 * k3) = 0 := zero_pow (by omega)
    rw [p3]
    linarith

end DOA.Props
