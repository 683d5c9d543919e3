import Verif.Props.Continuity
import Verif.Props.HullMoving
import Verif.Props.Many

/-!
# C107: an obstacle that is listed several times counts once

Nothing keeps a client from adding the same obstacle several times under different names.
-/

set_option linter.unusedSectionVars false
set_option linter.unusedSimpArgs false

namespace DOA.Props
open DOA DOA.Spec DOA.Modulation DOA.Ellipsoid

/-- The same obstacle under another name. -/
def Named (s : String) : Obj ℝ → Obj ℝ
  | .plain b => .plain (b.setName s)
  | .ellipsoid e => .ellipsoid { e with base := e.base.setName s }
  | .hull k => .hull { k with base := k.base.setName s }
  | .aggregate g => .aggregate { g with base := g.base.setName s }

theorem named_matrix (h : Heap ℝ) (a : Agent ℝ) (s : String) (o : Obj ℝ) :
    modulationMatrix h a (Named s o) = modulationMatrix h a o := by
  cases o <;> rfl

theorem named_state (s : String) (o : Obj ℝ) : (Named s o).base.state = o.base.state := by
  cases o <;> rfl

theorem lsum_const {β : Type} {f : β → V3 ℝ} {l : List β} {u : V3 ℝ} (h : ∀ b ∈ l, f b = u) :
    V3.lsum (l.map f) = V3.smul (l.length : ℝ) u := by
  have h1 : l.map f = List.replicate l.length u := by
    rw [List.eq_replicate_iff]
    refine ⟨by simp, ?_⟩
    intro y hy
    obtain ⟨b, hb, rfl⟩ := List.mem_map.mp hy
    exact h b hb
  rw [h1]
  ext <;> simp [V3.lsum, V3.smul, List.map_replicate, List.sum_replicate]

/-- the weights of obstacles at the same distance -/
theorem weightOf_same {ds : List ℝ} {d : ℝ} (c p : ℝ) (hne : ds ≠ []) (h : ∀ y ∈ ds, y = d) :
    (ds.length : ℝ) * weightOf ds c p d = 1 := by
  have h1 := (C33_convex ds c p hne).2.2
  rw [weight_eq] at h1
  rw [← h1]
  have h2 : ds.map (weightOf ds c p) = List.replicate ds.length (weightOf ds c p d) := by
    rw [List.eq_replicate_iff]
    refine ⟨by simp, ?_⟩
    intro y hy
    obtain ⟨b, hb, rfl⟩ := List.mem_map.mp hy
    rw [h b hb]
  rw [h2]
  simp

theorem core_same {rv : V3 ℝ} {M : M3 ℝ} {w : ℝ} (n : ℕ) (hw : (n : ℝ) * w = 1) :
    core rv (List.replicate n (M, w)) = core rv [(M, 1)] := by
  have hsum : ∀ f : M3 ℝ × ℝ → ℝ, ((List.replicate n (M, w)).map f).sum = n * f (M, w) := by
    intro f; simp
  unfold core
  simp only [List.map_map, hsum, List.map_cons, List.map_nil, List.sum_cons, List.sum_nil, add_zero, Function.comp_apply]
  have h1 : ∀ y : ℝ, (n : ℝ) * (y * w) = y := by intro y; rw [← mul_assoc, mul_comm (n : ℝ) y, mul_assoc, hw, mul_one]
  simp only [angleTerm, V2.scale, h1, mul_one]

/-- The combination of several items that differ in their names only. -/
theorem combine_same (x v : V3 ℝ) (its : List (Item ℝ)) (c p : ℝ) (st : State ℝ) (M B : M3 ℝ) (d : ℝ) (hne : its ≠ [])
    (h : ∀ i ∈ its, i.base.state = st ∧ i.matrix = M ∧ i.basis = B ∧ i.dist = d) (b : Base ℝ) (hb : b.state = st) :
    combine x v its c p = combine x v [⟨b, M, B, d⟩] c p := by
  have hw := weightOf_same (ds := its.map (·.dist)) (d := d) c p (by simpa using hne) (by
    intro y hy
    obtain ⟨i, hi, rfl⟩ := List.mem_map.mp hy
    exact (h i hi).2.2.2)
  rw [List.length_map] at hw
  have hov : obsVel x its c p = obsVel x [⟨b, M, B, d⟩] c p := by
    unfold obsVel
    simp only [List.map_cons, List.map_nil, weightOf_single]
    rw [lsum_const (u := obstacleVelocity x b d (weightOf (its.map (·.dist)) c p d) B)]
    · ext <;> simp [V3.lsum, obstacleVelocity, V3.smul] <;> rw [mul_comm _ (weightOf _ c p d), ← mul_assoc, hw, one_mul]
    · intro i hi
      obtain ⟨h1, h2, h3, h4⟩ := h i hi
      unfold obstacleVelocity Base.position
      rw [h1, h3, h4, hb]
  have hp : pairs its c p = List.replicate its.length (M, weightOf (its.map (·.dist)) c p d) := by
    unfold pairs
    rw [List.eq_replicate_iff]
    refine ⟨by simp, ?_⟩
    intro y hy
    obtain ⟨i, hi, rfl⟩ := List.mem_map.mp hy
    obtain ⟨-, h2, -, h4⟩ := h i hi
    simp only [h2, h4]
  have hp1 : pairs [⟨b, M, B, d⟩] c p = [(M, 1)] := by simp [pairs, weightOf_single]
  rw [combine_eq, combine_eq, hov, hp, hp1, core_same _ hw]

theorem source_of {β γ : Type} {R : β → γ → Prop} {l : List β} {r : List γ} (h : List.Forall₂ R l r) {c : γ}
    (hc : c ∈ r) : ∃ b ∈ l, R b c := by
  induction h with
  | nil => cases hc
  | cons h1 _ ih =>
    rcases List.mem_cons.mp hc with rfl | hc
    · exact ⟨_, List.mem_cons_self, h1⟩
    · obtain ⟨b, hb, h2⟩ := ih hc
      exact ⟨b, List.mem_cons_of_mem _ hb, h2⟩

theorem copies_plain (h : Heap ℝ) (a : Agent ℝ) (E E1 : Env) (critical power : ℝ) (o : Obj ℝ) (p : Ptr)
    (hne : E.list ≠ []) (hall : ∀ q ∈ E.list, ∃ s, h[q]? = some (Named s o)) (h1 : E1.list = [p])
    (hp : h[p]? = some o) :
    modulateVelocity h a E false false false critical power = modulateVelocity h a E1 false false false critical power := by
  have hem : E.list.isEmpty = false := by simpa using hne
  unfold modulateVelocity
  simp only [hem, h1, Bool.false_eq_true, if_false, List.isEmpty_cons, Res.ok_bind, Bool.not_true, collect_false]
  have hitem : ∀ q ∈ E.list, ∃ s, itemOf h a q = (modulationMatrix h a o >>= fun m =>
      .ok { base := (Named s o).base, matrix := m.1, basis := m.2.1, dist := m.2.2 }) := by
    intro q hq
    obtain ⟨s, hs⟩ := hall q hq
    exact ⟨s, by simp only [itemOf, Heap.deref, hs, Res.ok_bind, named_matrix]⟩
  have hone : itemOf h a p = (modulationMatrix h a o >>= fun m =>
      .ok { base := o.base, matrix := m.1, basis := m.2.1, dist := m.2.2 }) := by
    simp only [itemOf, Heap.deref, hp, Res.ok_bind]
  cases hm : modulationMatrix h a o with
  | ok m =>
    obtain ⟨M, B, d⟩ := m
    have hits : ∃ its, E.list.mapM (itemOf h a) = .ok its ∧ its ≠ [] ∧
        ∀ i ∈ its, i.base.state = o.base.state ∧ i.matrix = M ∧ i.basis = B ∧ i.dist = d := by
      obtain ⟨its, hits⟩ := mapM_total (f := itemOf h a) (l := E.list) (by
        intro q hq
        obtain ⟨s, hs⟩ := hitem q hq
        exact ⟨_, by rw [hs, hm]; rfl⟩)
      refine ⟨its, hits, ?_, ?_⟩
      · rintro rfl
        rw [mapM_ok] at hits
        cases hl : E.list with
        | nil => exact hne hl
        | cons q l => rw [hl] at hits; cases hits
      · intro i hi
        rw [mapM_ok] at hits
        obtain ⟨q, hq, hqi⟩ := source_of hits hi
        obtain ⟨s, hs⟩ := hitem q hq
        rw [hs, hm] at hqi
        cases hqi
        exact ⟨named_state s o, rfl, rfl, rfl⟩
    obtain ⟨its, hits, hn, hi⟩ := hits
    have hits1 : [p].mapM (itemOf h a) = .ok [⟨o.base, M, B, d⟩] := by
      rw [mapM_ok]; exact .cons (by rw [hone, hm]; rfl) .nil
    rw [hits, hits1]
    simp only [Res.ok_bind]
    rw [combine_same _ _ its critical power o.base.state M B d hn hi o.base rfl]
  | throw x =>
    have hl : ∀ l, l ≠ [] → (∀ q ∈ l, itemOf h a q = .throw x) → l.mapM (itemOf h a) = .throw x := by
      intro l hl hq
      cases l with
      | nil => exact absurd rfl hl
      | cons q l => rw [List.mapM_cons, hq q (by simp)]; rfl
    rw [hl E.list hne (by intro q hq; obtain ⟨s, hs⟩ := hitem q hq; rw [hs, hm]; rfl),
      hl [p] (by simp) (by intro q hq; simp only [List.mem_singleton] at hq; subst hq; rw [hone, hm]; rfl)]
  | ub x =>
    have hl : ∀ l, l ≠ [] → (∀ q ∈ l, itemOf h a q = .ub x) → l.mapM (itemOf h a) = .ub x := by
      intro l hl hq
      cases l with
      | nil => exact absurd rfl hl
      | cons q l => rw [List.mapM_cons, hq q (by simp)]; rfl
    rw [hl E.list hne (by intro q hq; obtain ⟨s, hs⟩ := hitem q hq; rw [hs, hm]; rfl),
      hl [p] (by simp) (by intro q hq; simp only [List.mem_singleton] at hq; subst hq; rw [hone, hm]; rfl)]

/-- The sight test on a list of copies. -/
theorem sight_same (h : Heap ℝ) (x o : Obj ℝ) : ∀ (l : List Ptr), l ≠ [] → (∀ q ∈ l, ∃ s, h[q]? = some (Named s o)) →
    h.isIntersectingList x l = h.isIntersecting x o := by
  have hn : ∀ s, h.isIntersecting x (Named s o) = h.isIntersecting x o := by
    intro s; cases o <;> rfl
  have htrue : ∀ l : List Ptr, l.foldlM (fun acc q => if acc then .ok true else do
      let oq ← h.deref q
      h.isIntersecting x oq) true = .ok true := by
    intro l
    induction l with
    | nil => rfl
    | cons q l ih => rw [List.foldlM_cons]; simpa using ih
  intro l
  induction l with
  | nil => intro hl; exact absurd rfl hl
  | cons q l ih =>
    intro _ hall
    obtain ⟨s, hs⟩ := hall q (by simp)
    unfold Heap.isIntersectingList at ih ⊢
    rw [List.foldlM_cons]
    simp only [Bool.false_eq_true, if_false, Heap.deref, hs, Res.ok_bind, hn]
    cases hb : h.isIntersecting x o with
    | ok b =>
      simp only [Res.ok_bind]
      cases b with
      | true => exact htrue l
      | false =>
        by_cases hl : l = []
        · subst hl; rfl
        · rw [← hb]; exact ih hl fun q hq => hall q (by simp [hq])
    | throw x => rfl
    | ub x => rfl

/-- `is_local` only decides whether anything is done at all. -/
theorem modulate_sight (h : Heap ℝ) (a : Agent ℝ) (E : Env) (rep planar : Bool) (critical power : ℝ) (hne : E.list ≠ []) :
    modulateVelocity h a E true rep planar critical power = (a.getEnvelope h >>= fun env =>
      h.isIntersectingList env E.list >>= fun s =>
        if s then modulateVelocity h a E false rep planar critical power else .ok (h, a.state.linearVelocity)) := by
  have hem : E.list.isEmpty = false := by simpa using hne
  unfold modulateVelocity
  simp only [hem, Bool.false_eq_true, if_false, if_true, Res.ok_bind, bind_assoc, Bool.not_true]
  congr 1; funext env
  congr 1; funext s
  cases s <;> simp

/-- C107: if everything in the list is one and the same obstacle (of any kind, at rest or moving) under any names, any number
of times, then the velocity is the same as if it were there once, with `is_local` or without; and if the computation fails, it
fails in the same way. -/
theorem C107_copies_partial (h : Heap ℝ) (a : Agent ℝ) (E E1 : Env) (isLocal : Bool) (critical power : ℝ) (o : Obj ℝ) (p : Ptr)
    (hne : E.list ≠ []) (hall : ∀ q ∈ E.list, ∃ s, h[q]? = some (Named s o)) (h1 : E1.list = [p])
    (hp : h[p]? = some o) :
    modulateVelocity h a E isLocal false false critical power = modulateVelocity h a E1 isLocal false false critical power := by
  have hplain := copies_plain h a E E1 critical power o p hne hall h1 hp
  cases isLocal with
  | false => exact hplain
  | true =>
    have ho : Named o.base.name o = o := by cases o <;> rfl
    rw [modulate_sight _ _ _ _ _ _ _ hne, modulate_sight _ _ _ _ _ _ _ (by simp [h1]), hplain]
    congr 1; funext env
    rw [sight_same h _ o _ hne hall, sight_same h _ o E1.list (by simp [h1]) (by
      intro q hq
      simp only [h1, List.mem_singleton] at hq
      subst hq
      exact ⟨_, by rw [ho]; exact hp⟩)]

/-! ### with shifted reference points -/

/-- Whether the ray along the velocity of the agent meets the ellipsoid. -/
def Hit (a : Agent ℝ) (e : Ellipsoid ℝ) : Prop :=
  ((Obj.ellipsoid e).intersectionPoints a.state.position (a.state.position + a.state.linearVelocity)).1 = true

/-- The midpoint of the chord. -/
noncomputable def midOf (a : Agent ℝ) (e : Ellipsoid ℝ) : V3 ℝ :=
  let r := (Obj.ellipsoid e).intersectionPoints a.state.position (a.state.position + a.state.linearVelocity)
  (r.2.1 + r.2.2).sdiv (lit 2 1)

/-- The same ellipsoid with another reference point. -/
def refAt (v : V3 ℝ) (e : Ellipsoid ℝ) : Ellipsoid ℝ := { e with base := e.base.setRef v }

/-- The same ellipsoid under another name. -/
def namedE (s : String) (e : Ellipsoid ℝ) : Ellipsoid ℝ := { e with base := e.base.setName s }

open Classical in
/-- An ellipsoid after `shift_reference_point`. -/
noncomputable def shifted (a : Agent ℝ) (e : Ellipsoid ℝ) : Ellipsoid ℝ := if Hit a e then refAt (midOf a e) e else e

theorem hit_refAt (a : Agent ℝ) (e : Ellipsoid ℝ) (v : V3 ℝ) : Hit a (refAt v e) = Hit a e := rfl
theorem mid_refAt (a : Agent ℝ) (e : Ellipsoid ℝ) (v : V3 ℝ) : midOf a (refAt v e) = midOf a e := rfl
theorem hit_named (a : Agent ℝ) (e : Ellipsoid ℝ) (s : String) : Hit a (namedE s e) = Hit a e := rfl
theorem mid_named (a : Agent ℝ) (e : Ellipsoid ℝ) (s : String) : midOf a (namedE s e) = midOf a e := rfl

theorem shifted_hit {a : Agent ℝ} {e : Ellipsoid ℝ} (hr : Hit a e) : shifted a e = refAt (midOf a e) e := if_pos hr

theorem shifted_miss {a : Agent ℝ} {e : Ellipsoid ℝ} (hr : ¬ Hit a e) : shifted a e = e := if_neg hr

theorem shifted_shifted (a : Agent ℝ) (e : Ellipsoid ℝ) : shifted a (shifted a e) = shifted a e := by
  by_cases hr : Hit a e
  · rw [shifted_hit hr, shifted_hit (by rw [hit_refAt]; exact hr), mid_refAt]; rfl
  · rw [shifted_miss hr, shifted_miss hr]

theorem shifted_named (a : Agent ℝ) (e : Ellipsoid ℝ) (s : String) : shifted a (namedE s e) = namedE s (shifted a e) := by
  by_cases hr : Hit a e
  · rw [shifted_hit hr, shifted_hit (by rw [hit_named]; exact hr), mid_named]; rfl
  · rw [shifted_miss hr, shifted_miss (by rw [hit_named]; exact hr)]

theorem shift_ellipsoid {h : Heap ℝ} {a : Agent ℝ} {q : Ptr} {e : Ellipsoid ℝ} (hq : h[q]? = some (.ellipsoid e)) :
    h.shiftReferencePoint q a.state.position a.state.linearVelocity = .ok (h.set q (.ellipsoid (shifted a e))) := by
  unfold Heap.shiftReferencePoint
  simp only [Heap.deref, hq, Res.ok_bind]
  by_cases hr : Hit a e
  · have hr' := hr
    unfold Hit at hr'
    rw [if_pos hr', shifted_hit hr]
    simp only [Heap.setRef, Heap.fuel, Heap.setRefAux, Heap.deref, hq, Res.ok_bind]
    rfl
  · have hr' := hr
    unfold Hit at hr'
    rw [if_neg hr', shifted_miss hr]
    congr 1
    refine List.ext_getElem? fun i => ?_
    by_cases hi : q = i
    · subst hi; rw [hq, List.getElem?_set_self (List.getElem?_eq_some_iff.mp hq).1]
    · rw [List.getElem?_set_ne hi]

/-- The first loop, on copies of an ellipsoid of which some may have been shifted before. -/
theorem collect_copies (a : Agent ℝ) (e : Ellipsoid ℝ) : ∀ (l : List Ptr) (h : Heap ℝ),
    (∀ q ∈ l, ∃ s, h[q]? = some (.ellipsoid (namedE s e)) ∨ h[q]? = some (.ellipsoid (namedE s (shifted a e)))) →
    match modulationMatrix h a (.ellipsoid (shifted a e)) with
    | .ok m => ∃ h' its, collect true a h l = .ok (h', its) ∧ its.length = l.length ∧
        ∀ i ∈ its, i.base.state = e.base.state ∧ i.matrix = m.1 ∧ i.basis = m.2.1 ∧ i.dist = m.2.2
    | .throw x => l ≠ [] → collect true a h l = .throw x
    | .ub x => l ≠ [] → collect true a h l = .ub x := by
  have hheap : ∀ h h' : Heap ℝ, ∀ s, modulationMatrix h a (.ellipsoid (namedE s (shifted a e))) =
      modulationMatrix h' a (.ellipsoid (shifted a e)) := fun _ _ _ => rfl
  have hstate : (shifted a e).base.state = e.base.state := by
    by_cases hr : Hit a e
    · rw [shifted_hit hr]; rfl
    · rw [shifted_miss hr]
  intro l
  induction l with
  | nil =>
    intro h _
    split
    · exact ⟨h, [], rfl, rfl, by simp⟩
    · intro hl; exact absurd rfl hl
    · intro hl; exact absurd rfl hl
  | cons q l ih =>
    intro h hall
    obtain ⟨s, hs⟩ := hall q (by simp)
    have hlen : q < h.length := by rcases hs with hs | hs <;> exact (List.getElem?_eq_some_iff.mp hs).1
    have hshift : h.shiftReferencePoint q a.state.position a.state.linearVelocity =
        .ok (h.set q (.ellipsoid (namedE s (shifted a e)))) := by
      rcases hs with hs | hs
      · rw [shift_ellipsoid hs, shifted_named]
      · rw [shift_ellipsoid hs, shifted_named, shifted_shifted]
    set k := h.set q (.ellipsoid (namedE s (shifted a e))) with hk
    have hkq : k[q]? = some (.ellipsoid (namedE s (shifted a e))) := List.getElem?_set_self hlen
    have hall' : ∀ r ∈ l, ∃ s, k[r]? = some (.ellipsoid (namedE s e)) ∨ k[r]? = some (.ellipsoid (namedE s (shifted a e))) := by
      intro r hr
      by_cases hrq : q = r
      · subst hrq; exact ⟨s, .inr hkq⟩
      · rw [hk, List.getElem?_set_ne hrq]; exact hall r (by simp [hr])
    have hstep : collect true a h (q :: l) = (modulationMatrix h a (.ellipsoid (shifted a e)) >>= fun m =>
        collect true a k l >>= fun r => .ok (r.1, { base := (namedE s (shifted a e)).base, matrix := m.1, basis := m.2.1, dist := m.2.2 } :: r.2)) := by
      rw [collect]
      simp only [if_true, hshift, Res.ok_bind, Heap.deref, hkq]
      rw [hheap k h s]
      rfl
    have ih' := ih k hall'
    rw [show modulationMatrix k a (.ellipsoid (shifted a e)) = modulationMatrix h a (.ellipsoid (shifted a e)) from rfl] at ih'
    rw [hstep]
    cases hm : modulationMatrix h a (.ellipsoid (shifted a e)) with
    | ok m =>
      rw [hm] at ih'
      obtain ⟨h', its, h1, h2, h3⟩ := ih'
      refine ⟨h', _, by rw [Res.ok_bind, h1, Res.ok_bind], by simp [h2], ?_⟩
      intro i hi
      rcases List.mem_cons.mp hi with rfl | hi
      · exact ⟨hstate, rfl, rfl, rfl⟩
      · exact h3 i hi
    | throw x => intro _; rfl
    | ub x => intro _; rfl

/-- C107: the same with planar modulation, where the reference points are shifted, for copies of an ellipsoid: the same
velocity, or the same failure. -/
theorem C107_planar_partial (h : Heap ℝ) (a : Agent ℝ) (E E1 : Env) (isLocal : Bool) (critical power : ℝ) (e : Ellipsoid ℝ)
    (p : Ptr) (hne : E.list ≠ []) (hall : ∀ q ∈ E.list, ∃ s, h[q]? = some (Named s (.ellipsoid e))) (h1 : E1.list = [p])
    (hp : h[p]? = some (.ellipsoid e)) :
    (modulateVelocity h a E isLocal false true critical power >>= fun r => .ok r.2) =
      (modulateVelocity h a E1 isLocal false true critical power >>= fun r => .ok r.2) := by
  have hself : namedE e.base.name e = e := rfl
  have hall1 : ∀ q ∈ E1.list, ∃ s, h[q]? = some (Named s (.ellipsoid e)) := by
    intro q hq
    simp only [h1, List.mem_singleton] at hq
    subst hq
    exact ⟨e.base.name, hp⟩
  have hne1 : E1.list ≠ [] := by simp [h1]
  have hplain : (modulateVelocity h a E false false true critical power >>= fun r => .ok r.2) =
      (modulateVelocity h a E1 false false true critical power >>= fun r => .ok r.2) := by
    have c1 := collect_copies a e E.list h fun q hq => by
      obtain ⟨s, hs⟩ := hall q hq; exact ⟨s, .inl hs⟩
    have c2 := collect_copies a e E1.list h fun q hq => by
      obtain ⟨s, hs⟩ := hall1 q hq; exact ⟨s, .inl hs⟩
    have hem : E.list.isEmpty = false := by simpa using hne
    have hem1 : E1.list.isEmpty = false := by simpa using hne1
    unfold modulateVelocity
    simp only [hem, hem1, Bool.false_eq_true, if_false, Res.ok_bind, Bool.not_true]
    cases hm : modulationMatrix h a (.ellipsoid (shifted a e)) with
    | ok m =>
      rw [hm] at c1 c2
      obtain ⟨k1, i1, e1, l1, s1⟩ := c1
      obtain ⟨k2, i2, e2, l2, s2⟩ := c2
      have n1 : i1 ≠ [] := by
        rintro rfl
        exact hne (List.length_eq_zero_iff.mp l1.symm)
      have n2 : i2 ≠ [] := by
        rintro rfl
        exact hne1 (List.length_eq_zero_iff.mp l2.symm)
      rw [e1, e2]
      simp only [Res.ok_bind]
      rw [combine_same _ _ i1 critical power e.base.state m.1 m.2.1 m.2.2 n1 s1 e.base rfl,
        combine_same _ _ i2 critical power e.base.state m.1 m.2.1 m.2.2 n2 s2 e.base rfl]
    | throw x => rw [hm] at c1 c2; rw [c1 hne, c2 hne1]
    | ub x => rw [hm] at c1 c2; rw [c1 hne, c2 hne1]
  cases isLocal with
  | false => exact hplain
  | true =>
    rw [modulate_sight _ _ _ _ _ _ _ hne, modulate_sight _ _ _ _ _ _ _ hne1]
    simp only [bind_assoc]
    congr 1; funext env
    rw [sight_same h _ _ _ hne hall, sight_same h _ _ _ hne1 hall1]
    congr 1; funext b
    cases b with
    | false => rfl
    | true => simpa using hplain

/-- Non-vacuity: a moving ball under three names. -/
example (a : Agent ℝ) (critical power : ℝ) (b : Ellipsoid ℝ) (s t u : String) :
    modulateVelocity [Named s (.ellipsoid b), Named t (.ellipsoid b), Named u (.ellipsoid b), .ellipsoid b] a
      (envOf [0, 1, 2]) true false false critical power =
    modulateVelocity [Named s (.ellipsoid b), Named t (.ellipsoid b), Named u (.ellipsoid b), .ellipsoid b] a
      (envOf [3]) true false false critical power := by
  refine C107_copies_partial _ a (envOf [0, 1, 2]) (envOf [3]) true critical power (.ellipsoid b) 3 (by simp [envOf]) ?_ rfl rfl
  intro q hq
  simp only [envOf, List.mem_cons, List.not_mem_nil, or_false] at hq
  rcases hq with rfl | rfl | rfl
  · exact ⟨s, rfl⟩
  · exact ⟨t, rfl⟩
  · exact ⟨u, rfl⟩

/-- Non-vacuity of `C107_planar_partial`: the same balls. -/
example (a : Agent ℝ) (critical power : ℝ) (b : Ellipsoid ℝ) (s t : String) :
    (modulateVelocity [Named s (.ellipsoid b), Named t (.ellipsoid b), .ellipsoid b] a (envOf [0, 1]) true false true
      critical power >>= fun r => .ok r.2) =
    (modulateVelocity [Named s (.ellipsoid b), Named t (.ellipsoid b), .ellipsoid b] a (envOf [2]) true false true
      critical power >>= fun r => .ok r.2) := by
  refine C107_planar_partial _ a (envOf [0, 1]) (envOf [2]) true critical power b 2 (by simp [envOf]) ?_ rfl rfl
  intro q hq
  simp only [envOf, List.mem_cons, List.not_mem_nil, or_false] at hq
  rcases hq with rfl | rfl
  · exact ⟨s, rfl⟩
  · exact ⟨t, rfl⟩

/-! ### where it fails -/

/-- C107 is false with repulsion: an agent at rest on the surface of a unit ball is pushed twice as fast when the ball is listed
twice. -/
theorem C107_negation_repulsion (s : String) :
    modulateVelocity [.ellipsoid (ball V3.zero), Named s (.ellipsoid (ball V3.zero))] (agentAt ⟨1, 0, 0⟩ V3.zero) (envOf [0])
      false true false 1 2 = .ok ([.ellipsoid (ball V3.zero), Named s (.ellipsoid (ball V3.zero))], ⟨2, 0, 0⟩) ∧
    modulateVelocity [.ellipsoid (ball V3.zero), Named s (.ellipsoid (ball V3.zero))] (agentAt ⟨1, 0, 0⟩ V3.zero) (envOf [0, 1])
      false true false 1 2 = .ok ([.ellipsoid (ball V3.zero), Named s (.ellipsoid (ball V3.zero))], ⟨4, 0, 0⟩) := by
  set h : Heap ℝ := [.ellipsoid (ball V3.zero), Named s (.ellipsoid (ball V3.zero))] with hh
  set a := agentAt (⟨1, 0, 0⟩ : V3 ℝ) V3.zero with ha
  have hd : gdist (ball V3.zero) 0 ⟨1, 0, 0⟩ = 1 := by rw [ball_dist]; norm_num
  have hd0 : gdist (ball V3.zero) 0 V3.zero = 0 := by rw [ball_dist]; simp [V3.zero]
  obtain ⟨M, B, hm, -⟩ := C36_reference h a (ball V3.zero) 1 (ball_smooth _) V3.zero rfl
    (by show gdist (ball V3.zero) 0 V3.zero < gdist (ball V3.zero) 0 ⟨1, 0, 0⟩; rw [hd, hd0]; norm_num)
  have hone : modulateVelocity h a (envOf [0]) false false false 1 2 = .ok (h, V3.zero) := by
    have hits : (envOf [0]).list.mapM (itemOf h a) = .ok [⟨(ball V3.zero).base, M, B, gdist (ball V3.zero) a.margin a.state.position⟩] := by
      rw [show (envOf [0]).list = [0] from rfl, mapM_ok]; exact .cons (itemOf_ok rfl hm) .nil
    rw [modulate_plain h a (envOf [0]) false 1 2 _ (by simp [envOf]) (by intro h; cases h) hits]
    congr 2
    exact combine_still rfl rfl
  have htwo : modulateVelocity h a (envOf [0, 1]) false false false 1 2 = .ok (h, V3.zero) := by
    rw [C107_copies_partial h a (envOf [0, 1]) (envOf [0]) false 1 2 (.ellipsoid (ball V3.zero)) 0 (by simp [envOf]) (by
      intro q hq
      simp only [envOf, List.mem_cons, List.not_mem_nil, or_false] at hq
      rcases hq with rfl | rfl
      · exact ⟨(ball V3.zero).base.name, rfl⟩
      · exact ⟨s, rfl⟩) rfl rfl]
    exact hone
  have hr0 : h.generateRepulsion (.ellipsoid (ball V3.zero)) a.state.position a.margin (11 / 10) = .ok ⟨2, 0, 0⟩ := by
    rw [C42_near h (ball V3.zero) V3.zero a.state.position a.margin (11 / 10) rfl
      (by show gdist (ball V3.zero) 0 ⟨1, 0, 0⟩ < _; rw [hd]; norm_num)]
    congr 1
    show V3.smul (2 / gdist (ball V3.zero) 0 ⟨1, 0, 0⟩) (⟨1, 0, 0⟩ - V3.zero) = _
    rw [hd]
    ext <;> simp [V3.smul, V3.zero]
  have hr1 : h.generateRepulsion (Named s (.ellipsoid (ball V3.zero))) a.state.position a.margin (11 / 10) = .ok ⟨2, 0, 0⟩ := hr0
  have norm_x : ∀ t : ℝ, 0 ≤ t → V3.norm (⟨t, 0, 0⟩ : V3 ℝ) = t := by
    intro t ht
    show Real.sqrt (t * t + 0 * 0 + 0 * 0) = t
    rw [show t * t + 0 * 0 + 0 * 0 = t ^ 2 by ring, Real.sqrt_sq ht]
  constructor
  · rw [C42_added h h a (envOf [0]) false false 1 2 V3.zero [⟨2, 0, 0⟩] (by simp [envOf]) (by intro h; cases h) hone
      (.cons ⟨_, rfl, hr0⟩ .nil)]
    have e1 : V3.lsum [(⟨2, 0, 0⟩ : V3 ℝ)] = ⟨2, 0, 0⟩ := by simp [V3.lsum]
    rw [e1, norm_x 2 (by norm_num), if_pos (by norm_num)]
    congr 2
    ext <;> simp [V3.zero]
  · rw [C42_added h h a (envOf [0, 1]) false false 1 2 V3.zero [⟨2, 0, 0⟩, ⟨2, 0, 0⟩] (by simp [envOf]) (by intro h; cases h) htwo
      (.cons ⟨_, rfl, hr0⟩ (.cons ⟨_, rfl, hr1⟩ .nil))]
    have e1 : V3.lsum [(⟨2, 0, 0⟩ : V3 ℝ), ⟨2, 0, 0⟩] = ⟨4, 0, 0⟩ := by ext <;> norm_num [V3.lsum]
    rw [e1, norm_x 4 (by norm_num), if_pos (by norm_num)]
    congr 2
    ext <;> simp [V3.zero]

/-- C107 is false when there are other obstacles: a unit ball ahead and another one behind, both off the surface, no repulsion.
Listing the ball ahead twice slows the agent down (from 26/33 of its speed to 44/57). -/
theorem C107_negation_others (s : String) : ∃ h : Heap ℝ,
    h = [.ellipsoid (ballAt ⟨2, 0, 0⟩), .ellipsoid (ballAt ⟨-3, 0, 0⟩), Named s (.ellipsoid (ballAt ⟨2, 0, 0⟩))] ∧
    modulateVelocity h (agentAt ⟨0, 0, 0⟩ ⟨1, 0, 0⟩) (envOf [0, 1]) false false false 1 1 = .ok (h, ⟨26 / 33, 0, 0⟩) ∧
    modulateVelocity h (agentAt ⟨0, 0, 0⟩ ⟨1, 0, 0⟩) (envOf [0, 1, 2]) false false false 1 1 = .ok (h, ⟨44 / 57, 0, 0⟩) := by
  refine ⟨_, rfl, ?_⟩
  set h : Heap ℝ := [.ellipsoid (ballAt ⟨2, 0, 0⟩), .ellipsoid (ballAt ⟨-3, 0, 0⟩), Named s (.ellipsoid (ballAt ⟨2, 0, 0⟩))] with hh
  set a := agentAt (⟨0, 0, 0⟩ : V3 ℝ) ⟨1, 0, 0⟩ with ha
  have mat : ∀ b : ℝ, 1 < b ^ 2 → ∃ M B, modulationMatrix h a (.ellipsoid (ballAt ⟨b, 0, 0⟩)) = .ok (M, B, b ^ 2) ∧
      M.mulVec ⟨1, 0, 0⟩ = V3.smul (1 - 1 / b ^ 2) ⟨1, 0, 0⟩ := by
    intro b hb
    have hd : gdist (ballAt ⟨b, 0, 0⟩) 0 ⟨0, 0, 0⟩ = b ^ 2 := by rw [ballAt_dist]; simp
    have hr : gdist (ballAt ⟨b, 0, 0⟩) 0 ⟨b, 0, 0⟩ = 0 := by rw [ballAt_dist]; simp
    have hb0 : b ≠ 0 := by rintro rfl; norm_num at hb
    obtain ⟨M, B, hm, hM⟩ := C36_reference h a (ballAt ⟨b, 0, 0⟩) 1 (ballAt_smooth _) ⟨b, 0, 0⟩ rfl
      (by show gdist (ballAt ⟨b, 0, 0⟩) 0 ⟨b, 0, 0⟩ < gdist (ballAt ⟨b, 0, 0⟩) 0 ⟨0, 0, 0⟩; rw [hd, hr]; linarith)
    change modulationMatrix h a _ = .ok (M, B, gdist (ballAt ⟨b, 0, 0⟩) 0 ⟨0, 0, 0⟩) at hm
    change M.mulVec ((⟨0, 0, 0⟩ : V3 ℝ) - ⟨b, 0, 0⟩) =
      V3.smul (max 0 (1 - 1 / gdist (ballAt ⟨b, 0, 0⟩) 0 ⟨0, 0, 0⟩)) ((⟨0, 0, 0⟩ : V3 ℝ) - ⟨b, 0, 0⟩) at hM
    rw [hd] at hm hM
    rw [max_eq_right (by rw [sub_nonneg, div_le_one (by linarith)]; exact hb.le)] at hM
    refine ⟨M, B, hm, ?_⟩
    have e1 : (⟨1, 0, 0⟩ : V3 ℝ) = V3.smul (-(1 / b)) ((⟨0, 0, 0⟩ : V3 ℝ) - ⟨b, 0, 0⟩) := by
      ext <;> simp [V3.smul]
      field_simp
    conv_lhs => rw [e1, M3.mulVec_smul, hM]
    ext <;> simp [V3.smul]
    field_simp
  obtain ⟨M0, B0, hm0, hv0⟩ := mat 2 (by norm_num)
  obtain ⟨M1, B1, hm1, hv1⟩ := mat (-3) (by norm_num)
  norm_num at hm0 hm1 hv0 hv1
  have hm2 : modulationMatrix h a (Named s (.ellipsoid (ballAt ⟨2, 0, 0⟩))) = .ok (M0, B0, 4) := by
    rw [named_matrix]; exact hm0
  have hne : M1 ≠ M0 := by
    rintro rfl
    rw [hv0] at hv1
    have := congrArg V3.x hv1
    norm_num [V3.smul] at this
  have hst : ∀ q ∈ [0, 1, 2], ∃ o, h[q]? = some o ∧ Static o := by
    intro q hq
    simp only [List.mem_cons, List.not_mem_nil, or_false] at hq
    rcases hq with rfl | rfl | rfl
    · exact ⟨_, rfl, rfl, rfl⟩
    · exact ⟨_, rfl, rfl, rfl⟩
    · exact ⟨_, rfl, rfl, rfl⟩
  classical
  have e3 : ((4 : ℝ) - 1) ^ (-1 : ℝ) = 1 / 3 := by rw [Real.rpow_neg_one]; norm_num
  have e8 : ((9 : ℝ) - 1) ^ (-1 : ℝ) = 1 / 8 := by rw [Real.rpow_neg_one]; norm_num
  constructor
  · rw [parallel_out h a (envOf [0, 1]) 1 1 [(M0, B0, 4), (M1, B1, 9)] (by simp [envOf])
      (.cons ⟨_, rfl, hm0⟩ (.cons ⟨_, rfl, hm1⟩ .nil))
      (by intro q hq; exact hst q (by simp only [envOf, List.mem_cons, List.not_mem_nil, or_false] at hq ⊢; tauto))
      rfl (fun M => if M = M0 then 3 / 4 else 8 / 9) (by
        intro m hm
        simp only [List.mem_cons, List.not_mem_nil, or_false] at hm
        rcases hm with rfl | rfl
        · simp only [if_true]; exact ⟨by norm_num, hv0⟩
        · simp only [if_neg hne]; exact ⟨by norm_num, hv1⟩)]
    have h1 : ¬ 0 < (([4, 9] : List ℝ).filter fun d => decide (d ≤ 1)).length := by norm_num
    have hw : weightObstacles [4, 9] (1 : ℝ) 1 = [8 / 11, 3 / 11] := by
      rw [weight_eq]
      simp only [List.map_cons, List.map_nil, weightOf, if_neg h1, e3, e8, List.sum_cons, List.sum_nil]
      norm_num
    rw [show ([(M0, B0, (4 : ℝ)), (M1, B1, 9)].map fun x => x.2.2) = [4, 9] from rfl, hw]
    simp only [List.zip_cons_cons, List.zip_nil_left, List.map_cons, List.map_nil, List.sum_cons, List.sum_nil, if_true,
      if_neg hne]
    congr 2
    show V3.smul _ (⟨1, 0, 0⟩ : V3 ℝ) = _
    ext <;> norm_num [V3.smul]
  · rw [parallel_out h a (envOf [0, 1, 2]) 1 1 [(M0, B0, 4), (M1, B1, 9), (M0, B0, 4)] (by simp [envOf])
      (.cons ⟨_, rfl, hm0⟩ (.cons ⟨_, rfl, hm1⟩ (.cons ⟨_, rfl, hm2⟩ .nil))) hst
      rfl (fun M => if M = M0 then 3 / 4 else 8 / 9) (by
        intro m hm
        simp only [List.mem_cons, List.not_mem_nil, or_false] at hm
        rcases hm with rfl | rfl | rfl
        · simp only [if_true]; exact ⟨by norm_num, hv0⟩
        · simp only [if_neg hne]; exact ⟨by norm_num, hv1⟩
        · simp only [if_true]; exact ⟨by norm_num, hv0⟩)]
    have h1 : ¬ 0 < (([4, 9, 4] : List ℝ).filter fun d => decide (d ≤ 1)).length := by norm_num
    have hw : weightObstacles [4, 9, 4] (1 : ℝ) 1 = [8 / 19, 3 / 19, 8 / 19] := by
      rw [weight_eq]
      simp only [List.map_cons, List.map_nil, weightOf, if_neg h1, e3, e8, List.sum_cons, List.sum_nil]
      norm_num
    rw [show ([(M0, B0, (4 : ℝ)), (M1, B1, 9), (M0, B0, 4)].map fun x => x.2.2) = [4, 9, 4] from rfl, hw]
    simp only [List.zip_cons_cons, List.zip_nil_left, List.map_cons, List.map_nil, List.sum_cons, List.sum_nil, if_true,
      if_neg hne]
    congr 2
    show V3.smul _ (⟨1, 0, 0⟩ : V3 ℝ) = _
    ext <;> norm_num [V3.smul]

end DOA.Props
