import Verif.Props.Total
import Verif.Props.HullNeedle

/-!
# C87: when `modulate_velocity` is defined in an environment with aggregates
-/

set_option linter.unusedSectionVars false
set_option linter.unusedSimpArgs false

namespace DOA.Props
open DOA DOA.Spec DOA.Hull DOA.Modulation DOA.Ellipsoid

section
variable {α : Type} [Add α] [Sub α] [Mul α] [Div α] [Neg α] [Zero α] [One α]
  [LE α] [LT α] [DecidableLE α] [DecidableLT α] [CMath α]

/-- An initialised ellipsoid, or an aggregate of ellipsoids whose hulls have been computed. -/
def Usable (h : Heap α) : Obj α → Prop
  | .ellipsoid e => ∃ r, e.base.refPos = some r
  | .aggregate g => (∃ r, g.base.refPos = some r) ∧ HullOK g.inside ∧ HullOK g.outside ∧
      ∀ q ∈ g.prims, ∃ e, h[q]? = some (.ellipsoid e)
  | _ => False

/-- The search for the neighbours of the point in the surface succeeds: for the outside hull, and for the inside hull if
the point is inside the aggregate. -/
def Covered (h : Heap α) (x : V3 α) : Obj α → Prop
  | .aggregate g => g.outside.column x < g.outside.resolution ∧
      (h.pointIsInside (.aggregate g) x = .ok true → g.inside.column x < g.inside.resolution)
  | _ => True

private theorem foldlM_or_total {β : Type} (f : β → Res Bool) (l : List β) (hf : ∀ q ∈ l, ∃ b, f q = .ok b) :
    ∀ acc, ∃ b, l.foldlM (fun acc q => do let b ← f q; Res.ok (acc || b)) acc = .ok b := by
  induction l with
  | nil => exact fun acc => ⟨acc, rfl⟩
  | cons q l ih =>
    intro acc
    obtain ⟨b, hb⟩ := hf q (by simp)
    simp only [List.foldlM_cons, hb, Res.ok_bind]
    exact ih (fun q hq => hf q (by simp [hq])) _

private theorem inside_split {h : Heap α} {g : Aggregate α} {x : V3 α} (hne : h ≠ []) (hu : Usable h (.aggregate g)) :
    (g.outside.column x < g.outside.resolution → ∃ b, h.pointIsInside (.aggregate g) x = .ok b) ∧
    (g.outside.resolution ≤ g.outside.column x → h.pointIsInside (.aggregate g) x = .ub .indexOOB) := by
  obtain ⟨-, -, ho, hp⟩ := hu
  obtain ⟨n, hn⟩ : ∃ n, h.fuel = n + 1 + 1 := by
    cases h with
    | nil => exact absurd rfl hne
    | cons o h => exact ⟨h.length, rfl⟩
  constructor
  · intro hc
    obtain ⟨-, ⟨b, hb⟩, -⟩ := (C56_exact g.outside ho x V3.zero).1 hc
    unfold Heap.pointIsInside
    rw [hn, Heap.pointIsInsideAux, hb, Res.ok_bind]
    cases b with
    | true => exact ⟨true, rfl⟩
    | false =>
      simp only [Bool.false_eq_true, if_false]
      obtain ⟨b, hb⟩ := foldlM_or_total (fun q => do let oq ← h.deref q; Heap.pointIsInsideAux (n + 1) h oq x) g.prims (by
        intro q hq
        obtain ⟨e, he⟩ := hp q hq
        exact ⟨e.pointIsInside x, by simp only [Heap.deref, he, Res.ok_bind, Heap.pointIsInsideAux]⟩) false
      refine ⟨b, ?_⟩
      rw [← hb]
      congr 1
      funext acc q
      simp only [bind_assoc]
  · intro hc
    obtain ⟨-, hb, -⟩ := (C56_exact g.outside ho x V3.zero).2 hc
    unfold Heap.pointIsInside
    rw [hn, Heap.pointIsInsideAux, hb]
    rfl

private theorem covered_query {h : Heap α} {o : Obj α} {x : V3 α} (hne : h ≠ []) (hu : Usable h o) (hc : Covered h x o)
    (m : α) (t : α) : (∃ n, h.normalToAgent o x m = .ok n) ∧ (∃ d, h.distanceToAgent o x m = .ok d) ∧
      ∃ v, h.generateRepulsion o x m t = .ok v := by
  cases o with
  | plain b => exact hu.elim
  | hull k => exact hu.elim
  | ellipsoid e =>
    obtain ⟨r, hr⟩ := hu
    refine ⟨⟨_, rfl⟩, ⟨_, rfl⟩, ?_⟩
    simp only [Heap.generateRepulsion, Heap.distanceToAgent, Heap.distanceToPoint, Res.ok_bind,
      Heap.repulsionVector, Ellipsoid.repulsionVector, Base.ref, hr]
    split <;> exact ⟨_, rfl⟩
  | aggregate g =>
    obtain ⟨b, hb⟩ := (inside_split hne hu).1 hc.1
    obtain ⟨⟨r, hr⟩, hi, ho, -⟩ := hu
    have hd : ∃ d, h.distanceToAgent (.aggregate g) x m = .ok d := by
      simp only [Heap.distanceToAgent, Heap.distanceToPoint, hb, Res.ok_bind]
      cases b with
      | true => exact ((C56_exact g.inside hi x (V3.const m)).1 (hc.2 hb)).1
      | false => exact ((C56_exact g.outside ho x (V3.const m)).1 hc.1).1
    refine ⟨?_, hd, ?_⟩
    · simp only [Heap.normalToAgent, hb, Res.ok_bind]
      cases b with
      | true =>
        obtain ⟨c1, c2, -, -, hn⟩ := ((C56_exact g.inside hi x V3.zero).1 (hc.2 hb)).2.2
        exact ⟨_, hn⟩
      | false =>
        obtain ⟨c1, c2, -, -, hn⟩ := ((C56_exact g.outside ho x V3.zero).1 hc.1).2.2
        exact ⟨_, hn⟩
    · obtain ⟨d, hd⟩ := hd
      have hd' : h.distanceToPoint (.aggregate g) x (V3.const m) = .ok d := hd
      simp only [Heap.generateRepulsion, hd, Res.ok_bind, Heap.repulsionVector, Heap.repulsionFactor, hd', Base.ref, hr, hb]
      split <;> exact ⟨_, rfl⟩

private theorem uncovered_normal {h : Heap α} {o : Obj α} {x : V3 α} (hne : h ≠ []) (hu : Usable h o) (hc : ¬ Covered h x o)
    (m : α) : h.normalToAgent o x m = .ub .indexOOB := by
  cases o with
  | plain b => exact hu.elim
  | hull k => exact hu.elim
  | ellipsoid e => exact absurd trivial hc
  | aggregate g =>
    by_cases h1 : g.outside.column x < g.outside.resolution
    · have h2 : h.pointIsInside (.aggregate g) x = .ok true ∧ ¬ g.inside.column x < g.inside.resolution := by
        by_contra hn
        exact hc ⟨h1, fun hi => by_contra fun hj => hn ⟨hi, hj⟩⟩
      simp only [Heap.normalToAgent, h2.1, Res.ok_bind, if_true]
      exact ((C56_exact g.inside hu.2.1 x V3.zero).2 (Nat.le_of_not_lt h2.2)).2.2
    · have := (inside_split hne hu).2 (Nat.le_of_not_lt h1)
      simp only [Heap.normalToAgent, this]
      rfl

private theorem covered_matrix {h : Heap α} {a : Agent α} {o : Obj α} (hne : h ≠ []) (hu : Usable h o)
    (hc : Covered h a.state.position o) : ∃ m, modulationMatrix h a o = .ok m := by
  obtain ⟨⟨n, hn⟩, ⟨d, hd⟩, -⟩ := covered_query hne hu hc a.margin 0
  have hr : ∃ r, o.base.refPos = some r := by
    cases o with
    | plain b => exact hu.elim
    | hull k => exact hu.elim
    | ellipsoid e => exact hu
    | aggregate g => exact hu.1
  obtain ⟨r, hr⟩ := hr
  simp only [modulationMatrix, hn, hd, Res.ok_bind, basisMatrices, Base.ref, hr]
  exact ⟨_, rfl⟩

private theorem usable_shifted {h : Heap α} (x v : V3 α) {o : Obj α} (hu : Usable h o) : Usable h (shifted x v o) := by
  cases o with
  | ellipsoid e =>
    obtain ⟨r, hr⟩ := hu
    obtain ⟨el', ref', h3, h4⟩ := shifted_ready x v hr
    rw [h3]; exact ⟨ref', h4⟩
  | _ => exact hu

private theorem covered_shifted {h : Heap α} (x v y : V3 α) {o : Obj α} : Covered h y (shifted x v o) ↔ Covered h y o := by
  cases o with
  | ellipsoid e =>
    simp only [shifted]
    split <;> simp [Covered]
  | _ => rfl

private theorem usable_heap {h h' : Heap α} (s : SameShape h h') {o : Obj α} (hu : Usable h o) : Usable h' o := by
  cases o with
  | aggregate g =>
    obtain ⟨h1, h2, h3, h4⟩ := hu
    refine ⟨h1, h2, h3, fun q hq => ?_⟩
    obtain ⟨e, he⟩ := h4 q hq
    obtain ⟨o', ho', hs⟩ := s.get he
    cases o' with
    | ellipsoid e' => exact ⟨e', ho'⟩
    | _ => simp [shape, Obj.mapBase] at hs
  | _ => exact hu

private theorem covered_heap {h h' : Heap α} (s : SameShape h h') (x : V3 α) {o : Obj α} : Covered h' x o ↔ Covered h x o := by
  cases o with
  | aggregate g => simp only [Covered, pointIsInside_shape s rfl]
  | _ => rfl

private theorem mapM_ub {β γ : Type} {f : β → Res γ} {u : UB} {l : List β} (hf : ∀ b ∈ l, (∃ c, f b = .ok c) ∨ f b = .ub u)
    (hb : ∃ b ∈ l, f b = .ub u) : l.mapM f = .ub u := by
  induction l with
  | nil => obtain ⟨b, hb, -⟩ := hb; cases hb
  | cons c l ih =>
    rw [List.mapM_cons]
    rcases hf c (by simp) with ⟨d, hd⟩ | hd
    · obtain ⟨b, hb, hbu⟩ := hb
      rcases List.mem_cons.mp hb with rfl | hb
      · rw [hd] at hbu; cases hbu
      · rw [hd, Res.ok_bind, ih (fun b hb => hf b (by simp [hb])) ⟨b, hb, hbu⟩]; rfl
    · rw [hd]; rfl

/-- the item of one obstacle, with or without shift -/
private def itemFor (planar : Bool) (h : Heap α) (a : Agent α) (p : Ptr) : Res (Item α) := do
  let o ← h.deref p
  let o' := if planar then shifted a.state.position a.state.linearVelocity o else o
  let m ← modulationMatrix h a o'
  .ok { base := o'.base, matrix := m.1, basis := m.2.1, dist := m.2.2 }

private theorem collect_items (planar : Bool) (a : Agent α) (h : Heap α) (l : List Ptr) :
    collect planar a h l = l.mapM (itemFor planar h a) >>= fun its =>
      .ok (if planar then shiftAll h a.state.position a.state.linearVelocity l else h, its) := by
  cases planar with
  | true =>
    rw [collect_true]
    rfl
  | false =>
    induction l with
    | nil => rfl
    | cons p l ih =>
      simp only [collect, Bool.false_eq_true, if_false, List.mapM_cons, ih, itemFor, Res.ok_bind, bind_assoc, Res.pure_eq]

/-- C87: exactly when `modulate_velocity` is defined in an environment of ellipsoids and aggregates of ellipsoids, for every
scalar type and all options: it returns if the agent is covered by every aggregate of the list, and otherwise reads a
column that does not exist (without `is_local`; with it, if some obstacle is in sight). -/
theorem C87_exact (h : Heap α) (a : Agent α) (e : Env) (rep planar : Bool) (critical power : α)
    (hl : ∀ p ∈ e.list, ∃ o, h[p]? = some o ∧ Usable h o) :
    ((∀ p ∈ e.list, ∀ o, h[p]? = some o → Covered h a.state.position o) → ∀ loc, (loc = true → HasEnvelope h a) →
      ∃ h' v, modulateVelocity h a e loc rep planar critical power = .ok (h', v)) ∧
    ((∃ p ∈ e.list, ∃ o, h[p]? = some o ∧ ¬ Covered h a.state.position o) →
      modulateVelocity h a e false rep planar critical power = .ub .indexOOB) := by
  have hne : ∀ p ∈ e.list, h ≠ [] := by
    intro p hp hn
    obtain ⟨o, ho, -⟩ := hl p hp
    rw [hn] at ho; cases ho
  have hcase : ∀ p ∈ e.list, ∀ o, h[p]? = some o →
      (Covered h a.state.position o → ∃ it, itemFor planar h a p = .ok it) ∧
      (¬ Covered h a.state.position o → itemFor planar h a p = .ub .indexOOB) := by
    intro p hp o ho
    obtain ⟨o', ho', hu⟩ := hl p hp
    rw [ho] at ho'; cases ho'
    have key : ∀ o1, Usable h o1 → (Covered h a.state.position o1 ↔ Covered h a.state.position o) →
        (Covered h a.state.position o → ∃ m, modulationMatrix h a o1 = .ok m) ∧
        (¬ Covered h a.state.position o → modulationMatrix h a o1 = .ub .indexOOB) := by
      intro o1 hu1 hc1
      refine ⟨fun hc => covered_matrix (hne p hp) hu1 (hc1.mpr hc), fun hc => ?_⟩
      simp only [modulationMatrix, uncovered_normal (hne p hp) hu1 (fun h => hc (hc1.mp h))]
      rfl
    have := key (if planar then shifted a.state.position a.state.linearVelocity o else o)
      (by split
          · exact usable_shifted _ _ hu
          · exact hu)
      (by split
          · exact covered_shifted _ _ _
          · rfl)
    refine ⟨fun hc => ?_, fun hc => ?_⟩
    · obtain ⟨m, hm⟩ := this.1 hc
      simp only [itemFor, Heap.deref, ho, Res.ok_bind, hm]
      exact ⟨_, rfl⟩
    · simp only [itemFor, Heap.deref, ho, Res.ok_bind, this.2 hc]
      rfl
  constructor
  · intro hc loc henv
    rw [modulateVelocity_eq]
    by_cases hempty : e.list.isEmpty = true
    · rw [if_pos hempty]; exact ⟨_, _, rfl⟩
    rw [if_neg hempty]
    have hsight : ∃ b, sightOf h a loc e.list = .ok b := by
      cases loc with
      | false => exact ⟨_, rfl⟩
      | true =>
        obtain ⟨q, env, h1, h2⟩ := henv rfl
        have hg : a.getEnvelope h = .ok (.ellipsoid env) := by simp [Agent.getEnvelope, h1, Heap.deref, h2]
        simp only [sightOf, hg, Res.ok_bind]
        have hyn : ∀ q ∈ e.list, ∃ o b, h[q]? = some o ∧ h.isIntersecting (.ellipsoid env) o = .ok b := by
          intro q hq
          obtain ⟨o, ho, hu⟩ := hl q hq
          refine ⟨o, ?_⟩
          obtain ⟨n, hn⟩ : ∃ n, h.fuel = n + 1 + 1 := by
            cases h with
            | nil => exact absurd rfl (hne q hq)
            | cons o h => exact ⟨h.length, rfl⟩
          unfold Heap.isIntersecting
          rw [hn]
          cases o with
          | plain b => exact hu.elim
          | hull k => exact hu.elim
          | ellipsoid el =>
            obtain ⟨b, hb⟩ := isIntersectingEllipsoid_ok env el
            exact ⟨b, ho, by simp only [Heap.isIntersectingAux, Heap.isIntersectingEllipsoid, hb]⟩
          | aggregate g =>
            obtain ⟨-, -, -, hp⟩ := hu
            rw [Heap.isIntersectingAux]
            have : ∀ (ps : List Ptr), (∀ q ∈ ps, ∃ e, h[q]? = some (.ellipsoid e)) → ∀ acc : Bool,
                ∃ b, ps.foldlM (fun acc q => if acc then Res.ok true else do
                  let oq ← h.deref q
                  Heap.isIntersectingAux (n + 1) h (.ellipsoid env) oq) acc = .ok b := by
              intro ps
              induction ps with
              | nil => exact fun _ acc => ⟨acc, rfl⟩
              | cons q ps ih =>
                intro hps acc
                rw [List.foldlM_cons]
                cases acc with
                | true => exact ih (fun q hq => hps q (by simp [hq])) true
                | false =>
                  obtain ⟨el, hel⟩ := hps q (by simp)
                  obtain ⟨b, hb⟩ := isIntersectingEllipsoid_ok env el
                  simp only [Bool.false_eq_true, if_false, Heap.deref, hel, Res.ok_bind, Heap.isIntersectingAux,
                    Heap.isIntersectingEllipsoid, hb]
                  exact ih (fun q hq => hps q (by simp [hq])) b
            obtain ⟨b, hb⟩ := this g.prims hp false
            exact ⟨b, ho, hb⟩
        by_cases hyes : ∃ q ∈ e.list, ∃ o, h[q]? = some o ∧ h.isIntersecting (.ellipsoid env) o = .ok true
        · exact ⟨true, sight_of_true hyn hyes⟩
        · refine ⟨false, sight_of_false fun q hq => ?_⟩
          obtain ⟨o, b, h3, h4⟩ := hyn q hq
          refine ⟨o, h3, ?_⟩
          cases b with
          | false => exact h4
          | true => exact absurd ⟨q, hq, o, h3, h4⟩ hyes
    obtain ⟨b, hb⟩ := hsight
    rw [hb, Res.ok_bind]
    cases b with
    | false => exact ⟨_, _, rfl⟩
    | true =>
      obtain ⟨its, hits⟩ := mapM_total (f := itemFor planar h a) (l := e.list) (by
        intro p hp
        obtain ⟨o, ho, -⟩ := hl p hp
        exact (hcase p hp o ho).1 (hc p hp o ho))
      simp only [if_true, collect_items, hits, Res.ok_bind]
      cases rep with
      | false => exact ⟨_, _, rfl⟩
      | true =>
        have : ∃ v, repulsionSum (if planar then shiftAll h a.state.position a.state.linearVelocity e.list else h) a e.list =
            .ok v := by
          have hs : SameShape h (if planar then shiftAll h a.state.position a.state.linearVelocity e.list else h) := by
            split
            · exact sameShape_shiftAll _ _ _ _
            · exact SameShape.refl h
          have hg : ∀ p ∈ e.list, ∃ o, (if planar then shiftAll h a.state.position a.state.linearVelocity e.list else h)[p]? =
              some o ∧ Usable h o ∧ Covered h a.state.position o := by
            intro p hp
            obtain ⟨o, ho, hu⟩ := hl p hp
            cases planar with
            | false => exact ⟨o, by simpa using ho, hu, hc p hp o ho⟩
            | true =>
              refine ⟨shifted a.state.position a.state.linearVelocity o, ?_, usable_shifted _ _ hu,
                (covered_shifted _ _ _).mpr (hc p hp o ho)⟩
              simp only [if_true, getElem?_shiftAll, ho, Option.map_some, hp]
          generalize (if planar then shiftAll h a.state.position a.state.linearVelocity e.list else h) = h1 at hs hg
          unfold repulsionSum
          generalize (V3.zero : V3 α) = acc
          have hne1 : ∀ p ∈ e.list, h1 ≠ [] := by
            intro p hp hn
            obtain ⟨o, ho, -⟩ := hg p hp
            rw [hn] at ho; cases ho
          generalize e.list = l at hg hne1
          induction l generalizing acc with
          | nil => exact ⟨_, rfl⟩
          | cons p l ih =>
            obtain ⟨o, ho, hu, hco⟩ := hg p (by simp)
            obtain ⟨-, -, v, hv⟩ := covered_query (hne1 p (by simp)) (usable_heap hs hu) ((covered_heap hs _).mpr hco) a.margin
              (lit 11 10)
            simp only [List.foldlM_cons, Heap.deref, ho, Res.ok_bind, hv]
            exact ih _ (fun q hq => hg q (by simp [hq])) (fun q hq => hne1 q (by simp [hq]))
        obtain ⟨v, hv⟩ := this
        simp only [repOf, hv, Res.ok_bind]
        exact ⟨_, _, rfl⟩
  · rintro ⟨p, hp, o, ho, hc⟩
    have hits : e.list.mapM (itemFor planar h a) = .ub .indexOOB := by
      refine mapM_ub (fun q hq => ?_) ⟨p, hp, (hcase p hp o ho).2 hc⟩
      obtain ⟨oq, hoq, -⟩ := hl q hq
      by_cases hcq : Covered h a.state.position oq
      · exact .inl ((hcase q hq oq hoq).1 hcq)
      · exact .inr ((hcase q hq oq hoq).2 hcq)
    rw [modulateVelocity_eq, if_neg (by rw [List.isEmpty_iff]; intro hn; rw [hn] at hp; cases hp)]
    simp only [sightOf, Res.ok_bind, if_true, collect_items, hits]
    rfl

/-- After an aggregation of ellipsoids: each new aggregate has some of them as members (with the same shape as before) and
its hulls are those of the members. -/
private theorem aggregated {h h' : Heap α} {obs l : List Ptr} (ha : Acyclic h)
    (hd : ∀ (p : Ptr) o, h[p]? = some o → Drawable o) (hm : ∀ p ∈ obs, ∃ el, h[p]? = some (.ellipsoid el))
    (hrun : Aggregation.aggregateObstacles h obs = .ok (h', l)) :
    (∀ p ∈ l, (∃ el r, h'[p]? = some (.ellipsoid el) ∧ el.base.refPos = some r) ∨
      ∃ g, h'[p]? = some (.aggregate g) ∧ HullsOf h' g) ∧
    ∀ p ∈ l, ∀ g, h'[p]? = some (.aggregate g) → ∀ q ∈ g.prims, q ∈ obs ∧ ∃ el el',
      h[q]? = some (.ellipsoid el) ∧ h'[q]? = some (.ellipsoid el') ∧
      shape (.ellipsoid el') = shape (.ellipsoid el) := by
  have hobs : ∀ p ∈ obs, p < h.length := by
    intro p hp
    obtain ⟨el, hel⟩ := hm p hp
    exact (List.getElem?_eq_some_iff.mp hel).1
  obtain ⟨aggs, rest, hsplit, -, hnew, hrest, hperm⟩ := C05_partition ha hobs hrun
  have hext : ShapeExt h h' := by
    obtain ⟨rank, hrk⟩ := exists_ranked ha
    obtain ⟨h1, aggs1, idx, hrun', hI⟩ := Aggregation.aggregateObstacles_ok hrk hobs
    rw [hrun] at hrun'; cases hrun'
    exact hI.heap.ext
  have hsame : ∀ q ∈ obs, ∃ el el', h[q]? = some (.ellipsoid el) ∧ h'[q]? = some (.ellipsoid el') ∧
      shape (.ellipsoid el') = shape (.ellipsoid el) := by
    intro q hq
    obtain ⟨el, hel⟩ := hm q hq
    have := hext.2 q (hobs q hq)
    rw [hel] at this
    cases hx' : h'[q]? with
    | none => rw [hx'] at this; simp at this
    | some o =>
      rw [hx'] at this
      simp only [Option.map_some, Option.some.injEq] at this
      cases o with
      | ellipsoid el' => exact ⟨el, el', hel, rfl, this⟩
      | _ => simp [shape, Obj.mapBase] at this
  constructor
  · intro p hp
    rw [hsplit] at hp
    rcases List.mem_append.mp hp with hp' | hp'
    · right
      exact C86_current ha hd hobs hrun (hsplit ▸ hp) (hnew p hp').1
    · left
      obtain ⟨el, el', -, h2, -⟩ := hsame p (hrest.subset hp')
      obtain ⟨r, hr⟩ := aggregate_drawable hd hrun p _ h2
      exact ⟨el', r, h2, hr⟩
  · intro p hp g hg q hq
    rw [hsplit] at hp
    have hqo : q ∈ obs := by
      rcases List.mem_append.mp hp with hp' | hp'
      · refine hperm.mem_iff.mp (List.mem_append_left _ (List.mem_flatMap.mpr ⟨p, hp', ?_⟩))
        simp only [primitives, hg]; exact hq
      · obtain ⟨el, el', -, h2, -⟩ := hsame p (hrest.subset hp')
        rw [h2] at hg; cases hg
    exact ⟨hqo, hsame q hqo⟩

/-- C87: after an update with aggregation in an environment of ellipsoids every obstacle of the list is usable. -/
theorem C87_usable {h h' : Heap α} {e e' : Env} (ha : Acyclic h) (hd : ∀ (p : Ptr) o, h[p]? = some o → Drawable o)
    (hm : ∀ x ∈ e.map, ∃ el, h[x.2]? = some (.ellipsoid el)) (hup : e.update h = .ok (h', e')) :
    ∀ p ∈ e'.list, ∃ o, h'[p]? = some o ∧ Usable h' o := by
  unfold Env.update at hup
  have hm' : ∀ p ∈ e.map.map (·.2), ∃ el, h[p]? = some (.ellipsoid el) := by
    intro p hp
    obtain ⟨x, hx, rfl⟩ := List.mem_map.mp hp
    exact hm x hx
  cases hagg : e.aggregated with
  | false =>
    simp only [hagg, Bool.false_eq_true, if_false] at hup
    cases hup
    intro p hp
    obtain ⟨el, hel⟩ := hm' p hp
    exact ⟨_, hel, hd p _ hel⟩
  | true =>
    simp only [hagg, if_true] at hup
    obtain ⟨⟨h1, l⟩, hrun, hup⟩ := Res.bind_eq_ok.mp hup
    cases hup
    obtain ⟨k1, k2⟩ := aggregated ha hd hm' hrun
    intro p hp
    rcases k1 p hp with ⟨el, r, h3, h4⟩ | ⟨g, h3, r, os, ki, ko, hr, -, ci, co, hi, ho⟩
    · exact ⟨_, h3, r, h4⟩
    · refine ⟨_, h3, ⟨r, hr⟩, (Computed.step ci hi).keeps.1, (Computed.step co ho).keeps.1, fun q hq => ?_⟩
      obtain ⟨-, el, el', -, h5, -⟩ := k2 p hp g h3 q hq
      exact ⟨el', h5⟩

end

private theorem angle_computed {b : Bool} {k k' : Hull ℝ} (hk : Computed b k) {prims : List (Oracle ℝ)} {r : V3 ℝ}
    (hc : k.compute prims r = .ok k') (x : V3 ℝ) : angleOf k' x = (⟨(x - r).x, (x - r).y⟩ : ℂ).arg := by
  have hor := (computed_nonneg (Computed.step hk hc)).1
  obtain ⟨k2, e, -, -, -, -, -, hpos, -⟩ := compute_ok hk.keeps.1 prims r
  rw [hc] at e; cases e
  unfold angleOf
  rw [inverse_apply_one hor]
  have : k'.base.pose.position = r := hpos
  rw [this]
  rfl

private theorem covered_computed {b : Bool} {k k' : Hull ℝ} (hk : Computed b k) {prims : List (Oracle ℝ)} {r : V3 ℝ}
    (hc : k.compute prims r = .ok k') {x : V3 ℝ} (hx : (⟨(x - r).x, (x - r).y⟩ : ℂ).arg ≤ Real.pi - 2 / 10000) :
    k'.column x < k'.resolution := by
  by_contra hn
  obtain ⟨⟨d, hd⟩, -⟩ := C56_defined_partial hk.keeps.1 hc x V3.zero (by rw [angle_computed hk hc]; exact hx)
  rw [((C56_exact k' (Computed.step hk hc).keeps.1 x V3.zero).2 (Nat.le_of_not_lt hn)).1] at hd
  cases hd

/-- C87, what holds: after an update with aggregation in an environment of ellipsoids, `modulate_velocity` returns
normally with all options for every agent that is not seen from the reference position of an aggregate in nearly the
direction of the negative x axis (within 2e-4 above it).
Full statement (false, see `C87_negation`): for every agent. -/
theorem C87_defined_partial {h h' : Heap ℝ} {e e' : Env} (ha : Acyclic h)
    (hd : ∀ (p : Ptr) o, h[p]? = some o → Drawable o)
    (hm : ∀ x ∈ e.map, ∃ el, h[x.2]? = some (.ellipsoid el)) (hagg : e.aggregated = true) (hup : e.update h = .ok (h', e'))
    (a : Agent ℝ) (loc rep planar : Bool) (critical power : ℝ) (henv : loc = true → HasEnvelope h' a)
    (hx : ∀ p ∈ e'.list, ∀ g r, h'[p]? = some (.aggregate g) → g.base.refPos = some r →
      (⟨(a.state.position - r).x, (a.state.position - r).y⟩ : ℂ).arg ≤ Real.pi - 2 / 10000) :
    ∃ h'' v, modulateVelocity h' a e' loc rep planar critical power = .ok (h'', v) := by
  refine (C87_exact h' a e' rep planar critical power (C87_usable ha hd hm hup)).1 (fun p hp o ho => ?_) loc henv
  have hup' := hup
  unfold Env.update at hup'
  simp only [hagg, if_true] at hup'
  obtain ⟨⟨h1, l⟩, hrun, hup'⟩ := Res.bind_eq_ok.mp hup'
  cases hup'
  have hm' : ∀ p ∈ e.map.map (·.2), ∃ el, h[p]? = some (.ellipsoid el) := by
    intro p hp
    obtain ⟨x, hx, rfl⟩ := List.mem_map.mp hp
    exact hm x hx
  obtain ⟨k1, -⟩ := aggregated ha hd hm' hrun
  rcases k1 p hp with ⟨el, r, h3, -⟩ | ⟨g, h3, r, os, ki, ko, hr, -, ci, co, hi, ho'⟩
  · have h3' : _ = _ := h3.symm.trans ho
    cases h3'; trivial
  · have h3' : _ = _ := h3.symm.trans ho
    cases h3'
    have := hx p hp g r h3 hr
    exact ⟨covered_computed co ho' this, fun _ => covered_computed ci hi this⟩

/-- C87, the negation: in every environment of unrotated ellipses, after an update with aggregation, an agent straight in the
direction of the negative x axis from the reference position of an aggregate (at any distance and height) makes
`modulate_velocity` read a column that does not exist, whatever the other obstacles, the velocity and the parameters. -/
theorem C87_negation {h h' : Heap ℝ} {e e' : Env} (ha : Acyclic h) (hd : ∀ (p : Ptr) o, h[p]? = some o → Drawable o)
    (hm : ∀ x ∈ e.map, ∃ el, h[x.2]? = some (.ellipsoid el) ∧ el.base.pose.orientation = Quat.one ∧
      (halfLengths el V3.zero).x ≠ 0 ∧ (halfLengths el V3.zero).y ≠ 0)
    (hagg : e.aggregated = true) (hup : e.update h = .ok (h', e')) {p : Ptr} (hp : p ∈ e'.list) {g : Aggregate ℝ}
    (hg : h'[p]? = some (.aggregate g)) {r : V3 ℝ} (hr : g.base.refPos = some r) (a : Agent ℝ) {t s : ℝ} (ht : 0 < t)
    (hpos : a.state.position = r + ⟨-t, 0, s⟩) (rep planar : Bool) (critical power : ℝ) :
    modulateVelocity h' a e' false rep planar critical power = .ub .indexOOB := by
  have hm0 : ∀ x ∈ e.map, ∃ el, h[x.2]? = some (.ellipsoid el) := by
    intro x hx
    obtain ⟨el, hel, -⟩ := hm x hx
    exact ⟨el, hel⟩
  refine (C87_exact h' a e' rep planar critical power (C87_usable ha hd hm0 hup)).2 ⟨p, hp, _, hg, fun hc => ?_⟩
  unfold Env.update at hup
  simp only [hagg, if_true] at hup
  obtain ⟨⟨h1, l⟩, hrun, hup⟩ := Res.bind_eq_ok.mp hup
  cases hup
  have hm' : ∀ p ∈ e.map.map (·.2), ∃ el, h[p]? = some (.ellipsoid el) := by
    intro p hp
    obtain ⟨x, hx, rfl⟩ := List.mem_map.mp hp
    exact hm0 x hx
  obtain ⟨k1, k2⟩ := aggregated ha hd hm' hrun
  rcases k1 p hp with ⟨el, r, h3, -⟩ | ⟨g', h3, r', os, ki, ko, hr', hos, ci, co, hi, ho⟩
  · have h3' : _ = _ := h3.symm.trans hg
    cases h3'
  · have h3' : _ = _ := h3.symm.trans hg
    cases h3'
    rw [hr] at hr'; cases hr'
    have hes : ∃ es : List (Ellipsoid ℝ), os = es.map Obj.ellipsoid ∧
        ∀ el ∈ es, el.base.pose.orientation = Quat.one ∧ (halfLengths el V3.zero).x ≠ 0 ∧
          (halfLengths el V3.zero).y ≠ 0 := by
      have hq := k2 p hp g hg
      clear hi ho hc
      generalize g.prims = ps at hos hq
      induction hos with
      | nil => exact ⟨[], rfl, by simp⟩
      | @cons q o ps os h6 _ ih =>
        obtain ⟨es, rfl, hes⟩ := ih fun q hq' => hq q (by simp [hq'])
        obtain ⟨hqo, el, el', h7, h8, h9⟩ := hq q (by simp)
        have h8' : _ = _ := h8.symm.trans h6
        cases h8'
        obtain ⟨x, hx, rfl⟩ := List.mem_map.mp hqo
        obtain ⟨el2, h10, h11, h12, h13⟩ := hm x hx
        rw [h7] at h10; cases h10
        refine ⟨el' :: es, rfl, fun y hy => ?_⟩
        rcases List.mem_cons.mp hy with rfl | hy
        · have h9' : { y with base := { y.base with refPos := none } } = { el with base := { el.base with refPos := none } } :=
            Obj.ellipsoid.inj h9
          have e1 : y.base.pose = el.base.pose := by
            have := congrArg (fun z : Ellipsoid ℝ => z.base.pose) h9'; exact this
          have e2 : halfLengths y V3.zero = halfLengths el V3.zero := by
            have := congrArg (fun z => halfLengths z V3.zero) h9'; exact this
          rw [e1, e2]
          exact ⟨h11, h12, h13⟩
        · exact hes y hy
    obtain ⟨es, rfl, hes⟩ := hes
    have := C56_negation co.keeps.1 (computed_nonneg co).1 es hes r (by
      rw [List.map_map] at ho; exact ho) t s ht V3.zero
    obtain ⟨⟨d, hd2⟩, -⟩ := (C56_exact g.outside (Computed.step co ho).keeps.1 a.state.position V3.zero).1 hc.1
    rw [hpos, this.1] at hd2
    cases hd2

/-- The hypotheses of `C87_defined_partial` and `C87_negation` can be met: in the scene of the needle, right and left of it. -/
example : ∃ (h' : Heap ℝ) (e' : Env) (g : Aggregate ℝ), Acyclic needleScene ∧
    (∀ (p : Ptr) o, needleScene[p]? = some o → Drawable o) ∧
    (∀ x ∈ [("a", 0), ("b", 1)], ∃ el, needleScene[x.2]? = some (.ellipsoid el) ∧ el.base.pose.orientation = Quat.one ∧
      (halfLengths el V3.zero).x ≠ 0 ∧ (halfLengths el V3.zero).y ≠ 0) ∧
    Env.update needleScene ⟨[("a", 0), ("b", 1)], true, []⟩ = .ok (h', e') ∧ e'.list = [2] ∧ h'[2]? = some (.aggregate g) ∧
    g.base.refPos = some V3.zero ∧
    (⟨((⟨1, 0, 0⟩ : V3 ℝ) - V3.zero).x, ((⟨1, 0, 0⟩ : V3 ℝ) - V3.zero).y⟩ : ℂ).arg ≤ Real.pi - 2 / 10000 ∧
    ∀ rep planar critical power,
      modulateVelocity h' (agentAt ⟨-20, 0, 0⟩ ⟨1, 0, 0⟩) e' false rep planar critical power = .ub .indexOOB := by
  obtain ⟨h', e, g, hup, hl, -, -, hg, -, hr, -⟩ := C86_negation
  have hget : ∀ (p : Ptr) o, needleScene[p]? = some o → o = .ellipsoid needle ∨ o = .ellipsoid coin := by
    intro p o ho
    have := List.mem_of_getElem? ho
    simpa [needleScene] using this
  have ha : Acyclic needleScene := acyclic_flat (by
    intro p a ha
    rcases hget p _ ha with h | h <;> cases h)
  have hd : ∀ (p : Ptr) o, needleScene[p]? = some o → Drawable o := by
    intro p o ho
    rcases hget p o ho with rfl | rfl <;> exact ⟨_, rfl⟩
  have hm : ∀ x ∈ [("a", 0), ("b", 1)], ∃ el, needleScene[x.2]? = some (.ellipsoid el) ∧ el.base.pose.orientation = Quat.one ∧
      (halfLengths el V3.zero).x ≠ 0 ∧ (halfLengths el V3.zero).y ≠ 0 := by
    intro x hx
    simp only [List.mem_cons, List.not_mem_nil, or_false] at hx
    rcases hx with rfl | rfl
    · refine ⟨needle, rfl, rfl, ?_, ?_⟩ <;> simp [halfLengths, needle, Ellipsoid.ofBase, Base.mkPos, Base.mkRef, Base.mkState,
        V3.const, V3.zero]
    · refine ⟨coin, rfl, rfl, ?_, ?_⟩ <;> simp [halfLengths, coin, Ellipsoid.ofBase, Base.mkPos, Base.mkRef, Base.mkState,
        V3.const, V3.zero]
  refine ⟨h', e, g, ha, hd, hm, hup, hl, hg, hr, ?_, fun rep planar critical power => ?_⟩
  · have : (⟨((⟨1, 0, 0⟩ : V3 ℝ) - V3.zero).x, ((⟨1, 0, 0⟩ : V3 ℝ) - V3.zero).y⟩ : ℂ) = 1 := by
      apply Complex.ext <;> simp [V3.zero]
    rw [this, Complex.arg_one]
    linarith [Real.pi_gt_three]
  · refine C87_negation ha hd hm rfl hup (by rw [hl]; simp) hg hr _ (t := 20) (s := 0) (by norm_num) ?_ rep planar critical power
    show (⟨-20, 0, 0⟩ : V3 ℝ) = V3.zero + ⟨-20, 0, 0⟩
    rw [V3.zero_add']

end DOA.Props
