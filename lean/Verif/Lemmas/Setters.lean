import Verif.Spec.Setters
import Verif.Lemmas.Heap

/-! # Lemmas on the setters -/

set_option linter.unusedSectionVars false
set_option linter.unusedSimpArgs false

namespace DOA
open DOA.Spec

variable {α : Type} [Add α] [Sub α] [Mul α] [Div α] [Neg α] [Zero α] [One α]
  [LE α] [LT α] [DecidableLE α] [DecidableLT α] [CMath α]

namespace Setters

theorem lastOf_nil {γ β : Type} (f : γ → Option β) (i : β) : lastOf f [] i = i := rfl

theorem lastOf_snoc {γ β : Type} (f : γ → Option β) (cs : List γ) (c : γ) (i : β) :
    lastOf f (cs ++ [c]) i = (f c).getD (lastOf f cs i) := by
  unfold lastOf
  rw [List.filterMap_append]
  cases hc : f c with
  | none => simp [hc]
  | some b => simp [hc]

theorem expectBase_nil (h : Heap α) (p : Ptr) (b : Base α) : expectBase h [] p b = b := rfl

theorem expectObj_nil (h : Heap α) (p : Ptr) (o : Obj α) : expectObj h [] p o = o := by cases o <;> rfl

/-- The primitives of an object. -/
def primsOf : Obj α → Option (List Ptr)
  | .aggregate a => some a.prims
  | _ => none

theorem child_iff (h : Heap α) (p q : Ptr) : Child h p q ↔ ∃ l, (h[p]?).bind primsOf = some l ∧ q ∈ l := by
  constructor
  · rintro ⟨a, ha, hq⟩
    exact ⟨a.prims, by rw [ha]; rfl, hq⟩
  · rintro ⟨l, hl, hq⟩
    rcases ho : h[p]? with _ | o
    · rw [ho] at hl; simp at hl
    · rw [ho] at hl
      cases o <;> simp [primsOf] at hl
      rename_i a
      subst hl
      exact ⟨a, ho, hq⟩

/-- `h'` has the objects of `h` with the expected values. -/
def After (h : Heap α) (cs : List (Ptr × Setter α)) (h' : Heap α) : Prop :=
  ∀ p : Ptr, h'[p]? = (h[p]?).map (expectObj h cs p)

theorem After.child {h h' : Heap α} {cs : List (Ptr × Setter α)} (ha : After h cs h') (p q : Ptr) :
    Child h' p q ↔ Child h p q := by
  rw [child_iff, child_iff, ha p]
  have : ((h[p]?).map (expectObj h cs p)).bind primsOf = (h[p]?).bind primsOf := by
    rcases h[p]? with _ | o
    · rfl
    · cases o <;> rfl
  rw [this]

theorem After.within {h h' : Heap α} {cs : List (Ptr × Setter α)} (ha : After h cs h') (p q : Ptr) :
    Within h' p q ↔ Within h p q := by
  unfold Within
  constructor
  · exact Relation.ReflTransGen.mono (fun a b => (ha.child a b).1) p q
  · exact Relation.ReflTransGen.mono (fun a b => (ha.child a b).2) p q

theorem After.length {h h' : Heap α} {cs : List (Ptr × Setter α)} (ha : After h cs h') : h'.length = h.length := by
  apply le_antisymm
  · by_contra hc
    push Not at hc
    have := ha h.length
    rw [List.getElem?_eq_getElem hc] at this
    simp at this
  · by_contra hc
    push Not at hc
    have := ha h'.length
    rw [List.getElem?_eq_getElem hc] at this
    simp at this

theorem After.acyclic {h h' : Heap α} {cs : List (Ptr × Setter α)} (ha : After h cs h') (hac : Acyclic h) : Acyclic h' := by
  obtain ⟨rank, hr⟩ := hac
  exact ⟨rank, fun p q hc => ha.length ▸ hr p q ((ha.child p q).1 hc)⟩

theorem After.callable {h h' : Heap α} {cs : List (Ptr × Setter α)} (ha : After h cs h') (c : Ptr × Setter α) :
    Callable h' c ↔ Callable h c := by
  obtain ⟨p, s⟩ := c
  cases s <;> simp only [Callable, ha.length, ha p]
  all_goals
    rcases h[p]? with _ | o
    · simp
    · cases o <;> simp [expectObj]

/-- Storing an object. -/
theorem after_set {h h' : Heap α} {cs : List (Ptr × Setter α)} (ha : After h cs h') (c : Ptr × Setter α) {o : Obj α}
    (x : Obj α) (ho : h[c.1]? = some o) (hx : x = expectObj h (cs ++ [c]) c.1 o)
    (hne : ∀ r, c.1 ≠ r → ∀ o, expectObj h (cs ++ [c]) r o = expectObj h cs r o) :
    After h (cs ++ [c]) (h'.set c.1 x) := by
  intro r
  have hl : c.1 < h'.length := by
    rw [ha.length]
    exact (List.getElem?_eq_some_iff.1 ho).1
  by_cases hr : c.1 = r
  · subst hr
    rw [List.getElem?_set_self hl, ho, hx]; rfl
  · rw [List.getElem?_set_ne hr, ha r]
    rcases h[r]? with _ | o'
    · rfl
    · simp only [Option.map_some, hne r hr o']

theorem call_after {h h' : Heap α} {cs : List (Ptr × Setter α)} (hac : Acyclic h) (ha : After h cs h')
    (c : Ptr × Setter α) (hc : Callable h c) : ∃ h'', h'.call c.1 c.2 = .ok h'' ∧ After h (cs ++ [c]) h'' := by
  obtain ⟨p, s⟩ := c
  have hlen : ∃ o, h[p]? = some o := by
    cases s with
    | axisLengths l => obtain ⟨e, he⟩ := hc; exact ⟨_, he⟩
    | curvature l => obtain ⟨e, he⟩ := hc; exact ⟨_, he⟩
    | resolution l => obtain ⟨e, he⟩ := hc; exact ⟨_, he⟩
    | _ => exact ⟨_, List.getElem?_eq_getElem hc⟩
  obtain ⟨o, ho⟩ := hlen
  have ho' : h'[p]? = some (expectObj h cs p o) := by rw [ha p, ho]; rfl
  have hd : h'.deref p = .ok (expectObj h cs p o) := by simp [Heap.deref, ho']
  by_cases href : ∃ v, s = .reference v
  · obtain ⟨v, rfl⟩ := href
    obtain ⟨rank, hr⟩ := exists_ranked (ha.acyclic hac)
    have hp' : p < h'.length := (List.getElem?_eq_some_iff.1 ho').1
    refine ⟨_, setRef_eq hr hp' v, ?_⟩
    intro r
    by_cases hw : Within h' p r
    · rw [markRef_pos hw, ha r]
      have hw' : Within h p r := (ha.within p r).1 hw
      rcases h[r]? with _ | o'
      · rfl
      · cases o' <;>
          simp [expectObj, expectBase, lastOf_snoc, nameBy, positionBy, orientationBy, linearBy, angularBy, referenceBy,
            axisBy, curvatureBy, resolutionBy, surfaceBy, hw', Obj.mapBase, Base.setRef]
    · rw [markRef_neg hw, ha r]
      have hw' : ¬ Within h p r := fun x => hw ((ha.within p r).2 x)
      rcases h[r]? with _ | o'
      · rfl
      · cases o' <;>
          simp [expectObj, expectBase, lastOf_snoc, nameBy, positionBy, orientationBy, linearBy, angularBy, referenceBy,
            axisBy, curvatureBy, resolutionBy, surfaceBy, hw']
  · have hne : ∀ r, p ≠ r → ∀ o, expectObj h (cs ++ [(p, s)]) r o = expectObj h cs r o := by
      intro r hpr o'
      cases s with
      | reference v => exact absurd ⟨v, rfl⟩ href
      | _ =>
        cases o' <;>
          simp [expectObj, expectBase, lastOf_snoc, nameBy, positionBy, orientationBy, linearBy, angularBy, referenceBy,
            axisBy, curvatureBy, resolutionBy, surfaceBy, hpr]
    cases s with
    | reference v => exact absurd ⟨v, rfl⟩ href
    | axisLengths l =>
      obtain ⟨e, he⟩ := hc
      obtain rfl : o = .ellipsoid e := by rw [ho] at he; exact Option.some.inj he
      refine ⟨_, by simp only [Heap.call, hd, Res.ok_bind, expectObj]; rfl, after_set ha (p, _) _ ho ?_ hne⟩
      simp [expectObj, expectBase, lastOf_snoc, nameBy, positionBy, orientationBy, linearBy, angularBy, referenceBy,
        axisBy, curvatureBy, resolutionBy, surfaceBy]
    | curvature l =>
      obtain ⟨e, he⟩ := hc
      obtain rfl : o = .ellipsoid e := by rw [ho] at he; exact Option.some.inj he
      refine ⟨_, by simp only [Heap.call, hd, Res.ok_bind, expectObj]; rfl, after_set ha (p, _) _ ho ?_ hne⟩
      simp [expectObj, expectBase, lastOf_snoc, nameBy, positionBy, orientationBy, linearBy, angularBy, referenceBy,
        axisBy, curvatureBy, resolutionBy, surfaceBy]
    | resolution l =>
      obtain ⟨e, he⟩ := hc
      obtain rfl : o = .hull e := by rw [ho] at he; exact Option.some.inj he
      refine ⟨_, by simp only [Heap.call, hd, Res.ok_bind, expectObj]; rfl, after_set ha (p, _) _ ho ?_ hne⟩
      simp [expectObj, expectBase, lastOf_snoc, nameBy, positionBy, orientationBy, linearBy, angularBy, referenceBy,
        axisBy, curvatureBy, resolutionBy, surfaceBy, Hull.setResolution, V3.zero]
    | _ =>
      refine ⟨_, by simp only [Heap.call, Heap.onBase, hd, Res.ok_bind]; rfl, after_set ha (p, _) _ ho ?_ hne⟩
      cases o <;>
        simp [expectObj, expectBase, lastOf_snoc, nameBy, positionBy, orientationBy, linearBy, angularBy, referenceBy,
          axisBy, curvatureBy, resolutionBy, surfaceBy, Obj.mapBase, Base.setName, Base.setPose, Base.setPosition,
          Base.setOrientation, Base.setLinearVelocity, Base.setAngularVelocity, State.setPose, State.setPosition,
          State.setOrientation, State.setLinearVelocity, State.setAngularVelocity, Pose.setPosition, Pose.setOrientation]

theorem callable_of_call {h h' : Heap α} {c : Ptr × Setter α} (hc : h.call c.1 c.2 = .ok h') : Callable h c := by
  obtain ⟨p, s⟩ := c
  have key : ∃ o, h.deref p = .ok o := by
    cases s with
    | reference v =>
      simp only [Heap.call, Heap.setRef, Heap.fuel, Heap.setRefAux] at hc
      obtain ⟨o, ho, -⟩ := Res.bind_eq_ok.1 hc
      exact ⟨o, ho⟩
    | _ =>
      simp only [Heap.call, Heap.onBase] at hc
      obtain ⟨o, ho, -⟩ := Res.bind_eq_ok.1 hc
      exact ⟨o, ho⟩
  obtain ⟨o, hd⟩ := key
  have ho : h[p]? = some o := by
    unfold Heap.deref at hd
    split at hd
    · rename_i x hx; rw [hx]; exact congrArg some (Res.ok.inj hd)
    · cases hd
  have hl : p < h.length := (List.getElem?_eq_some_iff.1 ho).1
  cases s with
  | axisLengths l =>
    simp only [Heap.call, hd, Res.ok_bind] at hc
    cases o with
    | ellipsoid e => exact ⟨e, ho⟩
    | _ => cases hc
  | curvature l =>
    simp only [Heap.call, hd, Res.ok_bind] at hc
    cases o with
    | ellipsoid e => exact ⟨e, ho⟩
    | _ => cases hc
  | resolution l =>
    simp only [Heap.call, hd, Res.ok_bind] at hc
    cases o with
    | hull e => exact ⟨e, ho⟩
    | _ => cases hc
  | _ => exact hl

theorem calls_after {h : Heap α} (hac : Acyclic h) (ds : List (Ptr × Setter α)) : ∀ {h' : Heap α} {cs : List (Ptr × Setter α)},
    After h cs h' → (∀ c ∈ ds, Callable h c) → ∃ h'', h'.calls ds = .ok h'' ∧ After h (cs ++ ds) h'' := by
  induction ds with
  | nil => intro h' cs ha _; exact ⟨h', rfl, by simpa using ha⟩
  | cons c ds ih =>
    intro h' cs ha hcs
    obtain ⟨h1, e1, a1⟩ := call_after hac ha c (hcs c (by simp))
    obtain ⟨h2, e2, a2⟩ := ih a1 (fun d hd => hcs d (by simp [hd]))
    refine ⟨h2, ?_, by simpa using a2⟩
    simp only [Heap.calls, e1, Res.ok_bind, e2]

theorem callable_of_calls {h : Heap α} (hac : Acyclic h) (ds : List (Ptr × Setter α)) : ∀ {h' h'' : Heap α} {cs : List (Ptr × Setter α)},
    After h cs h' → h'.calls ds = .ok h'' → ∀ c ∈ ds, Callable h c := by
  induction ds with
  | nil => intro h' h'' cs _ _ c hc; simp at hc
  | cons c ds ih =>
    intro h' h'' cs ha e d hd
    simp only [Heap.calls] at e
    obtain ⟨h1, e1, e2⟩ := Res.bind_eq_ok.1 e
    have hc := (ha.callable c).1 (callable_of_call e1)
    obtain ⟨h1', e1', a1⟩ := call_after hac ha c hc
    rw [e1] at e1'
    cases e1'
    rcases List.mem_cons.1 hd with rfl | hd
    · exact hc
    · exact ih a1 e2 d hd

/-- Calls on another object write nothing. -/
structure Silent (h : Heap α) (p : Ptr) (c : Ptr × Setter α) : Prop where
  name : nameBy p c = none
  position : positionBy p c = none
  orientation : orientationBy p c = none
  linear : linearBy p c = none
  angular : angularBy p c = none
  reference : referenceBy h p c = none
  axis : axisBy p c = none
  curvature : curvatureBy p c = none
  resolution : resolutionBy p c = none
  surface : surfaceBy p c = none

theorem silent_of_ne (h : Heap α) {p : Ptr} {c : Ptr × Setter α} (hne : c.1 ≠ p)
    (hw : (∃ v, c.2 = .reference v) → ¬ Within h c.1 p) : Silent h p c := by
  obtain ⟨q, s⟩ := c
  have hne : q ≠ p := hne
  cases s with
  | reference v =>
    refine ⟨rfl, rfl, rfl, rfl, rfl, ?_, rfl, rfl, rfl, rfl⟩
    simp only [referenceBy, if_neg (hw ⟨v, rfl⟩)]
  | _ => constructor <;> simp [nameBy, positionBy, orientationBy, linearBy, angularBy, referenceBy,
            axisBy, curvatureBy, resolutionBy, surfaceBy, hne]

/-- Calls that write nothing can be left out. -/
theorem expectObj_congr {h : Heap α} {p : Ptr} {cs ds : List (Ptr × Setter α)}
    (hl : ∀ {β : Type} (f : Ptr × Setter α → Option β), (∀ c, Silent h p c → f c = none) → cs.filterMap f = ds.filterMap f)
    (o : Obj α) : expectObj h cs p o = expectObj h ds p o := by
  have k1 := hl (nameBy p) fun _ x => x.name
  have k2 := hl (positionBy p) fun _ x => x.position
  have k3 := hl (orientationBy p) fun _ x => x.orientation
  have k4 := hl (linearBy p) fun _ x => x.linear
  have k5 := hl (angularBy p) fun _ x => x.angular
  have k6 := hl (referenceBy h p) fun _ x => x.reference
  have k7 := hl (axisBy p) fun _ x => x.axis
  have k8 := hl (curvatureBy p) fun _ x => x.curvature
  have k9 := hl (resolutionBy p) fun _ x => x.resolution
  have k10 := hl (surfaceBy p) fun _ x => x.surface
  cases o <;> simp only [expectObj, expectBase, lastOf, k1, k2, k3, k4, k5, k6, k7, k8, k9, k10]

end Setters
end DOA
