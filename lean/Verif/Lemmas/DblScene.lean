import Verif.Lemmas.DblUpdate
import Verif.Lemmas.DblCollect
import Verif.Lemmas.Order

/-!
# Transfer between ideal doubles and reals: scenes with aggregates
-/

set_option linter.unusedSectionVars false
set_option linter.unusedSimpArgs false

namespace DOA
open Dbl Spec Origin Modulation

theorem pointIsInsideAux_toD {h : Heap ℝ} (l : Solids h) (x : V3 ℝ) : ∀ (n : Nat) (o : Obj ℝ), SolidO o →
    Heap.pointIsInsideAux n h.toD o.toD x.toD = Heap.pointIsInsideAux n h o x := by
  intro n
  induction n with
  | zero => intros; rfl
  | succ n ih =>
    intro o ho
    cases o with
    | plain b => rfl
    | ellipsoid e => exact congrArg Res.ok (Ellipsoid.toD_pointIsInside ho.1 ho.2 x)
    | hull k => exact hullInside_toD k x
    | aggregate a =>
      simp only [Obj.toD, Aggregate.toD, Heap.pointIsInsideAux, hullInside_toD]
      cases a.outside.pointIsInside x with
      | throw x => rfl
      | ub u => rfl
      | ok b =>
        cases b with
        | true => rfl
        | false =>
          simp only [Res.ok_bind, Bool.false_eq_true, if_false]
          generalize false = acc
          induction a.prims generalizing acc with
          | nil => rfl
          | cons q ps ihl =>
            simp only [List.foldlM_cons, deref_toD]
            cases hq : h.deref q with
            | throw x => rfl
            | ub u => rfl
            | ok oq =>
              simp only [Res.map_ok, Res.ok_bind, ih oq (l q oq (get_of_deref hq))]
              cases Heap.pointIsInsideAux n h oq x with
              | throw x => rfl
              | ub u => rfl
              | ok b =>
                have := ihl (acc || b)
                simp only [deref_toD] at this
                exact this

theorem pointIsInside_toD {h : Heap ℝ} (l : Solids h) (x : V3 ℝ) {o : Obj ℝ} (ho : SolidO o) :
    h.toD.pointIsInside o.toD x.toD = h.pointIsInside o x := by
  unfold Heap.pointIsInside
  rw [fuel_toD]
  exact pointIsInsideAux_toD l x _ o ho

theorem Clear.divides {k : Hull ℝ} {x : V3 ℝ} (c : Clear k x) : Divides k x := by
  unfold Divides
  split
  · exact c.off
  · exact c.radii

theorem Clear.distance {k : Hull ℝ} {x m : V3 ℝ} (c : Clear k x) {d : ℝ} (hd : k.distanceToPoint x m = .ok d) : d ≠ 0 := by
  unfold Hull.distanceToPoint at hd
  obtain ⟨r, hr, hd⟩ := Res.bind_eq_ok.mp hd
  obtain ⟨s, hs, hd⟩ := Res.bind_eq_ok.mp hd
  have hr' : r.1 = MathTools.cartesianToPolar (k.base.pose.inverse.apply x) := by
    unfold Hull.closest at hr
    obtain ⟨_, _, h⟩ := Res.bind_eq_ok.mp hr
    cases h; rfl
  have hs' : s ∈ k.polar := by
    unfold Res.index at hs
    split at hs
    · rename_i b hb
      injection hs with hs
      subst hs
      exact List.mem_of_getElem? hb
    · cases hs
  have h1 := c.radii s hs'
  have h2 := polar_x_ne c.off
  rw [← hr'] at h2
  split at hd <;> cases hd
  · exact div_ne_zero h1 h2
  · exact div_ne_zero h2 h1

theorem Kind.solid {planar : Bool} {a : Agent ℝ} {o : Obj ℝ} (k : Kind planar a o) : SolidO o := by
  cases o with
  | ellipsoid e => exact k.2.1
  | _ => trivial

theorem normalToAgent_toD {h : Heap ℝ} (l : Solids h) {a : Agent ℝ} {planar : Bool} {o : Obj ℝ} (k : Kind planar a o) :
    h.toD.normalToAgent o.toD a.toD.state.position a.toD.margin = V3.toD <$> h.normalToAgent o a.state.position a.margin := by
  cases o with
  | plain b => rfl
  | ellipsoid e => exact congrArg Res.ok (Ellipsoid.toD_normalToAgent k.1 _ _)
  | hull k' => exact hullNormal_toD k' _
  | aggregate g =>
    have hi := pointIsInside_toD l a.state.position (o := .aggregate g) trivial
    simp only [Obj.toD] at hi
    simp only [Obj.toD, Heap.normalToAgent, Agent.toD_state, State.toD_position, hi]
    cases h.pointIsInside (.aggregate g) a.state.position with
    | throw x => rfl
    | ub u => rfl
    | ok b => cases b <;> exact hullNormal_toD _ _

theorem distanceToAgent_toD {h : Heap ℝ} (l : Solids h) {a : Agent ℝ} {planar : Bool} {o : Obj ℝ} (k : Kind planar a o) :
    h.toD.distanceToAgent o.toD a.toD.state.position a.toD.margin = fin <$> h.distanceToAgent o a.state.position a.margin := by
  unfold Heap.distanceToAgent
  cases o with
  | plain b => rfl
  | ellipsoid e => exact congrArg Res.ok (Ellipsoid.toD_distanceToPoint k.1 a.state.position (V3.const a.margin))
  | hull k' => exact hullDistance_toD k.divides (V3.const a.margin) (V3.const a.toD.margin)
  | aggregate g =>
    have hi := pointIsInside_toD l a.state.position (o := .aggregate g) trivial
    simp only [Obj.toD] at hi
    simp only [Obj.toD, Heap.distanceToPoint, Agent.toD_state, State.toD_position, hi]
    cases h.pointIsInside (.aggregate g) a.state.position with
    | throw x => rfl
    | ub u => rfl
    | ok b =>
      cases b
      · exact hullDistance_toD k.2.divides (V3.const a.margin) (V3.const a.toD.margin)
      · exact hullDistance_toD k.1.divides (V3.const a.margin) (V3.const a.toD.margin)

theorem distance_ne {h : Heap ℝ} {g : Aggregate ℝ} {x m : V3 ℝ} (c1 : Clear g.inside x) (c2 : Clear g.outside x) {d : ℝ}
    (hd : h.distanceToPoint (.aggregate g) x m = .ok d) : d ≠ 0 := by
  simp only [Heap.distanceToPoint] at hd
  obtain ⟨b, -, hd⟩ := Res.bind_eq_ok.mp hd
  cases b
  · exact c2.distance (m := m) hd
  · exact c1.distance (m := m) hd

/-! ## matrices -/

theorem base_toD (o : Obj ℝ) : o.toD.base = o.base.toD := by cases o <;> rfl

theorem modulationMatrix_toD {h : Heap ℝ} (l : Solids h) {a : Agent ℝ} {planar : Bool} {o : Obj ℝ} (k : Kind planar a o)
    (u : Upright h a o) : modulationMatrix h.toD a.toD o.toD =
      (fun m : M3 ℝ × M3 ℝ × ℝ => (m.1.toD, m.2.1.toD, fin m.2.2)) <$> modulationMatrix h a o := by
  unfold modulationMatrix
  rw [normalToAgent_toD l k, distanceToAgent_toD l k]
  cases hn : h.normalToAgent o a.state.position a.margin with
  | throw x => rfl
  | ub u => rfl
  | ok n =>
    simp only [Res.map_ok, Res.ok_bind]
    cases h.distanceToAgent o a.state.position a.margin with
    | throw x => rfl
    | ub u => rfl
    | ok d =>
      simp only [Res.map_ok, Res.ok_bind, basisMatrices, base_toD, ref_toD]
      unfold Base.ref
      cases hr : o.base.refPos with
      | none => rfl
      | some ref =>
        have hdet := u n ref hn hr
        simp only [Res.map_ok, Res.ok_bind, Agent.toD_state, State.toD_position, Base.toD_pose, toD_referenceDirection,
          toD_referenceBasis, toD_orthogonalBasis, toD_eigenvalues, Base.toD_orientation, toD_product _ hdet]

theorem stage_toD' {planar : Bool} {a : Agent ℝ} {o : Obj ℝ} (k : Kind planar a o) :
    stage planar a.toD o.toD = (stage planar a o).toD := by
  cases planar with
  | false => rfl
  | true =>
    cases o with
    | plain b => rfl
    | hull b => rfl
    | aggregate b => rfl
    | ellipsoid el =>
      simp only [stage, if_true, shifted, Obj.toD, Agent.toD_state, State.toD_position, State.toD_lin, V3.toD_add,
        Ellipsoid.toD_intersectionPoints k.2.1.1 k.2.1.2 (k.2.2 rfl)]
      split
      · simp only [Obj.toD, Ellipsoid.toD, Base.toD, Base.setRef, V3.toD_add, Option.map_some]
        rw [lit_def, V3.toD_sdiv _ (by norm_num)]
        rfl
      · rfl

theorem Kind.stage {planar : Bool} {a : Agent ℝ} {o : Obj ℝ} (k : Kind planar a o) : Kind planar a (stage planar a o) := by
  cases planar with
  | false => exact k
  | true =>
    cases o with
    | plain b => exact k
    | hull b => exact k
    | aggregate b => exact k
    | ellipsoid el =>
      simp only [Modulation.stage, if_true, shifted]
      split
      · exact ⟨k.1, k.2.1, k.2.2⟩
      · exact k

theorem stageItem_toD' {planar : Bool} {h : Heap ℝ} (l : Solids h) {a : Agent ℝ} {p : Ptr}
    (hp : ∀ o, h[p]? = some o → Kind planar a o ∧ Upright h a (stage planar a o)) :
    stageItem planar h.toD a.toD p = Item.toD <$> stageItem planar h a p := by
  unfold stageItem
  rw [deref_toD]
  cases ho : h.deref p with
  | throw x => rfl
  | ub u => rfl
  | ok o =>
    obtain ⟨k, u⟩ := hp o (get_of_deref ho)
    simp only [Res.map_ok, Res.ok_bind, stage_toD' k, modulationMatrix_toD l k.stage u, base_toD]
    cases modulationMatrix h a (stage planar a o) with
    | throw x => rfl
    | ub u => rfl
    | ok m => rfl

theorem mapM_map' {β γ δ : Type} {f : β → Res γ} {g : β → Res δ} {t : γ → δ} {l : List β}
    (h : ∀ b ∈ l, g b = t <$> f b) : l.mapM g = List.map t <$> l.mapM f := by
  induction l with
  | nil => rfl
  | cons b l ih =>
    rw [List.mapM_cons, List.mapM_cons, h b List.mem_cons_self, ih fun b hb => h b (List.mem_cons_of_mem _ hb)]
    cases f b with
    | throw x => rfl
    | ub u => rfl
    | ok c => cases l.mapM f <;> rfl

theorem stageHeap_toD' {planar : Bool} {h : Heap ℝ} {a : Agent ℝ} {l : List Ptr}
    (hk : ∀ p ∈ l, ∀ o, h[p]? = some o → Kind planar a o) :
    stageHeap planar a.toD h.toD l = (stageHeap planar a h l).toD := by
  cases planar with
  | false => rfl
  | true =>
    apply List.ext_getElem?
    intro r
    rw [Heap.getElem?_toD]
    simp only [stageHeap, if_true, getElem?_shiftAll, Heap.getElem?_toD, Option.map_map]
    cases ho : h[r]? with
    | none => rfl
    | some o =>
      simp only [Option.map_some, Function.comp_apply]
      by_cases hr : r ∈ l
      · simp only [hr, if_true]
        exact congrArg some (stage_toD' (hk r hr o ho))
      · simp only [hr, if_false]

theorem solid_shifted {o : Obj ℝ} (h : SolidO o) (x v : V3 ℝ) : SolidO (shifted x v o) := by
  cases o with
  | ellipsoid el =>
    simp only [shifted]
    split <;> exact h
  | _ => trivial

theorem Solids.stageHeap {planar : Bool} {h : Heap ℝ} (s : Solids h) (a : Agent ℝ) (l : List Ptr) :
    Solids (stageHeap planar a h l) := by
  cases planar with
  | false => exact s
  | true =>
    intro p o ho
    simp only [Modulation.stageHeap, if_true, getElem?_shiftAll] at ho
    obtain ⟨o', h1, h2⟩ := Option.map_eq_some_iff.mp ho
    split at h2
    · rw [← h2]; exact solid_shifted (s p o' h1) _ _
    · rw [← h2]; exact s p o' h1

/-! ## repulsion -/

/-- What the repulsion needs: a distance that is not zero. -/
def Apart (a : Agent ℝ) (o : Obj ℝ) : Prop :=
  ∀ el, o = .ellipsoid el → el.distanceToPoint a.state.position (V3.const a.margin) ≠ 0

theorem generateRepulsion_toD {h : Heap ℝ} (l : Solids h) {a : Agent ℝ} {planar : Bool} {o : Obj ℝ} (k : Kind planar a o)
    (hap : Apart a o) :
    h.toD.generateRepulsion o.toD a.toD.state.position a.toD.margin (lit 11 10) =
      V3.toD <$> h.generateRepulsion o a.state.position a.margin (lit 11 10) := by
  unfold Heap.generateRepulsion
  rw [distanceToAgent_toD l k]
  cases hd : h.distanceToAgent o a.state.position a.margin with
  | throw x => rfl
  | ub u => rfl
  | ok d =>
    simp only [Res.map_ok, Res.ok_bind]
    by_cases hlt : d < lit 11 10
    · rw [if_pos hlt, if_pos (show fin d < (lit 11 10 : Dbl) from hlt)]
      cases o with
      | plain b => rfl
      | hull b => rfl
      | ellipsoid el =>
        have hd0 := hap el rfl
        simp only [Obj.toD, Heap.repulsionVector, Ellipsoid.repulsionVector, Ellipsoid.toD_base, ref_toD]
        cases el.base.ref with
        | throw x => rfl
        | ub u => rfl
        | ok ref =>
          simp only [Res.map_ok, Res.ok_bind, Ellipsoid.repulsionFactor, Agent.toD_state, State.toD_position, Agent.toD_margin,
            V3.toD_const, Ellipsoid.toD_distanceToPoint k.1, lit_def, fin_div hd0, V3.toD_sub, V3.toD_smul]
          rfl
      | aggregate g =>
        have hi := pointIsInside_toD l a.state.position (o := .aggregate g) trivial
        have hdist := distanceToAgent_toD l k
        have hd0 : d ≠ 0 := distance_ne k.1 k.2 hd
        simp only [Heap.distanceToAgent] at hd hdist
        simp only [Obj.toD] at hi hdist
        simp only [Obj.toD, Heap.repulsionVector, Heap.repulsionFactor, hdist, hd, Res.map_ok, Res.ok_bind, show g.toD.base = g.base.toD from rfl,
          ref_toD]
        cases g.base.ref with
        | throw x => rfl
        | ub u => rfl
        | ok ref =>
          simp only [Res.map_ok, Res.ok_bind, Agent.toD_state, State.toD_position, hi]
          cases h.pointIsInside (.aggregate g) a.state.position with
          | throw x => rfl
          | ub u => rfl
          | ok b =>
            simp only [Res.ok_bind, lit_def, fin_div hd0, V3.toD_sub, V3.toD_smul, V3.toD_neg, Res.map_ok]
            cases b <;> rfl
    · rw [if_neg hlt, if_neg (show ¬ fin d < (lit 11 10 : Dbl) from hlt)]
      rfl

theorem repulsionSum_toD {h : Heap ℝ} (s : Solids h) {a : Agent ℝ} {planar : Bool} (l : List Ptr)
    (hl : ∀ p ∈ l, ∀ o, h[p]? = some o → Kind planar a o ∧ Apart a o) :
    repulsionSum h.toD a.toD l = V3.toD <$> repulsionSum h a l := by
  unfold repulsionSum
  rw [V3.toD_zero]
  generalize (V3.zero : V3 ℝ) = acc
  induction l generalizing acc with
  | nil => rfl
  | cons p l ih =>
    simp only [List.foldlM_cons, deref_toD]
    cases hp : h.deref p with
    | throw x => rfl
    | ub u => rfl
    | ok o =>
      obtain ⟨k, hap⟩ := hl p List.mem_cons_self o (get_of_deref hp)
      simp only [Res.map_ok, Res.ok_bind, generateRepulsion_toD s k hap]
      cases h.generateRepulsion o a.state.position a.margin (lit 11 10) with
      | throw x => rfl
      | ub u => rfl
      | ok v =>
        have := ih (fun q hq => hl q (List.mem_cons_of_mem _ hq)) (acc + v)
        simp only [deref_toD] at this
        simp only [Res.map_ok, Res.ok_bind, V3.toD_add]
        exact this

theorem isIntersectingList_toD {h : Heap ℝ} (s : Solids h) {o : Obj ℝ} (ho : SolidO o) (l : List Ptr) :
    h.toD.isIntersectingList o.toD l = h.isIntersectingList o l := by
  unfold Heap.isIntersectingList
  generalize false = acc
  induction l generalizing acc with
  | nil => rfl
  | cons p l ih =>
    simp only [List.foldlM_cons, deref_toD]
    simp only [deref_toD] at ih
    cases acc with
    | true => simp only [if_true, Res.ok_bind]; exact ih true
    | false =>
      simp only [Bool.false_eq_true, if_false]
      cases hp : h.deref p with
      | throw x => rfl
      | ub u => rfl
      | ok oq =>
        simp only [Res.map_ok, Res.ok_bind, isIntersecting_toD s ho (s p oq (get_of_deref hp))]
        cases h.isIntersecting o oq with
        | throw x => rfl
        | ub u => rfl
        | ok b => exact ih b

theorem sightOf_toD {h : Heap ℝ} (s : Solids h) (a : Agent ℝ) (loc : Bool) (l : List Ptr) :
    sightOf h.toD a.toD loc l = sightOf h a loc l := by
  cases loc with
  | false => rfl
  | true =>
    simp only [sightOf, Agent.getEnvelope, show a.toD.envelope = a.envelope from rfl]
    cases a.envelope with
    | none => rfl
    | some q =>
      simp only [deref_toD]
      cases hq : h.deref q with
      | throw x => rfl
      | ub u => rfl
      | ok o => exact isIntersectingList_toD s (s q o (get_of_deref hq)) l

theorem finish_toD (r : Option (V3 ℝ)) (mv : V3 ℝ) : finish (r.map V3.toD) mv.toD = (finish r mv).toD := by
  cases r with
  | none => simp [finish, V3.hasNaN]
  | some r =>
    simp only [finish, Option.map_some, V3.toD_norm, V3.toD_add]
    by_cases hr : lit 1 10000 < r.norm
    · rw [if_pos hr, if_pos (show (lit 1 10000 : Dbl) < fin _ from hr)]
      simp [V3.hasNaN]
    · rw [if_neg hr, if_neg (show ¬ (lit 1 10000 : Dbl) < fin _ from hr)]
      simp [V3.hasNaN]

theorem modulateVelocity_toD {h : Heap ℝ} (s : Solids h) (a : Agent ℝ) (e : Env) (loc rep planar : Bool) (critical power : ℝ)
    (hl : ∀ p ∈ e.list, ∀ o, h[p]? = some o → Kind planar a o ∧ Upright h a (stage planar a o) ∧ Apart a (stage planar a o)) :
    modulateVelocity h.toD a.toD e loc rep planar (fin critical) (fin power) =
      (fun r : Heap ℝ × V3 ℝ => (r.1.toD, r.2.toD)) <$> modulateVelocity h a e loc rep planar critical power := by
  rw [modulateVelocity_eq, modulateVelocity_eq]
  by_cases hempty : e.list.isEmpty = true
  · rw [if_pos hempty, if_pos hempty]; rfl
  rw [if_neg hempty, if_neg hempty, sightOf_toD s]
  cases sightOf h a loc e.list with
  | throw x => rfl
  | ub u => rfl
  | ok b =>
    cases b with
    | false => rfl
    | true =>
      have hst := mapM_map' (f := stageItem planar h a) (g := stageItem planar h.toD a.toD) (t := Item.toD) (l := e.list)
        fun p hp => stageItem_toD' s fun o ho => ⟨(hl p hp o ho).1, (hl p hp o ho).2.1⟩
      simp only [Res.ok_bind, if_true, collect_stage, hst, stageHeap_toD' fun p hp o ho => (hl p hp o ho).1]
      cases e.list.mapM (stageItem planar h a) with
      | throw x => rfl
      | ub u => rfl
      | ok its =>
        simp only [Res.map_ok, Res.ok_bind, Agent.toD_state, State.toD_position, State.toD_lin, toD_combine]
        cases rep with
        | false =>
          simp only [repOf, Res.ok_bind]
          have := finish_toD none (combine a.state.position a.state.linearVelocity its critical power)
          simp only [Option.map_none] at this
          rw [this]
          rfl
        | true =>
          have hr : repulsionSum (stageHeap planar a h e.list).toD a.toD e.list =
              V3.toD <$> repulsionSum (stageHeap planar a h e.list) a e.list := by
            apply repulsionSum_toD (planar := planar) (s.stageHeap a _)
            intro p hp o ho
            rw [getElem?_stageHeap _ _ _ hp] at ho
            obtain ⟨o', h1, h2⟩ := Option.map_eq_some_iff.mp ho
            obtain ⟨k, -, hap⟩ := hl p hp o' h1
            rw [← h2]
            exact ⟨k.stage, hap⟩
          simp only [repOf, hr]
          cases repulsionSum (stageHeap planar a h e.list) a e.list with
          | throw x => rfl
          | ub u => rfl
          | ok r =>
            simp only [Res.map_ok, Res.ok_bind]
            have := finish_toD (some r) (combine a.state.position a.state.linearVelocity its critical power)
            simp only [Option.map_some] at this
            rw [this]

end DOA
