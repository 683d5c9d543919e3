import Verif.Props.Order

/-!
# C61: `modulate_velocity` always returns on initialised ellipsoids
-/

set_option linter.unusedSectionVars false
set_option linter.unusedSimpArgs false

namespace DOA.Props
open DOA DOA.Spec DOA.Modulation

section
variable {α : Type} [Add α] [Sub α] [Mul α] [Div α] [Neg α] [Zero α] [One α]
  [LE α] [LT α] [DecidableLE α] [DecidableLT α] [CMath α]

/-- All listed obstacles are live ellipsoids with an initialised reference position. -/
def Ready (h : Heap α) (l : List Ptr) : Prop :=
  ∀ p ∈ l, ∃ el ref, h[p]? = some (.ellipsoid el) ∧ el.base.refPos = some ref

/-- The envelope of the agent is a live ellipsoid (true for every agent that was not copied). -/
def HasEnvelope (h : Heap α) (a : Agent α) : Prop := ∃ q env, a.envelope = some q ∧ h[q]? = some (.ellipsoid env)

theorem mapM_total {β γ : Type} {f : β → Res γ} {l : List β} (hf : ∀ b ∈ l, ∃ c, f b = .ok c) :
    ∃ r, l.mapM f = .ok r := by
  induction l with
  | nil => exact ⟨[], rfl⟩
  | cons b l ih =>
    obtain ⟨c, hc⟩ := hf b List.mem_cons_self
    obtain ⟨r, hr⟩ := ih fun b hb => hf b (List.mem_cons_of_mem _ hb)
    exact ⟨c :: r, by rw [List.mapM_cons, hc, hr]; rfl⟩

theorem matrix_total (h : Heap α) (a : Agent α) {el : Ellipsoid α} {ref : V3 α} (hr : el.base.refPos = some ref) :
    ∃ m, modulationMatrix h a (.ellipsoid el) = .ok m := by
  simp only [modulationMatrix, Heap.normalToAgent, Heap.distanceToAgent, Heap.distanceToPoint, Res.ok_bind,
    basisMatrices, Base.ref, Obj.base, hr]
  exact ⟨_, rfl⟩

theorem shifted_ready (x v : V3 α) {el : Ellipsoid α} {ref : V3 α} (hr : el.base.refPos = some ref) :
    ∃ el' ref', shifted x v (.ellipsoid el) = .ellipsoid el' ∧ el'.base.refPos = some ref' := by
  simp only [shifted]
  split
  · exact ⟨_, _, rfl, rfl⟩
  · exact ⟨el, ref, rfl, hr⟩

theorem collect_total {h : Heap α} (planar : Bool) (a : Agent α) {l : List Ptr} (hl : Ready h l) :
    ∃ r, collect planar a h l = .ok r ∧ Ready r.1 l := by
  cases planar with
  | true =>
    rw [collect_true]
    obtain ⟨its, hits⟩ := mapM_total (f := shiftedItem h a) (l := l) (by
      intro p hp
      obtain ⟨el, ref, h1, h2⟩ := hl p hp
      obtain ⟨el', ref', h3, h4⟩ := shifted_ready a.state.position a.state.linearVelocity h2
      obtain ⟨m, hm⟩ := matrix_total h a h4
      simp only [shiftedItem, Heap.deref, h1, Res.ok_bind, h3, hm]
      exact ⟨_, rfl⟩)
    refine ⟨_, by rw [hits]; rfl, fun p hp => ?_⟩
    obtain ⟨el, ref, h1, h2⟩ := hl p hp
    obtain ⟨el', ref', h3, h4⟩ := shifted_ready a.state.position a.state.linearVelocity h2
    exact ⟨el', ref', by simp only [getElem?_shiftAll, h1, Option.map_some, hp, if_true, h3], h4⟩
  | false =>
    suffices hs : ∃ r, collect false a h l = .ok r by
      obtain ⟨r, hr⟩ := hs
      refine ⟨r, hr, ?_⟩
      rw [collect_unchanged _ _ _ _ hr]
      exact hl
    induction l with
    | nil => exact ⟨_, rfl⟩
    | cons p l ih =>
      obtain ⟨el, ref, h1, h2⟩ := hl p List.mem_cons_self
      obtain ⟨r, hr⟩ := ih fun q hq => hl q (List.mem_cons_of_mem _ hq)
      obtain ⟨m, hm⟩ := matrix_total h a h2
      simp only [collect, Bool.false_eq_true, if_false, Res.ok_bind, Heap.deref, h1, hm, hr]
      exact ⟨_, rfl⟩

theorem repulsion_total {h : Heap α} (a : Agent α) {l : List Ptr} (hl : Ready h l) :
    ∃ v, repulsionSum h a l = .ok v := by
  unfold repulsionSum
  generalize (V3.zero : V3 α) = acc
  induction l generalizing acc with
  | nil => exact ⟨_, rfl⟩
  | cons p l ih =>
    obtain ⟨el, ref, h1, h2⟩ := hl p List.mem_cons_self
    have hone : ∃ v, h.generateRepulsion (.ellipsoid el) a.state.position a.margin (lit 11 10) = .ok v := by
      simp only [Heap.generateRepulsion, Heap.distanceToAgent, Heap.distanceToPoint, Res.ok_bind,
        Heap.repulsionVector, Ellipsoid.repulsionVector, Base.ref, h2]
      split <;> exact ⟨_, rfl⟩
    obtain ⟨v, hv⟩ := hone
    simp only [List.foldlM_cons, Heap.deref, h1, Res.ok_bind, hv]
    exact ih (fun q hq => hl q (List.mem_cons_of_mem _ hq)) _

theorem sight_total {h : Heap α} {a : Agent α} {l : List Ptr} (loc : Bool) (hl : Ready h l)
    (henv : loc = true → HasEnvelope h a) : ∃ b, sightOf h a loc l = .ok b := by
  cases loc with
  | false => exact ⟨_, rfl⟩
  | true =>
    obtain ⟨q, env, h1, h2⟩ := henv rfl
    have hg : a.getEnvelope h = .ok (.ellipsoid env) := by simp [Agent.getEnvelope, h1, Heap.deref, h2]
    simp only [sightOf, hg, Res.ok_bind, Heap.isIntersectingList]
    generalize false = acc
    induction l generalizing acc with
    | nil => exact ⟨_, rfl⟩
    | cons p l ih =>
      obtain ⟨el, ref, h3, -⟩ := hl p List.mem_cons_self
      have ih := ih fun q hq => hl q (List.mem_cons_of_mem _ hq)
      cases acc with
      | true => simpa only [List.foldlM_cons, if_true, Res.ok_bind] using ih true
      | false =>
        obtain ⟨b, hb⟩ := isIntersectingEllipsoid_ok env el
        simp only [List.foldlM_cons, Bool.false_eq_true, if_false, Heap.deref, h3, Res.ok_bind, Heap.isIntersecting,
          Heap.fuel, Heap.isIntersectingAux, Heap.isIntersectingEllipsoid, hb]
        exact ih b

/-- C61: for all lists of live ellipsoids with initialised reference positions, all agents (with an
envelope, if `is_local`), all options and every scalar type, `modulate_velocity` returns normally: no
exception, no undefined behaviour, and the obstacles are again ready afterwards. -/
theorem C61_total (h : Heap α) (a : Agent α) (e : Env) (loc rep planar : Bool) (critical power : α)
    (hl : Ready h e.list) (henv : loc = true → HasEnvelope h a) :
    ∃ h' v, modulateVelocity h a e loc rep planar critical power = .ok (h', v) ∧ Ready h' e.list := by
  rw [modulateVelocity_eq]
  by_cases hempty : e.list.isEmpty = true
  · rw [if_pos hempty]; exact ⟨_, _, rfl, hl⟩
  · rw [if_neg hempty]
    obtain ⟨b, hb⟩ := sight_total loc hl henv
    rw [hb, Res.ok_bind]
    cases b with
    | false => exact ⟨_, _, rfl, hl⟩
    | true =>
      obtain ⟨r, hr, hready⟩ := collect_total planar a hl
      simp only [if_true, hr, Res.ok_bind]
      cases rep with
      | false => exact ⟨_, _, rfl, hready⟩
      | true =>
        obtain ⟨v, hv⟩ := repulsion_total a hready
        simp only [repOf, hv, Res.ok_bind]
        exact ⟨_, _, rfl, hready⟩

end

/-- C61: the hypothesis on the reference position is needed — `Ellipsoid("e")` in the list is
undefined behaviour. -/
theorem C61_uninitialised (a : Agent ℝ) (critical power : ℝ) :
    modulateVelocity [.ellipsoid (Ellipsoid.ofBase (Base.mkName "e" V3.zero))] a (envOf [0]) false false false
      critical power = .ub .uninitialised := by
  simp [modulateVelocity_eq, envOf, sightOf, collect, Heap.deref, modulationMatrix, Heap.normalToAgent,
    Heap.distanceToAgent, Heap.distanceToPoint, basisMatrices, Base.ref, Obj.base, Ellipsoid.ofBase, Base.mkName]

/-- Non-vacuity: two ellipsoids and an agent with its envelope. -/
example : Ready (α := ℝ) [.ellipsoid (ballAt ⟨0, 0, 0⟩), .ellipsoid (ballAt ⟨0, 3, 0⟩)] [0, 1] ∧
    HasEnvelope (Agent.mk2 ([] : Heap ℝ) (State.ofPosition V3.zero) 0).1
      (Agent.mk2 ([] : Heap ℝ) (State.ofPosition V3.zero) 0).2 := by
  constructor
  · intro p hp
    simp only [List.mem_cons, List.not_mem_nil, or_false] at hp
    rcases hp with rfl | rfl
    · exact ⟨_, _, rfl, rfl⟩
    · exact ⟨_, _, rfl, rfl⟩
  · exact ⟨0, _, rfl, rfl⟩

/-- Non-vacuity of C47: a ball hit off-centre gets the midpoint of the chord as reference. -/
example : ∃ h' v, modulateVelocity [.ellipsoid (ballAt ⟨0, 0, 0⟩)] (agentAt ⟨-2, 1 / 2, 0⟩ ⟨1, 0, 0⟩) (envOf [0])
      false true true 1 2 = .ok (h', v) ∧ refOf h' 0 = some ⟨0, 1 / 2, 0⟩ := by
  have hready : Ready (α := ℝ) [.ellipsoid (ballAt ⟨0, 0, 0⟩)] (envOf [0]).list := by
    intro p hp
    simp only [envOf, List.mem_cons, List.not_mem_nil, or_false] at hp
    subst hp
    exact ⟨_, _, rfl, rfl⟩
  obtain ⟨h', v, hm, -⟩ := C61_total _ (agentAt ⟨-2, 1 / 2, 0⟩ ⟨1, 0, 0⟩) (envOf [0]) false true true 1 2 hready
    (by intro h; cases h)
  refine ⟨h', v, hm, ?_⟩
  have hs := ballAt_smooth ⟨0, 0, 0⟩
  have hap : ∀ y, (ballAt ⟨0, 0, 0⟩).base.pose.apply y = y := by
    intro y
    ext <;> simp [ballAt, Ellipsoid.ofBase, Base.mkRef, State.ofPosition, Pose.ofPosition, Pose.apply, Base.pose,
      Quat.rotate_one]
  have hlen : halfLengths (ballAt ⟨0, 0, 0⟩) V3.zero = ⟨1, 1, 1⟩ := by
    ext <;> simp [halfLengths, ballAt, Ellipsoid.ofBase, Base.mkRef, V3.zero, V3.const]
  obtain ⟨u1, v1, u2, v2, ref, h1, h2, h3, h4, -⟩ := C47_chord_partial (p := 0) (el := ballAt ⟨0, 0, 0⟩)
    (k1 := 1) (k2 := 1) (k3 := 1) hm (by intro h; cases h) (by simp [envOf]) rfl hs.unit
    (by simp [HasCurv, ballAt, Ellipsoid.ofBase, V3.const]) (by rw [hlen]; norm_num [AllGt])
    ⟨-2, 1 / 2, 0⟩ ⟨-1, 1 / 2, 0⟩ (by rw [hap]; rfl) (by rw [hap]; ext <;> norm_num [agentAt, State.position, Pose.ofPosition]) (by norm_num)
    ⟨0, 1 / 2, ⟨2, by norm_num, by norm_num⟩, by rw [hlen]; norm_num⟩
  rw [hlen] at h1
  have hsq : √3 * √3 = 3 := Real.mul_self_sqrt (by norm_num)
  have hpos : 0 < √3 := Real.sqrt_pos.mpr (by norm_num)
  have a1 := (h1 (√3 / 2) (1 / 2)).mp ⟨⟨2 + √3 / 2, by norm_num, by norm_num⟩, by norm_num; nlinarith⟩
  have a2 := (h1 (-(√3 / 2)) (1 / 2)).mp ⟨⟨2 - √3 / 2, by norm_num; ring, by norm_num⟩, by norm_num; nlinarith⟩
  have hne : √3 / 2 ≠ -(√3 / 2) := by intro h; linarith
  rw [h2, h3, hap]
  rcases a1 with ⟨r1, r2⟩ | ⟨r1, r2⟩ <;> rcases a2 with ⟨r3, r4⟩ | ⟨r3, r4⟩
  · exact absurd (r1.trans r3.symm) hne
  · rw [← r1, ← r2, ← r3, ← r4]; norm_num
  · rw [← r1, ← r2, ← r3, ← r4]; norm_num
  · exact absurd (r1.trans r3.symm) hne

end DOA.Props
