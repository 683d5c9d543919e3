import Mathlib.Topology.Instances.Real.Lemmas
import Verif.Lemmas.FpSingle
import Verif.Lemmas.FpRelaxed

/-!
# One iteration of the control loop in finite precision

The set of positions in the plane that keep away from the obstacle and from infinity is mapped into itself by the rounded
iteration, if the arithmetic is precise enough.
-/

set_option linter.unusedSectionVars false
set_option linter.unusedSimpArgs false

namespace DOA
open Filter Topology Spec Props Modulation

/-! ### the calls -/

section
variable {α : Type} [Add α] [Sub α] [Mul α] [Div α] [Neg α] [Zero α] [One α]
  [LE α] [LT α] [DecidableLE α] [DecidableLT α] [CMath α]

/-- The obstacle `e` is object `p`, the envelope of the agent is another object. -/
structure OnHeap (e : Ellipsoid α) (p : Ptr) (m : α) (s : Heap α × Agent α) : Prop where
  obj : s.1[p]? = some (.ellipsoid e)
  envelope : ∃ (q : Ptr) (env : Ellipsoid α), q ≠ p ∧ s.2.envelope = some q ∧ s.1[q]? = some (.ellipsoid env)
  margin : s.2.margin = m

theorem withState_heap {e : Ellipsoid α} {p : Ptr} {m : α} {s : Heap α × Agent α} (hs : OnHeap e p m s) (st : State α) :
    ∃ h', Agent.withState s.1 s.2 st = .ok (h', { s.2 with state := st }) ∧ OnHeap e p m (h', { s.2 with state := st }) := by
  obtain ⟨q, env, hqp, hq, henv⟩ := hs.envelope
  have hlt : q < s.1.length := by
    by_contra hn
    rw [List.getElem?_eq_none (Nat.le_of_not_lt hn)] at henv
    cases henv
  refine ⟨_, by simp [Agent.withState, Agent.updateEnvelope, hq, Heap.deref, henv]; rfl, ⟨?_, ?_, hs.margin⟩⟩
  · show (List.set s.1 q _)[p]? = _
    rw [List.getElem?_set_ne hqp]
    exact hs.obj
  · exact ⟨q, _, hqp, hq, by rw [List.getElem?_set_self hlt]⟩

theorem iterate_ell {c : Loop α} {E : Env} {e : Ellipsoid α} {r : V3 α} {p : Ptr} {m : α} {s : Heap α × Agent α}
    (hl : E.list = [p]) (hr : e.base.refPos = some r) (hloc : c.isLocal = false) (hpl : c.planar = false)
    (hs : OnHeap e p m s) (v : V3 α) :
    ∃ s', c.iterate E v s = .ok s' ∧ OnHeap e p m s' ∧ s'.2.state.position = s.2.state.position +
      V3.smul c.dt (c.limit (ellOut [(e, r)] s.2.state.position v m c.addRepulsion c.critical c.power)) := by
  obtain ⟨h1, hset, hon⟩ := withState_heap hs (s.2.state.setLinearVelocity v)
  have hmod := modulate_ell (a := { s.2 with state := s.2.state.setLinearVelocity v }) (e := E) (es := [(e, r)])
    (by rw [hl]; simp) (by rw [hl]; exact .cons ⟨hon.obj, hr⟩ .nil) c.addRepulsion c.critical c.power
  obtain ⟨h2, hset2, hon2⟩ := withState_heap hon ((s.2.state.setLinearVelocity v).setPosition (s.2.state.position +
    V3.smul c.dt (c.limit (ellOut [(e, r)] s.2.state.position v m c.addRepulsion c.critical c.power))))
  refine ⟨_, ?_, hon2, rfl⟩
  unfold Loop.iterate
  rw [show Agent.setLinearVelocity s.1 s.2 v = .ok (h1, { s.2 with state := s.2.state.setLinearVelocity v }) from hset]
  simp only [Res.ok_bind, hloc, hpl, hmod]
  rw [← hset2, ← hs.margin]
  rfl

end

/-! ### limits -/

section
variable {F : Filter Arith} [Fine F]

theorem Conv.tendsto {x : Fam} {a : ℝ} {r : Arith → ℝ} (h : Conv F x a) (hr : ∀ᶠ A in F, (x A).v = .fin (r A)) :
    Tendsto r F (𝓝 a) := by
  obtain ⟨s, h1, h2⟩ := h
  refine h2.congr' ?_
  filter_upwards [h1, hr] with A h3 h4
  rw [h3] at h4
  exact Dbl.fin.inj h4

/-- the exact values of finite vectors in the plane -/
theorem PlV.values {x : ∀ A, V3 (Fp A)} {x0 : V3 ℝ} (h : PlV F x x0) :
    ∃ q : Arith → ℝ × ℝ, (∀ᶠ A in F, (x A).Is ⟨(q A).1, (q A).2, 0⟩) ∧ Tendsto q F (𝓝 (x0.x, x0.y)) := by
  obtain ⟨r, h1, h2⟩ := h.x
  obtain ⟨s, h3, h4⟩ := h.y
  refine ⟨fun A => (r A, s A), ?_, h2.prodMk_nhds h4⟩
  filter_upwards [h1, h3, h.null] with A h5 h6 h7
  exact ⟨h5, h6, h7⟩

theorem continuous_gdist {e : Ellipsoid ℝ} {m : ℝ} {k : ℕ} (sm : Smooth e m k) :
    Continuous fun q : ℝ × ℝ => gdist e m ⟨q.1, q.2, 0⟩ := by
  have h : (fun q : ℝ × ℝ => gdist e m ⟨q.1, q.2, 0⟩) = fun q : ℝ × ℝ =>
      level (halfLengths e (V3.const m)) k k k (e.base.pose.inverse.apply ⟨q.1, q.2, 0⟩) := by
    funext q
    rw [gdist, Ellipsoid.distance_frame e _ _ k k k sm.curv sm.long]
  rw [h]
  simp only [level, Pose.apply, Quat.rotate, V3.cross, V3.add_x, V3.add_y, V3.add_z, V3.smul]
  fun_prop

theorem continuous_range (t : V3 ℝ) : Continuous fun q : ℝ × ℝ => V3.norm (⟨q.1, q.2, 0⟩ - t) := by
  simp only [V3.norm, V3.sqNorm, V3.dot, V3.sub_x, V3.sub_y, V3.sub_z, CMath.sqrt]
  fun_prop

/-- The positions considered. -/
def Within' (e : Ellipsoid ℝ) (m : ℝ) (t : V3 ℝ) (R η : ℝ) (x : V3 ℝ) : Prop :=
  x.z = 0 ∧ 1 + η ≤ gdist e m x ∧ V3.norm (x - t) ≤ R

/-- A limit strictly inside is reached from inside. -/
theorem PlV.inside {x : ∀ A, V3 (Fp A)} {x0 : V3 ℝ} (h : PlV F x x0) {e : Ellipsoid ℝ} {m R η : ℝ} {t : V3 ℝ} {k : ℕ}
    (sm : Smooth e m k) (hz : x0.z = 0) (hg : 1 + η < gdist e m x0) (hr : V3.norm (x0 - t) < R) :
    ∀ᶠ A in F, ∃ x1, (x A).Is x1 ∧ Within' e m t R η x1 := by
  obtain ⟨q, h1, h2⟩ := h.values
  have e0 : (⟨x0.x, x0.y, 0⟩ : V3 ℝ) = x0 := by ext <;> simp [hz]
  have h3 := ((continuous_gdist sm).tendsto (x0.x, x0.y)).comp h2
  have h4 := ((continuous_range t).tendsto (x0.x, x0.y)).comp h2
  simp only [e0] at h3 h4
  filter_upwards [h1, h3.eventually_const_lt hg, h4.eventually_lt_const hr] with A h5 h6 h7
  exact ⟨_, h5, rfl, h6.le, h7.le⟩

end

section ultra
variable {U : Ultrafilter Arith} [Fine (U : Filter Arith)]

theorem abs_le_norm (v : V3 ℝ) : |v.x| ≤ V3.norm v ∧ |v.y| ≤ V3.norm v := by
  have h := V3.norm_nonneg v
  have h2 := V3.norm_sq v
  simp only [V3.sqNorm, V3.dot] at h2
  constructor <;> refine abs_le_of_sq_le_sq ?_ h <;> nlinarith [mul_self_nonneg v.x, mul_self_nonneg v.y, mul_self_nonneg v.z]

/-- Along an ultrafilter positions of the set have a limit in the set. -/
theorem limit_inside {x : ∀ A, V3 (Fp A)} {e : Ellipsoid ℝ} {m R η : ℝ} {t : V3 ℝ} {k : ℕ} (sm : Smooth e m k)
    (h : ∀ᶠ A in (U : Filter Arith), ∃ x0, (x A).Is x0 ∧ Within' e m t R η x0) :
    ∃ x0, PlV U x x0 ∧ Within' e m t R η x0 := by
  have hbx : Bdd U (fun A => (x A).x) (|t.x| + R) := by
    filter_upwards [h] with A ⟨x0, h1, h2⟩
    refine ⟨_, h1.1, ?_⟩
    have h3 := (abs_le_norm (x0 - t)).1
    have h4 := abs_sub_abs_le_abs_sub x0.x t.x
    simp only [V3.sub_x] at h3
    linarith [h2.2.2]
  have hby : Bdd U (fun A => (x A).y) (|t.y| + R) := by
    filter_upwards [h] with A ⟨x0, h1, h2⟩
    refine ⟨_, h1.2.1, ?_⟩
    have h3 := (abs_le_norm (x0 - t)).2
    have h4 := abs_sub_abs_le_abs_sub x0.y t.y
    simp only [V3.sub_y] at h3
    linarith [h2.2.2]
  have hz : Null U (fun A => (x A).z) := by
    filter_upwards [h] with A ⟨x0, h1, h2⟩
    rw [h1.2.2, h2.1]
  obtain ⟨a, ha⟩ := hbx.conv
  obtain ⟨b, hb⟩ := hby.conv
  have hx : PlV U x ⟨a, b, 0⟩ := ⟨⟨ha, hb, hz.conv⟩, hz⟩
  refine ⟨_, hx, rfl, ?_, ?_⟩
  · obtain ⟨q, h1, h2⟩ := hx.values
    refine ge_of_tendsto (((continuous_gdist sm).tendsto (a, b)).comp h2) ?_
    filter_upwards [h, h1] with A ⟨x0, h3, h4⟩ h5
    have h6 : x0 = ⟨(q A).1, (q A).2, 0⟩ := by
      ext
      · exact Dbl.fin.inj (h3.1.symm.trans h5.1)
      · exact Dbl.fin.inj (h3.2.1.symm.trans h5.2.1)
      · exact h4.1
    show _ ≤ gdist e m ⟨(q A).1, (q A).2, 0⟩
    rw [← h6]; exact h4.2.1
  · obtain ⟨q, h1, h2⟩ := hx.values
    refine le_of_tendsto (((continuous_range t).tendsto (a, b)).comp h2) ?_
    filter_upwards [h, h1] with A ⟨x0, h3, h4⟩ h5
    have h6 : x0 = ⟨(q A).1, (q A).2, 0⟩ := by
      ext
      · exact Dbl.fin.inj (h3.1.symm.trans h5.1)
      · exact Dbl.fin.inj (h3.2.1.symm.trans h5.2.1)
      · exact h4.1
    show V3.norm (⟨(q A).1, (q A).2, 0⟩ - t) ≤ _
    rw [← h6]; exact h4.2.2

/-- the limit of the speed -/
theorem limit_ultra {c : Loop ℝ} (hc : ∀ v, c.maxVel = some v → 0 < v) {w : ∀ A, V3 (Fp A)} {w0 : V3 ℝ} (hw : PlV U w w0) :
    ∃ g, 0 < g ∧ g ≤ 1 ∧ PlV U (fun A => (c.fp A).limit (w A)) (V3.smul g w0) := by
  have e1 : V3.smul 1 w0 = w0 := by ext <;> simp [V3.smul]
  cases hm : c.maxVel with
  | none =>
    refine ⟨1, one_pos, le_refl _, ?_⟩
    rw [e1]
    refine hw.congr (Eventually.of_forall fun A => ?_)
    simp only [Loop.limit, Loop.fp, hm, Option.map_none]
  | some mv =>
    have hpos := hc mv hm
    have hcm : Conv U (fun A => A.ld mv) mv := Conv.rnd mv
    rcases ultra_em (U := U) (fun A => A.ld mv < (w A).norm) with h | h
    · have hle := hcm.le_of_lt hw.conv.norm h
      have hne : w0 ≠ V3.zero := by
        rintro rfl
        rw [V3.norm_eq_zero.mpr rfl] at hle
        linarith
      have hn := V3.norm_pos hne
      obtain ⟨b, hb, hb'⟩ := hw.normalized_ultra
      have hlim := PlV.smul hcm hb
      rw [hb' hne] at hlim
      refine ⟨mv / V3.norm w0, by positivity, by rw [div_le_one hn]; exact hle, ?_⟩
      have e2 : V3.smul (mv / V3.norm w0) w0 = V3.smul mv w0.normalized := by
        rw [V3.normalized_of_ne hne]
        ext <;> simp only [V3.smul] <;> ring
      rw [e2]
      refine hlim.congr ?_
      filter_upwards [h] with A h1
      simp only [Loop.limit, Loop.fp, hm, Option.map_some, if_pos h1]
    · refine ⟨1, one_pos, le_refl _, ?_⟩
      rw [e1]
      refine hw.congr ?_
      filter_upwards [h] with A h1
      simp only [Loop.limit, Loop.fp, hm, Option.map_some, if_neg h1]

end ultra

/-! ### the iteration -/

/-- the next position -/
noncomputable def nextPos (A : Arith) (c : Loop ℝ) (e : Ellipsoid ℝ) (m : ℝ) (x : V3 (Fp A)) : V3 (Fp A) :=
  x + V3.smul (c.fp A).dt ((c.fp A).limit (ellOut [(e.fp A, e.base.position.fp A)] x ((c.fp A).desired x) (A.ld m) true
    (A.ld c.critical) (A.ld c.power)))

/-- The data of the loop. -/
structure Kit (c : Loop ℝ) (E : Env) (e : Ellipsoid ℝ) (p : Ptr) (m l L κ T R : ℝ) (k : ℕ) (start : V3 ℝ) : Prop where
  setup : LoopSetup c E e p m l k e.base.position
  between : Between e m l L
  aspect : Aspect l L κ k
  small : k ≤ 2 ^ 52
  target : c.target.z = 0
  kept : Kept c e.base.position start l L κ k T R

theorem next_ultra {U : Ultrafilter Arith} [Fine (U : Filter Arith)] {c : Loop ℝ} {E : Env} {e : Ellipsoid ℝ} {p : Ptr}
    {m l L κ T R η : ℝ} {k : ℕ} {start : V3 ℝ} (h : Kit c E e p m l L κ T R k start) (hη : 0 < η)
    (hη1 : 10 * η + 2 * k * (c.dt * c.gain * ((1 + 22 / 10 ^ 8 * κ) * R)) / l < 1)
    (hη2 : η * (2 * k * (c.gain * R)) + 44 / 10 ^ 9 * κ * k * (c.gain * R) < 2 * l)
    (hp : ∀ᶠ A in (U : Filter Arith), A.PowZero) {x : ∀ A, V3 (Fp A)} {x0 : V3 ℝ} (hx : PlV U x x0)
    (hin : Within' e m c.target R η x0) :
    ∃ x1, PlV U (fun A => nextPos A c e m (x A)) x1 ∧ 1 + η < gdist e m x1 ∧ V3.norm (x1 - c.target) < R := by
  obtain ⟨hc, hb, hκ, hk, ht, hK⟩ := h
  obtain ⟨hz, hg, hr⟩ := hin
  have h1 : 1 < gdist e m x0 := by linarith
  have hv : PlV U (fun A => (c.fp A).desired (x A)) (c.desired x0) := by
    have hgain : Conv U (fun A => A.ld c.gain) c.gain := Conv.rnd _
    exact PlV.smul hgain.neg (hx.sub (pl_v3 ht))
  obtain ⟨err, ρ, ho, herr, hρ⟩ := ellOut_ultra (p := c.power) (ref := e.base.position) (c := c.critical) hc.smooth hk
    hc.plane.pose (hc.plane.ref _ hc.ref) hc.static.1 hc.static.2 hp hx hv
    (by rw [gdist_centre hc.smooth]; linarith) h1 (lt_of_le_of_lt hK.critical h1)
    (fun h => (near_push hc.smooth hc.thick (by rw [gdist_centre hc.smooth]; linarith [hK.push]) h1 h).1)
  obtain ⟨g, hg0, hg1, hlim⟩ := limit_ultra hK.maxVel ho
  refine ⟨_, hx.add (PlV.smul (Conv.rnd c.dt) hlim), ?_, ?_⟩
  · exact relaxed_gap hc hb hκ hK hη hη1 hη2 hz hg hr hg0 hg1 herr hρ
  · exact relaxed_radius hc hb hκ hK hz h1 hr hg0 hg1 herr hρ

/-- The set is mapped into itself. -/
theorem next_inside {c : Loop ℝ} {E : Env} {e : Ellipsoid ℝ} {p : Ptr}
    {m l L κ T R η : ℝ} {k : ℕ} {start : V3 ℝ} (h : Kit c E e p m l L κ T R k start) (hη : 0 < η)
    (hη1 : 10 * η + 2 * k * (c.dt * c.gain * ((1 + 22 / 10 ^ 8 * κ) * R)) / l < 1)
    (hη2 : η * (2 * k * (c.gain * R)) + 44 / 10 ^ 9 * κ * k * (c.gain * R) < 2 * l) :
    ∀ᶠ A in fine, A.PowZero → ∀ (x : V3 (Fp A)) (x0 : V3 ℝ), x.Is x0 → Within' e m c.target R η x0 →
      ∃ x1, (nextPos A c e m x).Is x1 ∧ Within' e m c.target R η x1 := by
  by_contra hn
  rw [Filter.not_eventually] at hn
  have hne := Filter.frequently_iff_neBot.mp hn
  obtain ⟨U, hU⟩ := Ultrafilter.exists_le (fine ⊓ 𝓟 {A | ¬ (A.PowZero → ∀ (x : V3 (Fp A)) (x0 : V3 ℝ), x.Is x0 →
    Within' e m c.target R η x0 → ∃ x1, (nextPos A c e m x).Is x1 ∧ Within' e m c.target R η x1)})
  have : Fine (U : Filter Arith) := ⟨le_trans hU inf_le_left⟩
  have hbad : ∀ᶠ A in (U : Filter Arith), A.PowZero ∧ ∃ (x : V3 (Fp A)) (x0 : V3 ℝ), x.Is x0 ∧
      Within' e m c.target R η x0 ∧ ¬ ∃ x1, (nextPos A c e m x).Is x1 ∧ Within' e m c.target R η x1 := by
    have h1 := Filter.le_principal_iff.mp (le_trans hU inf_le_right)
    filter_upwards [h1] with A h2
    simpa only [Set.mem_ofPred_eq, Classical.not_imp, not_forall, exists_prop] using h2
  have hch : ∀ A : Arith, ∃ x : V3 (Fp A), (∃ (x : V3 (Fp A)) (x0 : V3 ℝ), x.Is x0 ∧
      Within' e m c.target R η x0 ∧ ¬ ∃ x1, (nextPos A c e m x).Is x1 ∧ Within' e m c.target R η x1) →
      (∃ x0, x.Is x0 ∧ Within' e m c.target R η x0) ∧
        ¬ ∃ x1, (nextPos A c e m x).Is x1 ∧ Within' e m c.target R η x1 := by
    intro A
    by_cases hA : ∃ (x : V3 (Fp A)) (x0 : V3 ℝ), x.Is x0 ∧
      Within' e m c.target R η x0 ∧ ¬ ∃ x1, (nextPos A c e m x).Is x1 ∧ Within' e m c.target R η x1
    · obtain ⟨x, x0, h1, h2, h3⟩ := hA
      exact ⟨x, fun _ => ⟨⟨x0, h1, h2⟩, h3⟩⟩
    · exact ⟨V3.zero, fun h => absurd h hA⟩
  choose x hx using hch
  obtain ⟨x0, hx0, hin⟩ := limit_inside (U := U) (x := x) (t := c.target) (R := R) (η := η) h.setup.smooth (by
    filter_upwards [hbad] with A h1
    exact (hx A h1.2).1)
  obtain ⟨x1, h1, h2, h3⟩ := next_ultra h hη hη1 hη2 (hbad.mono fun A h => h.1) hx0 hin
  obtain ⟨A, h4, h5⟩ := ((h1.inside h.setup.smooth h1.flat h2 h3).and hbad).exists
  exact (hx A h5.2).2 h4

end DOA
