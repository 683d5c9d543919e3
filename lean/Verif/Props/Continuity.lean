import Verif.Lemmas.Limits
import Verif.Lemmas.FpRegular
import Verif.Props.Graze
import Verif.Props.Rounding

/-!
# C104: a small change of the situation changes the commanded velocity little
-/

set_option linter.unusedSectionVars false
set_option linter.unusedSimpArgs false

namespace DOA.Props
open DOA DOA.Spec DOA.Modulation DOA.Ellipsoid Filter Topology

/-- C104 for the agent and the obstacles: let agents `a i` and obstacles `es i` (in heaps `h i`) tend to an agent `a0` and
obstacles `es0` (in `h0`) with poses, velocities, sizes and margins, where no comparison of the program is a tie (`Steady`).
Then `modulate_velocity` returns for all of them, and the velocities returned tend to the one returned in the limit. -/
theorem C104_continuous_partial {ι : Type} (F : Filter ι) (h : ι → Heap ℝ) (a : ι → Agent ℝ) (h0 : Heap ℝ) (a0 : Agent ℝ)
    (e : Env) (rep : Bool) (critical power : ℝ) (es : List (ι → Ellipsoid ℝ × V3 ℝ)) (es0 : List (Ellipsoid ℝ × V3 ℝ))
    (hne : e.list ≠ []) (hl : ∀ i, List.Forall₂ (Leads (h i)) e.list (es.map (· i)))
    (hl0 : List.Forall₂ (Leads h0) e.list es0) (hes : List.Forall₂ (LimER F) es es0)
    (hx : LimV F (fun i => (a i).state.position) a0.state.position)
    (hv : LimV F (fun i => (a i).state.linearVelocity) a0.state.linearVelocity)
    (hm : Lim F (fun i => (a i).margin) a0.margin)
    (hs : Steady es0 a0.state.position a0.state.linearVelocity a0.margin rep critical power) :
    ∃ (v : ι → V3 ℝ) (v0 : V3 ℝ),
      (∀ i, modulateVelocity (h i) (a i) e false rep false critical power = .ok (h i, v i)) ∧
      modulateVelocity h0 a0 e false rep false critical power = .ok (h0, v0) ∧ LimV F v v0 :=
  ⟨_, _, fun i => modulate_ell hne (hl i) rep critical power, modulate_ell hne hl0 rep critical power,
    lim_ellOut hes hx hv hm (Lim.const _) (Lim.const _) rep hs⟩

/-! ### the agent alone -/

/-- Vectors near a vector. -/
theorem limV_of_norm {ι : Type} {F : Filter ι} {v : ι → V3 ℝ} {a : V3 ℝ} (h : Tendsto (fun i => V3.norm (v i - a)) F (𝓝 0)) :
    LimV F v a := by
  have key : ∀ (f : V3 ℝ → ℝ), (∀ u, |f u| ≤ V3.norm u) → (∀ u w, f (u - w) = f u - f w) →
      Lim F (fun i => f (v i)) (f a) := by
    intro f h1 h2
    have h3 : Tendsto (fun i => f (v i) - f a) F (𝓝 0) := by
      refine squeeze_zero_norm (fun i => ?_) h
      rw [Real.norm_eq_abs, ← h2]; exact h1 _
    have := h3.add_const (f a)
    simpa [Lim] using this
  have hb : ∀ u : V3 ℝ, |u.x| ≤ V3.norm u ∧ |u.y| ≤ V3.norm u ∧ |u.z| ≤ V3.norm u := by
    intro u
    have h := V3.norm_nonneg u
    have h2 := V3.norm_sq u
    simp only [V3.sqNorm, V3.dot] at h2
    refine ⟨?_, ?_, ?_⟩ <;> refine abs_le_of_sq_le_sq ?_ h <;>
      nlinarith [mul_self_nonneg u.x, mul_self_nonneg u.y, mul_self_nonneg u.z]
  exact ⟨key V3.x (fun u => (hb u).1) fun _ _ => rfl, key V3.y (fun u => (hb u).2.1) fun _ _ => rfl,
    key V3.z (fun u => (hb u).2.2) fun _ _ => rfl⟩

theorem limER_const {ι : Type} {F : Filter ι} (er : Ellipsoid ℝ × V3 ℝ) {k1 k2 k3 : ℕ} (hk : HasCurv er.1 k1 k2 k3) :
    LimER F (fun _ => er) er := by
  have hv : ∀ v : V3 ℝ, LimV F (fun _ => v) v := fun v => ⟨.const _, .const _, .const _⟩
  have hq : ∀ q : Quat ℝ, LimQ F (fun _ => q) q := fun q => ⟨.const _, .const _, .const _, .const _⟩
  exact ⟨⟨k1, k2, k3, ⟨⟨hv _, hq _⟩, hv _, hv _, hv _⟩, hv _, Eventually.of_forall fun _ => hk.1, hk.1, hk.2⟩, hv _⟩

/-- C104 for the agent: to every tolerance there is a distance such that every agent whose position, velocity and margin are
within this distance is commanded the same velocity within the tolerance. -/
theorem C104_agent_partial (h : Heap ℝ) (a0 : Agent ℝ) (e : Env) (rep : Bool) (critical power : ℝ)
    (es : List (Ellipsoid ℝ × V3 ℝ)) (hne : e.list ≠ []) (hl : List.Forall₂ (Leads h) e.list es)
    (hk : ∀ er ∈ es, ∃ k1 k2 k3, HasCurv er.1 k1 k2 k3)
    (hs : Steady es a0.state.position a0.state.linearVelocity a0.margin rep critical power) :
    ∃ v0, modulateVelocity h a0 e false rep false critical power = .ok (h, v0) ∧
      ∀ ε > 0, ∃ δ > 0, ∀ a : Agent ℝ, V3.norm (a.state.position - a0.state.position) < δ →
        V3.norm (a.state.linearVelocity - a0.state.linearVelocity) < δ → |a.margin - a0.margin| < δ →
        ∃ v, modulateVelocity h a e false rep false critical power = .ok (h, v) ∧ V3.norm (v - v0) < ε := by
  let g : Agent ℝ → ℝ := fun a => max (V3.norm (a.state.position - a0.state.position))
    (max (V3.norm (a.state.linearVelocity - a0.state.linearVelocity)) |a.margin - a0.margin|)
  have hg : Tendsto g (comap g (𝓝 0)) (𝓝 0) := tendsto_comap
  have hgx : Tendsto (fun a : Agent ℝ => V3.norm (a.state.position - a0.state.position)) (comap g (𝓝 0)) (𝓝 0) :=
    squeeze_zero (fun a => V3.norm_nonneg _) (fun a => le_max_left _ _) hg
  have hgv : Tendsto (fun a : Agent ℝ => V3.norm (a.state.linearVelocity - a0.state.linearVelocity)) (comap g (𝓝 0)) (𝓝 0) :=
    squeeze_zero (fun a => V3.norm_nonneg _) (fun a => le_trans (le_max_left _ _) (le_max_right _ _)) hg
  have hgm : Tendsto (fun a : Agent ℝ => |a.margin - a0.margin|) (comap g (𝓝 0)) (𝓝 0) :=
    squeeze_zero (fun a => abs_nonneg _) (fun a => le_trans (le_max_right _ _) (le_max_right _ _)) hg
  have hm : Lim (comap g (𝓝 0)) (fun a : Agent ℝ => a.margin) a0.margin := by
    have h1 := (tendsto_zero_iff_abs_tendsto_zero _).mpr hgm
    have h2 := h1.add_const a0.margin
    simpa [Lim] using h2
  obtain ⟨v, v0, h1, h2, h3⟩ := C104_continuous_partial (comap g (𝓝 0)) (fun _ => h) (fun a => a) h a0 e rep critical power
    (es.map fun er _ => er) es hne (fun i => by simpa using hl) hl (by
      rw [List.forall₂_map_left_iff]
      refine List.forall₂_same.mpr fun er he => ?_
      obtain ⟨k1, k2, k3, hk'⟩ := hk er he
      exact limER_const er hk') (limV_of_norm hgx) (limV_of_norm hgv) hm hs
  refine ⟨v0, h2, fun ε hε => ?_⟩
  have hc : LimV (comap g (𝓝 0)) (fun a => v a - v0) (v0 - v0) := h3.sub ⟨.const _, .const _, .const _⟩
  have hn := hc.norm
  rw [V3.sub_self', V3.norm_eq_zero.mpr rfl] at hn
  have hev : ∀ᶠ a in comap g (𝓝 0), V3.norm (v a - v0) < ε := Tendsto.eventually_lt_const hε hn
  rw [eventually_comap] at hev
  obtain ⟨δ, hδ, hball⟩ := Metric.eventually_nhds_iff.mp hev
  refine ⟨δ, hδ, fun a ax av am => ⟨v a, h1 a, hball ?_ a rfl⟩⟩
  rw [Real.dist_eq, sub_zero, abs_of_nonneg (le_trans (V3.norm_nonneg _) (le_max_left _ _))]
  exact max_lt ax (max_lt av am)

theorem calm_clear {er : Ellipsoid ℝ × V3 ℝ} {x : V3 ℝ} {m : ℝ} (h : Calm er x m) : Clear er.1 er.2 x m := by
  obtain ⟨k, sm⟩ := h.smooth
  obtain ⟨y, w, co⟩ := coord sm h.star
  have hnr := co.nr
  refine ⟨?_, off_of_long sm.long, ?_, h.tangent, ?_, coord_det sm co⟩
  · have := (Quat.isUnit_iff_norm _).mpr sm.unit
    show 0 < er.1.base.orientation.sqNorm
    rw [show er.1.base.orientation.sqNorm = 1 from this]; exact one_pos
  · intro h0; rw [h0] at hnr; simp [V3.dot, V3.zero] at hnr
  · intro h0; rw [h0] at hnr; simp [V3.dot, V3.zero] at hnr

/-- Outside of obstacles at rest only the thresholds of the code are left, also for an agent that does not want to move. -/
theorem steady_of_calm {es : List (Ellipsoid ℝ × V3 ℝ)} {x v : V3 ℝ} {m c p : ℝ} (rep : Bool)
    (h : ∀ er ∈ es, Calm er x m) (hc : (∀ er ∈ es, gdist er.1 m x ≠ c) ∨ es.length = 1) (hz : v.z = 0)
    (ha : v ≠ V3.zero → (Modulation.turn es x v m c p).norm ≠ 1 / 10000)
    (hr : rep = true → (∀ er ∈ es, gdist er.1 m x ≠ 11 / 10) ∧
      ((es.map fun er => ellRep er.1 er.2 x m).foldl (· + ·) V3.zero).norm ≠ 1 / 10000) :
    Steady es x v m rep c p := by
  have hrel : ∀ ws, (relativeVelocities x v (es.map fun er => ellItem er.1 er.2 x m) ws).1 = v := by
    refine fun ws => relative_static ?_ ws
    intro i hi
    obtain ⟨er, he, rfl⟩ := List.mem_map.mp hi
    exact ⟨(h er he).lin, (h er he).ang⟩
  refine ⟨fun er he => calm_clear (h er he), ⟨?_, ?_⟩, ?_, fun hh => (hr hh).2⟩
  · rcases hc with hc | hc
    · left
      intro i hi
      obtain ⟨er, he, rfl⟩ := List.mem_map.mp hi
      exact hc er he
    · right
      rw [List.length_map]; exact hc
  · simp only [hrel]
    by_cases hv : v = V3.zero
    · left
      intro i _
      rw [hv]
      ext <;> simp [M3.mulVec, V3.zero]
    · right
      refine ⟨hv, ?_, ha hv⟩
      intro i hi
      obtain ⟨er, he, rfl⟩ := List.mem_map.mp hi
      have hf := h er he
      obtain ⟨k, sm⟩ := hf.smooth
      have hq := (Quat.isUnit_iff_norm _).mpr sm.unit
      have hev := eigen_pos hf.outside
      exact definite_planar hz hv (product_ne_zero hq (calm_clear hf).regular hev hv)
        (fun c hc => not_opposite hq _ ⟨hev.1.le, hev.2.1.le, hev.2.2.le⟩ hc hv)
  · intro hh er he
    have hf := h er he
    obtain ⟨k, sm⟩ := hf.smooth
    refine ⟨off_of_long sm.long, (hr hh).1 er he, ?_⟩
    have := hf.outside
    intro h0
    rw [gdist, h0] at this
    norm_num at this

/-- C104 for obstacles at rest, any number of them, and an agent outside all of them with a desired velocity in the plane
(or none). -/
theorem C104_static_partial (h : Heap ℝ) (a0 : Agent ℝ) (e : Env) (rep : Bool) (critical power : ℝ)
    (es : List (Ellipsoid ℝ × V3 ℝ)) (hne : e.list ≠ []) (hl : List.Forall₂ (Leads h) e.list es)
    (hf : ∀ er ∈ es, Calm er a0.state.position a0.margin)
    (hc : (∀ er ∈ es, gdist er.1 a0.margin a0.state.position ≠ critical) ∨ es.length = 1)
    (hz : a0.state.linearVelocity.z = 0)
    (ha : a0.state.linearVelocity ≠ V3.zero →
      (Modulation.turn es a0.state.position a0.state.linearVelocity a0.margin critical power).norm ≠ 1 / 10000)
    (hr : rep = true → (∀ er ∈ es, gdist er.1 a0.margin a0.state.position ≠ 11 / 10) ∧
      ((es.map fun er => ellRep er.1 er.2 a0.state.position a0.margin).foldl (· + ·) V3.zero).norm ≠ 1 / 10000) :
    ∃ v0, modulateVelocity h a0 e false rep false critical power = .ok (h, v0) ∧
      ∀ ε > 0, ∃ δ > 0, ∀ a : Agent ℝ, V3.norm (a.state.position - a0.state.position) < δ →
        V3.norm (a.state.linearVelocity - a0.state.linearVelocity) < δ → |a.margin - a0.margin| < δ →
        ∃ v, modulateVelocity h a e false rep false critical power = .ok (h, v) ∧ V3.norm (v - v0) < ε := by
  refine C104_agent_partial h a0 e rep critical power es hne hl ?_ (steady_of_calm rep hf hc hz ha hr)
  intro er he
  obtain ⟨k, sm⟩ := (hf er he).smooth
  exact ⟨k, k, k, sm.curv⟩

/-! ### the control loop -/

theorem withState_beside {l : List Ptr} {es : List (Ellipsoid ℝ × V3 ℝ)} {m : ℝ} {s : Heap ℝ × Agent ℝ} (hs : Beside l es m s)
    (st : State ℝ) :
    ∃ h', Agent.withState s.1 s.2 st = .ok (h', { s.2 with state := st }) ∧ Beside l es m (h', { s.2 with state := st }) := by
  obtain ⟨q, env, hql, hq, henv⟩ := hs.envelope
  have hlt : q < s.1.length := by
    by_contra hn
    rw [List.getElem?_eq_none (Nat.le_of_not_lt hn)] at henv
    cases henv
  refine ⟨_, by simp [Agent.withState, Agent.updateEnvelope, hq, Heap.deref, henv]; rfl, ⟨?_, ?_, hs.margin⟩⟩
  · have key : ∀ {l : List Ptr} {es : List (Ellipsoid ℝ × V3 ℝ)} (o : Obj ℝ), q ∉ l → List.Forall₂ (Leads s.1) l es →
        List.Forall₂ (Leads (List.set s.1 q o)) l es := by
      intro l es o hn hf
      induction hf with
      | nil => exact .nil
      | cons h1 _ ih =>
        rw [List.mem_cons, not_or] at hn
        exact .cons ⟨by rw [List.getElem?_set_ne hn.1]; exact h1.1, h1.2⟩ (ih hn.2)
    exact key _ hql hs.leads
  · exact ⟨q, _, hql, hq, by rw [List.getElem?_set_self hlt]⟩

theorem iterate_beside {c : Loop ℝ} {E : Env} {es : List (Ellipsoid ℝ × V3 ℝ)} {m : ℝ} {s : Heap ℝ × Agent ℝ}
    (hne : E.list ≠ []) (hloc : c.isLocal = false) (hpl : c.planar = false) (hs : Beside E.list es m s) (v : V3 ℝ) :
    ∃ s', c.iterate E v s = .ok s' ∧ Beside E.list es m s' ∧ s'.2.state.position = s.2.state.position +
      V3.smul c.dt (c.limit (ellOut es s.2.state.position v m c.addRepulsion c.critical c.power)) := by
  obtain ⟨h1, hset, hon⟩ := withState_beside hs (s.2.state.setLinearVelocity v)
  have hmod := modulate_ell (a := { s.2 with state := s.2.state.setLinearVelocity v }) hne hon.leads
    c.addRepulsion c.critical c.power
  obtain ⟨h2, hset2, hon2⟩ := withState_beside hon ((s.2.state.setLinearVelocity v).setPosition (s.2.state.position +
    V3.smul c.dt (c.limit (ellOut es s.2.state.position v m c.addRepulsion c.critical c.power))))
  refine ⟨_, ?_, hon2, rfl⟩
  unfold Loop.iterate
  rw [show Agent.setLinearVelocity s.1 s.2 v = .ok (h1, { s.2 with state := s.2.state.setLinearVelocity v }) from hset]
  simp only [Res.ok_bind, hloc, hpl, hmod]
  rw [← hset2, ← hs.margin]
  rfl

/-- the limit of the speed does not jump -/
theorem lim_limit {ι : Type} {F : Filter ι} {c : Loop ℝ} (hmax : ∀ m, c.maxVel = some m → 0 < m) {v : ι → V3 ℝ} {v0 : V3 ℝ}
    (hv : LimV F v v0) : LimV F (fun i => c.limit (v i)) (c.limit v0) := by
  cases hc : c.maxVel with
  | none => simpa only [Loop.limit, hc] using hv
  | some m =>
    have hm := hmax m hc
    have key : ∀ w : V3 ℝ, c.limit w = V3.smul (m / max m (V3.norm w)) w := by
      intro w
      simp only [Loop.limit, hc]
      by_cases h : m < V3.norm w
      · have hw : w ≠ V3.zero := by
          rintro rfl; rw [V3.norm_eq_zero.mpr rfl] at h; linarith
        rw [if_pos h, max_eq_right h.le, V3.normalized_of_ne hw]
        ext <;> simp only [V3.smul] <;> ring
      · rw [if_neg h, max_eq_left (not_lt.mp h), div_self hm.ne']
        ext <;> simp [V3.smul]
    simp only [key]
    have hn : Lim F (fun i => max m (V3.norm (v i))) (max m (V3.norm v0)) := Tendsto.max (Lim.const m) hv.norm
    exact LimV.smul ((Lim.const m).div hn (lt_of_lt_of_le hm (le_max_left _ _)).ne') hv

theorem run_limits {ι : Type} {F : Filter ι} {c : Loop ℝ} {E : Env} {es : List (Ellipsoid ℝ × V3 ℝ)} {m : ℝ}
    (hne : E.list ≠ []) (hloc : c.isLocal = false) (hpl : c.planar = false) (hmax : ∀ m, c.maxVel = some m → 0 < m)
    (hk : ∀ er ∈ es, ∃ k1 k2 k3, HasCurv er.1 k1 k2 k3) (n : ℕ) :
    ∀ {s : ι → Heap ℝ × Agent ℝ} {s0 : Heap ℝ × Agent ℝ}, (∀ i, Beside E.list es m (s i)) → Beside E.list es m s0 →
    LimV F (fun i => (s i).2.state.position) s0.2.state.position →
    (∀ k < n, ∀ s', c.run E k s0 = .ok s' →
      Steady es s'.2.state.position (c.desired s'.2.state.position) m c.addRepulsion c.critical c.power) →
    ∃ (t : ι → Heap ℝ × Agent ℝ) (t0 : Heap ℝ × Agent ℝ), (∀ i, c.run E n (s i) = .ok (t i)) ∧ c.run E n s0 = .ok t0 ∧
      LimV F (fun i => (t i).2.state.position) t0.2.state.position := by
  induction n with
  | zero => intro s s0 _ _ hx _; exact ⟨s, s0, fun _ => rfl, rfl, hx⟩
  | succ n ih =>
    intro s s0 hs hs0 hx hst
    choose s1 h1 hs1 hp1 using fun i => iterate_beside hne hloc hpl (hs i) (c.desired (s i).2.state.position)
    obtain ⟨s01, h01, hs01, hp01⟩ := iterate_beside hne hloc hpl hs0 (c.desired s0.2.state.position)
    have hd : LimV F (fun i => c.desired (s i).2.state.position) (c.desired s0.2.state.position) :=
      LimV.smul (Lim.const _) (hx.sub ⟨.const _, .const _, .const _⟩)
    have hes : List.Forall₂ (LimER F) (es.map fun er (_ : ι) => er) es := by
      rw [List.forall₂_map_left_iff]
      refine List.forall₂_same.mpr fun er he => ?_
      obtain ⟨k1, k2, k3, hk'⟩ := hk er he
      exact limER_const er hk'
    have ho := lim_ellOut hes hx hd (Lim.const m) (Lim.const c.critical) (Lim.const c.power) c.addRepulsion
      (hst 0 (Nat.succ_pos n) s0 rfl)
    simp only [List.map_map, Function.comp_def, List.map_id'] at ho
    have hx1 : LimV F (fun i => (s1 i).2.state.position) s01.2.state.position := by
      rw [hp01]
      simp only [hp1]
      exact hx.add (LimV.smul (Lim.const _) (lim_limit hmax ho))
    obtain ⟨t, t0, h2, h3, h4⟩ := ih hs1 hs01 hx1 (by
      intro k hk' s' hr
      refine hst (k + 1) (Nat.succ_lt_succ hk') s' ?_
      rw [Loop.run, h01]; exact hr)
    exact ⟨t, t0, fun i => by rw [Loop.run, h1 i]; exact h2 i, by rw [Loop.run, h01]; exact h3, h4⟩

/-- C104 for the control loop of testKIT.cpp and testConfiguration.cpp: where no iteration of a run of `n` iterations is a
tie, agents that start near enough end, after `n` iterations, as near as wanted. -/
theorem C104_run_partial (c : Loop ℝ) (E : Env) (es : List (Ellipsoid ℝ × V3 ℝ)) (m : ℝ) (n : ℕ) (s0 : Heap ℝ × Agent ℝ)
    (hne : E.list ≠ []) (hloc : c.isLocal = false) (hpl : c.planar = false) (hmax : ∀ m, c.maxVel = some m → 0 < m)
    (hk : ∀ er ∈ es, ∃ k1 k2 k3, HasCurv er.1 k1 k2 k3) (hs0 : Beside E.list es m s0)
    (hst : ∀ k < n, ∀ s', c.run E k s0 = .ok s' →
      Steady es s'.2.state.position (c.desired s'.2.state.position) m c.addRepulsion c.critical c.power) :
    ∃ t0, c.run E n s0 = .ok t0 ∧ ∀ ε > 0, ∃ δ > 0, ∀ s, Beside E.list es m s →
      V3.norm (s.2.state.position - s0.2.state.position) < δ →
      ∃ t, c.run E n s = .ok t ∧ V3.norm (t.2.state.position - t0.2.state.position) < ε := by
  let g : {s : Heap ℝ × Agent ℝ // Beside E.list es m s} → ℝ := fun s => V3.norm (s.1.2.state.position - s0.2.state.position)
  have hg : Tendsto g (comap g (𝓝 0)) (𝓝 0) := tendsto_comap
  obtain ⟨t, t0, h1, h2, h3⟩ := run_limits hne hloc hpl hmax hk n (fun s : {s : Heap ℝ × Agent ℝ // Beside E.list es m s} => s.2) hs0
    (limV_of_norm hg) hst
  refine ⟨t0, h2, fun ε hε => ?_⟩
  have hc : LimV (comap g (𝓝 0)) (fun s => (t s).2.state.position - t0.2.state.position)
      (t0.2.state.position - t0.2.state.position) := h3.sub ⟨.const _, .const _, .const _⟩
  have hn := hc.norm
  rw [V3.sub_self', V3.norm_eq_zero.mpr rfl] at hn
  have hev : ∀ᶠ s in comap g (𝓝 0), V3.norm ((t s).2.state.position - t0.2.state.position) < ε :=
    Tendsto.eventually_lt_const hε hn
  rw [eventually_comap] at hev
  obtain ⟨δ, hδ, hball⟩ := Metric.eventually_nhds_iff.mp hev
  refine ⟨δ, hδ, fun s hs hd => ⟨t ⟨s, hs⟩, h1 ⟨s, hs⟩, hball ?_ ⟨s, hs⟩ rfl⟩⟩
  rw [Real.dist_eq, sub_zero, abs_of_nonneg (V3.norm_nonneg _)]
  exact hd

/-! ### a case: beside a unit ball -/

theorem ball_turn : (Modulation.turn [(ball V3.zero, V3.zero)] ⟨2, 0, 0⟩ ⟨-1, 1, 0⟩ 0 1 2).norm ≠ 1 / 10000 := by
  rw [turn_single _ _ _ _ _ _ ball_free rfl (by intro h; have := congrArg V3.x h; norm_num [V3.zero] at this), ball_turned]
  unfold angle
  intro h
  have h1 : V3.dot (⟨-(3 / 4), 5 / 4, 0⟩ : V3 ℝ) ⟨-1, 1, 0⟩ = 2 := by norm_num [V3.dot]
  have h2 : 0 ≤ V3.norm (⟨-(3 / 4), 5 / 4, 0⟩ : V3 ℝ) * V3.norm (⟨-1, 1, 0⟩ : V3 ℝ) :=
    mul_nonneg (V3.norm_nonneg _) (V3.norm_nonneg _)
  have h3 : (V3.norm (⟨-(3 / 4), 5 / 4, 0⟩ : V3 ℝ) * V3.norm (⟨-1, 1, 0⟩ : V3 ℝ)) ^ 2 = 17 / 4 := by
    rw [mul_pow, pow_two, pow_two, V3.norm_sq, V3.norm_sq]; norm_num [V3.sqNorm, V3.dot]
  rw [h1] at h
  set q := V3.norm (⟨-(3 / 4), 5 / 4, 0⟩ : V3 ℝ) * V3.norm (⟨-1, 1, 0⟩ : V3 ℝ)
  have hq : 2.06 < q := by nlinarith
  have hq1 : 2 / q < 0.98 := by rw [div_lt_iff₀ (by linarith)]; linarith
  have hq0 : 0 < 2 / q := by positivity
  have h4 := Real.cos_arccos (x := 2 / q) (by linarith) (by linarith)
  rw [h] at h4
  have h5 := Real.one_sub_sq_div_two_le_cos (x := (1 / 10000 : ℝ))
  norm_num at h5
  linarith

theorem ball_calm : Calm (ball V3.zero, V3.zero) ⟨2, 0, 0⟩ 0 :=
  ⟨⟨1, ball_smooth _⟩, rfl, rfl, ball_free.star, ball_free.outside, ball_free.tangent⟩

/-- The hypotheses of `C104_static_partial` hold beside a unit ball, with the repulsion. -/
example : ∃ v0, modulateVelocity [.ellipsoid (ball V3.zero)] (agentAt ⟨2, 0, 0⟩ ⟨-1, 1, 0⟩) (envOf [0]) false true false 1 2
      = .ok ([.ellipsoid (ball V3.zero)], v0) ∧
    ∀ ε > 0, ∃ δ > 0, ∀ a : Agent ℝ, V3.norm (a.state.position - ⟨2, 0, 0⟩) < δ →
      V3.norm (a.state.linearVelocity - ⟨-1, 1, 0⟩) < δ → |a.margin - 0| < δ →
      ∃ v, modulateVelocity [.ellipsoid (ball V3.zero)] a (envOf [0]) false true false 1 2
        = .ok ([.ellipsoid (ball V3.zero)], v) ∧ V3.norm (v - v0) < ε := by
  refine C104_static_partial _ (agentAt ⟨2, 0, 0⟩ ⟨-1, 1, 0⟩) (envOf [0]) true 1 2 [(ball V3.zero, V3.zero)] (by simp [envOf])
    (.cons ⟨rfl, rfl⟩ .nil) ?_ (.inr rfl) rfl (fun _ => ball_turn) fun _ => ⟨?_, ?_⟩
  · intro er he
    rw [List.mem_singleton.mp he]
    exact ball_calm
  · intro er he
    rw [List.mem_singleton.mp he]
    show gdist (ball V3.zero) 0 ⟨2, 0, 0⟩ ≠ _
    rw [ball_dist]; norm_num
  · have hd : (ball V3.zero).distanceToPoint (agentAt ⟨2, 0, 0⟩ ⟨-1, 1, 0⟩).state.position
        (V3.const (agentAt ⟨2, 0, 0⟩ ⟨-1, 1, 0⟩).margin) = 4 := by
      show gdist (ball V3.zero) 0 ⟨2, 0, 0⟩ = 4
      rw [ball_dist]; norm_num
    have : ellRep (ball V3.zero) V3.zero (agentAt ⟨2, 0, 0⟩ ⟨-1, 1, 0⟩).state.position
        (agentAt ⟨2, 0, 0⟩ ⟨-1, 1, 0⟩).margin = V3.zero := by
      unfold ellRep
      rw [hd, if_neg (by norm_num [lit_real])]
    simp only [List.map_cons, List.map_nil, List.foldl_cons, List.foldl_nil, this]
    rw [V3.add_zero', V3.norm_eq_zero.mpr rfl]
    norm_num

/-- a unit ball that moves upwards with the speed `s` -/
noncomputable def rising (s : ℝ) : Ellipsoid ℝ :=
  { ball V3.zero with base := { (ball V3.zero).base with state := { (ball V3.zero).base.state with linearVelocity := ⟨0, s, 0⟩ } } }

/-- The hypotheses of `C104_continuous_partial` hold for obstacles that move more and more slowly: the velocities commanded
tend to the one beside the ball at rest. -/
example : ∃ (v : ℕ → V3 ℝ) (v0 : V3 ℝ),
    (∀ n : ℕ, modulateVelocity [.ellipsoid (rising (1 / ((n : ℝ) + 1)))] (agentAt ⟨2, 0, 0⟩ ⟨-1, 1, 0⟩) (envOf [0]) false false false
      1 2 = .ok ([.ellipsoid (rising (1 / ((n : ℝ) + 1)))], v n)) ∧
    modulateVelocity [.ellipsoid (ball V3.zero)] (agentAt ⟨2, 0, 0⟩ ⟨-1, 1, 0⟩) (envOf [0]) false false false 1 2
      = .ok ([.ellipsoid (ball V3.zero)], v0) ∧ LimV atTop v v0 := by
  have hv : ∀ v : V3 ℝ, LimV (atTop : Filter ℕ) (fun _ => v) v := fun v => ⟨.const _, .const _, .const _⟩
  have hq : ∀ q : Quat ℝ, LimQ (atTop : Filter ℕ) (fun _ => q) q := fun q => ⟨.const _, .const _, .const _, .const _⟩
  have hk := (ball_smooth V3.zero).curv
  refine C104_continuous_partial atTop (fun n : ℕ => [.ellipsoid (rising (1 / ((n : ℝ) + 1)))])
    (fun _ => agentAt ⟨2, 0, 0⟩ ⟨-1, 1, 0⟩) _ (agentAt ⟨2, 0, 0⟩ ⟨-1, 1, 0⟩) (envOf [0]) false 1 2
    [fun n : ℕ => (rising (1 / ((n : ℝ) + 1)), V3.zero)] [(ball V3.zero, V3.zero)] (by simp [envOf])
    (fun n => .cons ⟨rfl, rfl⟩ .nil) (.cons ⟨rfl, rfl⟩ .nil) (.cons ⟨⟨1, 1, 1, ⟨⟨hv _, hq _⟩, ?_, hv _, hv _⟩, hv _,
      Eventually.of_forall fun _ => hk.1, hk.1, hk.2⟩, hv _⟩ .nil) (hv _) (hv _) (.const _) ?_
  · exact ⟨.const _, tendsto_one_div_add_atTop_nhds_zero_nat, .const _⟩
  · refine steady_of_calm false ?_ (.inr rfl) rfl (fun _ => ball_turn) (by intro h; cases h)
    intro er he
    rw [List.mem_singleton.mp he]
    exact ball_calm

theorem ball_normal_axis {X : ℝ} (hX : 0 < X) : (ball V3.zero).normalToAgent ⟨X, 0, 0⟩ 0 = ⟨1, 0, 0⟩ := by
  rw [Ellipsoid.normal_frame (ball V3.zero) ⟨X, 0, 0⟩ 0 1 1 1 (ball_smooth _).curv (ball_smooth _).long, ball_inv]
  have e1 : (⟨(2 * ((1 : ℕ) : ℝ) * X / ((halfLengths (ball V3.zero) (V3.const 0)).x * (halfLengths (ball V3.zero) (V3.const 0)).x)) ^ (2 * 1 - 1),
      (2 * ((1 : ℕ) : ℝ) * 0 / ((halfLengths (ball V3.zero) (V3.const 0)).y * (halfLengths (ball V3.zero) (V3.const 0)).y)) ^ (2 * 1 - 1),
      (2 * ((1 : ℕ) : ℝ) * 0 / ((halfLengths (ball V3.zero) (V3.const 0)).z * (halfLengths (ball V3.zero) (V3.const 0)).z)) ^ (2 * 1 - 1)⟩ : V3 ℝ)
      = V3.smul (2 * X) ⟨1, 0, 0⟩ := by
    ext <;> simp [V3.smul, halfLengths, ball, Ellipsoid.ofBase, V3.const, V3.zero, Base.mkRef]
  rw [e1, normalized_axis (by linarith)]

theorem ball_free_axis {X : ℝ} (hX : 1 < X) : Free (ball V3.zero, V3.zero) ⟨X, 0, 0⟩ 0 1 := by
  have hd : gdist (ball V3.zero) 0 ⟨X, 0, 0⟩ = X ^ 2 := by rw [ball_dist]; norm_num
  have hd0 : gdist (ball V3.zero) 0 V3.zero = 0 := by rw [ball_dist]; simp [V3.zero]
  refine ⟨⟨1, by norm_num, ball_smooth _⟩, rfl, rfl, ?_, ?_, ?_, ?_⟩
  · show gdist (ball V3.zero) 0 V3.zero < gdist (ball V3.zero) 0 ⟨X, 0, 0⟩
    rw [hd, hd0]; positivity
  · show 1 < gdist (ball V3.zero) 0 ⟨X, 0, 0⟩
    rw [hd]; nlinarith
  · show gdist (ball V3.zero) 0 ⟨X, 0, 0⟩ ≠ 1
    rw [hd]; nlinarith
  · show (V3.cross ((ball V3.zero).normalToAgent ⟨X, 0, 0⟩ 0) V3.unitZ).norm ≠ _
    rw [ball_normal_axis (by linarith)]
    have : V3.norm (V3.cross (⟨1, 0, 0⟩ : V3 ℝ) V3.unitZ) = 1 := by
      rw [V3.norm_eq_one_iff]; simp [V3.cross, V3.unitZ, V3.sqNorm, V3.dot]
    rw [this]; norm_num

/-- The hypotheses of `C104_run_partial` hold for the agent that is driven towards a unit ball, for any number of
iterations. -/
example (n : ℕ) : ∃ t0, (axisLoop false).run (envOf [0]) n axisStart = .ok t0 ∧ ∀ ε > 0, ∃ δ > 0, ∀ s,
    Beside [0] [(ball V3.zero, V3.zero)] 0 s → V3.norm (s.2.state.position - ⟨2, 0, 0⟩) < δ →
    ∃ t, (axisLoop false).run (envOf [0]) n s = .ok t ∧ V3.norm (t.2.state.position - t0.2.state.position) < ε := by
  refine C104_run_partial (axisLoop false) (envOf [0]) [(ball V3.zero, V3.zero)] 0 n axisStart (by simp [envOf]) rfl rfl
    (by intro m h; cases h) ?_ ⟨.cons ⟨rfl, rfl⟩ .nil, ⟨1, _, by simp [envOf], rfl, rfl⟩, rfl⟩ ?_
  · intro er he
    rw [List.mem_singleton.mp he]
    exact ⟨1, 1, 1, (ball_smooth _).curv⟩
  · intro k _ s' hr
    obtain ⟨t, X, hrun, ht, hX, hX1, hX2, -⟩ := axis_run false k axis_start rfl (by norm_num) (le_refl _)
    rw [hr] at hrun
    cases hrun
    have hdes : (axisLoop false).desired s'.2.state.position = ⟨-(X + 3), 0, 0⟩ := by
      rw [hX]; ext <;> simp [Loop.desired, axisLoop, V3.smul]
    have hf := ball_free_axis hX1
    rw [hdes, hX]
    refine steady_of_calm _ ?_ (.inr rfl) rfl (fun hv => ?_) (by intro h; cases h)
    · intro er he
      rw [List.mem_singleton.mp he]
      exact ⟨⟨1, ball_smooth _⟩, rfl, rfl, hf.star, hf.outside, hf.tangent⟩
    · have hc : (axisLoop false).critical = 1 := rfl
      rw [hc, turn_single _ _ _ _ _ _ hf rfl hv]
      obtain ⟨M, B, hm, hM⟩ := ball_axis s'.1 s'.2 X hX ht.margin hX1
      have hm' : modulationMatrix s'.1 s'.2 (.ellipsoid (ball V3.zero)) =
          .ok ((ellItem (ball V3.zero) V3.zero s'.2.state.position s'.2.margin).matrix,
            (ellItem (ball V3.zero) V3.zero s'.2.state.position s'.2.margin).basis,
            (ellItem (ball V3.zero) V3.zero s'.2.state.position s'.2.margin).dist) := by
        unfold modulationMatrix basisMatrices
        have h2 : (Obj.ellipsoid (ball V3.zero)).base.ref = .ok V3.zero := rfl
        rw [h2]
        simp only [Heap.normalToAgent, Heap.distanceToAgent, Heap.distanceToPoint, Res.ok_bind]
        rfl
      rw [hm', hX, ht.margin] at hm
      simp only [Res.ok.injEq, Prod.mk.injEq] at hm
      rw [hm.1, hM, angle_axis ?_ (by linarith)]
      · norm_num
      · have hl : 1 / X ^ 2 < 1 := by rw [div_lt_one (by positivity)]; nlinarith
        nlinarith

/-! ### jumps -/

theorem combine_still {x : V3 ℝ} {i : Item ℝ} {c p : ℝ} (hl : i.base.state.linearVelocity = V3.zero)
    (ha : i.base.state.angularVelocity = V3.zero) : combine x V3.zero [i] c p = V3.zero := by
  have hov : obsVel x [i] c p = V3.zero := by
    unfold obsVel
    apply lsum_zero
    intro j hj
    simp only [List.mem_singleton] at hj
    subst hj
    exact obstacleVelocity_static hl ha _ _ _
  rw [combine_eq, hov, V3.sub_zero', V3.add_zero']
  have hp : pairs [i] c p = [(i.matrix, 1)] := by simp [pairs, weightOf_single]
  rw [hp]
  apply core_of_zero_speed
  ext <;> simp [M3.mulVec, V3.zero]

/-- what is commanded to an agent that does not want to move, on the x axis before a unit ball -/
theorem still_out {r : ℝ} (hr : 0 < r) :
    modulateVelocity [.ellipsoid (ball V3.zero)] (agentAt ⟨r, 0, 0⟩ V3.zero) (envOf [0]) false true false 1 2 =
      .ok ([.ellipsoid (ball V3.zero)], if r ^ 2 < 11 / 10 then ⟨2 / r, 0, 0⟩ else V3.zero) := by
  rw [modulate_ell (es := [(ball V3.zero, V3.zero)]) (by simp [envOf]) (.cons ⟨rfl, rfl⟩ .nil)]
  have hd : gdist (ball V3.zero) 0 ⟨r, 0, 0⟩ = r ^ 2 := by rw [ball_dist]; norm_num
  have hc : combine (agentAt ⟨r, 0, 0⟩ V3.zero).state.position (agentAt ⟨r, 0, 0⟩ V3.zero).state.linearVelocity
      [ellItem (ball V3.zero) V3.zero (agentAt ⟨r, 0, 0⟩ V3.zero).state.position (agentAt ⟨r, 0, 0⟩ V3.zero).margin] 1 2 =
      V3.zero := combine_still rfl rfl
  have hR : ellRep (ball V3.zero) V3.zero (agentAt ⟨r, 0, 0⟩ V3.zero).state.position (agentAt ⟨r, 0, 0⟩ V3.zero).margin =
      if r ^ 2 < 11 / 10 then ⟨2 / r, 0, 0⟩ else V3.zero := by
    unfold ellRep
    rw [show (ball V3.zero).distanceToPoint (agentAt ⟨r, 0, 0⟩ V3.zero).state.position
      (V3.const (agentAt ⟨r, 0, 0⟩ V3.zero).margin) = r ^ 2 from hd]
    by_cases h : r ^ 2 < 11 / 10
    · rw [if_pos h, if_pos (by simpa [lit_real] using h)]
      ext <;> simp [V3.smul, agentAt, Pose.ofPosition, State.position, V3.zero, lit_real] 
      field_simp
    · rw [if_neg h, if_neg (by simpa [lit_real] using h)]
  unfold ellOut
  simp only [List.map_cons, List.map_nil, List.foldl_cons, List.foldl_nil, hc, hR, if_true]
  have hz : ∀ u : V3 ℝ, V3.zero + u = u := fun u => by ext <;> simp [V3.zero]
  unfold finish
  simp only [hz]
  by_cases h : r ^ 2 < 11 / 10
  · simp only [if_pos h]
    have hn : V3.norm (⟨2 / r, 0, 0⟩ : V3 ℝ) = 2 / r := by
      rw [V3.norm, sqrt_real]
      have : V3.sqNorm (⟨2 / r, 0, 0⟩ : V3 ℝ) = (2 / r) ^ 2 := by simp only [V3.sqNorm, V3.dot]; ring
      rw [this, Real.sqrt_sq (by positivity)]
    have : r < 2 := by nlinarith
    have hlt : (lit 1 10000 : ℝ) < 2 / r := by
      simp only [lit_real]
      rw [lt_div_iff₀ hr]; norm_num; linarith
    simp only [hn, if_pos hlt]
    simp [V3.hasNaN]
  · simp [if_neg h, V3.hasNaN]

/-- C104 is false with the repulsion: an agent that does not want to move is pushed by a ball with a speed of more than 1.9
as soon as its distance is below 1.1, and not at all at 1.1. -/
theorem C104_negation_repulsion : ∃ (h : Heap ℝ) (e : Env) (a0 : Agent ℝ) (el : Ellipsoid ℝ) (v0 : V3 ℝ),
    e.list = [0] ∧ h[0]? = some (.ellipsoid el) ∧ Smooth el a0.margin 1 ∧ Static (.ellipsoid el) ∧
    CentredBall el a0.margin el.base.position ∧ 1 < gdist el a0.margin a0.state.position ∧
    modulateVelocity h a0 e false true false 1 2 = .ok (h, v0) ∧
    ∀ δ > 0, ∃ (a : Agent ℝ) (v : V3 ℝ), V3.norm (a.state.position - a0.state.position) < δ ∧
      a.state.linearVelocity = a0.state.linearVelocity ∧ a.margin = a0.margin ∧
      1 < gdist el a.margin a.state.position ∧
      modulateVelocity h a e false true false 1 2 = .ok (h, v) ∧ 19 / 10 < V3.norm (v - v0) := by
  set R := √(11 / 10 : ℝ) with hR
  have hR2 : R ^ 2 = 11 / 10 := Real.sq_sqrt (by norm_num)
  have hR0 : 0 < R := Real.sqrt_pos.mpr (by norm_num)
  have hR1 : R < 105 / 100 := by
    apply lt_of_pow_lt_pow_left₀ 2 (by norm_num)
    rw [hR2]; norm_num
  have hR3 : 104 / 100 < R := by
    apply lt_of_pow_lt_pow_left₀ 2 hR0.le
    rw [hR2]; norm_num
  have h0 := still_out hR0
  rw [hR2, if_neg (lt_irrefl _)] at h0
  have hg : ∀ r : ℝ, gdist (ball V3.zero) 0 ⟨r, 0, 0⟩ = r ^ 2 := by intro r; rw [ball_dist]; norm_num
  refine ⟨_, envOf [0], agentAt ⟨R, 0, 0⟩ V3.zero, ball V3.zero, _, rfl, rfl, ball_smooth _, ⟨rfl, rfl⟩, ⟨?_, rfl, rfl, rfl⟩,
    ?_, h0, ?_⟩
  · simp [ball, Ellipsoid.ofBase, V3.const]
  · exact lt_of_lt_of_eq (by rw [hR2]; norm_num) (hg R).symm
  · intro δ hδ
    set s := min (δ / 2) (1 / 100) with hs
    have hs0 : 0 < s := lt_min (by linarith) (by norm_num)
    have hs1 : s ≤ 1 / 100 := min_le_right _ _
    have hs2 : s ≤ δ / 2 := min_le_left _ _
    have h1 := still_out (r := R - s) (by linarith)
    rw [if_pos (by rw [← hR2]; nlinarith)] at h1
    have hn : ∀ t : ℝ, V3.norm (⟨t, 0, 0⟩ : V3 ℝ) = |t| := by
      intro t
      rw [V3.norm, sqrt_real]
      simp [V3.sqNorm, V3.dot, Real.sqrt_mul_self_eq_abs]
    refine ⟨agentAt ⟨R - s, 0, 0⟩ V3.zero, _, ?_, rfl, rfl, ?_, h1, ?_⟩
    · have : (agentAt ⟨R - s, 0, 0⟩ V3.zero).state.position - (agentAt ⟨R, 0, 0⟩ V3.zero).state.position = ⟨-s, 0, 0⟩ := by
        ext <;> simp [agentAt, Pose.ofPosition, State.position]
      rw [this, hn, abs_neg, abs_of_pos hs0]; linarith
    · refine lt_of_lt_of_eq ?_ (hg (R - s)).symm
      nlinarith
    · rw [V3.sub_zero', hn, abs_of_pos (by apply div_pos <;> linarith), lt_div_iff₀ (by linarith)]
      nlinarith

/-- what is commanded on the surface of a unit ball to an agent whose desired velocity makes the angle `φ` with the tangent -/
theorem surface_out {φ : ℝ} (h0 : 0 < φ) (h1 : φ ≤ 1 / 10000) :
    ∃ out, modulateVelocity [.ellipsoid (ball V3.zero)] (agentAt ⟨1, 0, 0⟩ ⟨-Real.sin φ, Real.cos φ, 0⟩) (envOf [0])
        false false false 1 2 = .ok ([.ellipsoid (ball V3.zero)], out) ∧
      out.y = if φ < 1 / 10000 then 2 * Real.cos φ * (Real.cos φ + φ * Real.sin φ) else 2 * Real.cos φ := by
  set a := agentAt ⟨1, 0, 0⟩ ⟨-Real.sin φ, Real.cos φ, 0⟩ with ha
  obtain ⟨M, B, d, hm, hM⟩ := Graze.ball_matrix [.ellipsoid (ball V3.zero)] a 1 1 0 one_pos (by norm_num) rfl
    (by ext <;> simp [ha, agentAt, Pose.ofPosition, State.position])
  have hMv : ∀ p q : ℝ, M.mulVec ⟨p, q, 0⟩ = ⟨0, 2 * q, 0⟩ := by
    intro p q
    have := hM p q
    simp only [Graze.ra, Graze.rb] at this
    norm_num at this
    exact this
  have hpi : 2 ≤ Real.pi := Real.two_le_pi
  have hc : 0 < Real.cos φ := Real.cos_pos_of_mem_Ioo ⟨by linarith, by linarith⟩
  have hs : 0 < Real.sin φ := Real.sin_pos_of_pos_of_lt_pi h0 (by linarith)
  have hsc := Real.sin_sq_add_cos_sq φ
  set v : V3 ℝ := ⟨-Real.sin φ, Real.cos φ, 0⟩ with hv
  have hvn : V3.norm v = 1 := by
    rw [V3.norm_eq_one_iff]; simp only [V3.sqNorm, V3.dot, hv]; nlinarith
  have hun : V3.norm (⟨0, 2 * Real.cos φ, 0⟩ : V3 ℝ) = 2 * Real.cos φ := by
    have : V3.sqNorm (⟨0, 2 * Real.cos φ, 0⟩ : V3 ℝ) = (2 * Real.cos φ) ^ 2 := by
      simp only [V3.sqNorm, V3.dot]; ring
    rw [V3.norm, this, sqrt_real, Real.sqrt_sq (by positivity)]
  have hMvv : M.mulVec v = ⟨0, 2 * Real.cos φ, 0⟩ := hMv _ _
  have hang : angle (M.mulVec v) v = φ := by
    rw [hMvv, angle, hvn, hun]
    have : V3.dot ⟨0, 2 * Real.cos φ, 0⟩ v / (2 * Real.cos φ * 1) = Real.cos φ := by
      simp only [V3.dot, hv]; field_simp; ring
    rw [this, Real.arccos_cos h0.le (by linarith)]
  have hvne : v ≠ V3.zero := by
    intro h0; rw [h0, V3.norm_eq_zero.mpr rfl] at hvn; norm_num at hvn
  have hune : M.mulVec v ≠ V3.zero := by
    rw [hMvv]; intro h0; rw [h0, V3.norm_eq_zero.mpr rfl] at hun; linarith
  by_cases hφ : φ < 1 / 10000
  · have hout := small_form [.ellipsoid (ball V3.zero)] a (envOf [0]) 1 2 0 (.ellipsoid (ball V3.zero)) M B d rfl rfl ⟨rfl, rfl⟩
      (ball_smooth _).unit hm (v := v) rfl rfl hvne hune (by rw [hang]; exact h0) (by rw [hang]; exact hφ)
    refine ⟨_, hout, ?_⟩
    rw [if_pos hφ, hang, hMvv, hun, hvn]
    simp only [V3.add_y, V3.smul, hv]
    field_simp
    nlinarith
  · have hits : (envOf [0]).list.mapM (itemOf [.ellipsoid (ball V3.zero)] a) = .ok [⟨(ball V3.zero).base, M, B, d⟩] := by
      show [0].mapM _ = _
      rw [mapM_ok]; exact .cons (itemOf_ok rfl hm) .nil
    have hmod := modulate_plain [.ellipsoid (ball V3.zero)] a (envOf [0]) false 1 2 _ (by simp [envOf]) (by intro h; cases h) hits
    rw [combine_eq] at hmod
    have hov : obsVel a.state.position [⟨(ball V3.zero).base, M, B, d⟩] 1 2 = V3.zero := by
      unfold obsVel
      apply lsum_zero
      intro i hi
      simp only [List.mem_singleton] at hi
      subst hi
      exact obstacleVelocity_static rfl rfl _ _ _
    have hpairs : pairs [⟨(ball V3.zero).base, M, B, d⟩] 1 2 = [(M, 1)] := by
      simp [pairs, weightOf_single]
    rw [hov, hpairs, V3.sub_zero', V3.add_zero', show a.state.linearVelocity = v from rfl] at hmod
    obtain ⟨h2, -, -⟩ := core_single (rv := v) rfl (M := M)
      fun c hc hne => matrix_not_opposite (o := .ellipsoid (ball V3.zero)) (ball_smooth V3.zero).unit hm _ c hc hne
    rw [h2 (Or.inr (by rw [hang]; exact not_lt.mp hφ)), hMvv] at hmod
    exact ⟨_, hmod, by rw [if_neg hφ]⟩

/-- C104 is false without the repulsion too: at a deflection of 1E-4 the two branches of the code for the angle do not
agree. On the surface of a unit ball the commanded velocity jumps by more than 1E-9 although the desired velocity hardly
changes and the agent does not move. -/
theorem C104_negation_small_angle : ∃ (h : Heap ℝ) (e : Env) (a0 : Agent ℝ) (el : Ellipsoid ℝ) (v0 : V3 ℝ),
    e.list = [0] ∧ h[0]? = some (.ellipsoid el) ∧ Smooth el a0.margin 1 ∧ Static (.ellipsoid el) ∧
    CentredBall el a0.margin el.base.position ∧ V3.norm a0.state.linearVelocity = 1 ∧
    modulateVelocity h a0 e false false false 1 2 = .ok (h, v0) ∧
    ∀ δ > 0, ∃ (a : Agent ℝ) (v : V3 ℝ), a.state.position = a0.state.position ∧
      V3.norm (a.state.linearVelocity - a0.state.linearVelocity) < δ ∧ V3.norm a.state.linearVelocity = 1 ∧
      a.margin = a0.margin ∧ modulateVelocity h a e false false false 1 2 = .ok (h, v) ∧ 1 / 10 ^ 9 < V3.norm (v - v0) := by
  have hone : ∀ φ : ℝ, V3.norm (⟨-Real.sin φ, Real.cos φ, 0⟩ : V3 ℝ) = 1 := by
    intro φ
    rw [V3.norm_eq_one_iff]; simp only [V3.sqNorm, V3.dot]; nlinarith [Real.sin_sq_add_cos_sq φ]
  obtain ⟨v0, h0, y0⟩ := surface_out (φ := 1 / 10000) (by norm_num) le_rfl
  rw [if_neg (lt_irrefl _)] at y0
  refine ⟨_, envOf [0], agentAt ⟨1, 0, 0⟩ ⟨-Real.sin (1 / 10000), Real.cos (1 / 10000), 0⟩, ball V3.zero, v0, rfl, rfl,
    ball_smooth _, ⟨rfl, rfl⟩, ⟨?_, rfl, rfl, rfl⟩, hone _, h0, ?_⟩
  · simp [ball, Ellipsoid.ofBase, V3.const]
  intro δ hδ
  set t := min (δ / 4) (1 / 10 ^ 6) with ht
  have ht0 : 0 < t := lt_min (by linarith) (by norm_num)
  have ht1 : t ≤ 1 / 10 ^ 6 := min_le_right _ _
  have ht2 : t ≤ δ / 4 := min_le_left _ _
  obtain ⟨v, h1, y1⟩ := surface_out (φ := 1 / 10000 - t) (by linarith) (by linarith)
  rw [if_pos (by linarith)] at y1
  refine ⟨agentAt ⟨1, 0, 0⟩ ⟨-Real.sin (1 / 10000 - t), Real.cos (1 / 10000 - t), 0⟩, v, rfl, ?_, hone _, rfl, h1, ?_⟩
  · set w := (agentAt ⟨1, 0, 0⟩ ⟨-Real.sin (1 / 10000 - t), Real.cos (1 / 10000 - t), 0⟩).state.linearVelocity -
      (agentAt ⟨1, 0, 0⟩ ⟨-Real.sin (1 / 10000), Real.cos (1 / 10000), 0⟩).state.linearVelocity with hw
    have h2 : V3.sqNorm w = 2 - 2 * Real.cos (1 / 10000 - (1 / 10000 - t)) := by
      rw [Real.cos_sub, hw]
      simp only [agentAt, V3.sqNorm, V3.dot, V3.sub_x, V3.sub_y, V3.sub_z]
      linarith [Real.sin_sq_add_cos_sq (1 / 10000 : ℝ), Real.sin_sq_add_cos_sq (1 / 10000 - t)]
    have h3 := Real.one_sub_sq_div_two_le_cos (x := 1 / 10000 - (1 / 10000 - t))
    have h4 : 1 / 10000 - (1 / 10000 - t) = t := by ring
    rw [h4] at h2 h3
    have h5 : V3.norm w ≤ t := by
      apply le_of_sq_le_sq _ ht0.le
      rw [sq, V3.norm_sq, h2]; linarith
    linarith
  · set φ := 1 / 10000 - t with hφ
    have hφ0 : 99 / 10 ^ 6 ≤ φ := by rw [hφ]; linarith
    have hφ1 : φ < 1 / 10000 := by rw [hφ]; linarith
    have hc := Real.one_sub_sq_div_two_le_cos (x := φ)
    have hs := Real.sin_gt_sub_cube (x := φ) (by linarith)
    have hcc : Real.cos (1 / 10000) ≤ Real.cos φ :=
      Real.cos_le_cos_of_nonneg_of_le_pi (by linarith) (by linarith [Real.two_le_pi]) hφ1.le
    have hb : φ ^ 2 < 1 / 10 ^ 8 := by nlinarith
    have hb' : (99 / 10 ^ 6) ^ 2 ≤ φ ^ 2 := by nlinarith
    have h6 : φ ^ 2 / 4 ≤ Real.cos φ + φ * Real.sin φ - 1 := by
      have : φ * (φ - φ ^ 3 / 6) ≤ φ * Real.sin φ := mul_le_mul_of_nonneg_left hs.le (by linarith)
      nlinarith [mul_nonneg (sq_nonneg φ) (sub_nonneg.mpr hb.le)]
    have h7 : 1 / 10 ^ 9 < v.y - v0.y := by
      rw [y1, y0]
      have h8 : 9 / 10 ≤ Real.cos φ := by linarith
      have h9 : 9 / 10 * (φ ^ 2 / 4) ≤ Real.cos φ * (Real.cos φ + φ * Real.sin φ - 1) :=
        mul_le_mul h8 h6 (by positivity) (by linarith)
      nlinarith
    have h10 : (v - v0).y ^ 2 ≤ V3.norm (v - v0) ^ 2 := by
      rw [sq (V3.norm _), V3.norm_sq]; simp only [V3.sqNorm, V3.dot]
      nlinarith [mul_self_nonneg (v - v0).x, mul_self_nonneg (v - v0).z]
    have h11 : |(v - v0).y| ≤ V3.norm (v - v0) := abs_le_of_sq_le_sq h10 (V3.norm_nonneg _)
    have h12 := le_abs_self (v - v0).y
    rw [V3.sub_y] at h12 h11
    linarith

end DOA.Props
