import Verif.Props.Address
import Verif.Props.Order
import Verif.Props.HullNeedle
import Verif.Props.AggregateLoop
import Verif.Props.AggregateTotal
import Verif.Lemmas.Ownership

/-!
# C83, the negation: the control loop leads into an aggregate, however short the time step
-/

set_option linter.unusedSectionVars false
set_option linter.unusedSimpArgs false

namespace DOA.Props
open DOA DOA.Mem DOA.Spec DOA.Modulation DOA.Ellipsoid DOA.Aggregation

/-- Without `is_local` the envelope of the agent is not read. -/
theorem modulate_envelope (h : Heap ℝ) (a : Agent ℝ) (E : Env) (rep planar : Bool) (critical power : ℝ) (o : Option Ptr) :
    modulateVelocity h a E false rep planar critical power =
      modulateVelocity h { a with envelope := o } E false rep planar critical power := by
  unfold modulateVelocity
  simp only [Bool.false_eq_true, if_false]
  have hc : ∀ (l : List Ptr) (h : Heap ℝ), collect planar a h l = collect planar { a with envelope := o } h l := by
    intro l
    induction l with
    | nil => intro h; rfl
    | cons p l ih =>
      intro h
      simp only [collect, ih]
      rfl
  have hr : ∀ (h : Heap ℝ) (l : List Ptr), repulsionSum h a l = repulsionSum h { a with envelope := o } l := by
    intro h l; rfl
  simp only [hc, hr]

/-- The memory after calls on an agent: only its envelope is new. -/
theorem inv_eq {h0 : Heap ℝ} {s : Heap ℝ × Agent ℝ} (hi : AgentInv h0 s) : ∃ x, s.1 = h0 ++ [.ellipsoid x] := by
  obtain ⟨x, hx, -⟩ := hi.ell
  refine ⟨x, List.ext_getElem? fun i => ?_⟩
  rcases lt_trichotomy i h0.length with h | h | h
  · rw [hi.others i h, List.getElem?_append_left h]
  · subst h; rw [hx]; simp
  · rw [List.getElem?_eq_none (by rw [hi.len]; omega), List.getElem?_eq_none (by simp; omega)]

/-- What is needed of the scene of the needle after `update`: more objects do not matter. -/
theorem needle_scene : ∃ (h' : Heap ℝ) (e : Env) (g : Aggregate ℝ),
    Env.update needleScene ⟨[("a", 0), ("b", 1)], true, []⟩ = .ok (h', e) ∧ e.list = [2] ∧
    h'[2]? = some (.aggregate g) ∧ g.prims = [0, 1] ∧ h'[0]? = some (.ellipsoid needle) ∧ h'.length = 3 ∧
    g.base.refPos = some V3.zero ∧ Acyclic h' ∧ (∀ x : Ellipsoid ℝ, Acyclic (h' ++ [.ellipsoid x])) ∧
    (∀ x : Obj ℝ, (h' ++ [x])[2]? = some (.aggregate g)) ∧
    (∀ x : Obj ℝ, Alike h' (h' ++ [x]) (.aggregate g) (.aggregate g)) ∧
    (∀ x : Obj ℝ, Twins h' (h' ++ [x]) e.list e.list) ∧
    (∀ (a : Agent ℝ) (X : ℝ), 10 < X → a.state.position = ⟨X, 0, 0⟩ → a.state.linearVelocity = ⟨-1, 0, 0⟩ →
      h'.pointIsInside (.aggregate g) a.state.position = .ok false ∧
      ∀ (rep : Bool) (critical power : ℝ), ∃ s, 1 / 10 ≤ s ∧ s ≤ 1 ∧
        modulateVelocity h' a e false rep false critical power = .ok (h', ⟨-s, 0, 0⟩) ∧
        ∀ dt, 10 * (X - 10) ≤ dt → dt ≤ 1 →
          needle.pointIsInside (a.state.position + V3.smul dt ⟨-s, 0, 0⟩) = true) ∧
    ∀ (a : Agent ℝ) (t : ℝ), 0 < t → a.state.position = ⟨-t, 0, 0⟩ → ∀ (rep planar : Bool) (critical power : ℝ),
      modulateVelocity h' a e false rep planar critical power = .ub .indexOOB := by
  obtain ⟨h', e, g, hup, hl, h0, h1, h2, hpr, href, hlen, hall⟩ := C86_negation
  have hget : ∀ (p : Ptr) o, h'[p]? = some o → p = 0 ∧ o = .ellipsoid needle ∨ p = 1 ∧ o = .ellipsoid coin ∨
      p = 2 ∧ o = .aggregate g := by
    intro p o ho
    have hp : p < 3 := by rw [← hlen]; exact (List.getElem?_eq_some_iff.mp ho).1
    have : p = 0 ∨ p = 1 ∨ p = 2 := by
      have key : ∀ n : ℕ, n < 3 → n = 0 ∨ n = 1 ∨ n = 2 := by intro n hn; omega
      exact key p hp
    rcases this with rfl | rfl | rfl
    · rw [h0] at ho; cases ho; simp
    · rw [h1] at ho; cases ho; simp
    · rw [h2] at ho; cases ho; simp
  have hacy : Acyclic h' := by
    refine ⟨fun p => p, ?_⟩
    rintro p q ⟨a, hp, hq⟩
    rcases hget p _ hp with ⟨-, h⟩ | ⟨-, h⟩ | ⟨rfl, h⟩
    · cases h
    · cases h
    · cases h
      rw [hpr] at hq
      rw [hlen]
      simp only [List.mem_cons, List.not_mem_nil, or_false] at hq
      rcases hq with rfl | rfl <;> decide
  have hbig : ∀ x : Ellipsoid ℝ, Acyclic (h' ++ [.ellipsoid x]) := fun x =>
    acyclic_append hacy (by intro q hq; cases hq)
  have hsee : ∀ (x : Obj ℝ) (p : Ptr) o, h'[p]? = some o → (h' ++ [x])[p]? = some o := by
    intro x p o ho
    rw [List.getElem?_append_left (List.getElem?_eq_some_iff.mp ho).1, ho]
  have halike : ∀ x : Obj ℝ, Alike h' (h' ++ [x]) (.aggregate g) (.aggregate g) := by
    intro x
    refine .aggregate _ _ rfl ?_
    rw [hpr]
    exact .cons _ _ _ _ _ _ h0 (hsee x 0 _ h0) (.ellipsoid _ _ rfl)
      (.cons _ _ _ _ _ _ h1 (hsee x 1 _ h1) (.ellipsoid _ _ rfl) .nil)
  have htwins : ∀ x : Obj ℝ, Twins h' (h' ++ [x]) e.list e.list := by
    intro x
    rw [hl]
    exact .cons ⟨_, _, h2, hsee x 2 _ h2, rfl, halike x⟩ .nil
  refine ⟨h', e, g, hup, hl, h2, hpr, h0, hlen, href, hacy, hbig, fun x => hsee x 2 _ h2, halike, htwins, hall, ?_⟩
  have hget : ∀ (p : Ptr) o, needleScene[p]? = some o → o = .ellipsoid needle ∨ o = .ellipsoid coin := by
    intro p o ho
    have := List.mem_of_getElem? ho
    simpa [needleScene] using this
  have ha : Acyclic needleScene := acyclic_flat (by
    intro p a ha
    rcases hget p _ ha with h | h <;> cases h)
  have hd : ∀ (p : Ptr) o, needleScene[p]? = some o → Drawable o := by
    intro p o ho
    rcases hget p o ho with rfl | rfl <;> exact ⟨_, rfl⟩
  have hm : ∀ x ∈ [("a", 0), ("b", 1)], ∃ el, needleScene[x.2]? = some (.ellipsoid el) ∧ el.base.pose.orientation = Quat.one ∧
      (halfLengths el V3.zero).x ≠ 0 ∧ (halfLengths el V3.zero).y ≠ 0 := by
    intro x hx
    simp only [List.mem_cons, List.not_mem_nil, or_false] at hx
    rcases hx with rfl | rfl
    · refine ⟨needle, rfl, rfl, ?_, ?_⟩ <;> simp [halfLengths, needle, Ellipsoid.ofBase, Base.mkPos, Base.mkRef, Base.mkState,
        V3.const, V3.zero]
    · refine ⟨coin, rfl, rfl, ?_, ?_⟩ <;> simp [halfLengths, coin, Ellipsoid.ofBase, Base.mkPos, Base.mkRef, Base.mkState,
        V3.const, V3.zero]
  intro a t ht hpos rep planar critical power
  refine C87_negation ha hd hm rfl hup (by rw [hl]; simp) h2 href a (t := t) (s := 0) ht ?_ rep planar critical power
  rw [hpos]
  show (⟨-t, 0, 0⟩ : V3 ℝ) = V3.zero + ⟨-t, 0, 0⟩
  rw [V3.zero_add']

/-- C83 is false: after `update` with aggregation the needle and the coin form one aggregate; for every time step up to 1,
however short, every power and critical distance, with and without repulsion, with every speed limit of at least 1, there
is a position outside of the aggregate from which a single iteration of the control loop leads into the needle. -/
theorem C83_negation : ∃ (h' : Heap ℝ) (e : Env) (g : Aggregate ℝ),
    Env.update needleScene ⟨[("a", 0), ("b", 1)], true, []⟩ = .ok (h', e) ∧ e.list = [2] ∧
    h'[2]? = some (.aggregate g) ∧ g.prims = [0, 1] ∧ h'[0]? = some (.ellipsoid needle) ∧
    ∀ (c : Loop ℝ) (margin : ℝ), 0 < c.dt → c.dt ≤ 1 → c.gain = 1 → c.isLocal = false → c.planar = false →
      c.target = ⟨9 + c.dt / 10, 0, 0⟩ → (∀ m, c.maxVel = some m → 1 ≤ m) →
      (Agent.mk2 h' (State.ofPosition ⟨10 + c.dt / 10, 0, 0⟩) margin).1.pointIsInside (.aggregate g)
        ⟨10 + c.dt / 10, 0, 0⟩ = .ok false ∧
      ∃ s', c.run e 1 (Agent.mk2 h' (State.ofPosition ⟨10 + c.dt / 10, 0, 0⟩) margin) = .ok s' ∧
        s'.1[0]? = some (.ellipsoid needle) ∧ needle.pointIsInside s'.2.state.position = true := by
  obtain ⟨h', e, g, hup, hl, h2, hpr, h0, hlen, href, hacy, hbig, hsee, halike, htwins, hall, -⟩ := needle_scene
  refine ⟨h', e, g, hup, hl, h2, hpr, h0, fun c margin hdt hdt1 hgain hloc hplan htar hmax => ?_⟩
  set X : ℝ := 10 + c.dt / 10 with hX
  have hX10 : 10 < X := by rw [hX]; linarith
  constructor
  · have := (hall ⟨⟨⟨⟨X, 0, 0⟩, Quat.one⟩, ⟨-1, 0, 0⟩, V3.zero⟩, margin, none, 1 / 2⟩ X hX10 rfl rfl).1
    rw [← this]
    exact ((C90_queries hacy (hbig _) h2 (hsee _) (halike _)).1 _).symm
  · have hdes : c.desired ⟨X, 0, 0⟩ = ⟨-1, 0, 0⟩ := by
      rw [Loop.desired, hgain, htar]
      ext <;> simp [V3.smul, hX]; ring
    set s0 := Agent.mk2 h' (State.ofPosition ⟨X, 0, 0⟩) margin with hs0
    have hi0 : AgentInv h' s0 := inv_mk2 h' _ margin
    have hp0 : s0.2.state.position = ⟨X, 0, 0⟩ := rfl
    obtain ⟨x1, s1, hr1, hi1, hst1, -⟩ := inv_withState hi0 (s0.2.state.setLinearVelocity (c.desired ⟨X, 0, 0⟩))
    have hp1 : s1.2.state.position = ⟨X, 0, 0⟩ := by rw [hst1]; rfl
    have hv1 : s1.2.state.linearVelocity = ⟨-1, 0, 0⟩ := by rw [hst1]; exact hdes
    obtain ⟨y1, hy1⟩ := inv_eq hi1
    obtain ⟨σ, hσ1, hσ2, hmod, hstep⟩ := (hall { s1.2 with envelope := none } X hX10 hp1 hv1).2 c.addRepulsion c.critical
      c.power
    have hag := C90_velocity hacy (hbig y1) (htwins _) (a := { s1.2 with envelope := none })
      (a' := { s1.2 with envelope := none }) rfl rfl (.inl ⟨rfl, rfl⟩) false c.addRepulsion false c.critical c.power
    rw [hmod] at hag
    cases hmod' : modulateVelocity (h' ++ [.ellipsoid y1]) { s1.2 with envelope := none } e false c.addRepulsion false
        c.critical c.power with
    | throw x => rw [hmod'] at hag; cases hag
    | ub x => rw [hmod'] at hag; cases hag
    | ok r =>
      rw [hmod'] at hag
      obtain ⟨hag1, -⟩ := hag
      have hrh : r.1 = h' ++ [.ellipsoid y1] := C47_not_planar (v := r.2) hmod'
      have hlim : c.limit r.2 = ⟨-σ, 0, 0⟩ := by
        rw [← hag1]
        unfold Loop.limit
        cases hm : c.maxVel with
        | none => rfl
        | some m =>
          have hn : (⟨-σ, 0, 0⟩ : V3 ℝ).norm = σ := by
            rw [V3.norm, V3.sqNorm, sqrt_real]
            simp only [V3.dot]
            rw [show -σ * -σ + 0 * 0 + 0 * 0 = σ ^ 2 by ring]
            exact Real.sqrt_sq (by linarith)
          simp only [hn]
          rw [if_neg (by linarith [hmax m hm])]
      have hi1' : AgentInv h' (r.1, s1.2) := by
        rw [hrh, ← hy1]; exact hi1
      obtain ⟨x2, s2, hr2, hi2, hst2, -⟩ := inv_withState hi1'
        (s1.2.state.setPosition ((⟨X, 0, 0⟩ : V3 ℝ) + V3.smul c.dt (c.limit r.2)))
      refine ⟨s2, ?_, hi2.others 0 (by rw [hlen]; decide) |>.trans h0, ?_⟩
      · simp only [Loop.run, Loop.iterate, hp0, Agent.setLinearVelocity, hr1, Res.ok_bind, hloc, hplan]
        rw [hy1, modulate_envelope _ _ _ _ _ _ _ none, hmod']
        simp only [Res.ok_bind, Agent.setPosition, hr2]
      · have : s2.2.state.position = (⟨X, 0, 0⟩ : V3 ℝ) + V3.smul c.dt (c.limit r.2) := by rw [hst2]; rfl
        rw [this, hlim]
        have := hstep c.dt (by rw [hX]; linarith) hdt1
        rw [show ({ s1.2 with envelope := none } : Agent ℝ).state.position = ⟨X, 0, 0⟩ from hp1] at this
        exact this

/-- C83, also false: in the same scene the first iteration fails (it reads a column that does not exist) if the agent starts
straight in the direction of the negative x axis, at any distance, with all parameters and targets. -/
theorem C83_negation_fails : ∃ (h' : Heap ℝ) (e : Env) (g : Aggregate ℝ),
    Env.update needleScene ⟨[("a", 0), ("b", 1)], true, []⟩ = .ok (h', e) ∧ e.list = [2] ∧
    h'[2]? = some (.aggregate g) ∧ g.prims = [0, 1] ∧
    ∀ (c : Loop ℝ) (margin t : ℝ), 0 < t → c.isLocal = false → ∀ n,
      c.run e (n + 1) (Agent.mk2 h' (State.ofPosition ⟨-t, 0, 0⟩) margin) = .ub .indexOOB := by
  obtain ⟨h', e, g, hup, hl, h2, hpr, h0, hlen, href, hacy, hbig, hsee, halike, htwins, -, hub⟩ := needle_scene
  refine ⟨h', e, g, hup, hl, h2, hpr, fun c margin t ht hloc n => ?_⟩
  set s0 := Agent.mk2 h' (State.ofPosition ⟨-t, 0, 0⟩) margin with hs0
  have hi0 : AgentInv h' s0 := inv_mk2 h' _ margin
  have hp0 : s0.2.state.position = ⟨-t, 0, 0⟩ := rfl
  obtain ⟨x1, s1, hr1, hi1, hst1, -⟩ := inv_withState hi0 (s0.2.state.setLinearVelocity (c.desired ⟨-t, 0, 0⟩))
  have hp1 : s1.2.state.position = ⟨-t, 0, 0⟩ := by rw [hst1]; rfl
  obtain ⟨y1, hy1⟩ := inv_eq hi1
  have hmod := hub { s1.2 with envelope := none } t ht hp1 c.addRepulsion c.planar c.critical c.power
  have hag := C90_velocity hacy (hbig y1) (htwins _) (a := { s1.2 with envelope := none })
    (a' := { s1.2 with envelope := none }) rfl rfl (.inl ⟨rfl, rfl⟩) false c.addRepulsion c.planar c.critical c.power
  rw [hmod] at hag
  simp only [Loop.run, Loop.iterate, hp0, Agent.setLinearVelocity, hr1, Res.ok_bind, hloc]
  rw [hy1, modulate_envelope _ _ _ _ _ _ _ none]
  cases hmod' : modulateVelocity (h' ++ [.ellipsoid y1]) { s1.2 with envelope := none } e false c.addRepulsion c.planar
      c.critical c.power with
  | throw x => rw [hmod'] at hag; cases hag
  | ok r => rw [hmod'] at hag; cases hag
  | ub x => rw [hmod'] at hag; cases hag; rfl

end DOA.Props
