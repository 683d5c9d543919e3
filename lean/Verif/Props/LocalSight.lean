import Verif.Props.Many
import Verif.Props.IntersectionDepth
import Verif.Props.Order
import Verif.Props.Agent

/-!
# Property C103: the loop with `is_local`

With `is_local` the modulation is skipped when the envelope of the agent meets no obstacle
(src/Modulation.cpp:136; used by tests/testKIT.cpp:111).
-/

namespace DOA.Props
open DOA DOA.Spec DOA.Modulation DOA.Ellipsoid
set_option linter.unusedSectionVars false
set_option linter.unusedSimpArgs false

/-! ## what the envelope covers -/

private theorem envelope_quadratic {M a b : ℝ} (hM : 1 / 10 ≤ M) (hab : a ^ 2 + b ^ 2 ≤ (M / 2) ^ 2) :
    ((a - 1 / 2) / (1 / 2 + M)) ^ 2 + (b / M) ^ 2 ≤ 1 := by
  have hM0 : 0 < M := by linarith
  have hK : 0 < M + 1 / 4 := by linarith
  rw [div_pow, div_pow, div_add_div _ _ (by positivity) (by positivity), div_le_one (by positivity)]
  have hb : b ^ 2 ≤ M ^ 2 / 4 - a ^ 2 := by nlinarith
  have h1 : (1 / 2 + M) ^ 2 * b ^ 2 ≤ (1 / 2 + M) ^ 2 * (M ^ 2 / 4 - a ^ 2) :=
    mul_le_mul_of_nonneg_left hb (by positivity)
  have h2 : (a - 1 / 2) ^ 2 * M ^ 2 + (1 / 2 + M) ^ 2 * (M ^ 2 / 4 - a ^ 2) ≤ (1 / 2 + M) ^ 2 * M ^ 2 := by
    have h3 : 0 ≤ (a * (M + 1 / 4) + M ^ 2 / 2) ^ 2 := sq_nonneg _
    have h4 : 0 ≤ M ^ 2 * ((M + 1 / 4) * (3 / 4 * (1 / 2 + M) ^ 2 - 1 / 4) - M ^ 2 / 4) := by
      apply mul_nonneg (by positivity)
      nlinarith [mul_nonneg (mul_nonneg hM0.le hM0.le) (sub_nonneg.mpr hM), mul_nonneg hM0.le (sub_nonneg.mpr hM),
        mul_nonneg (sub_nonneg.mpr hM) (sub_nonneg.mpr hM)]
    have h5 : 0 ≤ (M + 1 / 4) * ((1 / 2 + M) ^ 2 * M ^ 2 -
        ((a - 1 / 2) ^ 2 * M ^ 2 + (1 / 2 + M) ^ 2 * (M ^ 2 / 4 - a ^ 2))) := by nlinarith
    have := nonneg_of_mul_nonneg_right h5 hK
    linarith
  linarith

/-- The envelope covers the disc with half the radius `max(0.1, margin)` around the agent, for every velocity in
the plane. -/
theorem envelope_disc {x v : V3 ℝ} {m : ℝ} {env : Ellipsoid ℝ} (he : EnvelopeOf x v m env) (hv : v.z = 0) :
    DiscIn env x.x x.y (max (1 / 10) m / 2) := by
  have hM : (1 / 10 : ℝ) ≤ max (1 / 10) m := le_max_left _ _
  intro a b hab
  set M := max (1 / 10) m with hMd
  have hM0 : 0 < M := by linarith
  have hq := zrot_isUnit he.rotated
  obtain ⟨q1, q2, q3⟩ := he.rotated
  have hq1 : env.base.orientation.w ^ 2 + env.base.orientation.z ^ 2 = 1 := by
    have h := (Quat.isUnit_iff_norm _).mpr q1
    simp only [Quat.IsUnit, Quat.sqNorm, q2, q3] at h
    nlinarith
  by_cases h0 : v = V3.zero
  · obtain ⟨hp, hax⟩ := he.rest h0
    set w := env.base.orientation.w
    set z := env.base.orientation.z
    refine ⟨(w ^ 2 - z ^ 2) * a + 2 * w * z * b, -(2 * w * z) * a + (w ^ 2 - z ^ 2) * b, ?_, ?_, ?_⟩
    · simp only [halfLengths, hax, he.margin_zero, V3.zero, add_zero]
      rw [div_pow, div_pow, ← add_div, div_le_one (by positivity)]
      have e1 : ((w ^ 2 - z ^ 2) * a + 2 * w * z * b) ^ 2 + (-(2 * w * z) * a + (w ^ 2 - z ^ 2) * b) ^ 2 =
          (w ^ 2 + z ^ 2) ^ 2 * (a ^ 2 + b ^ 2) := by ring
      rw [e1, hq1]
      nlinarith
    · rw [zrot_apply he.rotated, hp]
      show x.x + a = _
      have : (w ^ 2 - z ^ 2) * ((w ^ 2 - z ^ 2) * a + 2 * w * z * b) -
          2 * w * z * (-(2 * w * z) * a + (w ^ 2 - z ^ 2) * b) = (w ^ 2 + z ^ 2) ^ 2 * a := by ring
      linarith [this, show (w ^ 2 + z ^ 2) ^ 2 * a = a by rw [hq1]; ring]
    · rw [zrot_apply he.rotated, hp]
      show x.y + b = _
      have : 2 * w * z * ((w ^ 2 - z ^ 2) * a + 2 * w * z * b) +
          (w ^ 2 - z ^ 2) * (-(2 * w * z) * a + (w ^ 2 - z ^ 2) * b) = (w ^ 2 + z ^ 2) ^ 2 * b := by ring
      linarith [this, show (w ^ 2 + z ^ 2) ^ 2 * b = b by rw [hq1]; ring]
  · obtain ⟨hp, hax⟩ := he.moving h0
    have hr : 0 < v.x ^ 2 + v.y ^ 2 := by
      rcases (add_nonneg (sq_nonneg v.x) (sq_nonneg v.y)).lt_or_eq with h | h
      · exact h
      · exfalso
        apply h0
        have h1 : v.x = 0 := by nlinarith [sq_nonneg v.x, sq_nonneg v.y]
        have h2 : v.y = 0 := by nlinarith [sq_nonneg v.x, sq_nonneg v.y]
        ext <;> simp [V3.zero, h1, h2, hv]
    have hn : V3.norm v = √(v.x ^ 2 + v.y ^ 2) := by
      show Real.sqrt _ = _
      congr 1
      simp only [V3.sqNorm, V3.dot, hv]; ring
    have hh := he.heading hr.ne'
    set N := √(v.x ^ 2 + v.y ^ 2) with hN
    have hN0 : 0 < N := Real.sqrt_pos.mpr hr
    have hN2 : N ^ 2 = v.x ^ 2 + v.y ^ 2 := Real.sq_sqrt hr.le
    set c := v.x / N with hc
    set s := v.y / N with hs
    have hcs : c ^ 2 + s ^ 2 = 1 := by
      rw [hc, hs, div_pow, div_pow, ← add_div, ← hN2, div_self (by positivity)]
    have hap := zrot_apply he.rotated ⟨1, 0, 0⟩
    have hap' : env.base.pose.apply ⟨1, 0, 0⟩ = env.base.pose.orientation.rotate ⟨1, 0, 0⟩ + env.base.position := rfl
    rw [hap', hh] at hap
    have hc1 : env.base.orientation.w ^ 2 - env.base.orientation.z ^ 2 = c := by
      have := congrArg V3.x hap
      simp only [V3.add_x] at this
      linarith
    have hs1 : 2 * env.base.orientation.w * env.base.orientation.z = s := by
      have := congrArg V3.y hap
      simp only [V3.add_y] at this
      linarith
    have hpx : env.base.position.x = x.x + c / 2 := by
      rw [hp, hn]; simp only [V3.add_x, V3.smul, hc]; field_simp
    have hpy : env.base.position.y = x.y + s / 2 := by
      rw [hp, hn]; simp only [V3.add_y, V3.smul, hs]; field_simp
    refine ⟨(c * a + s * b) - 1 / 2, -s * a + c * b, ?_, ?_, ?_⟩
    · simp only [halfLengths, hax, he.margin_zero, V3.zero, add_zero]
      refine envelope_quadratic hM ?_
      have e1 : (c * a + s * b) ^ 2 + (-s * a + c * b) ^ 2 = (c ^ 2 + s ^ 2) * (a ^ 2 + b ^ 2) := by ring
      rw [e1, hcs, one_mul]; exact hab
    · rw [zrot_apply he.rotated, hc1, hs1]
      show x.x + a = c * (c * a + s * b - 1 / 2) - s * (-s * a + c * b) + env.base.position.x
      rw [hpx]
      have : c * (c * a + s * b) - s * (-s * a + c * b) = (c ^ 2 + s ^ 2) * a := by ring
      rw [hcs] at this
      linarith
    · rw [zrot_apply he.rotated, hc1, hs1]
      show x.y + b = s * (c * a + s * b - 1 / 2) + c * (-s * a + c * b) + env.base.position.y
      rw [hpy]
      have : s * (c * a + s * b) + c * (-s * a + c * b) = (c ^ 2 + s ^ 2) * b := by ring
      rw [hcs] at this
      linarith

/-- The gap between neighbouring samples of `o`, at most: `π/99` times the larger half length. -/
noncomputable def sampleGap (o : Ellipsoid ℝ) : ℝ :=
  max |(halfLengths o V3.zero).x| |(halfLengths o V3.zero).y| * (Real.pi / 99)

theorem sampleGap_nonneg (o : Ellipsoid ℝ) : 0 ≤ sampleGap o :=
  mul_nonneg (le_trans (abs_nonneg _) (le_max_left _ _)) (by have := Real.pi_pos; positivity)

/-- C103, sight: an obstacle with a point nearer than `max(0.1, margin)/2` minus the gap between its samples is
in sight, whatever the direction of the velocity. -/
theorem C103_near {x v : V3 ℝ} {m : ℝ} {env : Ellipsoid ℝ} (he : EnvelopeOf x v m env) (hv : v.z = 0)
    (o : Ellipsoid ℝ) (ho : ZRotated o) (hox : (halfLengths o V3.zero).x ≠ 0) (hoy : (halfLengths o V3.zero).y ≠ 0)
    (a b d : ℝ) (hd : 0 ≤ d) (hin : InEllipse o (halfLengths o V3.zero) a b)
    (hnear : (a - x.x) ^ 2 + (b - x.y) ^ 2 ≤ d ^ 2) (hr : d + sampleGap o ≤ max (1 / 10) m / 2) :
    env.isIntersectingEllipsoid o = .ok true := by
  refine C29_deep_partial env o he.rotated ho hox hoy a b hin ?_
  intro u w huw
  have hg := sampleGap_nonneg o
  change u ^ 2 + w ^ 2 ≤ sampleGap o ^ 2 at huw
  have := envelope_disc he hv (a - x.x + u) (b - x.y + w) (by
    generalize sampleGap o = G at *
    generalize max (1 / 10) m / 2 = R at *
    generalize a - x.x = p at *
    generalize b - x.y = q at *
    have h1 : (d + G) ^ 2 ≤ R ^ 2 := by gcongr
    have h2 : p * u + q * w ≤ d * G := by
      refine abs_le_of_sq_le_sq' ?_ (by positivity) |>.2
      nlinarith [sq_nonneg (p * w - q * u), mul_le_mul hnear huw (by positivity) (by positivity)]
    nlinarith)
  rw [show x.x + (a - x.x + u) = a + u by ring, show x.y + (b - x.y + w) = b + w by ring] at this
  exact this

/-- A point of the plane in the obstacle inflated by the margin `m` is at most `m` away from the obstacle. -/
theorem deflate {e : Ellipsoid ℝ} {m : ℝ} (sm : Smooth e m 1) (hp : InPlaneZ e.base) (hm : 0 ≤ m)
    (hx : 0 < (halfLengths e V3.zero).x) (hy : 0 < (halfLengths e V3.zero).y) {x : V3 ℝ} (hz : x.z = 0)
    (hg : gdist e m x ≤ 1) :
    ∃ a b, InEllipse e (halfLengths e V3.zero) a b ∧ (a - x.x) ^ 2 + (b - x.y) ^ 2 ≤ m ^ 2 := by
  have hrot : ZRotated e := ⟨sm.unit, hp.orient_x, hp.orient_y⟩
  have hq := zrot_sq hrot
  rw [gdist, distance_frame e _ _ 1 1 1 sm.curv sm.long] at hg
  have hyz : (e.base.pose.inverse.apply x).z = 0 := flat_apply (flat_inversePose hp.pose) hz
  have hback : e.base.pose.apply (e.base.pose.inverse.apply x) = x := Pose.apply_apply_inverse (zrot_isUnit hrot) x
  have hlx : (halfLengths e (V3.const m)).x = (halfLengths e V3.zero).x + m := by
    simp [halfLengths, V3.const, V3.zero]
  have hly : (halfLengths e (V3.const m)).y = (halfLengths e V3.zero).y + m := by
    simp [halfLengths, V3.const, V3.zero]
  rw [level, hyz, hlx, hly] at hg
  generalize hy' : e.base.pose.inverse.apply x = y at *
  set A := (halfLengths e V3.zero).x with hA
  set B := (halfLengths e V3.zero).y with hB
  have hA' : 0 < A + m := by linarith
  have hB' : 0 < B + m := by linarith
  have hg : (y.x / (A + m)) ^ 2 + (y.y / (B + m)) ^ 2 ≤ 1 := by
    have : (0 / (halfLengths e (V3.const m)).z : ℝ) ^ (2 * 1) = 0 := by simp
    rw [this] at hg
    linarith
  refine ⟨_, _, ⟨y.x / (A + m) * A, y.y / (B + m) * B, ?_, rfl, rfl⟩, ?_⟩
  · rw [mul_div_assoc, mul_div_assoc, div_self hx.ne', div_self hy.ne', mul_one, mul_one]
    exact hg
  · rw [← hback, zrot_apply hrot, zrot_apply hrot]
    simp only
    have e1 : y.x / (A + m) * A = y.x - m * (y.x / (A + m)) := by field_simp; ring
    have e2 : y.y / (B + m) * B = y.y - m * (y.y / (B + m)) := by field_simp; ring
    rw [e1, e2]
    generalize y.x / (A + m) = p at *
    generalize y.y / (B + m) = q at *
    generalize e.base.orientation.w = w at *
    generalize e.base.orientation.z = z at *
    have e3 : ((w ^ 2 - z ^ 2) * (y.x - m * p) - 2 * w * z * (y.y - m * q) + e.base.position.x -
        ((w ^ 2 - z ^ 2) * y.x - 2 * w * z * y.y + e.base.position.x)) ^ 2 +
        (2 * w * z * (y.x - m * p) + (w ^ 2 - z ^ 2) * (y.y - m * q) + e.base.position.y -
        (2 * w * z * y.x + (w ^ 2 - z ^ 2) * y.y + e.base.position.y)) ^ 2 =
        (w ^ 2 + z ^ 2) ^ 2 * (m ^ 2 * (p ^ 2 + q ^ 2)) := by ring
    rw [e3, add_comm (w ^ 2) (z ^ 2), hq, one_pow, one_mul]
    exact mul_le_of_le_one_right (by positivity) hg

/-! ## one iteration -/

/-- The envelope of the agent is as the constructor made it: an ellipsoid without margin, 1/2 ahead. -/
structure Watching (s : Heap ℝ × Agent ℝ) : Prop where
  ahead : s.2.deltaT = lit 1 2
  envelope : ∃ (q : Ptr) (env : Ellipsoid ℝ), s.2.envelope = some q ∧ s.1[q]? = some (.ellipsoid env) ∧
    env.base.margin = V3.const 0 ∧ env.curv = V3.const 1

/-- The same loop without `is_local`. -/
def everywhere (c : Loop ℝ) : Loop ℝ := { c with isLocal := false }

theorem withState_watching {s s' : Heap ℝ × Agent ℝ} (hw : Watching s) {st : State ℝ}
    (h : Agent.withState s.1 s.2 st = .ok s') :
    Watching s' ∧ s'.2 = { s.2 with state := st } ∧
      ∃ env, s'.2.getEnvelope s'.1 = .ok (.ellipsoid env) ∧ EnvelopeOf st.position st.linearVelocity s.2.margin env := by
  obtain ⟨q, env, h1, h2, h3, h4⟩ := hw.envelope
  have hlt : q < s.1.length := by
    by_contra hn
    rw [List.getElem?_eq_none (Nat.le_of_not_lt hn)] at h2
    cases h2
  set a : Agent ℝ := { s.2 with state := st } with ha
  have h1' : a.envelope = some q := h1
  have hset : Agent.withState s.1 s.2 st = .ok (s.1.set q (.ellipsoid (a.envelopeFor env)), a) := by
    show (a.updateEnvelope s.1 >>= fun h' => Res.ok (h', a)) = _
    simp only [Agent.updateEnvelope, h1', Heap.deref, h2, Res.ok_bind]
  rw [hset] at h
  cases h
  have hget : (s.1.set q (Obj.ellipsoid (a.envelopeFor env)))[q]? = some (.ellipsoid (a.envelopeFor env)) :=
    List.getElem?_set_self hlt
  refine ⟨⟨hw.ahead, q, _, h1', hget, h3, h4⟩, rfl, _, ?_, envelopeFor_spec (a := a) hw.ahead h3 h4⟩
  simp only [Agent.getEnvelope, h1', Heap.deref, hget]

/-- Without `planar` the modulation leaves the objects alone. -/
theorem modulate_keeps {h h' : Heap ℝ} {a : Agent ℝ} {E : Env} {loc rep : Bool} {cr pw : ℝ} {v : V3 ℝ}
    (hm : modulateVelocity h a E loc rep false cr pw = .ok (h', v)) : h' = h := by
  rw [modulateVelocity_eq] at hm
  split at hm
  · cases hm; rfl
  · obtain ⟨b, -, hm⟩ := Res.bind_eq_ok.mp hm
    split at hm
    · obtain ⟨r, hr, hm⟩ := Res.bind_eq_ok.mp hm
      obtain ⟨rp, -, hm⟩ := Res.bind_eq_ok.mp hm
      cases hm
      exact collect_unchanged a E.list h r hr
    · cases hm; rfl

/-- Every iteration moves the agent by `dt` times a velocity within the limit. -/
theorem iterate_moves {c : Loop ℝ} (hpl : c.planar = false) {E : Env} {v : V3 ℝ} {s s' : Heap ℝ × Agent ℝ} (hw : Watching s)
    (h : c.iterate E v s = .ok s') :
    Watching s' ∧ ∃ u, s'.2.state.position = s.2.state.position + V3.smul c.dt (c.limit u) := by
  unfold Loop.iterate at h
  obtain ⟨s1, h1, h⟩ := Res.bind_eq_ok.mp h
  obtain ⟨r, h2, h⟩ := Res.bind_eq_ok.mp h
  obtain ⟨hw1, -, -⟩ := withState_watching hw h1
  rw [hpl] at h2
  have := modulate_keeps (v := r.2) h2
  rw [this] at h
  obtain ⟨hw2, hs, -⟩ := withState_watching (s := (s1.1, s1.2)) hw1 h
  refine ⟨hw2, r.2, ?_⟩
  rw [hs]
  rfl

/-- With `is_local` an iteration is the same as without if an obstacle is in sight; otherwise the agent moves with
the desired velocity. -/
theorem iterate_local {c : Loop ℝ} {E : Env} {S : Scene} {m : ℝ} (hloc : c.isLocal = true)
    {s : Heap ℝ × Agent ℝ} (hs : OnScene S E.list m s) (hw : Watching s) (v : V3 ℝ) (hv : v.z = 0) :
    ∃ env, EnvelopeOf s.2.state.position v m env ∧
      ((∃ p ∈ E.list, env.isIntersectingEllipsoid (S.obj p) = .ok true) ∧
          c.iterate E v s = (everywhere c).iterate E v s ∨
        (∀ p ∈ E.list, env.isIntersectingEllipsoid (S.obj p) = .ok false) ∧
          ∃ s', c.iterate E v s = .ok s' ∧ OnScene S E.list m s' ∧
            s'.2.state.position = s.2.state.position + V3.smul c.dt (c.limit v)) := by
  obtain ⟨h1, hset, hon⟩ := withState_onScene hs (s.2.state.setLinearVelocity v) hs.flat
  obtain ⟨-, -, env, henv, hspec⟩ := withState_watching hw hset
  set a1 : Agent ℝ := { s.2 with state := s.2.state.setLinearVelocity v } with ha1
  rw [hs.margin] at hspec
  change EnvelopeOf s.2.state.position v m env at hspec
  have hsee : ∀ p ∈ E.list, h1.isIntersecting (.ellipsoid env) (.ellipsoid (S.obj p)) =
      env.isIntersectingEllipsoid (S.obj p) := fun p _ => rfl
  have hok : ∀ p ∈ E.list, ∃ o b, h1[p]? = some o ∧ h1.isIntersecting (.ellipsoid env) o = .ok b := by
    intro p hp
    obtain ⟨b, hb⟩ := C29_total env (S.obj p)
    exact ⟨_, b, hon.obj p hp, hb⟩
  have hiter : ∀ d : Loop ℝ, d.iterate E v s = (modulateVelocity h1 a1 E d.isLocal d.addRepulsion d.planar d.critical d.power >>=
      fun r => a1.setPosition r.1 (s.2.state.position + V3.smul d.dt (d.limit r.2))) := by
    intro d
    unfold Loop.iterate
    rw [show Agent.setLinearVelocity s.1 s.2 v = .ok (h1, a1) from hset]
    rfl
  have hm : ∀ b, h1.isIntersectingList (.ellipsoid env) E.list = .ok b → sightOf h1 a1 true E.list = .ok b := by
    intro b hb
    simp only [sightOf, henv, Res.ok_bind, hb]
  by_cases hex : ∃ p ∈ E.list, env.isIntersectingEllipsoid (S.obj p) = .ok true
  · refine ⟨env, hspec, Or.inl ⟨hex, ?_⟩⟩
    obtain ⟨p, hp, hb⟩ := hex
    have := hm true (sight_of_true hok ⟨p, hp, _, hon.obj p hp, hb⟩)
    rw [hiter c, hiter (everywhere c)]
    have e1 : modulateVelocity h1 a1 E c.isLocal c.addRepulsion c.planar c.critical c.power =
        modulateVelocity h1 a1 E (everywhere c).isLocal (everywhere c).addRepulsion (everywhere c).planar (everywhere c).critical
          (everywhere c).power := by
      rw [modulateVelocity_eq, modulateVelocity_eq, hloc, this]
      rfl
    rw [e1]
    rfl
  · have hall : ∀ p ∈ E.list, env.isIntersectingEllipsoid (S.obj p) = .ok false := by
      intro p hp
      obtain ⟨b, hb⟩ := C29_total env (S.obj p)
      cases b with
      | false => exact hb
      | true => exact absurd ⟨p, hp, hb⟩ hex
    have hno : ∃ b, h1.isIntersectingList (.ellipsoid env) E.list = .ok b ∧ b = false := by
      have : ∀ l : List Ptr, (∀ p ∈ l, p ∈ E.list) → h1.isIntersectingList (.ellipsoid env) l = .ok false := by
        intro l
        induction l with
        | nil => intro _; rfl
        | cons p l ih =>
          intro hl
          have hp := hl p List.mem_cons_self
          have ih := ih fun q hq => hl q (List.mem_cons_of_mem _ hq)
          simp only [Heap.isIntersectingList, List.foldlM_cons, Bool.false_eq_true, if_false, Heap.deref, hon.obj p hp, Res.ok_bind,
            hsee p hp, hall p hp] at ih ⊢
          exact ih
      exact ⟨false, this E.list fun _ h => h, rfl⟩
    obtain ⟨b, hb, rfl⟩ := hno
    have hmod : modulateVelocity h1 a1 E c.isLocal c.addRepulsion c.planar c.critical c.power = .ok (h1, v) := by
      rw [modulateVelocity_eq, hloc, hm false hb]
      split <;> rfl
    obtain ⟨g, hg0, hg1, hlim, -⟩ : ∃ g : ℝ, True ∧ True ∧ (c.limit v).z = g * v.z ∧ True := by
      unfold Loop.limit
      split
      · exact ⟨1, trivial, trivial, by ring, trivial⟩
      · split
        · refine ⟨0, trivial, trivial, ?_, trivial⟩
          simp only [V3.smul, V3.normalized]
          split <;> simp [V3.sdiv, hv]
        · exact ⟨1, trivial, trivial, by ring, trivial⟩
    obtain ⟨h2, hset2, hon2⟩ := withState_onScene hon (a1.state.setPosition (s.2.state.position +
      V3.smul c.dt (c.limit v))) (by
        show (s.2.state.position + _).z = 0
        simp only [V3.add_z, V3.smul, hs.flat, hlim, hv, mul_zero, add_zero])
    refine ⟨env, hspec, Or.inr ⟨hall, _, ?_, hon2, rfl⟩⟩
    rw [hiter c, hmod]
    exact hset2

/-- What the theorems ask in addition to those without `is_local`: elliptic obstacles with positive lengths. -/
def Elliptic (E : Env) (S : Scene) : Prop :=
  ∀ p ∈ E.list, S.curv p = 1 ∧ 0 < (halfLengths (S.obj p) V3.zero).x ∧ 0 < (halfLengths (S.obj p) V3.zero).y

/-- The agent sees an obstacle before a step can take it there: margin, length of the step with velocity `v` and
gap between the samples are together at most half of `max(0.1, margin)`. -/
def Foresees (c : Loop ℝ) (E : Env) (S : Scene) (m : ℝ) (v : V3 ℝ) : Prop :=
  ∀ p ∈ E.list, m + c.dt * V3.norm (c.limit v) + sampleGap (S.obj p) ≤ max (1 / 10) m / 2

/-- One iteration: if it is safe without `is_local` then it is safe with it. -/
theorem local_step {c : Loop ℝ} {E : Env} {S : Scene} {m l : ℝ} (hc : ManySetup (everywhere c) E S m l)
    (hloc : c.isLocal = true) (hm : 0 ≤ m) (hel : Elliptic E S) {s : Heap ℝ × Agent ℝ} (hs : OnScene S E.list m s)
    (hw : Watching s) (v : V3 ℝ) (hv : v.z = 0) (hsee : Foresees c E S m v)
    (hsafe : ∃ s1, (everywhere c).iterate E v s = .ok s1 ∧ OnScene S E.list m s1 ∧
      ∀ p ∈ E.list, 1 < gdist (S.obj p) m s1.2.state.position) :
    ∃ s1, c.iterate E v s = .ok s1 ∧ OnScene S E.list m s1 ∧ Watching s1 ∧
      ∀ p ∈ E.list, 1 < gdist (S.obj p) m s1.2.state.position := by
  have hpl : c.planar = false := hc.notPlanar
  obtain ⟨env, hspec, ⟨-, heq⟩ | ⟨hblind, s1, hit, hs1, hx⟩⟩ := iterate_local hloc hs hw v hv
  · obtain ⟨s1, h1, h2, h3⟩ := hsafe
    rw [← heq] at h1
    exact ⟨s1, h1, h2, (iterate_moves hpl hw h1).1, h3⟩
  · refine ⟨s1, hit, hs1, (iterate_moves hpl hw hit).1, fun p hp => ?_⟩
    by_contra hin
    obtain ⟨hk, hlx, hly⟩ := hel p hp
    have gd := hc.good p hp
    have sm := gd.smooth
    rw [hk] at sm
    obtain ⟨a, b, hab, hd⟩ := deflate sm gd.plane hm hlx hly hs1.flat (not_lt.mp hin)
    have hdt : 0 ≤ c.dt := hc.dt
    have hst : 0 ≤ c.dt * V3.norm (c.limit v) := mul_nonneg hdt (V3.norm_nonneg _)
    have hnear := C103_near hspec hv (S.obj p) ⟨sm.unit, gd.plane.orient_x, gd.plane.orient_y⟩ hlx.ne' hly.ne' a b
      (m + c.dt * V3.norm (c.limit v)) (by linarith) hab (by
        have hn : V3.norm (c.limit v) ^ 2 = (c.limit v).x ^ 2 + (c.limit v).y ^ 2 + (c.limit v).z ^ 2 := by
          rw [sq, V3.norm_sq]; simp only [V3.sqNorm, V3.dot]; ring
        rw [hx] at hd
        simp only [V3.add_x, V3.add_y, V3.smul] at hd
        generalize V3.norm (c.limit v) = N at *
        have h1 : (c.dt * (c.limit v).x) ^ 2 + (c.dt * (c.limit v).y) ^ 2 ≤ (c.dt * N) ^ 2 := by
          rw [mul_pow, mul_pow, mul_pow, hn]
          nlinarith [mul_nonneg (sq_nonneg c.dt) (sq_nonneg (c.limit v).z)]
        generalize c.dt * (c.limit v).x = p1 at *
        generalize c.dt * (c.limit v).y = p2 at *
        generalize c.dt * N = q at *
        have e1 : a - s.2.state.position.x = (a - (s.2.state.position.x + p1)) + p1 := by ring
        have e2 : b - s.2.state.position.y = (b - (s.2.state.position.y + p2)) + p2 := by ring
        rw [e1, e2]
        generalize a - (s.2.state.position.x + p1) = u at *
        generalize b - (s.2.state.position.y + p2) = w at *
        have h2 : u * p1 + w * p2 ≤ m * q := by
          refine abs_le_of_sq_le_sq' ?_ (by positivity) |>.2
          nlinarith [sq_nonneg (u * p2 - w * p1), mul_le_mul hd h1 (by positivity) (by positivity)]
        nlinarith) (hsee p hp)
    rw [hblind p hp] at hnear
    cases hnear

/-! ## C103 the loop with `is_local` -/

/-- C103, the part that holds: with `is_local` and repulsion the agent stays outside of all obstacles for ever, under
the conditions of C74 for the loop without `is_local`, for elliptic obstacles and as long as the agent foresees the
obstacles.  Full statement: without the condition `Foresees`.  That is false (`C103_negation`). -/
theorem C103_local_partial (c : Loop ℝ) (E : Env) (S : Scene) (m l : ℝ) (hc : ManySetup (everywhere c) E S m l)
    (hloc : c.isLocal = true) (hm : 0 ≤ m) (hel : Elliptic E S) (n : ℕ) :
    ∀ (s : Heap ℝ × Agent ℝ), OnScene S E.list m s → Watching s →
    (∀ p ∈ E.list, 1 < gdist (S.obj p) m s.2.state.position) →
    (∀ i < n, ∀ s', c.run E i s = .ok s' → Foresees c E S m (c.desired s'.2.state.position) ∧
      ∀ s'', (everywhere c).iterate E (c.desired s'.2.state.position) s' = .ok s'' →
      ∃ K, Stretch E S K s' (c.desired s'.2.state.position) ∧ ∀ p ∈ E.list,
        22 * V3.norm (s''.2.state.position - s'.2.state.position) < l ∧
        2 * (c.dt * (V3.norm (c.desired s'.2.state.position) +
          11 * (1 + 4 * Real.pi) * ((E.list.length - 1 : ℕ) * K))) < l ∧
        11 / 10 * (1 / 10 ^ 8 * K) ≤ (1 - gdist (S.obj p) m (S.ref p)) * l) →
    ∃ s', c.run E n s = .ok s' ∧ OnScene S E.list m s' ∧
      ∀ p ∈ E.list, 1 < gdist (S.obj p) m s'.2.state.position := by
  induction n with
  | zero => intro s hs _ h0 _; exact ⟨s, rfl, hs, h0⟩
  | succ n ih =>
    intro s hs hw h0 hcond
    obtain ⟨hsee, hshort⟩ := hcond 0 (Nat.succ_pos n) s rfl
    have hsafe := C74_many (everywhere c) E S m l hc 1 s hs h0 (by
      intro i hi s' s'' hr hi'
      obtain rfl : i = 0 := by omega
      cases hr
      obtain ⟨K, h1, h2⟩ := hshort s'' hi'
      refine ⟨K, h1, fun p hp => ?_⟩
      obtain ⟨h3, h4, h5⟩ := h2 p hp
      rw [(hel p hp).1, Nat.cast_one, mul_one, mul_one, one_mul]
      exact ⟨h3, h4, h5⟩)
    obtain ⟨s1, h1, h2, h3, h4⟩ := local_step hc hloc hm hel hs hw _ (desired_flat c hc.target hs.flat) hsee (by
      obtain ⟨s1, h1, h2, h3⟩ := hsafe
      rw [Loop.run] at h1
      obtain ⟨s2, h4, h5⟩ := Res.bind_eq_ok.mp h1
      cases h5
      exact ⟨s1, h4, h2, h3⟩)
    obtain ⟨s', h5, h6, h7⟩ := ih s1 h2 h3 h4 (by
      intro i hi s' hr
      refine hcond (i + 1) (Nat.succ_lt_succ hi) s' ?_
      rw [Loop.run, h1]
      exact hr)
    exact ⟨s', by rw [Loop.run, h1]; exact h5, h6, h7⟩

/-- the speed limit -/
theorem limit_le {c : Loop ℝ} {w : ℝ} (hw : c.maxVel = some w) (h0 : 0 ≤ w) (u : V3 ℝ) : V3.norm (c.limit u) ≤ w := by
  unfold Loop.limit
  simp only [hw]
  split
  · rw [V3.norm_smul, abs_of_nonneg h0]
    have h3 : V3.norm u.normalized ≤ 1 := by
      by_cases h0 : u = V3.zero
      · rw [h0, V3.normalized_zero]
        have : V3.norm (V3.zero : V3 ℝ) = 0 := by simp [V3.norm, V3.sqNorm, V3.dot, V3.zero, CMath.sqrt]
        rw [this]; norm_num
      · exact (V3.norm_normalized h0).le
    nlinarith
  · rename_i hnot; exact not_lt.mp hnot

/-- C103 with conditions that can be checked before the loop starts, as in `C74_horizon`. -/
theorem C103_horizon_partial (c : Loop ℝ) (E : Env) (S : Scene) (m l w κ D : ℝ) (hc : ManySetup (everywhere c) E S m l)
    (hloc : c.isLocal = true) (hm : 0 ≤ m) (hel : Elliptic E S) (hw : c.maxVel = some w) (hgain : 0 ≤ c.gain)
    (hκ : ∀ s, OnScene S E.list m s → (∀ p ∈ E.list, 1 < gdist (S.obj p) m s.2.state.position) →
      ∀ v, Stretch E S (κ * V3.norm v) s v) (hκ0 : 0 ≤ κ)
    (hstep : ∀ p ∈ E.list, 22 * (c.dt * w) < l ∧
      2 * (c.dt * (c.gain * D * (1 + 11 * (1 + 4 * Real.pi) * ((E.list.length - 1 : ℕ) * κ)))) < l ∧
      11 / 10 * (1 / 10 ^ 8 * (κ * (c.gain * D))) ≤ (1 - gdist (S.obj p) m (S.ref p)) * l)
    (hsee : ∀ p ∈ E.list, m + c.dt * w + sampleGap (S.obj p) ≤ max (1 / 10) m / 2) (n : ℕ) :
    ∀ s, OnScene S E.list m s → Watching s → (∀ p ∈ E.list, 1 < gdist (S.obj p) m s.2.state.position) →
    V3.norm (s.2.state.position - c.target) + n * (c.dt * w) ≤ D →
    ∃ s', c.run E n s = .ok s' ∧ OnScene S E.list m s' ∧
      ∀ p ∈ E.list, 1 < gdist (S.obj p) m s'.2.state.position := by
  have hw0 : 0 ≤ w := hc.maxVel w hw
  have hdt : 0 ≤ c.dt := hc.dt
  have hdw : 0 ≤ c.dt * w := mul_nonneg hdt hw0
  induction n with
  | zero => intro s hs _ h0 _; exact ⟨s, rfl, hs, h0⟩
  | succ n ih =>
    intro s hs hwa h0 hD
    have hndw : 0 ≤ (n : ℝ) * (c.dt * w) := mul_nonneg (Nat.cast_nonneg _) hdw
    push_cast at hD
    have hsafe := C74_horizon (everywhere c) E S m l w κ D hc hw hgain hκ hκ0 (by
      intro p hp
      rw [(hel p hp).1, Nat.cast_one, mul_one, mul_one, one_mul]
      exact hstep p hp) 1 s hs h0 (by
        show V3.norm (s.2.state.position - c.target) + ((1 : ℕ) : ℝ) * (c.dt * w) ≤ D
        push_cast
        linarith)
    obtain ⟨s1, h1, h2, h3, h4⟩ := local_step hc hloc hm hel hs hwa _ (desired_flat c hc.target hs.flat) (by
      intro p hp
      refine le_trans ?_ (hsee p hp)
      have := mul_le_mul_of_nonneg_left (limit_le hw hw0 (c.desired s.2.state.position)) hdt
      linarith) (by
      obtain ⟨s1, h1, h2, h3⟩ := hsafe
      rw [Loop.run] at h1
      obtain ⟨s2, h4, h5⟩ := Res.bind_eq_ok.mp h1
      cases h5
      exact ⟨s1, h4, h2, h3⟩)
    obtain ⟨-, u, hu⟩ := iterate_moves (show c.planar = false from hc.notPlanar) hwa h1
    obtain ⟨s', h5, h6, h7⟩ := ih s1 h2 h3 h4 (by
      have h8 := norm_add_le (V3.smul c.dt (c.limit u)) (s.2.state.position - c.target)
      have e1 : V3.smul c.dt (c.limit u) + (s.2.state.position - c.target) = s1.2.state.position - c.target := by
        rw [hu]; v3_ring
      rw [e1, V3.norm_smul, abs_of_nonneg hdt] at h8
      have := mul_le_mul_of_nonneg_left (limit_le hw hw0 u) hdt
      linarith)
    exact ⟨s', by rw [Loop.run, h1]; exact h5, h6, h7⟩

/-- Constructed agents are watching. -/
theorem watching_mk2 (h : Heap ℝ) (st : State ℝ) (m : ℝ) : Watching (Agent.mk2 h st m) :=
  ⟨rfl, h.length, _, rfl, by simp [Agent.mk2]; rfl, rfl, rfl⟩

/-- The two balls and the agent at (2, 1/2, 0). -/
noncomputable def gapAgent : Heap ℝ × Agent ℝ :=
  Agent.mk2 [.ellipsoid (gapScene.obj 0), .ellipsoid (gapScene.obj 1)] (State.ofPosition ⟨2, 1 / 2, 0⟩) 0

theorem gap_agent : OnScene gapScene (envOf [0, 1]).list 0 gapAgent := by
  refine ⟨fun p hp => ?_, ⟨2, _, by simp [envOf], rfl, rfl⟩, rfl, rfl⟩
  simp only [envOf, List.mem_cons, List.not_mem_nil, or_false] at hp
  rcases hp with rfl | rfl <;> rfl

/-- Non-vacuity: the two unit balls of C74, 200000 iterations with `is_local`. -/
example (n : ℕ) (hn : n ≤ 200000) :
    ∃ s', ({ gapLoop with isLocal := true } : Loop ℝ).run (envOf [0, 1]) n gapAgent = .ok s' ∧
    1 < gdist (ballAt ⟨0, 0, 0⟩) 0 s'.2.state.position ∧ 1 < gdist (ballAt ⟨0, 3, 0⟩) 0 s'.2.state.position := by
  have hL : ∀ p, halfLengths (gapScene.obj p) V3.zero = ⟨1, 1, 1⟩ := by
    intro p
    norm_num [halfLengths, gapScene, ballAt, Ellipsoid.ofBase, V3.const, V3.zero, Base.mkRef]
  have hpi := Real.pi_le_four
  obtain ⟨s', h1, -, h2⟩ := C103_horizon_partial { gapLoop with isLocal := true } (envOf [0, 1]) gapScene 0 1 1 2 20
    gap_setup rfl (le_refl _) (fun p _ => ⟨rfl, by rw [hL]; norm_num, by rw [hL]; norm_num⟩) rfl
    (by norm_num [gapLoop])
    (balls_stretch (fun p _ => gap_good p) (fun p _ => ⟨rfl, rfl, rfl, rfl⟩)) (by norm_num)
    (by
      intro p _
      have hd : gdist (gapScene.obj p) 0 (gapScene.ref p) = 0 := by
        show gdist (ballAt _) 0 _ = 0
        rw [ballAt_dist]
        simp [gapScene]
      rw [hd]
      refine ⟨by norm_num [gapLoop, gapScene], ?_, by norm_num [gapLoop, gapScene]⟩
      simp only [gapLoop, gapScene, envOf, List.length_cons, List.length_nil]
      norm_num
      nlinarith)
    (by
      intro p _
      simp only [sampleGap, hL, gapLoop]
      norm_num
      linarith) n gapAgent gap_agent (watching_mk2 _ _ _)
    (by
      intro p hp
      show 1 < gdist (ballAt _) 0 ⟨2, 1 / 2, 0⟩
      rw [ballAt_dist]
      split <;> norm_num)
    (by
      have h1 : V3.norm (gapAgent.2.state.position - gapLoop.target) ≤ 6 := by
        show Real.sqrt (((2 : ℝ) - -3) * (2 - -3) + (1 / 2 - 0) * (1 / 2 - 0) + (0 - 0) * (0 - 0)) ≤ 6
        rw [Real.sqrt_le_left (by norm_num)]
        norm_num
      have h2 : (n : ℝ) ≤ 200000 := by exact_mod_cast hn
      have h3 : (n : ℝ) * (gapLoop.dt * 1) ≤ 10 := by
        show (n : ℝ) * (1 / 20000 * 1) ≤ 10
        linarith
      show V3.norm (gapAgent.2.state.position - gapLoop.target) + (n : ℝ) * (gapLoop.dt * 1) ≤ 20
      linarith)
  exact ⟨s', h1, h2 0 (by simp [envOf]), h2 1 (by simp [envOf])⟩

/-! ## C103 is false: a long wall -/

/-- A wall, 100 long and 0.2 thick, along the x axis. -/
noncomputable def longWall : Ellipsoid ℝ := { ball V3.zero with axis := ⟨50, 1 / 10, 1⟩ }

noncomputable def wallScene : Scene := ⟨fun _ => longWall, fun _ => 1, fun _ => V3.zero⟩

/-- The agent stands in front of the wall, the target is behind it. -/
noncomputable def wallCrossing (gain dt : ℝ) (rep : Bool) : Loop ℝ :=
  { gain := gain, dt := dt, target := ⟨4 / 5, 3, 0⟩, maxVel := none, isLocal := true, addRepulsion := rep,
    planar := false, critical := 1, power := 2 }

noncomputable def wallStart : Heap ℝ × Agent ℝ :=
  Agent.mk2 [.ellipsoid longWall] (State.ofPosition ⟨4 / 5, -3 / 10, 0⟩) 0

theorem longWall_half (m : ℝ) : halfLengths longWall (V3.const m) = ⟨50 + m, 1 / 10 + m, 1 + m⟩ := by
  ext <;> simp [halfLengths, longWall, ball, Ellipsoid.ofBase, V3.const, V3.zero, Base.mkRef]

theorem longWall_half' : halfLengths longWall V3.zero = ⟨50, 1 / 10, 1⟩ := by
  ext <;> simp [halfLengths, longWall, ball, Ellipsoid.ofBase, V3.const, V3.zero, Base.mkRef]

theorem longWall_apply (w : V3 ℝ) : longWall.base.pose.apply w = w := ball_apply V3.zero w

theorem longWall_rot : ZRotated longWall := ⟨(ball_smooth V3.zero).unit, rfl, rfl⟩

theorem longWall_smooth : Smooth longWall 0 1 := by
  refine ⟨(ball_smooth V3.zero).curv, (ball_smooth V3.zero).unit, ?_, Or.inl rfl⟩
  rw [longWall_half]
  norm_num [AllGt]

theorem longWall_dist (x : V3 ℝ) : gdist longWall 0 x = (x.x / 50) ^ 2 + (x.y / (1 / 10)) ^ 2 + x.z ^ 2 := by
  have hx : longWall.base.pose.inverse.apply x = x := by
    have := Pose.apply_apply_inverse (zrot_isUnit longWall_rot) x
    rwa [longWall_apply] at this
  rw [gdist, distance_frame longWall _ _ 1 1 1 longWall_smooth.curv longWall_smooth.long, longWall_half, level, hx]
  norm_num

theorem wall_good (p : Ptr) : wallScene.Good 0 (1 / 10) p := by
  refine ⟨⟨rfl, rfl⟩, ⟨rfl, rfl, rfl, ?_, rfl, rfl, rfl⟩, longWall_smooth, ?_, rfl, ?_⟩
  · intro v hv; cases hv; rfl
  · show Thick longWall 0 (1 / 10)
    rw [Thick, longWall_half]
    norm_num
  · show 121 / 10 ^ 6 * ((1 : ℕ) : ℝ) < (1 - gdist longWall 0 V3.zero) * (1 / 10)
    rw [longWall_dist]
    norm_num [V3.zero]

/-- No sample of the wall has an x coordinate between 7/10 and 9/10. -/
theorem wall_gap (i : ℕ) (hi : i < 100) :
    50 * Real.cos (2 * Real.pi * i / ((100 : ℕ) - 1 : ℝ)) < 7 / 10 ∨
      9 / 10 < 50 * Real.cos (2 * Real.pi * i / ((100 : ℕ) - 1 : ℝ)) := by
  have hpi := Real.pi_pos
  have e0 : 2 * Real.pi * (i : ℝ) / ((100 : ℕ) - 1 : ℝ) = Real.pi * (2 * i / 99) := by push_cast; ring
  rw [e0]
  have key : ∀ r : ℝ, 0 ≤ r → r ≤ 48 / 99 → 9 / 10 < 50 * Real.cos (Real.pi * r) := by
    intro r h0 h1
    have h2 := Real.mul_le_sin (x := Real.pi / 2 - Real.pi * r) (by nlinarith) (by nlinarith)
    rw [Real.sin_pi_div_two_sub] at h2
    have e1 : 2 / Real.pi * (Real.pi / 2 - Real.pi * r) = 1 - 2 * r := by field_simp
    rw [e1] at h2
    linarith
  rcases Nat.lt_or_ge i 25 with h | h
  · right
    have h1 : (i : ℝ) ≤ 24 := by exact_mod_cast Nat.le_of_lt_succ h
    exact key _ (by positivity) (by linarith)
  · rcases Nat.lt_or_ge i 75 with h' | h'
    · left
      have h1 : (25 : ℝ) ≤ i := by exact_mod_cast h
      have h2 : (i : ℝ) ≤ 74 := by exact_mod_cast Nat.le_of_lt_succ h'
      have := Real.cos_nonpos_of_pi_div_two_le_of_le (x := Real.pi * (2 * i / 99)) (by nlinarith) (by nlinarith)
      linarith
    · right
      have h1 : (75 : ℝ) ≤ i := by exact_mod_cast h'
      have h2 : (i : ℝ) ≤ 99 := by exact_mod_cast Nat.le_of_lt_succ hi
      have := key (2 - 2 * i / 99) (by linarith) (by linarith)
      rw [show Real.pi * (2 - 2 * i / 99) = 2 * Real.pi - Real.pi * (2 * i / 99) by ring, Real.cos_two_pi_sub] at this
      exact this

/-- Heading for the wall on the line x = 4/5, nearer than 3/10, the agent does not see the wall. -/
theorem wall_unseen {y V : ℝ} (hy : -3 / 10 ≤ y) (hV : 0 < V) {env : Ellipsoid ℝ}
    (he : EnvelopeOf ⟨4 / 5, y, 0⟩ ⟨0, V, 0⟩ 0 env) : env.isIntersectingEllipsoid longWall = .ok false := by
  have hne : (⟨0, V, 0⟩ : V3 ℝ) ≠ V3.zero := fun h => by
    have := congrArg V3.y h
    simp only [V3.zero] at this
    linarith
  obtain ⟨hp, hax⟩ := he.moving hne
  have hs : √((0 : ℝ) ^ 2 + V ^ 2) = V := by
    rw [show (0 : ℝ) ^ 2 + V ^ 2 = V ^ 2 by ring, Real.sqrt_sq hV.le]
  have hnorm : V3.norm (⟨0, V, 0⟩ : V3 ℝ) = V := by
    show Real.sqrt (0 * 0 + V * V + 0 * 0) = V
    rw [show (0 : ℝ) * 0 + V * V + 0 * 0 = V ^ 2 by ring, Real.sqrt_sq hV.le]
  have hh := he.heading (by simp only; nlinarith)
  simp only [hs, zero_div, div_self hV.ne'] at hh
  have hap := zrot_apply he.rotated ⟨1, 0, 0⟩
  have hap' : env.base.pose.apply ⟨1, 0, 0⟩ = env.base.pose.orientation.rotate ⟨1, 0, 0⟩ + env.base.position := rfl
  rw [hap', hh] at hap
  have hc1 : env.base.orientation.w ^ 2 - env.base.orientation.z ^ 2 = 0 := by
    have := congrArg V3.x hap
    simp only [V3.add_x] at this
    linarith
  have hs1 : 2 * env.base.orientation.w * env.base.orientation.z = 1 := by
    have := congrArg V3.y hap
    simp only [V3.add_y] at this
    linarith
  rw [hnorm] at hp
  have hpx : env.base.position.x = 4 / 5 := by rw [hp]; simp [V3.smul]
  have hpy : env.base.position.y = y + 1 / 2 := by
    rw [hp]; simp only [V3.add_y, V3.smul]; field_simp
  have hL : halfLengths env V3.zero = ⟨3 / 5, 1 / 10, 1 / 10⟩ := by
    simp only [halfLengths, hax, he.margin_zero, V3.zero]
    norm_num
  -- what the envelope covers
  have hcov : ∀ q : V3 ℝ, env.pointIsInside q = true → 7 / 10 ≤ q.x ∧ q.x ≤ 9 / 10 := by
    intro q hq
    obtain ⟨u, t, h1, h2, -⟩ := (inside_iff_inEllipse he.rotated q).mp hq
    rw [zrot_apply he.rotated, hc1, hs1, hpx] at h2
    rw [hL] at h1
    simp only at h1 h2
    have h3 : (t / (1 / 10)) ^ 2 ≤ 1 := by nlinarith [sq_nonneg (u / (3 / 5))]
    have h4 : t ^ 2 ≤ (1 / 10) ^ 2 := by
      rw [div_pow, div_le_one (by norm_num)] at h3
      exact h3
    obtain ⟨h5, h6⟩ := abs_le_of_sq_le_sq' h4 (by norm_num)
    constructor <;> linarith
  unfold isIntersectingEllipsoid
  rw [if_neg, if_neg]
  · obtain ⟨l, h1, h2, h3⟩ := C28_samples longWall longWall_rot 100 (by norm_num) true
    rw [h1]
    simp only [Res.ok_bind, Res.ok.injEq]
    rw [List.any_eq_false]
    intro q hq hin
    obtain ⟨i, hi⟩ := List.mem_iff_getElem?.mp hq
    have hlt : i < 100 := by
      by_contra hn
      rw [List.getElem?_eq_none (by omega)] at hi
      cases hi
    obtain ⟨q', h4, -, h5, -⟩ := h3 i hlt
    rw [hi] at h4
    cases h4
    rw [if_pos rfl, longWall_half', longWall_apply] at h5
    simp only at h5
    obtain ⟨h6, h7⟩ := hcov q hin
    rw [h5] at h6 h7
    rcases wall_gap i hlt with h | h <;> linarith
  · intro hin
    obtain ⟨u, t, h1, -, h2⟩ := (inside_iff_inEllipse longWall_rot _).mp hin
    rw [longWall_apply, hpy] at h2
    rw [longWall_half'] at h1
    simp only at h1 h2
    subst h2
    have h3 : ((y + 1 / 2) / (1 / 10)) ^ 2 ≤ 1 := by nlinarith [sq_nonneg (u / 50)]
    have : 2 ≤ (y + 1 / 2) / (1 / 10) := by rw [le_div_iff₀ (by norm_num)]; linarith
    nlinarith
  · intro hin
    have := (hcov _ hin).1
    have h0 : longWall.base.position.x = 0 := rfl
    rw [h0] at this
    linarith

/-- The run of the loop: straight to the target. -/
theorem wallCrossing_run {gain dt : ℝ} (hg : 0 < gain) (hdt : 0 < dt) (hsh : gain * dt ≤ 1 / 100) (rep : Bool) (n : ℕ) :
    ∀ (s : Heap ℝ × Agent ℝ) (y : ℝ), OnScene wallScene (envOf [0]).list 0 s → Watching s →
      s.2.state.position = ⟨4 / 5, y, 0⟩ → -3 / 10 ≤ y → y < 3 →
      ∃ s', (wallCrossing gain dt rep).run (envOf [0]) n s = .ok s' ∧
        s'.2.state.position = ⟨4 / 5, 3 - (3 - y) * (1 - gain * dt) ^ n, 0⟩ := by
  induction n with
  | zero =>
    intro s y _ _ hx _ _
    exact ⟨s, rfl, by rw [hx]; ext <;> simp⟩
  | succ n ih =>
    intro s y hs hw hx h1 h2
    have hdes : (wallCrossing gain dt rep).desired s.2.state.position = ⟨0, gain * (3 - y), 0⟩ := by
      rw [hx]
      ext <;> simp [Loop.desired, wallCrossing, V3.smul]
      ring
    have hV : 0 < gain * (3 - y) := mul_pos hg (by linarith)
    have hgd : 0 < gain * dt := mul_pos hg hdt
    obtain ⟨env, hspec, hor⟩ := iterate_local (c := wallCrossing gain dt rep) rfl hs hw ⟨0, gain * (3 - y), 0⟩ rfl
    rw [hx] at hspec
    have hun := wall_unseen h1 hV hspec
    rcases hor with ⟨⟨p, hp, hsee⟩, -⟩ | ⟨-, s1, hit, hs1, hpos⟩
    · change env.isIntersectingEllipsoid longWall = _ at hsee
      rw [hun] at hsee
      cases hsee
    · have hx1 : s1.2.state.position = ⟨4 / 5, y + gain * dt * (3 - y), 0⟩ := by
        rw [hpos, hx]
        ext <;> simp [Loop.limit, wallCrossing, V3.smul]
        ring
      have h3 : 0 < gain * dt * (3 - y) := mul_pos hgd (by linarith)
      obtain ⟨s', h4, h5⟩ := ih s1 (y + gain * dt * (3 - y)) hs1 (iterate_moves rfl hw hit).1 hx1 (by linarith)
        (by nlinarith)
      refine ⟨s', ?_, ?_⟩
      · rw [Loop.run, hdes, hit]; exact h4
      · rw [h5]
        ext <;> simp only
        ring

/-- C103 is false: for every gain and every small enough time step, with and without repulsion, the agent in front
of the wall walks straight through it to the target: of the 100 sampled points of the wall none is in the
envelope.  All conditions of C74 on the scene hold (the wall is 0.2 thick and at rest, the reference point is its
centre): without `is_local` the agent stays outside when its steps are short. -/
theorem C103_negation (gain dt : ℝ) (hg : 0 < gain) (hdt : 0 < dt) (hsh : gain * dt ≤ 1 / 100) :
    ManySetup (everywhere (wallCrossing gain dt true)) (envOf [0]) wallScene 0 (1 / 10) ∧ Elliptic (envOf [0]) wallScene ∧
    OnScene wallScene (envOf [0]).list 0 wallStart ∧ Watching wallStart ∧
    9 < gdist longWall 0 wallStart.2.state.position ∧
    ∀ rep, (∃ n s', (wallCrossing gain dt rep).run (envOf [0]) n wallStart = .ok s' ∧
        gdist longWall 0 s'.2.state.position < 1 ∧ longWall.pointIsInside s'.2.state.position = true) ∧
      ∀ δ, 0 < δ → ∃ N, ∀ n, N ≤ n → ∃ s', (wallCrossing gain dt rep).run (envOf [0]) n wallStart = .ok s' ∧
        V3.norm (s'.2.state.position - (wallCrossing gain dt rep).target) < δ := by
  have hgd : 0 < gain * dt := mul_pos hg hdt
  have hon : OnScene wallScene (envOf [0]).list 0 wallStart := by
    refine ⟨fun p hp => ?_, ⟨1, _, by simp [envOf], rfl, rfl⟩, rfl, rfl⟩
    simp only [envOf, List.mem_singleton] at hp
    subst hp
    rfl
  have hwa : Watching wallStart := watching_mk2 _ _ _
  refine ⟨⟨by simp [envOf], fun p _ => wall_good p, List.pairwise_singleton _ _, rfl, rfl, rfl, rfl, ?_, hdt.le, ?_, rfl⟩,
    fun p _ => ?_, hon, hwa, ?_, fun rep => ?_⟩
  · norm_num [everywhere, wallCrossing]
  · intro v hv; cases hv
  · show 1 = 1 ∧ 0 < (halfLengths longWall V3.zero).x ∧ 0 < (halfLengths longWall V3.zero).y
    rw [longWall_half']
    norm_num
  · rw [longWall_dist]
    show 9 < ((4 / 5 : ℝ) / 50) ^ 2 + (-3 / 10 / (1 / 10)) ^ 2 + 0 ^ 2
    norm_num
  · have hrun := fun n => wallCrossing_run hg hdt hsh rep n wallStart (-3 / 10) hon hwa rfl (le_refl _) (by norm_num)
    set γ := 1 - gain * dt with hγ
    have h0 : 0 ≤ γ := by linarith
    have h1 : γ < 1 := by linarith
    have h99 : 99 / 100 ≤ γ := by linarith
    constructor
    · -- the first iteration beyond y = -1/20
      have hex : ∃ n, γ ^ n < 61 / 66 := exists_pow_lt_of_lt_one (by norm_num) h1
      classical
      have hlt := Nat.find_spec hex
      set n := Nat.find hex with hn
      have hn0 : n ≠ 0 := by
        intro h
        rw [h] at hlt
        norm_num at hlt
      obtain ⟨k, hk⟩ := Nat.exists_eq_succ_of_ne_zero hn0
      have hge : 61 / 66 ≤ γ ^ k := not_lt.mp (Nat.find_min hex (by omega))
      have hpow : γ ^ n = γ ^ k * γ := by rw [hk, pow_succ]
      obtain ⟨s', h2, h3⟩ := hrun n
      have hlo : 99 / 100 * (61 / 66) ≤ γ ^ n := by rw [hpow]; nlinarith
      refine ⟨n, s', h2, ?_, ?_⟩
      · rw [h3, longWall_dist]
        simp only
        generalize γ ^ n = r at *
        have h4 : (3 - (3 - -3 / 10) * r) / (1 / 10) = 30 - 33 * r := by ring
        rw [h4]
        nlinarith
      · rw [h3, inside_iff_inEllipse longWall_rot]
        refine ⟨4 / 5, _, ?_, by rw [longWall_apply], by rw [longWall_apply]⟩
        rw [longWall_half']
        simp only
        generalize γ ^ n = r at *
        have h4 : (3 - (3 - -3 / 10) * r) / (1 / 10) = 30 - 33 * r := by ring
        rw [h4]
        nlinarith
    · intro δ hδ
      obtain ⟨N, hN⟩ := exists_pow_lt_of_lt_one (show 0 < δ / 4 by positivity) h1
      refine ⟨N, fun n hn => ?_⟩
      obtain ⟨s', h2, h3⟩ := hrun n
      refine ⟨s', h2, ?_⟩
      have hle : γ ^ n ≤ γ ^ N := pow_le_pow_of_le_one h0 h1.le hn
      have hp0 : 0 ≤ γ ^ n := pow_nonneg h0 n
      rw [h3]
      show Real.sqrt _ < δ
      rw [Real.sqrt_lt' hδ]
      simp only [V3.sqNorm, V3.dot, V3.sub_x, V3.sub_y, V3.sub_z, wallCrossing]
      generalize γ ^ n = r at *
      nlinarith

/-! ## C103 is false for agents with a margin: a disc at the side -/

noncomputable def discScene : Scene := ⟨fun _ => ball V3.zero, fun _ => 1, fun _ => V3.zero⟩

/-- An agent with margin 1/2 passes the unit disc a little nearer than its margin allows. -/
noncomputable def passing (rep : Bool) : Loop ℝ :=
  { gain := 1, dt := 1 / 100, target := ⟨-94 / 100, 1499 / 1000, 0⟩, maxVel := none, isLocal := true, addRepulsion := rep,
    planar := false, critical := 1, power := 2 }

noncomputable def passingStart : Heap ℝ × Agent ℝ :=
  Agent.mk2 [.ellipsoid (ball V3.zero)] (State.ofPosition ⟨6 / 100, 1499 / 1000, 0⟩) (1 / 2)

theorem ball_half' : halfLengths (ball V3.zero) V3.zero = ⟨1, 1, 1⟩ := by
  ext <;> simp [halfLengths, ball, Base.mkRef, Ellipsoid.ofBase, V3.const, V3.zero]

theorem disc_smooth' : Smooth (ball V3.zero) (1 / 2) 1 := by
  refine ⟨(ball_smooth V3.zero).curv, (ball_smooth V3.zero).unit, ?_, Or.inl rfl⟩
  norm_num [AllGt, halfLengths, ball, Base.mkRef, Ellipsoid.ofBase, V3.const, V3.zero]

theorem disc_dist' (x : V3 ℝ) : gdist (ball V3.zero) (1 / 2) x = (x.x ^ 2 + x.y ^ 2 + x.z ^ 2) / (3 / 2) ^ 2 := by
  have hx : (ball V3.zero).base.pose.inverse.apply x = x := by
    have := Pose.apply_apply_inverse (zrot_isUnit (e := ball V3.zero) ⟨(ball_smooth V3.zero).unit, rfl, rfl⟩) x
    rwa [ball_apply] at this
  rw [gdist, distance_frame (ball V3.zero) _ _ 1 1 1 disc_smooth'.curv disc_smooth'.long, level, hx]
  norm_num [halfLengths, ball, Base.mkRef, Ellipsoid.ofBase, V3.const, V3.zero]
  ring

theorem disc_unseen {env : Ellipsoid ℝ} (he : EnvelopeOf ⟨6 / 100, 1499 / 1000, 0⟩ ⟨-1, 0, 0⟩ (1 / 2) env) :
    env.isIntersectingEllipsoid (ball V3.zero) = .ok false := by
  obtain ⟨b, hb⟩ := C29_total env (ball V3.zero)
  cases b with
  | false => exact hb
  | true =>
    exfalso
    obtain ⟨X, Y, ⟨u, t, k1, k2, k3⟩, ⟨u', t', m1, m2, m3⟩⟩ := C29_sound_partial env (ball V3.zero) he.rotated
      ⟨(ball_smooth V3.zero).unit, rfl, rfl⟩ (by rw [ball_half']; norm_num) (by rw [ball_half']; norm_num) hb
    have hne : (⟨-1, 0, 0⟩ : V3 ℝ) ≠ V3.zero := fun h => by
      have := congrArg V3.x h
      norm_num [V3.zero] at this
    obtain ⟨hp, hax⟩ := he.moving hne
    have hs : √((-1 : ℝ) ^ 2 + 0 ^ 2) = 1 := by norm_num
    have hnorm : V3.norm (⟨-1, 0, 0⟩ : V3 ℝ) = 1 := by
      show Real.sqrt (-1 * -1 + 0 * 0 + 0 * 0) = 1
      norm_num
    have hh := he.heading (by norm_num)
    simp only [hs, div_one] at hh
    have hap := zrot_apply he.rotated ⟨1, 0, 0⟩
    have hap' : env.base.pose.apply ⟨1, 0, 0⟩ = env.base.pose.orientation.rotate ⟨1, 0, 0⟩ + env.base.position := rfl
    rw [hap', hh] at hap
    have hc1 : env.base.orientation.w ^ 2 - env.base.orientation.z ^ 2 = -1 := by
      have := congrArg V3.x hap
      simp only [V3.add_x] at this
      linarith
    have hs1 : 2 * env.base.orientation.w * env.base.orientation.z = 0 := by
      have := congrArg V3.y hap
      simp only [V3.add_y] at this
      linarith
    rw [hnorm] at hp
    have hpx : env.base.position.x = -44 / 100 := by rw [hp]; simp only [V3.add_x, V3.smul]; norm_num
    have hpy : env.base.position.y = 1499 / 1000 := by rw [hp]; simp only [V3.add_y, V3.smul]; norm_num
    have hL : halfLengths env V3.zero = ⟨1, 1 / 2, 1 / 2⟩ := by
      simp only [halfLengths, hax, he.margin_zero, V3.zero]
      norm_num
    rw [zrot_apply he.rotated, hc1, hs1, hpx] at k2
    rw [zrot_apply he.rotated, hc1, hs1, hpy] at k3
    rw [hL] at k1
    rw [ball_apply] at m2 m3
    rw [ball_half'] at m1
    simp only at k1 k2 k3 m1 m2 m3
    subst m2 m3
    have hY : Y ≤ 1 - X ^ 2 / 2 := by
      simp only [div_one] at m1
      nlinarith [sq_nonneg (Y - 1)]
    have ht : t = 1499 / 1000 - Y := by linarith
    have hu : u = -(X + 44 / 100) := by linarith
    have h1 : 499 / 1000 + X ^ 2 / 2 ≤ t := by linarith
    have h2 : (499 / 1000 + X ^ 2 / 2) ^ 2 ≤ t ^ 2 := by gcongr
    have h3 : u ^ 2 + 4 * t ^ 2 ≤ 1 := by
      have e1 : (u / 1) ^ 2 + (t / (1 / 2)) ^ 2 = u ^ 2 + 4 * t ^ 2 := by ring
      linarith
    rw [hu] at h3
    nlinarith [sq_nonneg X, sq_nonneg (X ^ 2), sq_nonneg (X + 44 / 300)]

/-- C103 is false for agents with a margin: heading past the unit disc, the agent with margin 1/2 is outside of
the inflated disc, does not see the disc, and its next position is inside of the inflated disc. -/
theorem C103_negation_margin (rep : Bool) :
    OnScene discScene (envOf [0]).list (1 / 2) passingStart ∧ Watching passingStart ∧
    1 < gdist (ball V3.zero) (1 / 2) passingStart.2.state.position ∧
    ∃ s', (passing rep).run (envOf [0]) 1 passingStart = .ok s' ∧ gdist (ball V3.zero) (1 / 2) s'.2.state.position < 1 := by
  have hon : OnScene discScene (envOf [0]).list (1 / 2) passingStart := by
    refine ⟨fun p hp => ?_, ⟨1, _, by simp [envOf], rfl, rfl⟩, rfl, rfl⟩
    simp only [envOf, List.mem_singleton] at hp
    subst hp
    rfl
  have hwa : Watching passingStart := watching_mk2 _ _ _
  have hx : passingStart.2.state.position = ⟨6 / 100, 1499 / 1000, 0⟩ := rfl
  refine ⟨hon, hwa, ?_, ?_⟩
  · rw [hx, disc_dist']
    norm_num
  · have hdes : (passing rep).desired passingStart.2.state.position = ⟨-1, 0, 0⟩ := by
      rw [hx]
      ext <;> simp [Loop.desired, passing, V3.smul]
      norm_num
    obtain ⟨env, hspec, hor⟩ := iterate_local (c := passing rep) rfl hon hwa ⟨-1, 0, 0⟩ rfl
    rw [hx] at hspec
    have hun := disc_unseen hspec
    rcases hor with ⟨⟨p, hp, hsee⟩, -⟩ | ⟨-, s1, hit, hs1, hpos⟩
    · change env.isIntersectingEllipsoid (ball V3.zero) = _ at hsee
      rw [hun] at hsee
      cases hsee
    · refine ⟨s1, by rw [Loop.run, hdes, hit]; rfl, ?_⟩
      rw [hpos, hx, disc_dist']
      simp only [Loop.limit, passing, V3.add_x, V3.add_y, V3.add_z, V3.smul]
      norm_num

end DOA.Props
