import Verif.Props.Intersection
import Verif.Props.AgentQueries
import Mathlib.Topology.Order.IntermediateValue
import Mathlib.Analysis.SpecialFunctions.Trigonometric.Bounds

/-!
# Properties C29 and C52: overlaps that cannot be missed
-/

namespace DOA.Props
open DOA DOA.Spec DOA.Ellipsoid

/-- The disc with radius `d` around `(x,y)` is covered by the inflated ellipse. -/
def DiscIn (e : Ellipsoid ℝ) (x y d : ℝ) : Prop :=
  ∀ a b, a ^ 2 + b ^ 2 ≤ d ^ 2 → InEllipse e (halfLengths e V3.zero) (x + a) (y + b)

/-- Ellipses are convex. -/
theorem inEllipse_convex {e : Ellipsoid ℝ} (h : ZRotated e) {l : V3 ℝ} {x y x' y' s : ℝ} (h0 : 0 ≤ s) (h1 : s ≤ 1)
    (hp : InEllipse e l x y) (hq : InEllipse e l x' y') :
    InEllipse e l ((1 - s) * x + s * x') ((1 - s) * y + s * y') := by
  obtain ⟨u, v, hl, rfl, rfl⟩ := hp
  obtain ⟨u', v', hl', rfl, rfl⟩ := hq
  refine ⟨(1 - s) * u + s * u', (1 - s) * v + s * v', ?_, ?_, ?_⟩
  · have e1 : ((1 - s) * u + s * u') / l.x = (1 - s) * (u / l.x) + s * (u' / l.x) := by ring
    have e2 : ((1 - s) * v + s * v') / l.y = (1 - s) * (v / l.y) + s * (v' / l.y) := by ring
    rw [e1, e2]
    generalize u / l.x = a at *
    generalize v / l.y = b at *
    generalize u' / l.x = a' at *
    generalize v' / l.y = b' at *
    have hs : 0 ≤ 1 - s := by linarith
    nlinarith [mul_nonneg (mul_nonneg h0 hs) (sq_nonneg (a - a')), mul_nonneg (mul_nonneg h0 hs) (sq_nonneg (b - b')),
      mul_le_mul_of_nonneg_left hl hs, mul_le_mul_of_nonneg_left hl' h0]
  · simp only [zrot_apply h]; ring
  · simp only [zrot_apply h]; ring

/-- Ellipses are symmetric about their centre. -/
theorem inEllipse_reflect {e : Ellipsoid ℝ} (h : ZRotated e) {l : V3 ℝ} {x y : ℝ} (hp : InEllipse e l x y) :
    InEllipse e l (2 * e.base.position.x - x) (2 * e.base.position.y - y) := by
  obtain ⟨u, v, hl, rfl, rfl⟩ := hp
  refine ⟨-u, -v, by rw [neg_div, neg_div, neg_sq, neg_sq]; exact hl, ?_, ?_⟩ <;> simp only [zrot_apply h] <;> ring

/-- A disc in the ellipse can be moved to any point between its centre and the centre of the ellipse. -/
theorem disc_towards {e : Ellipsoid ℝ} (h : ZRotated e) {x y d s : ℝ} (h0 : 0 ≤ s) (h1 : s ≤ 1) (hd : DiscIn e x y d) :
    DiscIn e ((1 - s) * x + s * e.base.position.x) ((1 - s) * y + s * e.base.position.y) d := by
  intro a b hab
  have c1 : InEllipse e (halfLengths e V3.zero) (e.base.position.x + a) (e.base.position.y + b) := by
    have := inEllipse_convex h (s := 1 / 2) (by norm_num) (by norm_num) (hd a b hab)
      (inEllipse_reflect h (hd (-a) (-b) (by rw [neg_sq, neg_sq]; exact hab)))
    convert this using 1 <;> ring
  have := inEllipse_convex h h0 h1 (hd a b hab) c1
  convert this using 1 <;> ring

/-- The segment from a point of the ellipse to a point outside meets the boundary. -/
theorem crosses {o : Ellipsoid ℝ} (h : ZRotated o) {l : V3 ℝ} {x y x' y' : ℝ} (hp : InEllipse o l x y)
    (hq : ¬ InEllipse o l x' y') : ∃ s, 0 ≤ s ∧ s ≤ 1 ∧ OnEllipse o l ((1 - s) * x + s * x') ((1 - s) * y + s * y') := by
  obtain ⟨u, v, hl, rfl, rfl⟩ := hp
  obtain ⟨u', v', hx', hy'⟩ : ∃ u' v', x' = (o.base.pose.apply ⟨u', v', 0⟩).x ∧ y' = (o.base.pose.apply ⟨u', v', 0⟩).y := by
    refine ⟨(o.base.pose.inverse.apply ⟨x', y', o.base.position.z⟩).x,
      (o.base.pose.inverse.apply ⟨x', y', o.base.position.z⟩).y, ?_⟩
    have h1 := Pose.apply_apply_inverse (zrot_isUnit h) ⟨x', y', o.base.position.z⟩
    generalize o.base.pose.inverse.apply ⟨x', y', o.base.position.z⟩ = w at h1
    rw [zrot_apply h] at h1 ⊢
    injection h1 with h2 h3 h4
    exact ⟨h2.symm, h3.symm⟩
  have hgt : 1 < (u' / l.x) ^ 2 + (v' / l.y) ^ 2 := by
    by_contra hn
    exact hq ⟨u', v', not_lt.mp hn, hx', hy'⟩
  let g : ℝ → ℝ := fun s => (((1 - s) * u + s * u') / l.x) ^ 2 + (((1 - s) * v + s * v') / l.y) ^ 2
  have hg : ContinuousOn g (Set.Icc 0 1) := by fun_prop
  have hg0 : g 0 ≤ 1 := by simpa [g] using hl
  have hg1 : 1 ≤ g 1 := by simpa [g] using hgt.le
  obtain ⟨s, ⟨hs0, hs1⟩, hs⟩ := intermediate_value_Icc zero_le_one hg ⟨hg0, hg1⟩
  refine ⟨s, hs0, hs1, (1 - s) * u + s * u', (1 - s) * v + s * v', hs, ?_, ?_⟩
  · rw [hx']; simp only [zrot_apply h]; ring
  · rw [hy']; simp only [zrot_apply h]; ring

/-- Every angle is within half a step of one of `n+1` equidistant angles in [0,2π]. -/
theorem near_angle (n : ℕ) (hn : 0 < n) {t : ℝ} (h0 : 0 ≤ t) (h1 : t ≤ 2 * Real.pi) :
    ∃ i ≤ n, |t - 2 * Real.pi * i / n| ≤ Real.pi / n := by
  have hpi := Real.pi_pos
  have hn' : (0 : ℝ) < n := by exact_mod_cast hn
  refine ⟨⌊t * n / (2 * Real.pi) + 1 / 2⌋₊, ?_, ?_⟩
  · have : ⌊t * n / (2 * Real.pi) + 1 / 2⌋₊ < n + 1 := by
      rw [Nat.floor_lt (by positivity)]
      have : t * n / (2 * Real.pi) ≤ n := by
        rw [div_le_iff₀ (by positivity)]; nlinarith
      push_cast; linarith
    omega
  · have h2 := Nat.floor_le (a := t * n / (2 * Real.pi) + 1 / 2) (by positivity)
    have h3 := Nat.lt_floor_add_one (t * n / (2 * Real.pi) + 1 / 2)
    generalize (⌊t * n / (2 * Real.pi) + 1 / 2⌋₊ : ℝ) = k at h2 h3
    have e1 : t = t * n / (2 * Real.pi) * (2 * Real.pi / n) := by field_simp
    generalize t * n / (2 * Real.pi) = q at h2 h3 e1
    have e2 : t - 2 * Real.pi * k / n = (q - k) * (2 * Real.pi / n) := by rw [e1]; ring
    rw [e2, abs_mul, abs_of_pos (by positivity : 0 < 2 * Real.pi / n)]
    have : |q - k| ≤ 1 / 2 := by rw [abs_le]; constructor <;> linarith
    calc |q - k| * (2 * Real.pi / n) ≤ 1 / 2 * (2 * Real.pi / n) := by gcongr
      _ = Real.pi / n := by ring

/-- A chord is not longer than the arc. -/
theorem chord_le (s t : ℝ) : (Real.cos s - Real.cos t) ^ 2 + (Real.sin s - Real.sin t) ^ 2 ≤ (s - t) ^ 2 := by
  have h1 := Real.one_sub_sq_div_two_le_cos (x := s - t)
  rw [Real.cos_sub] at h1
  nlinarith [Real.sin_sq_add_cos_sq s, Real.sin_sq_add_cos_sq t]

/-- C29, the part that holds: `e.is_intersecting(o)` finds every overlap in which a point of `o` is deeper than
`π/99` times the larger half length of `o` inside `e` (3.2 %), for all ellipses rotated about z.
Full statement (false, see `C29_negation`): it finds every overlap. -/
theorem C29_deep_partial (e o : Ellipsoid ℝ) (he : ZRotated e) (ho : ZRotated o)
    (hox : (halfLengths o V3.zero).x ≠ 0) (hoy : (halfLengths o V3.zero).y ≠ 0) (x y : ℝ)
    (hin : InEllipse o (halfLengths o V3.zero) x y)
    (hdeep : DiscIn e x y (max |(halfLengths o V3.zero).x| |(halfLengths o V3.zero).y| * (Real.pi / 99))) :
    e.isIntersectingEllipsoid o = .ok true := by
  by_cases hc : InEllipse o (halfLengths o V3.zero) e.base.position.x e.base.position.y
  · exact C29_detects_centres e o he ho (Or.inr hc)
  obtain ⟨s, hs0, hs1, u, v, huv, hx, hy⟩ := crosses ho hin hc
  have hd := disc_towards he hs0 hs1 hdeep
  rw [hx, hy] at hd
  set L := halfLengths o V3.zero with hL
  -- the angle of the boundary point
  obtain ⟨t, ht0, ht1, hu, hv⟩ : ∃ t, 0 ≤ t ∧ t ≤ 2 * Real.pi ∧ u = L.x * Real.cos t ∧ v = L.y * Real.sin t := by
    obtain ⟨t, ⟨h0, h1⟩, h2, h3⟩ : ∃ t, (0 ≤ t ∧ t ≤ 2 * Real.pi) ∧ Real.cos t = u / L.x ∧ Real.sin t = v / L.y := by
      have hle : |u / L.x| ≤ 1 := by
        rw [← sq_le_one_iff_abs_le_one]; nlinarith [sq_nonneg (v / L.y)]
      obtain ⟨hl1, hl2⟩ := abs_le.mp hle
      have hpi := Real.pi_pos
      have ha0 := Real.arccos_nonneg (u / L.x)
      have ha1 := Real.arccos_le_pi (u / L.x)
      have hsin : Real.sin (Real.arccos (u / L.x)) = |v / L.y| := by
        rw [Real.sin_arccos, ← Real.sqrt_sq_eq_abs]; congr 1; linarith
      by_cases hv : 0 ≤ v / L.y
      · exact ⟨Real.arccos (u / L.x), ⟨ha0, by linarith⟩, Real.cos_arccos hl1 hl2, by rw [hsin, abs_of_nonneg hv]⟩
      · refine ⟨2 * Real.pi - Real.arccos (u / L.x), ⟨by linarith, by linarith⟩, ?_, ?_⟩
        · rw [Real.cos_two_pi_sub, Real.cos_arccos hl1 hl2]
        · rw [Real.sin_two_pi_sub, hsin, abs_of_neg (not_le.mp hv), neg_neg]
    exact ⟨t, h0, h1, by rw [h2]; field_simp, by rw [h3]; field_simp⟩
  obtain ⟨i, hi, hnear⟩ := near_angle 99 (by norm_num) ht0 ht1
  obtain ⟨ss, hss, hlen, hsi⟩ := C28_samples o ho 100 (by norm_num) true
  obtain ⟨p, hp, -, hpx, hpy⟩ := hsi i (by omega)
  simp only [if_true] at hpx hpy
  have e99 : 2 * Real.pi * (i : ℝ) / (((100 : ℕ) : ℝ) - 1) = 2 * Real.pi * i / (99 : ℕ) := by norm_num
  rw [e99] at hpx hpy
  set r := 2 * Real.pi * (i : ℝ) / (99 : ℕ) with hr
  have hinside : e.pointIsInside p = true := by
    rw [inside_iff_inEllipse he]
    have := hd (p.x - (o.base.pose.apply ⟨u, v, 0⟩).x) (p.y - (o.base.pose.apply ⟨u, v, 0⟩).y) ?_
    · convert this using 1 <;> ring
    · have hrot : (o.base.orientation.w ^ 2 - o.base.orientation.z ^ 2) ^ 2 +
          (2 * o.base.orientation.w * o.base.orientation.z) ^ 2 = 1 := by
        have h1 := zrot_isUnit ho
        have h2 : o.base.orientation.sqNorm = 1 := h1
        simp only [Quat.sqNorm, ho.2.1, ho.2.2] at h2
        have h3 : o.base.orientation.w ^ 2 + o.base.orientation.z ^ 2 = 1 := by nlinarith
        calc _ = (o.base.orientation.w ^ 2 + o.base.orientation.z ^ 2) ^ 2 := by ring
          _ = 1 := by rw [h3]; norm_num
      have hsq : (r - t) ^ 2 ≤ (Real.pi / 99) ^ 2 := by
        rw [← sq_abs (r - t), abs_sub_comm]
        push_cast at hnear
        gcongr
      have hch := chord_le r t
      have hmx : L.x ^ 2 ≤ (max |L.x| |L.y|) ^ 2 := by
        rw [← sq_abs L.x]; gcongr; exact le_max_left _ _
      have hmy : L.y ^ 2 ≤ (max |L.x| |L.y|) ^ 2 := by
        rw [← sq_abs L.y]; gcongr; exact le_max_right _ _
      have hpxu : p.x - (o.base.pose.apply ⟨u, v, 0⟩).x =
          (o.base.orientation.w ^ 2 - o.base.orientation.z ^ 2) * (L.x * (Real.cos r - Real.cos t)) -
          (2 * o.base.orientation.w * o.base.orientation.z) * (L.y * (Real.sin r - Real.sin t)) := by
        rw [hpx, hu, hv]; simp only [zrot_apply ho]; ring
      have hpyv : p.y - (o.base.pose.apply ⟨u, v, 0⟩).y =
          (2 * o.base.orientation.w * o.base.orientation.z) * (L.x * (Real.cos r - Real.cos t)) +
          (o.base.orientation.w ^ 2 - o.base.orientation.z ^ 2) * (L.y * (Real.sin r - Real.sin t)) := by
        rw [hpy, hu, hv]; simp only [zrot_apply ho]; ring
      rw [hpxu, hpyv]
      generalize o.base.orientation.w ^ 2 - o.base.orientation.z ^ 2 = c at *
      generalize 2 * o.base.orientation.w * o.base.orientation.z = d at *
      generalize Real.cos r - Real.cos t = a at *
      generalize Real.sin r - Real.sin t = b at *
      generalize max |L.x| |L.y| = m at *
      calc (c * (L.x * a) - d * (L.y * b)) ^ 2 + (d * (L.x * a) + c * (L.y * b)) ^ 2
          = (c ^ 2 + d ^ 2) * (L.x ^ 2 * a ^ 2 + L.y ^ 2 * b ^ 2) := by ring
        _ = L.x ^ 2 * a ^ 2 + L.y ^ 2 * b ^ 2 := by rw [hrot, one_mul]
        _ ≤ m ^ 2 * a ^ 2 + m ^ 2 * b ^ 2 := by gcongr
        _ = m ^ 2 * (a ^ 2 + b ^ 2) := by ring
        _ ≤ m ^ 2 * (Real.pi / 99) ^ 2 := by gcongr; linarith
        _ = (m * (Real.pi / 99)) ^ 2 := by ring
  unfold isIntersectingEllipsoid
  split
  · rfl
  · split
    · rfl
    · rw [hss]
      simp only [Res.ok_bind, Res.ok.injEq]
      rw [List.any_eq_true]
      exact ⟨p, List.mem_of_getElem? hp, hinside⟩

/-- Non-vacuity: unit discs with centres at (0,0) and (1.9,0); neither centre is covered by the other disc. -/
example : ∃ e o : Ellipsoid ℝ, ¬ InEllipse e (halfLengths e V3.zero) o.base.position.x o.base.position.y ∧
    ¬ InEllipse o (halfLengths o V3.zero) e.base.position.x e.base.position.y ∧
    e.isIntersectingEllipsoid o = .ok true := by
  let D : ℝ → Ellipsoid ℝ := fun a => Ellipsoid.ofBase (Base.mkRef "" (State.ofPosition ⟨a, 0, 0⟩) V3.zero V3.zero)
  have hz : ∀ a, ZRotated (D a) := by
    intro a
    refine ⟨?_, rfl, rfl⟩
    simp [D, Ellipsoid.ofBase, Base.orientation, State.orientation, Base.mkRef, State.ofPosition, Pose.ofPosition,
      Quat.norm, Quat.sqNorm, Quat.one]
  have hL : ∀ a, halfLengths (D a) V3.zero = ⟨1, 1, 1⟩ := by
    intro a; ext <;> simp [halfLengths, D, Base.mkRef, Ellipsoid.ofBase, V3.const, V3.zero]
  have hin : ∀ a x y, InEllipse (D a) ⟨1, 1, 1⟩ x y ↔ (x - a) ^ 2 + y ^ 2 ≤ 1 := by
    intro a x y
    have hap : ∀ u v : ℝ, ((D a).base.pose.apply ⟨u, v, 0⟩) = ⟨u + a, v, 0⟩ := by
      intro u v
      rw [zrot_apply (hz a)]
      ext <;> simp [D, Ellipsoid.ofBase, Base.orientation, State.orientation, Base.mkRef, State.ofPosition,
        Pose.ofPosition, Quat.one, Base.position, State.position]
    simp only [InEllipse, hap]
    constructor
    · rintro ⟨u, v, h1, rfl, rfl⟩
      simp only [div_one] at h1
      rw [add_sub_cancel_right]; exact h1
    · intro h1
      exact ⟨x - a, y, by simp only [div_one]; exact h1, by ring, rfl⟩
  refine ⟨D 0, D (19 / 10), ?_, ?_, C29_deep_partial _ _ (hz _) (hz _) (by rw [hL]; norm_num) (by rw [hL]; norm_num)
    (91 / 100) 0 (by rw [hL, hin]; norm_num) ?_⟩
  · rw [hL, hin]
    show ¬ ((19 / 10 : ℝ) - 0) ^ 2 + 0 ^ 2 ≤ 1
    norm_num
  · rw [hL, hin]
    show ¬ ((0 : ℝ) - 19 / 10) ^ 2 + 0 ^ 2 ≤ 1
    norm_num
  · intro a b hab
    rw [hL] at hab
    rw [hL, hin]
    simp only [abs_one, max_self, one_mul] at hab
    have hpi := Real.pi_le_four
    have hpi0 := Real.pi_pos
    have h1 : a ^ 2 + b ^ 2 ≤ (45 / 1000) ^ 2 := le_trans hab (pow_le_pow_left₀ (by positivity) (by linarith) 2)
    have h2 : a ≤ 45 / 1000 := by nlinarith [sq_nonneg b]
    nlinarith

/-- C52, a partial converse of `C52_touches_partial`: if a point of the inflated ellipse is closer to the agent than
`max(0.1, margin)` minus 3.2 % of the larger half length, then `in_obstacle` is true. -/
theorem C52_near_partial (h : Heap ℝ) (a : Agent ℝ) (o : Ellipsoid ℝ) (ho : ZRotated o)
    (hox : (halfLengths o V3.zero).x ≠ 0) (hoy : (halfLengths o V3.zero).y ≠ 0) (x y d : ℝ) (hd : 0 ≤ d)
    (hin : InEllipse o (halfLengths o V3.zero) x y)
    (hnear : (x - a.state.position.x) ^ 2 + (y - a.state.position.y) ^ 2 ≤ d ^ 2)
    (hr : d + max |(halfLengths o V3.zero).x| |(halfLengths o V3.zero).y| * (Real.pi / 99) ≤ max (1 / 10) a.margin) :
    a.inObstacle h (.ellipsoid o) = .ok true := by
  simp only [Agent.inObstacle, Heap.isIntersecting, Heap.fuel, Heap.isIntersectingAux, Heap.isIntersectingEllipsoid]
  refine C29_deep_partial _ _ (safety_rot a) ho hox hoy x y hin ?_
  intro u v huv
  rw [show InEllipse a.safetyEnvelope (halfLengths a.safetyEnvelope V3.zero) (x + u) (y + v) ↔ _ from
    (inside_iff_inEllipse (safety_rot a) ⟨x + u, y + v, 0⟩).symm, safety_inside]
  have hm : 0 ≤ max |(halfLengths o V3.zero).x| |(halfLengths o V3.zero).y| * (Real.pi / 99) := by
    have := Real.pi_pos
    have : 0 ≤ max |(halfLengths o V3.zero).x| |(halfLengths o V3.zero).y| := le_trans (abs_nonneg _) (le_max_left _ _)
    positivity
  generalize max |(halfLengths o V3.zero).x| |(halfLengths o V3.zero).y| * (Real.pi / 99) = m at *
  generalize max (1 / 10) a.margin = R at *
  show (x + u - a.state.position.x) ^ 2 + (y + v - a.state.position.y) ^ 2 ≤ R ^ 2
  have e1 : x + u - a.state.position.x = (x - a.state.position.x) + u := by ring
  have e2 : y + v - a.state.position.y = (y - a.state.position.y) + v := by ring
  rw [e1, e2]
  generalize x - a.state.position.x = p at *
  generalize y - a.state.position.y = q at *
  have h1 : (d + m) ^ 2 ≤ R ^ 2 := by gcongr
  have h2 : p * u + q * v ≤ d * m := by
    refine abs_le_of_sq_le_sq' ?_ (by positivity) |>.2
    nlinarith [sq_nonneg (p * v - q * u), mul_le_mul hnear huv (by positivity) (by positivity)]
  nlinarith

/-- Non-vacuity: the unit disc at the origin and an agent with margin 1 at (19/10,0,0). -/
example : Agent.inObstacle [] { agentAt ⟨19 / 10, 0, 0⟩ V3.zero with margin := 1 } (.ellipsoid (ball V3.zero)) = .ok true := by
  have hL : halfLengths (ball V3.zero) V3.zero = ⟨1, 1, 1⟩ := by
    ext <;> simp [halfLengths, ball, Base.mkRef, Ellipsoid.ofBase, V3.const, V3.zero]
  have hz : ZRotated (ball V3.zero) := by
    refine ⟨?_, rfl, rfl⟩
    simp [ball, Ellipsoid.ofBase, Base.orientation, State.orientation, Base.mkRef, State.ofPosition, Pose.ofPosition,
      Quat.norm, Quat.sqNorm, Quat.one]
  refine C52_near_partial _ _ _ hz (by rw [hL]; norm_num) (by rw [hL]; norm_num) 1 0 (9 / 10) (by norm_num) ?_ ?_ ?_
  · rw [hL]
    exact ⟨1, 0, by norm_num, by rw [ball_apply], by rw [ball_apply]⟩
  · norm_num [agentAt, State.position, Pose.ofPosition]
  · rw [hL]
    have := Real.pi_le_four
    norm_num
    linarith

end DOA.Props
