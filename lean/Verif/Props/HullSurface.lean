import Verif.Props.HullDistance

/-!
# C64, C65: what the hull of a set of ellipses is
-/

set_option linter.unusedSectionVars false
set_option linter.unusedSimpArgs false

namespace DOA.Props
open DOA DOA.Spec DOA.Hull DOA.Ellipsoid

/-- How far along the ray from `ref` with angle `f` (seen from above) the boundaries of the ellipses are met. -/
def rayHits (es : List (Ellipsoid ℝ)) (ref : V3 ℝ) (f : ℝ) : Set ℝ :=
  {t | 0 < t ∧ ∃ e ∈ es, OnEllipse e (halfLengths e V3.zero) (ref.x + t * Real.cos f) (ref.y + t * Real.sin f)}

/-- An ellipse the hull computation handles as intended: rotated about z only, positive half lengths, at the height
of the reference point, and the ray not parallel to its y axis. -/
structure RayOK (e : Ellipsoid ℝ) (ref : V3 ℝ) (f : ℝ) : Prop where
  zrot : ZRotated e
  lx : 0 < (halfLengths e V3.zero).x
  ly : 0 < (halfLengths e V3.zero).y
  height : e.base.position.z = ref.z
  slope : (e.base.pose.inverse.apply ref).x ≠ (e.base.pose.inverse.apply (ref + ⟨Real.cos f, Real.sin f, 0⟩)).x
  off : ¬ OnEllipse e (halfLengths e V3.zero) ref.x ref.y

theorem polar_ray_pos {f t : ℝ} (h1 : -Real.pi ≤ f) (h2 : f < Real.pi) (ht : 0 < t) :
    let q := MathTools.cartesianToPolar (⟨t * Real.cos f, t * Real.sin f, 0⟩ : V3 ℝ)
    OnRay f q ∧ q.x = t ∧ q.y = Real.pi / 2 ∧ Real.cos q.z = Real.cos f ∧ Real.sin q.z = Real.sin f := by
  intro q
  have hx : q.x = t := by
    rw [polar_radius]
    simp only [V3.norm, V3.sqNorm, V3.dot, sqrt_real]
    rw [show t * Real.cos f * (t * Real.cos f) + t * Real.sin f * (t * Real.sin f) + 0 * 0 = t * t by
      nlinarith [Real.sin_sq_add_cos_sq f]]
    exact Real.sqrt_mul_self ht.le
  have hy : q.y = Real.pi / 2 := by
    show CMath.acos (_ / _) = _
    simp only [zero_div, acos_real, Real.arccos_zero]
  have hc : (⟨t * Real.cos f, t * Real.sin f⟩ : ℂ) = (t : ℂ) * (Complex.cos f + Complex.sin f * Complex.I) := by
    rw [← Complex.ofReal_cos, ← Complex.ofReal_sin]
    apply Complex.ext <;> simp [-Complex.ofReal_cos, -Complex.ofReal_sin]
  have hz : q.z = (⟨t * Real.cos f, t * Real.sin f⟩ : ℂ).arg := rfl
  rcases eq_or_lt_of_le h1 with he | hlt
  · have hz' : q.z = Real.pi := by
      rw [hz, Complex.arg_eq_pi_iff, ← he]
      simp [ht]
    refine ⟨Or.inr ?_, hx, hy, ?_, ?_⟩
    · rw [hz', ← he, show Real.pi - 2 * Real.pi - -Real.pi = 0 by ring]; norm_num
    · rw [hz', ← he]; simp
    · rw [hz', ← he]; simp
  · have hz' : q.z = f := by
      rw [hz, hc]; exact Complex.arg_mul_cos_add_sin_mul_I ht ⟨hlt, h2.le⟩
    exact ⟨Or.inl (by rw [hz']; norm_num), hx, hy, by rw [hz'], by rw [hz']⟩

theorem polar_ray_neg {f t : ℝ} (h1 : -Real.pi ≤ f) (h2 : f < Real.pi) (ht : t < 0) :
    ¬ OnRay f (MathTools.cartesianToPolar (⟨t * Real.cos f, t * Real.sin f, 0⟩ : V3 ℝ)) := by
  have hpi := Real.two_le_pi
  have hz : (MathTools.cartesianToPolar (⟨t * Real.cos f, t * Real.sin f, 0⟩ : V3 ℝ)).z
      = (⟨t * Real.cos f, t * Real.sin f⟩ : ℂ).arg := rfl
  have hc : ∀ g : ℝ, Real.cos g = -Real.cos f → Real.sin g = -Real.sin f → g ∈ Set.Ioc (-Real.pi) Real.pi →
      (⟨t * Real.cos f, t * Real.sin f⟩ : ℂ).arg = g := by
    intro g hg1 hg2 hg
    have : (⟨t * Real.cos f, t * Real.sin f⟩ : ℂ) = ((-t : ℝ) : ℂ) * (Complex.cos g + Complex.sin g * Complex.I) := by
      rw [← Complex.ofReal_cos, ← Complex.ofReal_sin, hg1, hg2]
      apply Complex.ext <;> simp [-Complex.ofReal_cos, -Complex.ofReal_sin]
    rw [this]
    exact Complex.arg_mul_cos_add_sin_mul_I (by linarith) hg
  unfold OnRay
  rw [hz]
  by_cases hf : f ≤ 0
  · rw [hc (f + Real.pi) (Real.cos_add_pi f) (Real.sin_add_pi f) ⟨by linarith, by linarith⟩]
    rintro (h | h) <;> rw [abs_le] at h <;> linarith [h.1, h.2]
  · rw [hc (f - Real.pi) (Real.cos_sub_pi f) (Real.sin_sub_pi f) ⟨by linarith, by linarith⟩]
    rintro (h | h) <;> rw [abs_le] at h <;> linarith [h.1, h.2]

/-- One ellipse: its two intersection points are the hits of the whole line. -/
theorem hits_of_ellipse {e : Ellipsoid ℝ} {ref : V3 ℝ} {f : ℝ} (h : RayOK e ref f) :
    let r := e.intersectionPoints ref (ref + ⟨Real.cos f, Real.sin f, 0⟩)
    (∀ p, r.1 = true → p = r.2.1 ∨ p = r.2.2 → ∃ t, t ≠ 0 ∧ p = ref + ⟨t * Real.cos f, t * Real.sin f, 0⟩ ∧
      OnEllipse e (halfLengths e V3.zero) (ref.x + t * Real.cos f) (ref.y + t * Real.sin f)) ∧
    (∀ t, OnEllipse e (halfLengths e V3.zero) (ref.x + t * Real.cos f) (ref.y + t * Real.sin f) → r.1 = true ∧
      (ref + ⟨t * Real.cos f, t * Real.sin f, 0⟩ = r.2.1 ∨ ref + ⟨t * Real.cos f, t * Real.sin f, 0⟩ = r.2.2)) := by
  obtain ⟨hz, hlx, hly, hh, hsl, hoff⟩ := h
  have hq := zrot_isUnit hz
  obtain ⟨y1, hy1⟩ : ∃ y, e.base.pose.apply y = ref := ⟨_, Pose.apply_apply_inverse hq ref⟩
  obtain ⟨y2, hy2⟩ : ∃ y, e.base.pose.apply y = ref + ⟨Real.cos f, Real.sin f, 0⟩ :=
    ⟨_, Pose.apply_apply_inverse hq _⟩
  have hne : y1.x ≠ y2.x := by
    rw [← hy2, Pose.apply_inverse_apply hq, ← hy1, Pose.apply_inverse_apply hq] at hsl
    exact hsl
  intro r
  have hr : r = e.intersectionPoints (e.base.pose.apply y1) (e.base.pose.apply y2) := by rw [hy1, hy2]
  obtain ⟨hflag, hpts, -⟩ := C27_line_intersection_partial e hz.1 hlx.ne' hly.ne' y1 y2 hne
  rw [← hr] at hflag hpts
  -- image of a point of the line
  have himg : ∀ t u v, u = y1.x + t * (y2.x - y1.x) → v = y1.y + t * (y2.y - y1.y) →
      e.base.pose.apply ⟨u, v, 0⟩ = ref + ⟨t * Real.cos f, t * Real.sin f, 0⟩ := by
    intro t u v hu hv
    have a1 := congrArg V3.x hy1
    have a2 := congrArg V3.y hy1
    have b1 := congrArg V3.x hy2
    have b2 := congrArg V3.y hy2
    simp only [zrot_apply hz, V3.add_x, V3.add_y] at a1 a2 b1 b2
    ext
    · simp only [zrot_apply hz, V3.add_x, hu, hv]; linear_combination (1 - t) * a1 + t * b1
    · simp only [zrot_apply hz, V3.add_y, hu, hv]; linear_combination (1 - t) * a2 + t * b2
    · simp only [zrot_apply hz, V3.add_z, hh]; ring
  constructor
  · intro p hr1 hp
    obtain ⟨u1, v1, u2, v2, -, e1, e2, ⟨⟨t1, c1, d1⟩, s1⟩, ⟨⟨t2, c2, d2⟩, s2⟩, -⟩ := hpts hr1
    have key : ∀ t u v, u = y1.x + t * (y2.x - y1.x) → v = y1.y + t * (y2.y - y1.y) →
        (u / (halfLengths e V3.zero).x) ^ 2 + (v / (halfLengths e V3.zero).y) ^ 2 = 1 →
        p = e.base.pose.apply ⟨u, v, 0⟩ → ∃ t, t ≠ 0 ∧ p = ref + ⟨t * Real.cos f, t * Real.sin f, 0⟩ ∧
          OnEllipse e (halfLengths e V3.zero) (ref.x + t * Real.cos f) (ref.y + t * Real.sin f) := by
      intro t u v hu hv hs hp
      have him := himg t u v hu hv
      have hon : OnEllipse e (halfLengths e V3.zero) (ref.x + t * Real.cos f) (ref.y + t * Real.sin f) :=
        ⟨u, v, hs, by rw [him]; rfl, by rw [him]; rfl⟩
      refine ⟨t, ?_, hp.trans him, hon⟩
      rintro rfl
      apply hoff
      simpa using hon
    rcases hp with hp | hp
    · exact key t1 u1 v1 c1 d1 s1 (hp.trans e1)
    · exact key t2 u2 v2 c2 d2 s2 (hp.trans e2)
  · rintro t ⟨u, v, hs, hx, hy⟩
    -- `(u,v)` is the frame point of the line
    have hinj : u = y1.x + t * (y2.x - y1.x) ∧ v = y1.y + t * (y2.y - y1.y) := by
      have him := himg t _ _ rfl rfl
      have heq : e.base.pose.apply ⟨u, v, 0⟩ =
          e.base.pose.apply ⟨y1.x + t * (y2.x - y1.x), y1.y + t * (y2.y - y1.y), 0⟩ := by
        rw [him]
        ext
        · rw [← hx]; rfl
        · rw [← hy]; rfl
        · simp [zrot_apply hz, hh]
      have := congrArg e.base.pose.inverse.apply heq
      rw [Pose.apply_inverse_apply hq, Pose.apply_inverse_apply hq] at this
      exact ⟨congrArg V3.x this, congrArg V3.y this⟩
    have hline : OnLine y1.x y1.y y2.x y2.y u v := ⟨t, hinj.1, hinj.2⟩
    have hr1 : r.1 = true := hflag.mpr ⟨u, v, hline, hs.le⟩
    refine ⟨hr1, ?_⟩
    obtain ⟨u1, v1, u2, v2, -, e1, e2, -, -, hall⟩ := hpts hr1
    have him := himg t u v hinj.1 hinj.2
    rcases hall u v hline hs with ⟨rfl, rfl⟩ | ⟨rfl, rfl⟩
    · left; rw [← him]; exact e1.symm
    · right; rw [← him]; exact e2.symm

/-- C64: for ellipses at the height of the reference point, the surface point of a ray (before smoothing) is where the
ray leaves the union of the ellipses for the last time (outside hull) or meets a boundary for the first time (inside
hull), pushed out or in by the safety margin and not closer than the minimum radius; if the ray meets no ellipse the
minimum radius is used.  Any number of ellipses, any rotations about z, any angle of `[-π,π)`; the ray must not be
parallel to the y axis of an ellipse and the reference point must not be on a boundary. -/
theorem C64_surface_is_boundary (inside : Bool) (m margin : ℝ) (pose : Pose ℝ) (hpose : pose.orientation = Quat.one)
    (ref : V3 ℝ) (hpos : pose.position = ref) (es : List (Ellipsoid ℝ)) (f : ℝ) (hf1 : -Real.pi ≤ f) (hf2 : f < Real.pi)
    (hes : ∀ e ∈ es, RayOK e ref f) :
    let s := if inside then -margin else margin
    let sp := surfacePoint inside m margin f (rayPoints pose ref (es.map (·.intersectionPoints)) f)
    (rayHits es ref f = ∅ → sp = ⟨max m (m + s), Real.pi / 2, f⟩) ∧
    ((rayHits es ref f).Nonempty → ∃ R, (if inside then IsLeast (rayHits es ref f) R else IsGreatest (rayHits es ref f) R) ∧
      sp.x = max m (R + s) ∧ sp.y = Real.pi / 2 ∧ Real.cos sp.z = Real.cos f ∧ Real.sin sp.z = Real.sin f) := by
  intro s sp
  set pts := rayPoints pose ref (es.map (·.intersectionPoints)) f with hpts
  have hdir : pose.apply (MathTools.polarToCartesian ⟨1, CMath.acos 0, f⟩) = ref + ⟨Real.cos f, Real.sin f, 0⟩ := by
    rw [apply_one hpose, hpos]
    ext <;> simp [MathTools.polarToCartesian, Real.arccos_zero, Real.sin_pi_div_two] <;> ring
  have hfr : ∀ v : V3 ℝ, pose.inverse.apply (ref + v) = v := by
    intro v
    rw [inverse_apply_one hpose, hpos]
    ext <;> simp
  -- on-ray points are exactly the hits
  have hmem : ∀ q, q ∈ pts ↔ ∃ e ∈ es, let r := e.intersectionPoints ref (ref + ⟨Real.cos f, Real.sin f, 0⟩)
      r.1 = true ∧ (q = MathTools.cartesianToPolar (pose.inverse.apply r.2.1) ∨
        q = MathTools.cartesianToPolar (pose.inverse.apply r.2.2)) := by
    intro q
    rw [hpts]
    simp only [rayPoints, hdir, List.mem_flatMap, List.mem_map, exists_exists_and_eq_and]
    constructor
    · rintro ⟨e, he, hq⟩
      split at hq
      · rename_i hr
        exact ⟨e, he, hr, by simpa using hq⟩
      · simp at hq
    · rintro ⟨e, he, hr, hq⟩
      refine ⟨e, he, ?_⟩
      rw [if_pos hr]
      simpa using hq
  have hfwd : ∀ q ∈ pts, OnRay f q → q.x ∈ rayHits es ref f ∧ q.y = Real.pi / 2 ∧ Real.cos q.z = Real.cos f ∧
      Real.sin q.z = Real.sin f := by
    intro q hq hon
    obtain ⟨e, he, hr, hq⟩ := (hmem q).mp hq
    obtain ⟨h1, -⟩ := hits_of_ellipse (hes e he)
    have key : ∀ p, (p = (e.intersectionPoints ref (ref + ⟨Real.cos f, Real.sin f, 0⟩)).2.1 ∨
        p = (e.intersectionPoints ref (ref + ⟨Real.cos f, Real.sin f, 0⟩)).2.2) →
        q = MathTools.cartesianToPolar (pose.inverse.apply p) → q.x ∈ rayHits es ref f ∧ q.y = Real.pi / 2 ∧
          Real.cos q.z = Real.cos f ∧ Real.sin q.z = Real.sin f := by
      intro p hp hqp
      obtain ⟨t, ht0, hpt, hont⟩ := h1 p hr hp
      rw [hpt, hfr] at hqp
      rcases lt_or_gt_of_ne ht0 with hneg | hpos
      · rw [hqp] at hon
        exact absurd hon (polar_ray_neg hf1 hf2 hneg)
      · obtain ⟨-, hx, hy, hc, hsn⟩ := polar_ray_pos hf1 hf2 hpos
        rw [hqp]
        refine ⟨?_, hy, hc, hsn⟩
        rw [hx]
        exact ⟨hpos, e, he, hont⟩
    rcases hq with hq | hq
    · exact key _ (Or.inl rfl) hq
    · exact key _ (Or.inr rfl) hq
  have hbwd : ∀ t ∈ rayHits es ref f, ∃ q ∈ pts, OnRay f q ∧ q.x = t := by
    rintro t ⟨ht, e, he, hon⟩
    obtain ⟨-, h2⟩ := hits_of_ellipse (hes e he)
    obtain ⟨hr, hp⟩ := h2 t hon
    obtain ⟨hray, hx, -⟩ := polar_ray_pos hf1 hf2 ht
    refine ⟨MathTools.cartesianToPolar (⟨t * Real.cos f, t * Real.sin f, 0⟩ : V3 ℝ), (hmem _).mpr ⟨e, he, hr, ?_⟩, hray, hx⟩
    rcases hp with hp | hp
    · left; rw [← hp, hfr]
    · right; rw [← hp, hfr]
  obtain ⟨c1, c2⟩ := C62_surface_point inside m margin f pts
  constructor
  · intro hemp
    refine c1 fun q hq hon => ?_
    have := (hfwd q hq hon).1
    rw [hemp] at this
    exact this
  · rintro ⟨t, ht⟩
    obtain ⟨q0, hq0, hon0, -⟩ := hbwd t ht
    obtain ⟨q, hq, hon, he, hbest⟩ := c2 ⟨q0, hq0, hon0⟩
    obtain ⟨hx, hy, hc, hsn⟩ := hfwd q hq hon
    have hsp : sp = ⟨max m (q.x + s), q.y, q.z⟩ := he
    refine ⟨q.x, ?_, by rw [hsp], by rw [hsp]; exact hy, by rw [hsp]; exact hc, by rw [hsp]; exact hsn⟩
    cases inside with
    | true =>
      simp only [if_true] at hbest ⊢
      refine ⟨hx, fun t ht => ?_⟩
      obtain ⟨q', hq', hon', rfl⟩ := hbwd t ht
      exact hbest q' hq' hon'
    | false =>
      simp only [Bool.false_eq_true, if_false] at hbest ⊢
      refine ⟨hx, fun t ht => ?_⟩
      obtain ⟨q', hq', hon', rfl⟩ := hbwd t ht
      exact hbest q' hq' hon'

/-- the unit ball seen from its centre -/
theorem ball_hits (c : V3 ℝ) (f : ℝ) : rayHits [ballAt c] c f = {1} := by
  ext t
  simp only [rayHits, Set.mem_ofPred_eq, List.mem_singleton, exists_eq_left, Set.mem_singleton_iff]
  have hap : ∀ u v : ℝ, (ballAt c).base.pose.apply ⟨u, v, 0⟩ = ⟨u, v, 0⟩ + c := fun u v => apply_one rfl _
  have hl : halfLengths (ballAt c) V3.zero = ⟨1, 1, 1⟩ := by
    ext <;> simp [halfLengths, ballAt, Base.mkRef, Ellipsoid.ofBase, V3.const, V3.zero]
  simp only [OnEllipse, hap, hl, V3.add_x, V3.add_y]
  constructor
  · rintro ⟨ht, u, v, h1, h2, h3⟩
    have hu : u = t * Real.cos f := by linarith
    have hv : v = t * Real.sin f := by linarith
    rw [hu, hv] at h1
    have : t ^ 2 = 1 := by nlinarith [Real.sin_sq_add_cos_sq f]
    nlinarith
  · rintro rfl
    refine ⟨one_pos, Real.cos f, Real.sin f, ?_, by ring, by ring⟩
    rw [div_one, div_one]
    exact Real.cos_sq_add_sin_sq f

theorem ball_rayOK (c : V3 ℝ) {f : ℝ} (hf : Real.cos f ≠ 0) : RayOK (ballAt c) c f := by
  have hl : halfLengths (ballAt c) V3.zero = ⟨1, 1, 1⟩ := by
    ext <;> simp [halfLengths, ballAt, Base.mkRef, Ellipsoid.ofBase, V3.const, V3.zero]
  have hap : ∀ u v : ℝ, (ballAt c).base.pose.apply ⟨u, v, 0⟩ = ⟨u, v, 0⟩ + c := fun u v => apply_one rfl _
  refine ⟨⟨?_, rfl, rfl⟩, ?_, ?_, rfl, ?_, ?_⟩
  · simp [ballAt, Ellipsoid.ofBase, Base.orientation, State.orientation, Base.mkRef, State.ofPosition,
      Pose.ofPosition, Quat.norm, Quat.sqNorm, Quat.one]
  · rw [hl]; norm_num
  · rw [hl]; norm_num
  · rw [inverse_apply_one rfl, inverse_apply_one rfl]
    simp only [V3.sub_x, V3.add_x]
    intro h
    exact hf (by linarith)
  · rintro ⟨u, v, h1, h2, h3⟩
    rw [hap] at h2 h3
    simp only [V3.add_x, V3.add_y] at h2 h3
    have hu : u = 0 := by linarith
    have hv : v = 0 := by linarith
    rw [hu, hv] at h1
    norm_num at h1

/-! ## C65 the hull of a disc -/

theorem smoothF_dev {D T : ℝ} (hD : 0 ≤ D) (sps : List (V3 ℝ)) : ∀ (old : List (V3 ℝ)) (prev cur : V3 ℝ),
    |prev.x - T| ≤ D / 19 → cur.x = T → (∀ q ∈ sps, q.x = T) → (∀ q ∈ old, |q.x - T| ≤ D) →
    ∀ q ∈ smoothF prev cur sps old, |q.x - T| ≤ D / 19 := by
  induction sps with
  | nil =>
    intro old prev cur hp hc _ _ q hq
    simp only [smoothF, List.mem_singleton] at hq
    rw [hq, hc, sub_self, abs_zero]; positivity
  | cons sp sps ih =>
    intro old prev cur hp hc hs ho q hq
    cases old with
    | nil =>
      simp only [smoothF, List.mem_singleton] at hq
      rw [hq, hc, sub_self, abs_zero]; positivity
    | cons o old =>
      have hb : |(mix cur prev o).x - T| ≤ D / 19 := by
        rw [mix_real, hc]
        have := ho o List.mem_cons_self
        rw [abs_le] at *
        constructor <;> linarith [this.1, this.2, hp.1, hp.2]
      simp only [smoothF, List.mem_cons] at hq
      rcases hq with rfl | hq
      · exact hb
      · exact ih old _ sp hb (hs sp List.mem_cons_self) (fun q hq => hs q (List.mem_cons_of_mem _ hq))
          (fun q hq => ho q (List.mem_cons_of_mem _ hq)) q hq

theorem smoothCol_dev {D T : ℝ} {l l' : List (V3 ℝ)} {i j k : Nat} (hl : ∀ q ∈ l, |q.x - T| ≤ D)
    (h : smoothCol l i j k = .ok l') : ∀ q ∈ l', |q.x - T| ≤ D := by
  obtain ⟨a, d, c, hc, ha, hd, rfl⟩ := smoothCol_inv h
  intro q hq
  rcases List.mem_or_eq_of_mem_set hq with hq | rfl
  · exact hl q hq
  · rw [mix_real]
    have e1 := hl c (List.mem_of_getElem? hc)
    have e2 := hl a (List.mem_of_getElem? ha)
    have e3 := hl d (List.mem_of_getElem? hd)
    rw [abs_le] at *
    constructor <;> linarith [e1.1, e1.2, e2.1, e2.2, e3.1, e3.2]

/-- If every ray has the same surface radius `T`, each computation brings all radii 19 times closer to `T`. -/
theorem compute_dev {k k' : Hull ℝ} (hk : HullOK k) {prims : List (Oracle ℝ)} {ref : V3 ℝ}
    (h : k.compute prims ref = .ok k') {T D : ℝ} (hD : 0 ≤ D)
    (hT : ∀ phi, MathTools.linspace (-CMath.pi : ℝ) (CMath.pi - lit 1 10000) k.resolution = .ok phi →
      ∀ q ∈ surfacePoints k prims ref phi, q.x = T) (hold : ∀ q ∈ k.polar, |q.x - T| ≤ D) :
    ∀ q ∈ k'.polar, |q.x - T| ≤ D / 19 := by
  obtain ⟨phi, p2, e1, l1, s1, t1, -⟩ := compute_inv hk h
  have hsp := hT phi e1
  refine smoothCol_dev (smoothCol_dev ?_ s1) t1
  generalize surfacePoints k prims ref phi = sps at hsp
  generalize k.polar = old at hold
  match sps, old, hsp, hold with
  | s0 :: s1 :: sps, o0 :: o1 :: old, hs, ho =>
    intro q hq
    have hs0 : |s0.x - T| ≤ D / 19 := by rw [hs s0 List.mem_cons_self, sub_self, abs_zero]; positivity
    simp only [loopResult, List.mem_cons] at hq
    rcases hq with rfl | hq
    · exact hs0
    · exact smoothF_dev hD sps old s0 s1 hs0 (hs s1 (by simp)) (fun q hq => hs q (by simp [hq]))
        (fun q hq => ho q (by simp [hq])) q hq
  | [], _, _, _ => intro q hq; simp [loopResult] at hq
  | [_], _, _, _ => intro q hq; simp [loopResult] at hq
  | _ :: _ :: _, [], _, _ => intro q hq; simp [loopResult] at hq
  | _ :: _ :: _, [_], _, _ => intro q hq; simp [loopResult] at hq

/-- all angles of the grid are in `[-π,π)` -/
theorem grid_mem {n : ℕ} (hn : 2 ≤ n) {phi : List ℝ}
    (h : MathTools.linspace (-CMath.pi : ℝ) (CMath.pi - lit 1 10000) (n : Int) = .ok phi) {f : ℝ} (hf : f ∈ phi) :
    -Real.pi ≤ f ∧ f < Real.pi := by
  obtain ⟨i, hi⟩ := List.mem_iff_getElem?.mp hf
  rcases Nat.eq_zero_or_pos i with rfl | hpos
  · obtain ⟨l, hl, -, hfirst, -⟩ := MathTools.linspace_ok (-CMath.pi : ℝ) (CMath.pi - lit 1 10000) (n : Int) (by omega)
    rw [h] at hl
    injection hl with hl
    subst hl
    rw [hfirst] at hi
    injection hi with hi
    rw [← hi]
    simp only [pi_real]
    exact ⟨le_refl _, by linarith [Real.pi_pos]⟩
  · obtain ⟨h1, h2⟩ := grid_range hn h hpos hi
    exact ⟨h1.le, h2⟩

/-- C65: the hull (of either kind, any resolution) of the unit ball, computed `n` times on a newly constructed hull with
the centre as reference point: all radii are within `T/19ⁿ` of `T = max(min_radius, 1)`. -/
theorem C65_hull_of_disc (b : Bool) (res : ℕ) (hres : 2 ≤ res) (m : ℝ) (hm : 0 ≤ m) (c : V3 ℝ) (n : ℕ) :
    ∃ k', computes (Hull.mk' b res m) (List.replicate n ([(ballAt c).intersectionPoints], c)) = .ok k' ∧
      ∀ q ∈ k'.polar, |q.x - max m 1| ≤ max m 1 / 19 ^ n := by
  have hT0 : 0 ≤ max m 1 := le_trans hm (le_max_left _ _)
  have key : ∀ (n : ℕ) (k : Hull ℝ) (D : ℝ), 0 ≤ D → HullOK k → k.resolution = res → k.minRadius = m → k.isInside = b →
      k.base.margin.x = 0 → k.base.pose.orientation = Quat.one → (∀ q ∈ k.polar, |q.x - max m 1| ≤ D) →
      ∃ k', computes k (List.replicate n ([(ballAt c).intersectionPoints], c)) = .ok k' ∧
        ∀ q ∈ k'.polar, |q.x - max m 1| ≤ D / 19 ^ n := by
    intro n
    induction n with
    | zero => intro k D _ _ _ _ _ _ _ h; exact ⟨k, rfl, by simpa using h⟩
    | succ n ih =>
      intro k D hD hk h1 h2 h3 h4 h5 h
      obtain ⟨k1, e1, e2, e3, e4, e5, -, -, e6⟩ := compute_ok hk [(ballAt c).intersectionPoints] c
      obtain ⟨-, -, -, -, -, -, hb, -⟩ := compute_inv hk e1
      have hpose : k1.base.pose.orientation = Quat.one := by rw [hb]; exact h5
      have hdev := compute_dev hk e1 hD (T := max m 1) (by
        intro phi hphi q hq
        simp only [surfacePoints, List.mem_map] at hq
        obtain ⟨f, hf, rfl⟩ := hq
        obtain ⟨hf1, hf2⟩ := grid_mem hk.1 hphi hf
        have hcos := grid_cos hk.1 hphi hf
        obtain ⟨-, h64⟩ := C64_surface_is_boundary k.isInside k.minRadius k.base.margin.x
          ((k.base.setRef c).setPosition c).pose h5 c rfl [ballAt c] f hf1 hf2 (by
            intro e he
            rw [List.mem_singleton.mp he]
            exact ball_rayOK c hcos)
        rw [ball_hits] at h64
        obtain ⟨R, hR, hx, -⟩ := h64 ⟨1, rfl⟩
        have hR1 : R = 1 := by
          split at hR
          · exact hR.1
          · exact hR.1
        have hx' : (surfacePoint k.isInside k.minRadius k.base.margin.x f (rayPoints
            ((k.base.setRef c).setPosition c).pose c [(ballAt c).intersectionPoints] f)).x = _ := hx
        rw [hx', hR1, h4, h2]
        simp) h
      obtain ⟨k2, g1, g2⟩ := ih k1 (D / 19) (by positivity) e2 (e3.trans h1) (e5.trans h2) (e4.trans h3)
        (by rw [e6]; exact h4) hpose hdev
      refine ⟨k2, by simp only [List.replicate_succ, computes, e1, Res.ok_bind, g1], fun q hq => ?_⟩
      refine (g2 q hq).trans (le_of_eq ?_)
      rw [pow_succ]; field_simp
  exact key n (Hull.mk' b res m) (max m 1) hT0 (hullOK_mk' b hres m) rfl rfl rfl rfl rfl (by
    intro q hq
    have : q = V3.zero := List.eq_of_mem_replicate hq
    rw [this]
    simp only [V3.zero, zero_sub, abs_neg, abs_of_nonneg hT0, le_refl])

end DOA.Props
