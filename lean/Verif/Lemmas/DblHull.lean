import Verif.Spec.Finite
import Verif.Lemmas.Hull
import Verif.Lemmas.Origin

/-!
# Transfer between ideal doubles and reals: hulls

The points on a ray are finite; only the polar angle `θ` of a point in the centre of the hull is NaN over the ideal doubles, and
with 500 rays no such point is ever chosen.
-/

set_option linter.unusedSectionVars false
set_option linter.unusedSimpArgs false

namespace DOA
open Dbl Spec Origin

theorem fin_maxS (a b : ℝ) : maxS (fin a) (fin b) = fin (maxS a b) := by
  unfold maxS
  by_cases h : a < b
  · rw [if_pos h, if_pos (show fin a < fin b from h)]
  · rw [if_neg h, if_neg (show ¬ fin a < fin b from h)]

theorem fin_absS (a : ℝ) : absS (fin a) = fin (absS a) := by
  unfold absS
  by_cases h : a < 0
  · rw [if_pos h, if_pos (show fin a < (0 : Dbl) from h), fin_neg]
  · rw [if_neg h, if_neg (show ¬ fin a < (0 : Dbl) from h)]

/-! ## polar coordinates -/

theorem polar_x_toD (y : V3 ℝ) : (MathTools.cartesianToPolar y.toD).x = fin (MathTools.cartesianToPolar y).x := by
  simp only [MathTools.cartesianToPolar, V3.toD_x, V3.toD_y, V3.toD_z, fin_mul, fin_add]
  exact fin_sqrt (by nlinarith [mul_self_nonneg y.x, mul_self_nonneg y.y, mul_self_nonneg y.z])

theorem polar_z_toD (y : V3 ℝ) : (MathTools.cartesianToPolar y.toD).z = fin (MathTools.cartesianToPolar y).z := by
  simp only [MathTools.cartesianToPolar, V3.toD_x, V3.toD_y, fin_atan2, atan2_real]

theorem polar_toD {y : V3 ℝ} (h : (MathTools.cartesianToPolar y).x ≠ 0) :
    MathTools.cartesianToPolar y.toD = (MathTools.cartesianToPolar y).toD := by
  have hx := polar_x_toD y
  have hz := polar_z_toD y
  have hy : (MathTools.cartesianToPolar y.toD).y = fin (MathTools.cartesianToPolar y).y := by
    have hx' : (MathTools.cartesianToPolar y.toD).y =
        CMath.acos (fin y.z / (MathTools.cartesianToPolar y.toD).x) := rfl
    have hle : |y.z| ≤ (MathTools.cartesianToPolar y).x := by
      simp only [MathTools.cartesianToPolar, sqrt_real]
      rw [← Real.sqrt_sq_eq_abs]
      exact Real.sqrt_le_sqrt (by nlinarith [mul_self_nonneg y.x, mul_self_nonneg y.y])
    have hpos : 0 < (MathTools.cartesianToPolar y).x :=
      lt_of_le_of_ne ((abs_nonneg _).trans hle) (Ne.symm h)
    rw [hx', hx, fin_div h, fin_acos]
    · rfl
    · rw [le_div_iff₀ hpos]
      linarith [(abs_le.mp hle).1]
    · rw [div_le_iff₀ hpos]
      linarith [(abs_le.mp hle).2]
  ext
  · exact hx
  · exact hy
  · exact hz

theorem cartesian_toD (q : V3 ℝ) : MathTools.polarToCartesian q.toD = (MathTools.polarToCartesian q).toD := by
  simp [MathTools.polarToCartesian, V3.toD]

/-! ## the points on a ray -/

theorem FitO.solid {o : Obj ℝ} (h : FitO o) : SolidO o := by
  cases o with
  | ellipsoid e => exact h.1
  | _ => trivial

/-- the intersection points of a ray, in the frame of the hull -/
noncomputable def rayCart (pose : Pose ℝ) (ref : V3 ℝ) (prims : List (Oracle ℝ)) (phi : ℝ) : List (V3 ℝ) :=
  prims.flatMap fun o =>
    let r := o ref (pose.apply (MathTools.polarToCartesian ⟨1, CMath.acos 0, phi⟩))
    if r.1 then [pose.inverse.apply r.2.1, pose.inverse.apply r.2.2] else []

theorem ray_cart (pose : Pose ℝ) (ref : V3 ℝ) (prims : List (Oracle ℝ)) (phi : ℝ) :
    Hull.rayPoints pose ref prims phi = (rayCart pose ref prims phi).map MathTools.cartesianToPolar := by
  simp only [Hull.rayPoints, rayCart, List.map_flatMap]
  congr 1
  funext o
  split <;> rfl

theorem dir_toD (f : ℝ) : MathTools.polarToCartesian (⟨1, CMath.acos 0, fin f⟩ : V3 Dbl) =
    (MathTools.polarToCartesian (⟨1, CMath.acos 0, f⟩ : V3 ℝ)).toD := by
  rw [← cartesian_toD]
  have : CMath.acos (0 : Dbl) = fin (Real.arccos 0) := fin_acos (by norm_num) (by norm_num)
  rw [this]
  rfl

theorem ray_cart_toD {pose : Pose ℝ} (ho : pose.orientation = Quat.one) {ref : V3 ℝ} (hp : pose.position = ref)
    {os : List (Obj ℝ)} (hos : ∀ o ∈ os, FitO o) {f : ℝ} (hf : GridAngle f) :
    Hull.rayPoints pose.toD ref.toD ((os.map Obj.toD).map Obj.intersectionPoints) (fin f) =
      (rayCart pose ref (os.map Obj.intersectionPoints) f).map fun y => MathTools.cartesianToPolar y.toD := by
  simp only [Hull.rayPoints, rayCart, List.map_flatMap, List.flatMap_map, dir_toD, Pose.toD_apply, Pose.toD_inverse]
  refine List.flatMap_congr fun o ho' => ?_
  have hfit := hos o ho'
  cases o with
  | ellipsoid e =>
    obtain ⟨⟨hx, hy⟩, hr⟩ := hfit
    have hv : (e.base.pose.inverse.apply ref).x ≠
        (e.base.pose.inverse.apply (pose.apply (MathTools.polarToCartesian ⟨1, CMath.acos 0, f⟩))).x := by
      intro h
      apply hr f hf
      have hd : pose.apply (MathTools.polarToCartesian ⟨1, CMath.acos 0, f⟩) = ⟨Real.cos f, Real.sin f, 0⟩ + ref := by
        rw [← hp]
        ext <;> simp [MathTools.polarToCartesian, Pose.apply, ho, Quat.rotate, Quat.one, Quat.vec, V3.cross, V3.smul]
      rw [hd] at h
      simp only [Pose.apply, Pose.inverse, Quat.rotate_add] at h
      simp only [V3.add_x] at h
      linarith
    have he : Obj.intersectionPoints (Obj.toD (.ellipsoid e)) ref.toD
        (pose.apply (MathTools.polarToCartesian ⟨1, CMath.acos 0, f⟩)).toD = _ :=
      Ellipsoid.toD_intersectionPoints hx hy hv
    rw [he]
    have hee : (Obj.ellipsoid e).intersectionPoints ref (pose.apply (MathTools.polarToCartesian ⟨1, CMath.acos 0, f⟩)) =
      e.intersectionPoints ref (pose.apply (MathTools.polarToCartesian ⟨1, CMath.acos 0, f⟩)) := rfl
    rw [hee]
    split <;> simp [Pose.toD_apply]
  | _ => simp [Obj.toD, Obj.intersectionPoints]

/-! ## the chosen point -/

theorem dropWhile_map' {β γ : Type} (g : β → γ) (p : γ → Bool) (q : β → Bool) (h : ∀ b, p (g b) = q b) (l : List β) :
    (l.map g).dropWhile p = (l.dropWhile q).map g := by
  induction l with
  | nil => rfl
  | cons b l ih =>
    simp only [List.map_cons, List.dropWhile_cons, h]
    cases q b <;> simp [ih]

theorem grid500 {phi : List ℝ} (h : MathTools.linspace (-CMath.pi : ℝ) (CMath.pi - lit 1 10000) (500 : Int) = .ok phi)
    {f : ℝ} (hm : f ∈ phi) : GridAngle f := by
  obtain ⟨l, hl, hlen, hfirst, hlast, hmid⟩ := MathTools.linspace_ok (-CMath.pi : ℝ) (CMath.pi - lit 1 10000) (500 : Int) (by omega)
  rw [h] at hl
  injection hl with hl
  subst hl
  obtain ⟨i, hi⟩ := List.mem_iff_getElem?.mp hm
  have hlt := (List.getElem?_eq_some_iff.mp hi).1
  rw [hlen] at hlt
  have hlt' : i < 500 := hlt
  refine ⟨i, hlt', ?_⟩
  rcases Nat.eq_zero_or_pos i with rfl | hpos
  · rw [hfirst] at hi
    injection hi with hi
    rw [← hi]; simp
  · by_cases h1 : i + 1 < 500
    · rw [hmid i hpos h1] at hi
      injection hi with hi
      rw [← hi]
      simp only [pi_real, lit_real, MathTools.ofInt]
      push_cast
      ring
    · have : i = 499 := by omega
      subst this
      have e : (500 : Int).toNat - 1 = 499 := rfl
      rw [e] at hlast
      rw [hlast] at hi
      injection hi with hi
      rw [← hi]
      simp only [pi_real, lit_real]
      push_cast
      ring

/-- no ray is along the x axis, up to the tolerance -/
theorem grid_off {f : ℝ} (hf : GridAngle f) (q : V3 ℝ) (hq : q.z = 0) : Hull.offRay f q = true := by
  obtain ⟨i, hi, rfl⟩ := hf
  have hpi := Real.two_le_pi
  have hpi4 := Real.pi_le_four
  have hi0 : (0 : ℝ) ≤ i := Nat.cast_nonneg i
  have hi1 : (i : ℝ) ≤ 499 := by exact_mod_cast (by omega : i ≤ 499)
  have hs : (0 : ℝ) < (2 * Real.pi - 1 / 10000) / 499 := by
    have : (0 : ℝ) < 2 * Real.pi - 1 / 10000 := by linarith
    positivity
  simp only [Hull.offRay, hq, absS_real, lit_real, pi_real, Bool.and_eq_true, decide_eq_true_eq]
  constructor
  · rw [lt_abs]
    by_cases h : i ≤ 249
    · left
      have : (i : ℝ) ≤ 249 := by exact_mod_cast h
      have : (i : ℝ) * ((2 * Real.pi - 1 / 10000) / 499) ≤ 249 * ((2 * Real.pi - 1 / 10000) / 499) := by gcongr
      norm_num at *
      linarith
    · right
      have : (250 : ℝ) ≤ i := by exact_mod_cast (by omega : 250 ≤ i)
      have : 250 * ((2 * Real.pi - 1 / 10000) / 499) ≤ (i : ℝ) * ((2 * Real.pi - 1 / 10000) / 499) := by gcongr
      norm_num at *
      linarith
  · rw [lt_abs]
    right
    have : 0 ≤ (i : ℝ) * ((2 * Real.pi - 1 / 10000) / 499) := by positivity
    norm_num at *
    linarith

theorem offRay_toD (f : ℝ) (y : V3 ℝ) : Hull.offRay (fin f) (MathTools.cartesianToPolar y.toD) =
    Hull.offRay f (MathTools.cartesianToPolar y) := by
  simp only [Hull.offRay, polar_z_toD, fin_sub, fin_absS, lit_def, pi_def, fin_mul, fin_lt, lit_real, pi_real]

/-- the end of the choice: the first remaining point, or the default -/
def pickFirst {α : Type} [Add α] [Zero α] [LT α] [DecidableLT α] [CMath α] (m f s : α) (l : List (V3 α)) : V3 α :=
  { (match l with
      | [] => (⟨m, CMath.acos 0, f⟩ : V3 α)
      | q :: _ => q) with
    x := maxS m ((match l with
      | [] => (⟨m, CMath.acos 0, f⟩ : V3 α)
      | q :: _ => q).x + s) }

theorem surface_toD (inside : Bool) (m mar : ℝ) {f : ℝ} (hf : GridAngle f) (ys : List (V3 ℝ)) :
    Hull.surfacePoint inside (fin m) (fin mar) (fin f) (ys.map fun y => MathTools.cartesianToPolar y.toD) =
      (Hull.surfacePoint inside m mar f (ys.map MathTools.cartesianToPolar)).toD := by
  have hn : MathTools.sortBy Hull.nearerFirst (ys.map fun y => MathTools.cartesianToPolar y.toD) =
      (MathTools.sortBy (fun a b : V3 ℝ => decide ((MathTools.cartesianToPolar a).x < (MathTools.cartesianToPolar b).x)) ys).map
        fun y => MathTools.cartesianToPolar y.toD :=
    MathTools.sortBy_map _ _ _ (fun a b => by simp only [Hull.nearerFirst, polar_x_toD, fin_lt]) ys
  have hn' : MathTools.sortBy Hull.nearerFirst (ys.map MathTools.cartesianToPolar) =
      (MathTools.sortBy (fun a b : V3 ℝ => decide ((MathTools.cartesianToPolar a).x < (MathTools.cartesianToPolar b).x)) ys).map
        MathTools.cartesianToPolar :=
    MathTools.sortBy_map _ _ _ (fun a b => rfl) ys
  have hr : MathTools.sortBy Hull.fartherFirst (ys.map fun y => MathTools.cartesianToPolar y.toD) =
      (MathTools.sortBy (fun a b : V3 ℝ => decide ((MathTools.cartesianToPolar b).x < (MathTools.cartesianToPolar a).x)) ys).map
        fun y => MathTools.cartesianToPolar y.toD :=
    MathTools.sortBy_map _ _ _ (fun a b => by simp only [Hull.fartherFirst, polar_x_toD, fin_lt]) ys
  have hr' : MathTools.sortBy Hull.fartherFirst (ys.map MathTools.cartesianToPolar) =
      (MathTools.sortBy (fun a b : V3 ℝ => decide ((MathTools.cartesianToPolar b).x < (MathTools.cartesianToPolar a).x)) ys).map
        MathTools.cartesianToPolar :=
    MathTools.sortBy_map _ _ _ (fun a b => rfl) ys
  have hd : ∀ l : List (V3 ℝ), (l.map fun y => MathTools.cartesianToPolar y.toD).dropWhile (Hull.offRay (fin f)) =
      (l.dropWhile fun y => Hull.offRay f (MathTools.cartesianToPolar y)).map fun y => MathTools.cartesianToPolar y.toD :=
    fun l => dropWhile_map' _ _ _ (fun y => offRay_toD f y) l
  have hd' : ∀ l : List (V3 ℝ), (l.map MathTools.cartesianToPolar).dropWhile (Hull.offRay f) =
      (l.dropWhile fun y => Hull.offRay f (MathTools.cartesianToPolar y)).map MathTools.cartesianToPolar :=
    fun l => dropWhile_map' _ _ _ (fun y => rfl) l
  have hac : CMath.acos (0 : Dbl) = fin (Real.arccos 0) := fin_acos (by norm_num) (by norm_num)
  have hfin : ∀ (s : ℝ) (l : List (V3 ℝ)),
      pickFirst (fin m) (fin f) (fin s) ((l.dropWhile fun y => Hull.offRay f (MathTools.cartesianToPolar y)).map
          (fun y => MathTools.cartesianToPolar y.toD)) =
      (pickFirst m f s ((l.dropWhile fun y => Hull.offRay f (MathTools.cartesianToPolar y)).map
          MathTools.cartesianToPolar)).toD := by
    intro s l
    cases hl : (l.dropWhile fun y => Hull.offRay f (MathTools.cartesianToPolar y)) with
    | nil =>
      simp only [pickFirst, List.map_nil, fin_add, fin_maxS, hac]
      rfl
    | cons y rest =>
      have hoff : Hull.offRay f (MathTools.cartesianToPolar y) = false := by
        have := List.head?_dropWhile_not (fun y => Hull.offRay f (MathTools.cartesianToPolar y)) l
        rw [hl] at this
        simpa using this
      have hne : (MathTools.cartesianToPolar y).x ≠ 0 := by
        intro h0
        have hz : (MathTools.cartesianToPolar y).z = 0 := by
          simp only [MathTools.cartesianToPolar, sqrt_real] at h0
          have hsum := (Real.sqrt_eq_zero (by nlinarith [mul_self_nonneg y.x, mul_self_nonneg y.y, mul_self_nonneg y.z])).mp h0
          have hx : y.x = 0 := by nlinarith [mul_self_nonneg y.x, mul_self_nonneg y.y, mul_self_nonneg y.z]
          have hy : y.y = 0 := by nlinarith [mul_self_nonneg y.x, mul_self_nonneg y.y, mul_self_nonneg y.z]
          simp only [MathTools.cartesianToPolar, atan2_real, hx, hy]
          exact Complex.arg_zero
        rw [grid_off hf _ hz] at hoff
        cases hoff
      simp only [pickFirst, List.map_cons, polar_toD hne, V3.toD_x, fin_add, fin_maxS]
      rfl
  cases inside with
  | true =>
    have := hfin (-mar) (MathTools.sortBy (fun a b : V3 ℝ => decide ((MathTools.cartesianToPolar a).x < (MathTools.cartesianToPolar b).x)) ys)
    simp only [Hull.surfacePoint, if_true, hn, hn', hd, hd', fin_neg]
    exact this
  | false =>
    have := hfin mar (MathTools.sortBy (fun a b : V3 ℝ => decide ((MathTools.cartesianToPolar b).x < (MathTools.cartesianToPolar a).x)) ys)
    simp only [Hull.surfacePoint, Bool.false_eq_true, if_false, hr, hr', hd, hd']
    exact this

/-! ## the loop -/

theorem smoothCol_toD (polar : List (V3 ℝ)) (i j k : Nat) :
    Hull.smoothCol (polar.map V3.toD) i j k = (List.map V3.toD) <$> Hull.smoothCol polar i j k := by
  unfold Hull.smoothCol
  simp only [index_map]
  cases Res.index polar i with
  | throw x => rfl
  | ub u => rfl
  | ok a =>
    simp only [Res.map_ok, Res.ok_bind]
    cases Res.index polar j with
    | throw x => rfl
    | ub u => rfl
    | ok b =>
      simp only [Res.map_ok, Res.ok_bind]
      cases Res.index polar k with
      | throw x => rfl
      | ub u => rfl
      | ok c =>
        simp only [Res.map_ok, Res.ok_bind, List.map_set]
        congr 2

theorem computeStep_toD (i : Nat) (sp : V3 ℝ) (polar : List (V3 ℝ)) :
    Hull.computeStep i sp.toD (polar.map V3.toD) = (List.map V3.toD) <$> Hull.computeStep i sp polar := by
  unfold Hull.computeStep
  have key : ∀ x : Res (List (V3 ℝ)), ((List.map V3.toD <$> x) >>= fun p : List (V3 Dbl) =>
      if i < p.length then Res.ok (p.set i sp.toD) else .ub .indexOOB) =
      List.map V3.toD <$> (x >>= fun p => if i < p.length then .ok (p.set i sp) else .ub .indexOOB) := by
    intro x
    cases x with
    | throw x => rfl
    | ub u => rfl
    | ok p =>
      simp only [Res.map_ok, Res.ok_bind, List.length_map]
      split
      · simp only [Res.map_ok, List.map_set]
      · rfl
  by_cases h : 1 < i
  · simp only [if_pos h]
    rw [smoothCol_toD]
    exact key _
  · simp only [if_neg h]
    exact key (.ok polar)

theorem computeLoop_toD : ∀ (sps : List (V3 ℝ)) (i : Nat) (polar : List (V3 ℝ)),
    Hull.computeLoop i (sps.map V3.toD) (polar.map V3.toD) = (List.map V3.toD) <$> Hull.computeLoop i sps polar := by
  intro sps
  induction sps with
  | nil => intros; rfl
  | cons sp sps ih =>
    intro i polar
    simp only [List.map_cons, Hull.computeLoop, computeStep_toD]
    cases Hull.computeStep i sp polar with
    | throw x => rfl
    | ub u => rfl
    | ok p => exact ih (i + 1) p

theorem compute_toD {k : Hull ℝ} (hk : FitK k) {os : List (Obj ℝ)} (hos : ∀ o ∈ os, FitO o) (ref : V3 ℝ) :
    k.toD.compute ((os.map Obj.toD).map Obj.intersectionPoints) ref.toD =
      Hull.toD <$> k.compute (os.map Obj.intersectionPoints) ref := by
  obtain ⟨phi, h1, h2⟩ := Ellipsoid.toD_linspace (-CMath.pi : ℝ) (CMath.pi - lit 1 10000) (n := (500 : Int)) (by omega)
  have hb : (k.toD.base.setRef ref.toD).setPosition ref.toD = ((k.base.setRef ref).setPosition ref).toD := rfl
  have hori : ((k.base.setRef ref).setPosition ref).pose.orientation = Quat.one := hk.axes
  have hpos : ((k.base.setRef ref).setPosition ref).pose.position = ref := rfl
  have hres : (k.resolution : Int) = 500 := by rw [hk.rays]; rfl
  have hres' : k.toD.resolution = k.resolution := rfl
  unfold Hull.compute
  rw [hres', hres, h1, show (-CMath.pi : Dbl) = fin (-CMath.pi) from rfl,
    show (CMath.pi - lit 1 10000 : Dbl) = fin (CMath.pi - lit 1 10000) from rfl, h2]
  simp only [Res.ok_bind, hb]
  generalize (k.base.setRef ref).setPosition ref = b at hori hpos
  have hsps : ((phi.map fin).map fun p => Hull.surfacePoint k.toD.isInside k.toD.minRadius b.toD.margin.x p
      (Hull.rayPoints b.toD.pose ref.toD ((os.map Obj.toD).map Obj.intersectionPoints) p)) =
      (phi.map fun p => Hull.surfacePoint k.isInside k.minRadius b.margin.x p
        (Hull.rayPoints b.pose ref (os.map Obj.intersectionPoints) p)).map V3.toD := by
    rw [List.map_map (l := phi), List.map_map (l := phi)]
    apply List.map_congr_left
    intro f hf
    have hg : GridAngle f := grid500 h1 hf
    simp only [Function.comp_apply]
    rw [Base.toD_pose, ray_cart_toD hori hpos hos hg, ray_cart]
    exact surface_toD k.isInside k.minRadius b.margin.x hg _
  rw [hsps, show k.toD.polar = k.polar.map V3.toD from rfl, computeLoop_toD]
  cases Hull.computeLoop 0 (phi.map fun p => Hull.surfacePoint k.isInside k.minRadius b.margin.x p
        (Hull.rayPoints b.pose ref (os.map Obj.intersectionPoints) p)) k.polar with
  | throw x => rfl
  | ub u => rfl
  | ok p1 =>
    simp only [Res.map_ok, Res.ok_bind, smoothCol_toD]
    cases Hull.smoothCol p1 0 (k.resolution - 1) 1 with
    | throw x => rfl
    | ub u => rfl
    | ok p2 =>
      simp only [Res.map_ok, Res.ok_bind, smoothCol_toD]
      cases Hull.smoothCol p2 (k.resolution - 1) (k.resolution - 2) 0 with
      | throw x => rfl
      | ub u => rfl
      | ok p3 =>
        simp only [Res.ok_bind, Res.map_ok, Hull.toD, List.map_map, Function.comp_def, Base.toD_pose, cartesian_toD, Pose.toD_apply]

theorem FitK.compute {k r : Hull ℝ} (hk : FitK k) {os : List (Oracle ℝ)} {ref : V3 ℝ} (h : k.compute os ref = .ok r) :
    FitK r := by
  unfold Hull.compute at h
  obtain ⟨_, _, h⟩ := Res.bind_eq_ok.mp h
  obtain ⟨_, _, h⟩ := Res.bind_eq_ok.mp h
  obtain ⟨_, _, h⟩ := Res.bind_eq_ok.mp h
  obtain ⟨_, _, h⟩ := Res.bind_eq_ok.mp h
  cases h
  exact ⟨hk.rays, hk.axes⟩

/-! ## queries -/

theorem lowerBoundLoop_toD (vec : List ℝ) (v : ℝ) : ∀ n first count : Nat,
    MathTools.lowerBoundLoop (vec.map fin) (fin v) n first count = MathTools.lowerBoundLoop vec v n first count := by
  intro n
  induction n with
  | zero => intros; rfl
  | succ n ih =>
    intro first count
    simp only [MathTools.lowerBoundLoop, List.getElem?_map, ih]
    split
    · rfl
    · cases vec[first + count / 2]? with
      | none => rfl
      | some m => simp only [Option.map_some, fin_lt]

theorem lowerBound_toD (vec : List ℝ) (v : ℝ) : MathTools.lowerBound (vec.map fin) (fin v) = MathTools.lowerBound vec v := by
  unfold MathTools.lowerBound
  rw [List.length_map, lowerBoundLoop_toD]

theorem coords_toD (A : List (V3 ℝ)) : (A.map V3.toD).mapM (fun c => MathTools.coord c 2) = .ok ((A.map V3.z).map fin) := by
  induction A with
  | nil => rfl
  | cons c A ih =>
    simp only [List.map_cons, List.mapM_cons, ih]
    rfl

theorem coords_real (A : List (V3 ℝ)) : A.mapM (fun c => MathTools.coord c 2) = .ok (A.map V3.z) := by
  induction A with
  | nil => rfl
  | cons c A ih =>
    simp only [List.map_cons, List.mapM_cons, ih]
    rfl

/-- what is searched for is finite: the angle `φ`, and the radius; the angle `θ` of the centre is not used -/
theorem closest_toD (k : Hull ℝ) (x : V3 ℝ) :
    k.toD.closest x.toD = (fun r => (MathTools.cartesianToPolar (k.base.pose.inverse.apply x).toD, r.2)) <$> k.closest x := by
  have hp : k.toD.base.pose.inverse.apply x.toD = (k.base.pose.inverse.apply x).toD := by
    show k.base.toD.pose.inverse.apply x.toD = _
    rw [Base.toD_pose, Pose.toD_inverse, Pose.toD_apply]
  unfold Hull.closest MathTools.findClosestPoints
  simp only [show k.toD.polar = k.polar.map V3.toD from rfl, coords_toD, coords_real, hp, Res.ok_bind]
  simp only [MathTools.coord, polar_z_toD, Res.ok_bind, lowerBound_toD, List.length_map]
  split <;> rfl

theorem hullInside_toD (k : Hull ℝ) (x : V3 ℝ) : k.toD.pointIsInside x.toD = k.pointIsInside x := by
  unfold Hull.pointIsInside
  rw [closest_toD]
  simp only [show k.toD.polar = k.polar.map V3.toD from rfl, index_map]
  cases hc : k.closest x with
  | throw x => rfl
  | ub u => rfl
  | ok r =>
    have hr : r.1 = MathTools.cartesianToPolar (k.base.pose.inverse.apply x) := by
      unfold Hull.closest at hc
      obtain ⟨_, _, h⟩ := Res.bind_eq_ok.mp hc
      cases h; rfl
    simp only [Res.map_ok, Res.ok_bind]
    cases Res.index k.polar r.2.1 with
    | throw x => rfl
    | ub u => rfl
    | ok s => simp only [Res.map_ok, Res.ok_bind, polar_x_toD, V3.toD_x, fin_lt, hr]

theorem hullNormal_toD (k : Hull ℝ) (x : V3 ℝ) : k.toD.normalToAgent x.toD = V3.toD <$> k.normalToAgent x := by
  unfold Hull.normalToAgent
  rw [closest_toD]
  simp only [show k.toD.cart = k.cart.map V3.toD from rfl, index_map]
  cases k.closest x with
  | throw x => rfl
  | ub u => rfl
  | ok r =>
    simp only [Res.map_ok, Res.ok_bind]
    cases Res.index k.cart r.2.1 with
    | throw x => rfl
    | ub u => rfl
    | ok s =>
      simp only [Res.map_ok, Res.ok_bind]
      cases Res.index k.cart r.2.2 with
      | throw x => rfl
      | ub u => rfl
      | ok s' => simp only [Res.map_ok, Res.ok_bind, V3.toD_sub, V3.toD_unitZ, V3.toD_cross]

theorem hullClosed_toD (k : Hull ℝ) : k.toD.isClosed = k.isClosed := by
  unfold Hull.isClosed
  rw [show k.toD.polar = k.polar.map V3.toD from rfl]
  cases k.polar with
  | nil => rfl
  | cons q qs =>
    simp only [List.map_cons]
    have : ∀ (l : List (V3 ℝ)) (m : ℝ), (l.map V3.toD).foldl (fun (m : Dbl) c => if c.x < m then c.x else m) (fin m) =
        fin (l.foldl (fun m c => if c.x < m then c.x else m) m) := by
      intro l
      induction l with
      | nil => intro m; rfl
      | cons c l ih =>
        intro m
        simp only [List.map_cons, List.foldl_cons, V3.toD_x, fin_lt]
        split
        · exact ih _
        · exact ih _
    rw [V3.toD_x, this]
    simp only [show k.toD.minRadius = fin k.minRadius from rfl, lit_def, fin_mul, fin_lt, lit_real]

/-- The radius that is used as a divisor is not zero. -/
def Divides (k : Hull ℝ) (x : V3 ℝ) : Prop :=
  if k.isInside then k.base.pose.inverse.apply x ≠ V3.zero else ∀ q ∈ k.polar, q.x ≠ 0

theorem polar_x_ne {y : V3 ℝ} (hy : y ≠ V3.zero) : (MathTools.cartesianToPolar y).x ≠ 0 := by
  intro h0
  simp only [MathTools.cartesianToPolar, sqrt_real] at h0
  have hsum := (Real.sqrt_eq_zero (by nlinarith [mul_self_nonneg y.x, mul_self_nonneg y.y, mul_self_nonneg y.z])).mp h0
  apply hy
  have hx : y.x = 0 := by nlinarith [mul_self_nonneg y.x, mul_self_nonneg y.y, mul_self_nonneg y.z]
  have hy : y.y = 0 := by nlinarith [mul_self_nonneg y.x, mul_self_nonneg y.y, mul_self_nonneg y.z]
  have hz : y.z = 0 := by nlinarith [mul_self_nonneg y.x, mul_self_nonneg y.y, mul_self_nonneg y.z]
  ext
  · exact hx
  · exact hy
  · exact hz

theorem hullDistance_toD {k : Hull ℝ} {x : V3 ℝ} (hd : Divides k x) (m : V3 ℝ) (m' : V3 Dbl) :
    k.toD.distanceToPoint x.toD m' = fin <$> k.distanceToPoint x m := by
  unfold Hull.distanceToPoint
  rw [closest_toD]
  simp only [show k.toD.polar = k.polar.map V3.toD from rfl, index_map, show k.toD.isInside = k.isInside from rfl]
  cases hc : k.closest x with
  | throw x => rfl
  | ub u => rfl
  | ok r =>
    have hr : r.1 = MathTools.cartesianToPolar (k.base.pose.inverse.apply x) := by
      unfold Hull.closest at hc
      obtain ⟨_, _, h⟩ := Res.bind_eq_ok.mp hc
      cases h; rfl
    simp only [Res.map_ok, Res.ok_bind]
    cases hi : Res.index k.polar r.2.1 with
    | throw x => rfl
    | ub u => rfl
    | ok s =>
      simp only [Res.map_ok, Res.ok_bind, polar_x_toD, V3.toD_x, hr]
      unfold Divides at hd
      split at hd
      · rename_i h
        rw [if_pos h, if_pos h, fin_div (polar_x_ne hd)]
        rfl
      · rename_i h
        have hs : s ∈ k.polar := by
          unfold Res.index at hi
          split at hi
          · rename_i b hb
            injection hi with hi
            subst hi
            exact List.mem_of_getElem? hb
          · cases hi
        rw [if_neg h, if_neg h, fin_div (hd s hs)]
        rfl

end DOA
