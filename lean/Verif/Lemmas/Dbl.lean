import Verif.Model.Dbl
import Verif.Model.Modulation
import Verif.Spec.Ellipsoid

/-!
# Transfer between ideal doubles and reals

`toD` embeds real data in the data with ideal doubles.  As long as no division by zero, root of a negative number, ... takes
place, the model over `Dbl` computes exactly the embedded result of the model over `ℝ`.
-/

set_option linter.unusedSectionVars false
set_option linter.unusedSimpArgs false

namespace DOA
open Dbl

def V3.toD (v : V3 ℝ) : V3 Dbl := ⟨fin v.x, fin v.y, fin v.z⟩
def V2.toD (v : V2 ℝ) : V2 Dbl := ⟨fin v.x, fin v.y⟩
def M3.toD (m : M3 ℝ) : M3 Dbl := ⟨m.c0.toD, m.c1.toD, m.c2.toD⟩
def Quat.toD (q : Quat ℝ) : Quat Dbl := ⟨fin q.w, fin q.x, fin q.y, fin q.z⟩
def Pose.toD (p : Pose ℝ) : Pose Dbl := ⟨p.position.toD, p.orientation.toD⟩
def State.toD (s : State ℝ) : State Dbl := ⟨s.pose.toD, s.linearVelocity.toD, s.angularVelocity.toD⟩
def Base.toD (b : Base ℝ) : Base Dbl := ⟨b.name, b.state.toD, b.refPos.map V3.toD, b.margin.toD⟩
def Ellipsoid.toD (e : Ellipsoid ℝ) : Ellipsoid Dbl := ⟨e.base.toD, e.axis.toD, e.curv.toD⟩
def Hull.toD (k : Hull ℝ) : Hull Dbl :=
  ⟨k.base.toD, k.isInside, k.resolution, fin k.minRadius, k.cart.map V3.toD, k.polar.map V3.toD⟩
def Aggregate.toD (a : Aggregate ℝ) : Aggregate Dbl := ⟨a.base.toD, a.inside.toD, a.outside.toD, a.prims⟩
def Obj.toD : Obj ℝ → Obj Dbl
  | .plain b => .plain b.toD
  | .ellipsoid e => .ellipsoid e.toD
  | .hull k => .hull k.toD
  | .aggregate a => .aggregate a.toD
def Heap.toD (h : Heap ℝ) : Heap Dbl := h.map Obj.toD
def Agent.toD (a : Agent ℝ) : Agent Dbl := ⟨a.state.toD, fin a.margin, a.envelope, fin a.deltaT⟩
def Modulation.Item.toD (i : Modulation.Item ℝ) : Modulation.Item Dbl :=
  ⟨i.base.toD, i.matrix.toD, i.basis.toD, fin i.dist⟩

section basic
variable (u v : V3 ℝ) (m n : M3 ℝ) (q : Quat ℝ) (p : Pose ℝ)

@[simp] theorem V3.toD_x : v.toD.x = fin v.x := rfl
@[simp] theorem V3.toD_y : v.toD.y = fin v.y := rfl
@[simp] theorem V3.toD_z : v.toD.z = fin v.z := rfl
@[simp] theorem V2.toD_x (v : V2 ℝ) : v.toD.x = fin v.x := rfl
@[simp] theorem V2.toD_y (v : V2 ℝ) : v.toD.y = fin v.y := rfl
@[simp] theorem M3.toD_c0 : m.toD.c0 = m.c0.toD := rfl
@[simp] theorem M3.toD_c1 : m.toD.c1 = m.c1.toD := rfl
@[simp] theorem M3.toD_c2 : m.toD.c2 = m.c2.toD := rfl
@[simp] theorem Quat.toD_w : q.toD.w = fin q.w := rfl
@[simp] theorem Quat.toD_x : q.toD.x = fin q.x := rfl
@[simp] theorem Quat.toD_y : q.toD.y = fin q.y := rfl
@[simp] theorem Quat.toD_z : q.toD.z = fin q.z := rfl
@[simp] theorem Pose.toD_pos : p.toD.position = p.position.toD := rfl
@[simp] theorem Pose.toD_ori : p.toD.orientation = p.orientation.toD := rfl
@[simp] theorem Base.toD_pose (b : Base ℝ) : b.toD.pose = b.pose.toD := rfl
@[simp] theorem Base.toD_position (b : Base ℝ) : b.toD.position = b.position.toD := rfl
@[simp] theorem Base.toD_orientation (b : Base ℝ) : b.toD.orientation = b.orientation.toD := rfl
@[simp] theorem Base.toD_margin (b : Base ℝ) : b.toD.margin = b.margin.toD := rfl
@[simp] theorem Base.toD_refPos (b : Base ℝ) : b.toD.refPos = b.refPos.map V3.toD := rfl
@[simp] theorem Ellipsoid.toD_base (e : Ellipsoid ℝ) : e.toD.base = e.base.toD := rfl
@[simp] theorem Ellipsoid.toD_axis (e : Ellipsoid ℝ) : e.toD.axis = e.axis.toD := rfl
@[simp] theorem Ellipsoid.toD_curv (e : Ellipsoid ℝ) : e.toD.curv = e.curv.toD := rfl
@[simp] theorem Agent.toD_state (a : Agent ℝ) : a.toD.state = a.state.toD := rfl
@[simp] theorem Agent.toD_margin (a : Agent ℝ) : a.toD.margin = fin a.margin := rfl
@[simp] theorem State.toD_position (s : State ℝ) : s.toD.position = s.position.toD := rfl
@[simp] theorem State.toD_lin (s : State ℝ) : s.toD.linearVelocity = s.linearVelocity.toD := rfl
@[simp] theorem State.toD_ang (s : State ℝ) : s.toD.angularVelocity = s.angularVelocity.toD := rfl

@[simp] theorem V3.toD_add : u.toD + v.toD = (u + v).toD := by ext <;> simp
@[simp] theorem V3.toD_sub : u.toD - v.toD = (u - v).toD := by ext <;> simp
@[simp] theorem V3.toD_neg : -v.toD = (-v).toD := by ext <;> simp
@[simp] theorem V3.toD_smul (s : ℝ) : V3.smul (fin s) v.toD = (V3.smul s v).toD := by
  ext <;> simp [V3.smul]
@[simp] theorem V3.toD_cross : V3.cross u.toD v.toD = (V3.cross u v).toD := by ext <;> simp [V3.cross]
@[simp] theorem V3.toD_dot : V3.dot u.toD v.toD = fin (V3.dot u v) := by simp [V3.dot]
@[simp] theorem V3.toD_sqNorm : V3.sqNorm v.toD = fin (V3.sqNorm v) := by simp [V3.sqNorm]
theorem V3.sqNorm_nonneg' : 0 ≤ V3.sqNorm v := by simp only [V3.sqNorm, V3.dot]; nlinarith [sq_nonneg v.x, sq_nonneg v.y, sq_nonneg v.z]
@[simp] theorem V3.toD_norm : V3.norm v.toD = fin (V3.norm v) := by
  simp only [V3.norm, V3.toD_sqNorm]
  rw [fin_sqrt (V3.sqNorm_nonneg' v)]; rfl
@[simp] theorem V3.toD_const (s : ℝ) : (V3.const (fin s)) = (V3.const s).toD := rfl
@[simp] theorem V3.toD_zero : (V3.zero : V3 Dbl) = V3.toD V3.zero := rfl
@[simp] theorem V3.toD_unitX : (V3.unitX : V3 Dbl) = V3.toD V3.unitX := rfl
@[simp] theorem V3.toD_unitY : (V3.unitY : V3 Dbl) = V3.toD V3.unitY := rfl
@[simp] theorem V3.toD_unitZ : (V3.unitZ : V3 Dbl) = V3.toD V3.unitZ := rfl
@[simp] theorem V3.toD_hasNaN : v.toD.hasNaN = false := rfl
theorem V3.toD_sdiv {s : ℝ} (hs : s ≠ 0) : V3.sdiv v.toD (fin s) = (V3.sdiv v s).toD := by
  ext <;> simp [V3.sdiv, fin_div hs]
@[simp] theorem V3.toD_normalized : V3.normalized v.toD = (V3.normalized v).toD := by
  unfold V3.normalized
  simp only [V3.toD_sqNorm, zero_def, fin_lt]
  split
  · rename_i h
    rw [fin_sqrt h.le, V3.toD_sdiv]
    · rfl
    · exact (Real.sqrt_pos.mpr h).ne'
  · rfl

theorem V2.sqNorm_nonneg' (v : V2 ℝ) : 0 ≤ V2.sqNorm v := by simp only [V2.sqNorm]; nlinarith [sq_nonneg v.x, sq_nonneg v.y]
@[simp] theorem V2.toD_sqNorm (v : V2 ℝ) : V2.sqNorm v.toD = fin (V2.sqNorm v) := by simp [V2.sqNorm]
@[simp] theorem V2.toD_norm (v : V2 ℝ) : V2.norm v.toD = fin (V2.norm v) := by
  simp only [V2.norm, V2.toD_sqNorm]
  rw [fin_sqrt (V2.sqNorm_nonneg' v)]; rfl
@[simp] theorem V2.toD_scale (v : V2 ℝ) (s : ℝ) : V2.scale v.toD (fin s) = (V2.scale v s).toD := by
  ext <;> simp [V2.scale]
@[simp] theorem V2.toD_add (u v : V2 ℝ) : V2.add u.toD v.toD = (V2.add u v).toD := by
  ext <;> simp [V2.add]
@[simp] theorem V2.toD_zero : (V2.zero : V2 Dbl) = V2.toD V2.zero := rfl
@[simp] theorem V2.toD_normalized (v : V2 ℝ) : V2.normalized v.toD = (V2.normalized v).toD := by
  unfold V2.normalized
  simp only [V2.toD_sqNorm, zero_def, fin_lt]
  split
  · rename_i h
    have : Real.sqrt (V2.sqNorm v) ≠ 0 := (Real.sqrt_pos.mpr h).ne'
    rw [fin_sqrt h.le]
    ext <;> simp [fin_div this]
  · rfl

@[simp] theorem M3.toD_mulVec : M3.mulVec m.toD v.toD = (M3.mulVec m v).toD := by ext <;> simp [M3.mulVec]
@[simp] theorem M3.toD_mul : M3.mul m.toD n.toD = (M3.mul m n).toD := by
  simp only [M3.mul, M3.toD_c0, M3.toD_c1, M3.toD_c2, M3.toD_mulVec]; rfl
@[simp] theorem M3.toD_transpose : M3.transpose m.toD = (M3.transpose m).toD := rfl
@[simp] theorem M3.toD_mulDiag : M3.mulDiag m.toD v.toD = (M3.mulDiag m v).toD := by
  ext <;> simp [M3.mulDiag]
@[simp] theorem M3.toD_det : M3.det m.toD = fin (M3.det m) := by simp [M3.det]
theorem M3.toD_inverse (h : M3.det m ≠ 0) : M3.inverse m.toD = (M3.inverse m).toD := by
  simp only [M3.inverse, M3.toD_det, one_def, fin_div h]
  ext <;> simp

@[simp] theorem Quat.toD_one : (Quat.one : Quat Dbl) = Quat.toD Quat.one := rfl
@[simp] theorem Quat.toD_vec : q.toD.vec = q.vec.toD := rfl
@[simp] theorem Quat.toD_conjugate : q.toD.conjugate = q.conjugate.toD := rfl
@[simp] theorem Quat.toD_rotate : q.toD.rotate v.toD = (q.rotate v).toD := by
  simp only [Quat.rotate, Quat.toD_vec, V3.toD_cross, V3.toD_add, Quat.toD_w, V3.toD_smul]
@[simp] theorem Quat.toD_toM3 : q.toD.toM3 = q.toM3.toD := by
  ext <;> simp [Quat.toM3]
@[simp] theorem Quat.toD_sqNorm : q.toD.sqNorm = fin q.sqNorm := by simp [Quat.sqNorm]
@[simp] theorem Quat.toD_inverse : q.toD.inverse = q.inverse.toD := by
  simp only [Quat.inverse, Quat.toD_sqNorm, zero_def, fin_lt]
  split
  · rename_i h
    ext <;> simp [fin_div h.ne']
  · rfl
theorem Quat.sqNorm_nonneg' : 0 ≤ q.sqNorm := by
  simp only [Quat.sqNorm]; nlinarith [sq_nonneg q.x, sq_nonneg q.y, sq_nonneg q.z, sq_nonneg q.w]
@[simp] theorem Quat.toD_norm : q.toD.norm = fin q.norm := by
  simp only [Quat.norm, Quat.toD_sqNorm]
  rw [fin_sqrt (Quat.sqNorm_nonneg' q)]; rfl
@[simp] theorem Quat.toD_normalized : q.toD.normalized = q.normalized.toD := by
  simp only [Quat.normalized, Quat.toD_sqNorm, zero_def, fin_lt]
  split
  · rename_i h
    have : Real.sqrt (Quat.sqNorm q) ≠ 0 := (Real.sqrt_pos.mpr h).ne'
    rw [fin_sqrt h.le]
    ext <;> simp [fin_div this]
  · rfl

@[simp] theorem Pose.toD_apply : p.toD.apply v.toD = (p.apply v).toD := by
  simp [Pose.apply]
@[simp] theorem Pose.toD_inverse : p.toD.inverse = p.inverse.toD := by
  simp [Pose.inverse, Pose.toD]

end basic

/-! ### ellipsoids -/

namespace Ellipsoid
open Spec

theorem ne_zero_of_epsilon {l : ℝ} (h : (Ellipsoid.epsilon : ℝ) < l) : l ≠ 0 := by
  rintro rfl
  simp only [Ellipsoid.epsilon, lit_real] at h
  norm_num at h

@[simp] theorem toD_scaled (v l : ℝ) : Ellipsoid.scaled (fin v) (fin l) = fin (Ellipsoid.scaled v l) := by
  unfold Ellipsoid.scaled
  by_cases h : (Ellipsoid.epsilon : ℝ) < l
  · rw [if_pos (show (Ellipsoid.epsilon : Dbl) < fin l from h), if_pos h, fin_div (ne_zero_of_epsilon h)]
  · rw [if_neg (show ¬ (Ellipsoid.epsilon : Dbl) < fin l from h), if_neg h]

@[simp] theorem toD_scaledSq (v l : ℝ) : Ellipsoid.scaledSq (fin v) (fin l) = fin (Ellipsoid.scaledSq v l) := by
  unfold Ellipsoid.scaledSq
  by_cases h : (Ellipsoid.epsilon : ℝ) < l
  · rw [if_pos (show (Ellipsoid.epsilon : Dbl) < fin l from h), if_pos h, fin_mul,
      fin_div (mul_ne_zero (ne_zero_of_epsilon h) (ne_zero_of_epsilon h))]
  · rw [if_neg (show ¬ (Ellipsoid.epsilon : Dbl) < fin l from h), if_neg h]

theorem pow_two_mul {t c : ℝ} {k : ℕ} (hc : c = k) :
    CMath.pow (fin t) ((lit 2 1 : Dbl) * fin c) = fin (CMath.pow t (lit 2 1 * c)) := by
  have h1 : ((2 : Int) : ℝ) / ((1 : Nat) : ℝ) * c = ((2 * k : ℕ) : ℝ) := by rw [hc]; push_cast; ring
  simp only [lit_def, fin_mul, lit_real, pow_real, h1, fin_pow_nat, Real.rpow_natCast]

theorem pow_two_mul_sub {t c : ℝ} {k : ℕ} (hc : c = k) (hk : 1 ≤ k) :
    CMath.pow (fin t) ((lit 2 1 : Dbl) * fin c - 1) = fin (CMath.pow t (lit 2 1 * c - 1)) := by
  have h1 : ((2 : Int) : ℝ) / ((1 : Nat) : ℝ) * c - 1 = ((2 * k - 1 : ℕ) : ℝ) := by
    rw [hc, Nat.cast_sub (by omega)]; push_cast; ring
  simp only [lit_def, fin_mul, lit_real, pow_real, one_def, fin_sub, h1, fin_pow_nat, Real.rpow_natCast]

theorem lit2_mul (c p : ℝ) : (lit 2 1 : Dbl) * fin c * fin p = fin (lit 2 1 * c * p) := rfl

/-- Natural curvatures. -/
def NatCurv (e : Ellipsoid ℝ) : Prop := ∃ k1 k2 k3 : ℕ, HasCurv e k1 k2 k3

theorem toD_distanceToPoint {e : Ellipsoid ℝ} (hc : NatCurv e) (x m : V3 ℝ) :
    e.toD.distanceToPoint x.toD m.toD = fin (e.distanceToPoint x m) := by
  obtain ⟨k1, k2, k3, hcv, -, -, -⟩ := hc
  have h1 : e.curv.x = k1 := by rw [hcv]
  have h2 : e.curv.y = k2 := by rw [hcv]
  have h3 : e.curv.z = k3 := by rw [hcv]
  simp only [Ellipsoid.distanceToPoint, toD_base, toD_axis, toD_curv, Base.toD_pose, Base.toD_margin,
    Pose.toD_inverse, Pose.toD_apply, V3.toD_add, V3.toD_x, V3.toD_y, V3.toD_z, toD_scaled,
    pow_two_mul h1, pow_two_mul h2, pow_two_mul h3, fin_add]

theorem toD_normalToAgent {e : Ellipsoid ℝ} (hc : NatCurv e) (x : V3 ℝ) (m : ℝ) :
    e.toD.normalToAgent x.toD (fin m) = (e.normalToAgent x m).toD := by
  obtain ⟨k1, k2, k3, hcv, hk1, hk2, hk3⟩ := hc
  have h1 : e.curv.x = k1 := by rw [hcv]
  have h2 : e.curv.y = k2 := by rw [hcv]
  have h3 : e.curv.z = k3 := by rw [hcv]
  simp only [Ellipsoid.normalToAgent, toD_base, toD_axis, toD_curv, Base.toD_pose, Base.toD_margin,
    Pose.toD_inverse, Pose.toD_apply, V3.toD_const, V3.toD_add, V3.toD_x, V3.toD_y, V3.toD_z,
    lit2_mul, toD_scaledSq, pow_two_mul_sub h1 hk1, pow_two_mul_sub h2 hk2, pow_two_mul_sub h3 hk3]
  rw [← V3.toD_normalized]
  rfl

theorem toD_pointIsInside {e : Ellipsoid ℝ} (hx : (e.axis + e.base.margin).x ≠ 0)
    (hy : (e.axis + e.base.margin).y ≠ 0) (x : V3 ℝ) : e.toD.pointIsInside x.toD = e.pointIsInside x := by
  simp only [Ellipsoid.pointIsInside, toD_base, toD_axis, Base.toD_pose, Base.toD_margin,
    Pose.toD_inverse, Pose.toD_apply, V3.toD_add, V3.toD_x, V3.toD_y, fin_mul, fin_div (mul_ne_zero hx hx),
    fin_div (mul_ne_zero hy hy), fin_add, one_def, fin_le]

/-! ### line intersections -/

theorem toD_intersectionPoints {e : Ellipsoid ℝ} (hx : (e.axis + e.base.margin).x ≠ 0)
    (hy : (e.axis + e.base.margin).y ≠ 0) {x1 x2 : V3 ℝ}
    (hv : (e.base.pose.inverse.apply x1).x ≠ (e.base.pose.inverse.apply x2).x) :
    e.toD.intersectionPoints x1.toD x2.toD =
      ((e.intersectionPoints x1 x2).1, (e.intersectionPoints x1 x2).2.1.toD, (e.intersectionPoints x1 x2).2.2.toD) := by
  have hx2 := mul_ne_zero hx hx
  have hy2 := mul_ne_zero hy hy
  have hd := sub_ne_zero.mpr hv.symm
  simp only [Ellipsoid.intersectionPoints, toD_base, toD_axis, Base.toD_pose, Base.toD_margin,
    Pose.toD_inverse, Pose.toD_apply, V3.toD_add, V3.toD_x, V3.toD_y, fin_mul, fin_sub, fin_div hd, one_def,
    fin_div hx2, fin_div hy2, fin_add, lit_def, zero_def, lit_real, fin_neg]
  set a := ((e.base.pose.inverse.apply x2).y - (e.base.pose.inverse.apply x1).y)
    / ((e.base.pose.inverse.apply x2).x - (e.base.pose.inverse.apply x1).x)
  set b := (e.base.pose.inverse.apply x1).y - a * (e.base.pose.inverse.apply x1).x
  set lx := (e.axis + e.base.margin).x
  set ly := (e.axis + e.base.margin).y
  set A := 1 / (lx * lx) + a * a / (ly * ly) with hA
  have hApos : A ≠ 0 := by
    have h1 : 0 < lx * lx := mul_self_pos.mpr hx
    have h2 : 0 < ly * ly := mul_self_pos.mpr hy
    have : 0 ≤ (a * a) / (ly * ly) := div_nonneg (mul_self_nonneg a) h2.le
    have : 0 < 1 / (lx * lx) := by positivity
    linarith
  have hA2 : ((2 : Int) : ℝ) / ((1 : Nat) : ℝ) * A ≠ 0 := mul_ne_zero (by norm_num) hApos
  set B := ((2 : Int) : ℝ) / ((1 : Nat) : ℝ) * a * b / (ly * ly)
  set C := b * b / (ly * ly) - 1
  set delta := B * B - ((4 : Int) : ℝ) / ((1 : Nat) : ℝ) * A * C
  by_cases h0 : 0 ≤ delta
  · rw [if_pos (show fin 0 ≤ fin delta from h0), if_pos h0]
    simp only [fin_sqrt h0, fin_sub, fin_add, fin_div hA2, fin_mul]
    have hp : ∀ u w : ℝ, (⟨fin u, fin w, fin 0⟩ : V3 Dbl) = V3.toD ⟨u, w, 0⟩ := fun _ _ => rfl
    simp only [hp, Pose.toD_apply]
    rfl
  · rw [if_neg (show ¬ fin 0 ≤ fin delta from h0), if_neg h0]
    rfl

/-! ### boundary samples -/

theorem toD_toAngleAxis (q : Quat ℝ) : q.toD.toAngleAxis = (fin q.toAngleAxis.1, q.toAngleAxis.2.toD) := by
  simp only [Quat.toAngleAxis, Quat.toD_vec, V3.toD_norm, zero_def, fin_lt, Quat.toD_w]
  by_cases h : V3.norm q.vec < 0 ∨ 0 < V3.norm q.vec
  · rw [if_pos h, if_pos h]
    have hn : V3.norm q.vec ≠ 0 := by rcases h with h | h; exacts [h.ne, h.ne']
    have habs : absS (fin q.w) = fin (absS q.w) := by
      unfold absS
      by_cases h : q.w < 0
      · rw [if_pos (show fin q.w < 0 from h), if_pos h]; rfl
      · rw [if_neg (show ¬ fin q.w < 0 from h), if_neg h]
    simp only [habs, fin_atan2, lit_def, fin_mul, fin_neg]
    by_cases hw : q.w < 0
    · rw [if_pos hw, if_pos hw, V3.toD_sdiv _ (neg_ne_zero.mpr hn)]; rfl
    · rw [if_neg hw, if_neg hw, V3.toD_sdiv _ hn]; rfl
  · rw [if_neg h, if_neg h]; rfl

theorem toD_sampleTheta (e : Ellipsoid ℝ) : e.toD.sampleTheta = fin e.sampleTheta := by
  simp only [Ellipsoid.sampleTheta, toD_base, Base.toD_orientation, toD_toAngleAxis, V3.toD_z]
  by_cases h : 0 < e.base.orientation.toAngleAxis.2.z
  · rw [if_pos (show (0 : Dbl) < fin _ from h), if_pos h]
  · rw [if_neg (show ¬ (0 : Dbl) < fin _ from h), if_neg h]
    simp

theorem toD_linspace (a b : ℝ) {n : Int} (hn : 2 ≤ n) :
    ∃ l, MathTools.linspace a b n = .ok l ∧ MathTools.linspace (fin a) (fin b) n = .ok (l.map fin) := by
  have h1 : ¬ n < 2 := by omega
  unfold MathTools.linspace
  rw [if_neg h1, if_neg h1]
  refine ⟨_, rfl, ?_⟩
  have hne : ((n - 1 : Int) : ℝ) / ((1 : Nat) : ℝ) ≠ 0 := by
    have : ((n - 1 : Int) : ℝ) ≠ 0 := by exact_mod_cast (by omega : n - 1 ≠ 0)
    simpa using this
  simp only [MathTools.ofInt, lit_def, fin_sub, fin_div hne, fin_mul, fin_add, List.map_cons, List.map_append,
    List.map_map, List.map_nil, lit_real]
  rfl

theorem toD_sampleAt (e : Ellipsoid ℝ) (l : V3 ℝ) (t a : ℝ) :
    e.toD.sampleAt l.toD (fin t) (fin a) = (e.sampleAt l t a).toD := by
  simp [Ellipsoid.sampleAt, V3.toD]

theorem toD_samples (e : Ellipsoid ℝ) {n : Nat} (hn : 2 ≤ n) (b : Bool) :
    ∃ l, e.samples n b = .ok l ∧ e.toD.samples n b = .ok (l.map V3.toD) := by
  obtain ⟨l, h1, h2⟩ := toD_linspace 0 (lit 2 1 * CMath.pi) (n := (n : Int)) (by exact_mod_cast hn)
  unfold Ellipsoid.samples
  refine ⟨_, by rw [h1]; rfl, ?_⟩
  rw [show (0 : Dbl) = fin 0 from rfl, show (lit 2 1 * CMath.pi : Dbl) = fin (lit 2 1 * CMath.pi) from rfl, h2]
  simp only [Res.ok_bind, List.map_map, toD_sampleTheta, toD_base, toD_axis, Base.toD_margin, V3.toD_add]
  congr 1
  apply List.map_congr_left
  intro x _
  cases b <;> simp only [Function.comp_apply, Bool.false_eq_true, if_false, if_true, toD_sampleAt]

/-- the half lengths in the plane are not zero -/
def Solid (e : Ellipsoid ℝ) : Prop := (e.axis + e.base.margin).x ≠ 0 ∧ (e.axis + e.base.margin).y ≠ 0

theorem toD_isIntersectingEllipsoid {e o : Ellipsoid ℝ} (he : Solid e) (ho : Solid o) :
    e.toD.isIntersectingEllipsoid o.toD = e.isIntersectingEllipsoid o := by
  unfold Ellipsoid.isIntersectingEllipsoid
  obtain ⟨l, h1, h2⟩ := toD_samples o (n := 100) (by omega) true
  simp only [toD_base, Base.toD_position, toD_pointIsInside he.1 he.2, toD_pointIsInside ho.1 ho.2, h1, h2, Res.ok_bind]
  have : (l.map V3.toD).any e.toD.pointIsInside = l.any e.pointIsInside := by
    rw [List.any_map]
    congr 1
    funext x
    exact toD_pointIsInside he.1 he.2 x
  rw [this]

end Ellipsoid

end DOA
