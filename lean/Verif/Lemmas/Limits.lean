import Mathlib.Topology.Algebra.Order.Field
import Mathlib.Analysis.SpecialFunctions.Pow.Continuity
import Mathlib.Analysis.SpecialFunctions.Trigonometric.Inverse
import Verif.Lemmas.FpWorld
import Verif.Spec.Continuity

/-!
# Continuity of `modulate_velocity`: limits of families of real data

`F` is any filter on any index type: sequences of situations, situations near a given one.  The structure follows the
convergence proofs of finite precision arithmetic (Lemmas/FpGeom.lean, Lemmas/FpModulation.lean), for real numbers.
-/

set_option linter.unusedSectionVars false
set_option linter.unusedSimpArgs false

namespace DOA
open Filter Topology

variable {ι : Type} {F : Filter ι}

namespace Lim
variable {x y : ι → ℝ} {a b : ℝ}

theorem const (c : ℝ) : Lim F (fun _ => c) c := tendsto_const_nhds
theorem zero : Lim F (fun _ => 0) 0 := tendsto_const_nhds
theorem one : Lim F (fun _ => 1) 1 := tendsto_const_nhds
theorem lit (m : Int) (n : Nat) : Lim F (fun _ => DOA.lit m n) (DOA.lit m n) := tendsto_const_nhds
theorem neg (h : Lim F x a) : Lim F (fun A => -x A) (-a) := Tendsto.neg h
theorem add (h : Lim F x a) (h' : Lim F y b) : Lim F (fun A => x A + y A) (a + b) := Tendsto.add h h'
theorem sub (h : Lim F x a) (h' : Lim F y b) : Lim F (fun A => x A - y A) (a - b) := Tendsto.sub h h'
theorem mul (h : Lim F x a) (h' : Lim F y b) : Lim F (fun A => x A * y A) (a * b) := Tendsto.mul h h'
theorem div (h : Lim F x a) (h' : Lim F y b) (hb : b ≠ 0) : Lim F (fun A => x A / y A) (a / b) := Tendsto.div h h' hb
theorem lt (h : Lim F x a) (h' : Lim F y b) (hab : a < b) : ∀ᶠ A in F, x A < y A := Tendsto.eventually_lt h h' hab
theorem le (h : Lim F x a) (h' : Lim F y b) (hab : a < b) : ∀ᶠ A in F, x A ≤ y A := (h.lt h' hab).mono fun _ h => h.le
theorem not_lt (h : Lim F x a) (h' : Lim F y b) (hab : b < a) : ∀ᶠ A in F, ¬ x A < y A :=
  (h'.lt h hab).mono fun _ h => h.not_gt
theorem not_le (h : Lim F x a) (h' : Lim F y b) (hab : b < a) : ∀ᶠ A in F, ¬ x A ≤ y A :=
  (h'.lt h hab).mono fun _ h => h.not_ge
theorem congr (h : Lim F x a) (hxy : ∀ᶠ A in F, y A = x A) : Lim F y a :=
  Tendsto.congr' (hxy.mono fun _ h => h.symm) h
theorem ite {p : ι → Prop} [∀ A, Decidable (p A)] (h : Lim F x a) (h' : Lim F y a) :
    Lim F (fun A => if p A then x A else y A) a := Tendsto.if' h h'
theorem ite_true {p : ι → Prop} [∀ A, Decidable (p A)] (h : Lim F x a) (hp : ∀ᶠ A in F, p A) :
    Lim F (fun A => if p A then x A else y A) a := h.congr (hp.mono fun _ h => if_pos h)
theorem ite_false {p : ι → Prop} [∀ A, Decidable (p A)] (h : Lim F y a) (hp : ∀ᶠ A in F, ¬ p A) :
    Lim F (fun A => if p A then x A else y A) a := h.congr (hp.mono fun _ h => if_neg h)
theorem sqrt (h : Lim F x a) : Lim F (fun A => CMath.sqrt (x A)) (Real.sqrt a) := (Real.continuous_sqrt.tendsto a).comp h
theorem exp (h : Lim F x a) : Lim F (fun A => CMath.exp (x A)) (Real.exp a) := (Real.continuous_exp.tendsto a).comp h
theorem sin (h : Lim F x a) : Lim F (fun A => CMath.sin (x A)) (Real.sin a) := (Real.continuous_sin.tendsto a).comp h
theorem cos (h : Lim F x a) : Lim F (fun A => CMath.cos (x A)) (Real.cos a) := (Real.continuous_cos.tendsto a).comp h
theorem pow (h : Lim F x a) (h' : Lim F y b) (ha : 0 < a) : Lim F (fun A => CMath.pow (x A) (y A)) (a ^ b) :=
  Tendsto.rpow h h' (.inl ha.ne')
theorem maxS (h : Lim F x a) (h' : Lim F y b) : Lim F (fun A => DOA.maxS (x A) (y A)) (DOA.maxS a b) := by
  have e : ∀ u v : ℝ, DOA.maxS u v = max u v := maxS_real
  simp only [e]
  exact Tendsto.max h h'
theorem bdd (h : Lim F x a) : ∀ᶠ A in F, |x A| ≤ |a| + 1 :=
  (h.abs.eventually_lt_const (show |a| < |a| + 1 by linarith)).mono fun _ h => h.le
theorem null_mul {K : ℝ} (hx : ∀ᶠ A in F, |x A| ≤ K) (hy : Lim F y 0) : Lim F (fun A => x A * y A) 0 :=
  bdd_le_mul_tendsto_zero' K hx hy

end Lim

structure LimV2 (F : Filter ι) (v : ι → V2 ℝ) (a : V2 ℝ) : Prop where
  x : Lim F (fun A => (v A).x) a.x
  y : Lim F (fun A => (v A).y) a.y

structure LimM (F : Filter ι) (m : ι → M3 ℝ) (a : M3 ℝ) : Prop where
  c0 : LimV F (fun A => (m A).c0) a.c0
  c1 : LimV F (fun A => (m A).c1) a.c1
  c2 : LimV F (fun A => (m A).c2) a.c2

/-! ### vectors -/

namespace LimV
variable {u v : ι → V3 ℝ} {a b : V3 ℝ} {s : ι → ℝ} {t : ℝ}

theorem add (h : LimV F u a) (h' : LimV F v b) : LimV F (fun A => u A + v A) (a + b) :=
  ⟨h.x.add h'.x, h.y.add h'.y, h.z.add h'.z⟩
theorem sub (h : LimV F u a) (h' : LimV F v b) : LimV F (fun A => u A - v A) (a - b) :=
  ⟨h.x.sub h'.x, h.y.sub h'.y, h.z.sub h'.z⟩
theorem neg (h : LimV F u a) : LimV F (fun A => -u A) (-a) := ⟨h.x.neg, h.y.neg, h.z.neg⟩
theorem smul (hs : Lim F s t) (h : LimV F u a) : LimV F (fun A => V3.smul (s A) (u A)) (V3.smul t a) :=
  ⟨hs.mul h.x, hs.mul h.y, hs.mul h.z⟩
theorem sdiv (h : LimV F u a) (hs : Lim F s t) (ht : t ≠ 0) : LimV F (fun A => V3.sdiv (u A) (s A)) (V3.sdiv a t) :=
  ⟨h.x.div hs ht, h.y.div hs ht, h.z.div hs ht⟩
theorem const (hs : Lim F s t) : LimV F (fun A => V3.const (s A)) (V3.const t) := ⟨hs, hs, hs⟩
theorem zero : LimV F (fun _ => V3.zero) V3.zero := ⟨.zero, .zero, .zero⟩
theorem unitX : LimV F (fun _ => V3.unitX) V3.unitX := ⟨.one, .zero, .zero⟩
theorem unitY : LimV F (fun _ => V3.unitY) V3.unitY := ⟨.zero, .one, .zero⟩
theorem unitZ : LimV F (fun _ => V3.unitZ) V3.unitZ := ⟨.zero, .zero, .one⟩

theorem dot (h : LimV F u a) (h' : LimV F v b) : Lim F (fun A => V3.dot (u A) (v A)) (V3.dot a b) :=
  ((h.x.mul h'.x).add (h.y.mul h'.y)).add (h.z.mul h'.z)
theorem cross (h : LimV F u a) (h' : LimV F v b) : LimV F (fun A => V3.cross (u A) (v A)) (V3.cross a b) :=
  ⟨(h.y.mul h'.z).sub (h.z.mul h'.y), (h.z.mul h'.x).sub (h.x.mul h'.z), (h.x.mul h'.y).sub (h.y.mul h'.x)⟩
theorem sqNorm (h : LimV F u a) : Lim F (fun A => V3.sqNorm (u A)) (V3.sqNorm a) := h.dot h
theorem norm (h : LimV F u a) : Lim F (fun A => V3.norm (u A)) (V3.norm a) :=
  h.sqNorm.sqrt 

/-- Either branch, if both have the same limit. -/
theorem ite {p : ι → Prop} [∀ A, Decidable (p A)] (h : LimV F u a) (h' : LimV F v a) :
    LimV F (fun A => if p A then u A else v A) a := by
  have e : ∀ A, (if p A then u A else v A) = ⟨if p A then (u A).x else (v A).x, if p A then (u A).y else (v A).y,
      if p A then (u A).z else (v A).z⟩ := by intro A; split <;> rfl
  simp only [e]
  exact ⟨h.x.ite h'.x, h.y.ite h'.y, h.z.ite h'.z⟩

theorem congr (h : LimV F u a) (hv : ∀ᶠ A in F, v A = u A) : LimV F v a :=
  ⟨h.x.congr (hv.mono fun _ h => by rw [h]), h.y.congr (hv.mono fun _ h => by rw [h]),
    h.z.congr (hv.mono fun _ h => by rw [h])⟩

theorem ite_true {p : ι → Prop} [∀ A, Decidable (p A)] (h : LimV F u a) (hp : ∀ᶠ A in F, p A) :
    LimV F (fun A => if p A then u A else v A) a := h.congr (hp.mono fun _ h => if_pos h)
theorem ite_false {p : ι → Prop} [∀ A, Decidable (p A)] (h : LimV F v a) (hp : ∀ᶠ A in F, ¬ p A) :
    LimV F (fun A => if p A then u A else v A) a := h.congr (hp.mono fun _ h => if_neg h)

/-- normalisation of a vector that is not zero -/
theorem normalized (h : LimV F u a) (ha : 0 < V3.sqNorm a) : LimV F (fun A => V3.normalized (u A)) (V3.normalized a) := by
  unfold V3.normalized
  rw [if_pos ha]
  refine ite_true ?_ (Lim.zero.lt h.sqNorm ha)
  exact h.sdiv (h.sqNorm.sqrt ) (Real.sqrt_pos.mpr ha).ne'

end LimV

namespace LimV2
variable {u v : ι → V2 ℝ} {a b : V2 ℝ} {s : ι → ℝ} {t : ℝ}

theorem zero : LimV2 F (fun _ => V2.zero) V2.zero := ⟨.zero, .zero⟩
theorem add (h : LimV2 F u a) (h' : LimV2 F v b) : LimV2 F (fun A => (u A).add (v A)) (a.add b) :=
  ⟨h.x.add h'.x, h.y.add h'.y⟩
theorem scale (h : LimV2 F u a) (hs : Lim F s t) : LimV2 F (fun A => (u A).scale (s A)) (a.scale t) :=
  ⟨h.x.mul hs, h.y.mul hs⟩
theorem sqNorm (h : LimV2 F u a) : Lim F (fun A => (u A).sqNorm) a.sqNorm := (h.x.mul h.x).add (h.y.mul h.y)
theorem norm (h : LimV2 F u a) : Lim F (fun A => (u A).norm) a.norm :=
  h.sqNorm.sqrt 

theorem congr (h : LimV2 F u a) (hv : ∀ᶠ A in F, v A = u A) : LimV2 F v a :=
  ⟨h.x.congr (hv.mono fun _ h => by rw [h]), h.y.congr (hv.mono fun _ h => by rw [h])⟩

theorem normalized (h : LimV2 F u a) (ha : 0 < a.sqNorm) : LimV2 F (fun A => (u A).normalized) a.normalized := by
  have hs := h.sqNorm.sqrt 
  have hne : Real.sqrt a.sqNorm ≠ 0 := (Real.sqrt_pos.mpr ha).ne'
  have h1 : LimV2 F (fun A => ⟨(u A).x / CMath.sqrt (u A).sqNorm, (u A).y / CMath.sqrt (u A).sqNorm⟩)
      ⟨a.x / Real.sqrt a.sqNorm, a.y / Real.sqrt a.sqNorm⟩ := ⟨h.x.div hs hne, h.y.div hs hne⟩
  unfold V2.normalized
  rw [if_pos ha]
  exact h1.congr ((Lim.zero.lt h.sqNorm ha).mono fun _ h => if_pos h)

end LimV2

theorem V2.normalized_le (v : V2 ℝ) : |v.normalized.x| ≤ 1 ∧ |v.normalized.y| ≤ 1 := by
  unfold V2.normalized
  by_cases h : 0 < v.sqNorm
  · rw [if_pos h]
    have hs : 0 < Real.sqrt v.sqNorm := Real.sqrt_pos.mpr h
    have hq : Real.sqrt v.sqNorm ^ 2 = v.x * v.x + v.y * v.y := Real.sq_sqrt h.le
    have key : ∀ t : ℝ, t ^ 2 ≤ Real.sqrt v.sqNorm ^ 2 → |t / Real.sqrt v.sqNorm| ≤ 1 := by
      intro t ht
      rw [abs_div, abs_of_pos hs, div_le_one hs]
      exact abs_le_of_sq_le_sq ht hs.le
    exact ⟨key _ (by rw [hq]; nlinarith [mul_self_nonneg v.y]), key _ (by rw [hq]; nlinarith [mul_self_nonneg v.x])⟩
  · rw [if_neg h]
    simp only [V2.sqNorm] at h
    have hx : v.x = 0 := by nlinarith [mul_self_nonneg v.x, mul_self_nonneg v.y]
    have hy : v.y = 0 := by nlinarith [mul_self_nonneg v.x, mul_self_nonneg v.y]
    rw [hx, hy]; norm_num

/-! ### matrices -/

namespace LimM
variable {m n : ι → M3 ℝ} {a b : M3 ℝ} {v : ι → V3 ℝ} {w : V3 ℝ}

theorem mulVec (h : LimM F m a) (hv : LimV F v w) : LimV F (fun A => (m A).mulVec (v A)) (a.mulVec w) :=
  ⟨((h.c0.x.mul hv.x).add (h.c1.x.mul hv.y)).add (h.c2.x.mul hv.z),
   ((h.c0.y.mul hv.x).add (h.c1.y.mul hv.y)).add (h.c2.y.mul hv.z),
   ((h.c0.z.mul hv.x).add (h.c1.z.mul hv.y)).add (h.c2.z.mul hv.z)⟩
theorem mul (h : LimM F m a) (h' : LimM F n b) : LimM F (fun A => (m A).mul (n A)) (a.mul b) :=
  ⟨h.mulVec h'.c0, h.mulVec h'.c1, h.mulVec h'.c2⟩
theorem transpose (h : LimM F m a) : LimM F (fun A => (m A).transpose) a.transpose :=
  ⟨⟨h.c0.x, h.c1.x, h.c2.x⟩, ⟨h.c0.y, h.c1.y, h.c2.y⟩, ⟨h.c0.z, h.c1.z, h.c2.z⟩⟩
theorem mulDiag (h : LimM F m a) (hv : LimV F v w) : LimM F (fun A => (m A).mulDiag (v A)) (a.mulDiag w) :=
  ⟨⟨h.c0.x.mul hv.x, h.c0.y.mul hv.x, h.c0.z.mul hv.x⟩, ⟨h.c1.x.mul hv.y, h.c1.y.mul hv.y, h.c1.z.mul hv.y⟩,
    ⟨h.c2.x.mul hv.z, h.c2.y.mul hv.z, h.c2.z.mul hv.z⟩⟩
theorem minor {x1 x2 x3 x4 : ι → ℝ} {a1 a2 a3 a4 : ℝ} (h1 : Lim F x1 a1) (h2 : Lim F x2 a2) (h3 : Lim F x3 a3)
    (h4 : Lim F x4 a4) : Lim F (fun A => x1 A * x2 A - x3 A * x4 A) (a1 * a2 - a3 * a4) := (h1.mul h2).sub (h3.mul h4)
theorem det (h : LimM F m a) : Lim F (fun A => (m A).det) a.det :=
  (((minor h.c1.y h.c2.z h.c2.y h.c1.z).mul h.c0.x).add ((minor h.c2.x h.c1.z h.c1.x h.c2.z).mul h.c0.y)).add
    ((minor h.c1.x h.c2.y h.c2.x h.c1.y).mul h.c0.z)
theorem inverse (h : LimM F m a) (hd : a.det ≠ 0) : LimM F (fun A => (m A).inverse) a.inverse := by
  have hi : Lim F (fun A => 1 / (m A).det) (1 / a.det) := Lim.one.div h.det hd
  exact ⟨⟨(minor h.c1.y h.c2.z h.c2.y h.c1.z).mul hi, (minor h.c2.y h.c0.z h.c0.y h.c2.z).mul hi,
      (minor h.c0.y h.c1.z h.c1.y h.c0.z).mul hi⟩,
    ⟨(minor h.c2.x h.c1.z h.c1.x h.c2.z).mul hi, (minor h.c0.x h.c2.z h.c2.x h.c0.z).mul hi,
      (minor h.c1.x h.c0.z h.c0.x h.c1.z).mul hi⟩,
    ⟨(minor h.c1.x h.c2.y h.c2.x h.c1.y).mul hi, (minor h.c2.x h.c0.y h.c0.x h.c2.y).mul hi,
      (minor h.c0.x h.c1.y h.c1.x h.c0.y).mul hi⟩⟩

end LimM

/-! ### quaternions, poses -/

namespace LimQ
variable {q : ι → Quat ℝ} {a : Quat ℝ} {v : ι → V3 ℝ} {w : V3 ℝ}

theorem vec (h : LimQ F q a) : LimV F (fun A => (q A).vec) a.vec := ⟨h.x, h.y, h.z⟩
theorem conjugate (h : LimQ F q a) : LimQ F (fun A => (q A).conjugate) a.conjugate := ⟨h.w, h.x.neg, h.y.neg, h.z.neg⟩
theorem rotate (h : LimQ F q a) (hv : LimV F v w) : LimV F (fun A => (q A).rotate (v A)) (a.rotate w) := by
  have h1 := h.vec.cross hv
  have h2 := h1.add h1
  exact (hv.add (.smul h.w h2)).add (h.vec.cross h2)
theorem sqNorm (h : LimQ F q a) : Lim F (fun A => (q A).sqNorm) a.sqNorm :=
  (((h.x.mul h.x).add (h.y.mul h.y)).add (h.z.mul h.z)).add (h.w.mul h.w)
theorem toM3 (h : LimQ F q a) : LimM F (fun A => (q A).toM3) a.toM3 := by
  have tx := (Lim.lit 2 1).mul h.x
  have ty := (Lim.lit 2 1).mul h.y
  have tz := (Lim.lit 2 1).mul h.z
  exact ⟨⟨Lim.one.sub ((ty.mul h.y).add (tz.mul h.z)), (ty.mul h.x).add (tz.mul h.w), (tz.mul h.x).sub (ty.mul h.w)⟩,
    ⟨(ty.mul h.x).sub (tz.mul h.w), Lim.one.sub ((tx.mul h.x).add (tz.mul h.z)), (tz.mul h.y).add (tx.mul h.w)⟩,
    ⟨(tz.mul h.x).add (ty.mul h.w), (tz.mul h.y).sub (tx.mul h.w), Lim.one.sub ((tx.mul h.x).add (ty.mul h.y))⟩⟩
theorem inverse (h : LimQ F q a) (ha : 0 < a.sqNorm) : LimQ F (fun A => (q A).inverse) a.inverse := by
  have hs := h.sqNorm
  have h1 : LimQ F (fun A => ⟨(q A).w / (q A).sqNorm, -(q A).x / (q A).sqNorm, -(q A).y / (q A).sqNorm,
      -(q A).z / (q A).sqNorm⟩) ⟨a.w / a.sqNorm, -a.x / a.sqNorm, -a.y / a.sqNorm, -a.z / a.sqNorm⟩ :=
    ⟨h.w.div hs ha.ne', h.x.neg.div hs ha.ne', h.y.neg.div hs ha.ne', h.z.neg.div hs ha.ne'⟩
  have hp := Lim.zero.lt hs ha
  unfold Quat.inverse
  rw [if_pos ha]
  exact ⟨h1.w.congr (hp.mono fun _ h => by rw [if_pos h]), h1.x.congr (hp.mono fun _ h => by rw [if_pos h]),
    h1.y.congr (hp.mono fun _ h => by rw [if_pos h]), h1.z.congr (hp.mono fun _ h => by rw [if_pos h])⟩

end LimQ

namespace LimP
variable {p : ι → Pose ℝ} {a : Pose ℝ} {v : ι → V3 ℝ} {w : V3 ℝ}

theorem inverse (h : LimP F p a) : LimP F (fun A => (p A).inverse) a.inverse :=
  ⟨h.orientation.conjugate.rotate h.position.neg, h.orientation.conjugate⟩
theorem apply (h : LimP F p a) (hv : LimV F v w) : LimV F (fun A => (p A).apply (v A)) (a.apply w) :=
  (h.orientation.rotate hv).add h.position

end LimP
/-! ### ellipsoids -/

theorem Lim.pow_even {x c : ι → ℝ} {t c0 : ℝ} {k : ℕ} (h : Lim F x t) (hc : ∀ᶠ A in F, c A = k) (hc0 : c0 = k) :
    Lim F (fun A => CMath.pow (x A) (DOA.lit 2 1 * c A)) (CMath.pow t (DOA.lit 2 1 * c0)) := by
  rw [DOA.pow_even hc0]
  exact Lim.congr (Tendsto.pow h (2 * k)) (hc.mono fun _ h => DOA.pow_even h)

theorem Lim.pow_odd {x c : ι → ℝ} {t c0 : ℝ} {k : ℕ} (h : Lim F x t) (hc : ∀ᶠ A in F, c A = k) (hc0 : c0 = k)
    (h1 : 1 ≤ k) : Lim F (fun A => CMath.pow (x A) (DOA.lit 2 1 * c A - 1)) (CMath.pow t (DOA.lit 2 1 * c0 - 1)) := by
  rw [DOA.pow_odd hc0 h1]
  exact Lim.congr (Tendsto.pow h (2 * k - 1)) (hc.mono fun _ h => DOA.pow_odd h h1)

theorem Lim.scaled {v l : ι → ℝ} {v0 l0 : ℝ} (hv : Lim F v v0) (hl : Lim F l l0) (h : l0 ≠ 1 / 10000) :
    Lim F (fun A => Ellipsoid.scaled (v A) (l A)) (Ellipsoid.scaled v0 l0) := by
  have he : Lim F (fun _ => Ellipsoid.epsilon) (Ellipsoid.epsilon : ℝ) := Lim.lit 1 10000
  have h1 : (Ellipsoid.epsilon : ℝ) = 1 / 10000 := by simp [Ellipsoid.epsilon]
  unfold Ellipsoid.scaled
  rcases lt_or_gt_of_ne h with h2 | h2
  · rw [if_neg (by rw [h1]; exact h2.not_gt)]
    exact ite_false hv (he.not_lt hl (by rw [h1]; exact h2))
  · rw [if_pos (by rw [h1]; exact h2)]
    exact ite_true (hv.div hl (by have : (0 : ℝ) < 1 / 10000 := by norm_num
                                  linarith)) (he.lt hl (by rw [h1]; exact h2))

theorem Lim.scaledSq {v l : ι → ℝ} {v0 l0 : ℝ} (hv : Lim F v v0) (hl : Lim F l l0) (h : l0 ≠ 1 / 10000) :
    Lim F (fun A => Ellipsoid.scaledSq (v A) (l A)) (Ellipsoid.scaledSq v0 l0) := by
  have he : Lim F (fun _ => Ellipsoid.epsilon) (Ellipsoid.epsilon : ℝ) := Lim.lit 1 10000
  have h1 : (Ellipsoid.epsilon : ℝ) = 1 / 10000 := by simp [Ellipsoid.epsilon]
  unfold Ellipsoid.scaledSq
  rcases lt_or_gt_of_ne h with h2 | h2
  · rw [if_neg (by rw [h1]; exact h2.not_gt)]
    exact ite_false hv (he.not_lt hl (by rw [h1]; exact h2))
  · rw [if_pos (by rw [h1]; exact h2)]
    have : l0 ≠ 0 := by have : (0 : ℝ) < 1 / 10000 := by norm_num
                        linarith
    exact ite_true (hv.div (hl.mul hl) (mul_ne_zero this this)) (he.lt hl (by rw [h1]; exact h2))

namespace LimE
variable {e : ι → Ellipsoid ℝ} {e0 : Ellipsoid ℝ} {k1 k2 k3 : ℕ} {x : ι → V3 ℝ} {x0 : V3 ℝ} {m : ι → ℝ} {m0 : ℝ}

theorem curv_x (h : LimE F e e0 k1 k2 k3) : (∀ᶠ A in F, (e A).curv.x = k1) ∧ e0.curv.x = k1 :=
  ⟨h.curv.mono fun _ h => by rw [h], by rw [h.curv0]⟩
theorem curv_y (h : LimE F e e0 k1 k2 k3) : (∀ᶠ A in F, (e A).curv.y = k2) ∧ e0.curv.y = k2 :=
  ⟨h.curv.mono fun _ h => by rw [h], by rw [h.curv0]⟩
theorem curv_z (h : LimE F e e0 k1 k2 k3) : (∀ᶠ A in F, (e A).curv.z = k3) ∧ e0.curv.z = k3 :=
  ⟨h.curv.mono fun _ h => by rw [h], by rw [h.curv0]⟩

theorem exact {c : ι → ℝ} {k : ℕ} (hc : ∀ᶠ A in F, c A = k) : Lim F c k := (Lim.const _).congr hc

theorem distance (h : LimE F e e0 k1 k2 k3) (hx : LimV F x x0) {m : ι → V3 ℝ} {m0 : V3 ℝ} (hm : LimV F m m0)
    (hl : OffThreshold (e0.axis + e0.base.margin + m0)) :
    Lim F (fun A => (e A).distanceToPoint (x A) (m A)) (e0.distanceToPoint x0 m0) := by
  have hp := h.base.pose.inverse.apply hx
  have hlen := (h.axis.add h.base.margin).add hm
  have h1 := Lim.pow_even (hp.x.scaled hlen.x hl.1) h.curv_x.1 h.curv_x.2
  have h2 := Lim.pow_even (hp.y.scaled hlen.y hl.2.1) h.curv_y.1 h.curv_y.2
  have h3 := Lim.pow_even (hp.z.scaled hlen.z hl.2.2) h.curv_z.1 h.curv_z.2
  exact (h1.add h2).add h3

theorem normal (h : LimE F e e0 k1 k2 k3) (hx : LimV F x x0) (hm : Lim F m m0)
    (hl : OffThreshold (e0.axis + e0.base.margin + V3.const m0)) (hn : e0.normalToAgent x0 m0 ≠ V3.zero) :
    LimV F (fun A => (e A).normalToAgent (x A) (m A)) (e0.normalToAgent x0 m0) := by
  have hp := h.base.pose.inverse.apply hx
  have hlen := (h.axis.add h.base.margin).add (LimV.const hm)
  have cx : Lim F (fun A => (e A).curv.x) e0.curv.x := by rw [h.curv_x.2]; exact exact h.curv_x.1
  have cy : Lim F (fun A => (e A).curv.y) e0.curv.y := by rw [h.curv_y.2]; exact exact h.curv_y.1
  have cz : Lim F (fun A => (e A).curv.z) e0.curv.z := by rw [h.curv_z.2]; exact exact h.curv_z.1
  have t1 := (((Lim.lit 2 1).mul cx).mul hp.x).scaledSq hlen.x hl.1
  have t2 := (((Lim.lit 2 1).mul cy).mul hp.y).scaledSq hlen.y hl.2.1
  have t3 := (((Lim.lit 2 1).mul cz).mul hp.z).scaledSq hlen.z hl.2.2
  have n1 := t1.pow_odd h.curv_x.1 h.curv_x.2 h.pos.1
  have n2 := t2.pow_odd h.curv_y.1 h.curv_y.2 h.pos.2.1
  have n3 := t3.pow_odd h.curv_z.1 h.curv_z.2 h.pos.2.2
  have hv : LimV F (fun A => ⟨_, _, _⟩) ⟨_, _, _⟩ := ⟨n1, n2, n3⟩
  refine hv.normalized ?_
  rcases (V3.sqNorm_nonneg' (⟨_, _, _⟩ : V3 ℝ)).lt_or_eq with h0 | h0
  · exact h0
  · exfalso
    apply hn
    unfold Ellipsoid.normalToAgent V3.normalized
    simp only []
    rw [if_neg (by rw [← h0]; exact lt_irrefl _)]
    simp only [V3.sqNorm, V3.dot] at h0
    ext <;> simp only [V3.zero] <;> nlinarith [mul_self_nonneg (CMath.pow (Ellipsoid.scaledSq (lit 2 1 * e0.curv.x *
      (e0.base.pose.inverse.apply x0).x) (e0.axis + e0.base.margin + V3.const m0).x) (lit 2 1 * e0.curv.x - 1)),
      mul_self_nonneg (CMath.pow (Ellipsoid.scaledSq (lit 2 1 * e0.curv.y *
      (e0.base.pose.inverse.apply x0).y) (e0.axis + e0.base.margin + V3.const m0).y) (lit 2 1 * e0.curv.y - 1)),
      mul_self_nonneg (CMath.pow (Ellipsoid.scaledSq (lit 2 1 * e0.curv.z *
      (e0.base.pose.inverse.apply x0).z) (e0.axis + e0.base.margin + V3.const m0).z) (lit 2 1 * e0.curv.z - 1))]

end LimE

/-! ### one obstacle -/

namespace Modulation

theorem lim_eigenvalues {d : ι → ℝ} {d0 : ℝ} (h : Lim F d d0) :
    LimV F (fun A => diagonalEigenvalues (d A) 1) (diagonalEigenvalues d0 1) := by
  have key : Lim F (fun A => if d A ≤ 1 then 1 else 1 / CMath.pow (d A) (1 / 1)) (if d0 ≤ 1 then 1 else 1 / CMath.pow d0 (1 / 1)) := by
    have hb : 0 < d0 → Lim F (fun A => 1 / CMath.pow (d A) (1 / 1)) (1 / CMath.pow d0 (1 / 1)) := fun h0 =>
      Lim.one.div (h.pow (Lim.one.div Lim.one one_ne_zero) h0) (Real.rpow_pos_of_pos h0 _).ne'
    rcases lt_trichotomy d0 1 with h1 | h1 | h1
    · rw [if_pos h1.le]; exact Lim.ite_true Lim.one (h.le Lim.one h1)
    · rw [if_pos h1.le]
      refine Lim.ite Lim.one ?_
      have := hb (by linarith)
      rw [h1] at this
      simpa using this
    · rw [if_neg h1.not_ge]; exact Lim.ite_false (hb (by linarith)) (h.not_le Lim.one h1)
  exact ⟨Lim.one.sub key, Lim.one.add key, Lim.one.add key⟩

theorem lim_tangent {n : ι → V3 ℝ} {n0 : V3 ℝ} (h : LimV F n n0) (ht : (V3.cross n0 V3.unitZ).norm ≠ 1 / 10000) :
    LimV F (fun A => tangentVector (n A)) (tangentVector n0) := by
  have hz := h.cross LimV.unitZ
  have hy := h.cross LimV.unitY
  have he := Lim.lit (F := F) 1 10000
  have h1 : (lit 1 10000 : ℝ) = 1 / 10000 := by simp
  unfold tangentVector
  simp only []
  rcases lt_or_gt_of_ne ht with h2 | h2
  · rw [if_pos (by rw [h1]; exact h2)]
    exact LimV.ite_true hy (hz.norm.lt he (by rw [h1]; exact h2))
  · rw [if_neg (by rw [h1]; exact h2.not_gt)]
    exact LimV.ite_false hz (hz.norm.not_lt he (by rw [h1]; exact h2))

theorem lim_orthogonalBasis {n : ι → V3 ℝ} {n0 : V3 ℝ} (h : LimV F n n0)
    (ht : (V3.cross n0 V3.unitZ).norm ≠ 1 / 10000) : LimM F (fun A => orthogonalBasis (n A)) (orthogonalBasis n0) :=
  ⟨h, lim_tangent h ht, (lim_tangent h ht).cross h⟩

theorem lim_referenceBasis {n r : ι → V3 ℝ} {n0 r0 : V3 ℝ} (h : LimV F n n0) (hr : LimV F r r0)
    (ht : (V3.cross n0 V3.unitZ).norm ≠ 1 / 10000) : LimM F (fun A => referenceBasis (n A) (r A)) (referenceBasis n0 r0) :=
  ⟨hr, lim_tangent h ht, (lim_tangent h ht).cross hr⟩

theorem lim_referenceDirection {p : ι → Pose ℝ} {p0 : Pose ℝ} {x r : ι → V3 ℝ} {x0 r0 : V3 ℝ} (h : LimP F p p0)
    (hx : LimV F x x0) (hr : LimV F r r0) (hne : referenceDirection p0 x0 r0 ≠ V3.zero) :
    LimV F (fun A => referenceDirection (p A) (x A) (r A)) (referenceDirection p0 x0 r0) :=
  ((h.inverse.apply hx).sub (h.inverse.apply hr)).normalized (sqNorm_pos_of_normalized hne)

theorem lim_product {q : ι → Quat ℝ} {q0 : Quat ℝ} {b : ι → M3 ℝ} {b0 : M3 ℝ} {d : ι → V3 ℝ} {d0 : V3 ℝ}
    (hq : LimQ F q q0) (hb : LimM F b b0) (hd : LimV F d d0) (hdet : b0.det ≠ 0) (hq0 : 0 < q0.sqNorm) :
    LimM F (fun A => modulationProduct (q A) (b A) (d A)) (modulationProduct q0 b0 d0) :=
  (((hq.toM3.mul hb).mulDiag hd).mul (hb.inverse hdet)).mul (hq.inverse hq0).toM3

theorem lim_obstacleVelocity {x : ι → V3 ℝ} {x0 : V3 ℝ} {o : ι → Base ℝ} {o0 : Base ℝ} {d w : ι → ℝ} {d0 w0 : ℝ}
    {b : ι → M3 ℝ} {b0 : M3 ℝ} (hx : LimV F x x0) (ho : LimB F o o0) (hd : Lim F d d0) (hw : Lim F w w0) (hb : LimM F b b0) :
    LimV F (fun A => obstacleVelocity (x A) (o A) (d A) (w A) (b A)) (obstacleVelocity x0 o0 d0 w0 b0) := by
  have hang := ho.ang.cross (hx.sub ho.pose.position)
  have he := (((Lim.one.maxS hd).sub Lim.one).neg).exp
  have hv := hb.mulVec (hb.transpose.mulVec (LimV.smul he (ho.lin.add hang)))
  exact ⟨hv.x.mul hw, hv.y.mul hw, hv.z.mul hw⟩

theorem lim_dsFrame {v : ι → V3 ℝ} {v0 : V3 ℝ} (h : LimV F v v0) : LimM F (fun A => dsFrame (v A)) (dsFrame v0) := by
  unfold dsFrame
  simp only [ite_self]
  exact ⟨h, h.cross LimV.unitZ, (h.cross LimV.unitZ).cross h⟩

theorem lim_safeAcos {x : ι → ℝ} {a : ℝ} (h : Lim F x a) : Lim F (fun A => safeAcos (x A)) (safeAcos a) := by
  simp only [safeAcos_real]
  exact (Real.continuous_arccos.tendsto a).comp h

theorem lim_angleTerm {f m : ι → M3 ℝ} {f0 m0 : M3 ℝ} {nrv rv : ι → V3 ℝ} {nrv0 rv0 : V3 ℝ} {w : ι → ℝ} {w0 : ℝ}
    (hf : LimM F f f0) (hn : LimV F nrv nrv0) (hr : LimV F rv rv0) (hm : LimM F m m0) (hw : Lim F w w0)
    (hd : Definite f0 nrv0 rv0 m0) :
    Lim F (fun A => (angleTerm (f A) (nrv A) (rv A) (m A) (w A)).1) (angleTerm f0 nrv0 rv0 m0 w0).1 ∧
    LimV2 F (fun A => (angleTerm (f A) (nrv A) (rv A) (m A) (w A)).2) (angleTerm f0 nrv0 rv0 m0 w0).2 := by
  have hmv := hm.mulVec hr
  have hnm := hmv.normalized (sqNorm_pos hd.1)
  have ht := hf.mulVec hnm
  have hcos := hnm.dot hn
  have hac := lim_safeAcos hcos
  have ha : LimV2 F (fun A => ⟨((f A).mulVec ((m A).mulVec (rv A)).normalized).y,
      ((f A).mulVec ((m A).mulVec (rv A)).normalized).z⟩) ⟨(f0.mulVec (m0.mulVec rv0).normalized).y,
      (f0.mulVec (m0.mulVec rv0).normalized).z⟩ := ⟨ht.y, ht.z⟩
  refine ⟨hmv.norm.mul hw, ?_⟩
  by_cases h0 : 0 < V2.sqNorm (⟨(f0.mulVec (m0.mulVec rv0).normalized).y, (f0.mulVec (m0.mulVec rv0).normalized).z⟩ : V2 ℝ)
  · exact ((ha.normalized h0).scale hac).scale hw
  · have hy : (f0.mulVec (m0.mulVec rv0).normalized).y = 0 := by
      simp only [V2.sqNorm] at h0; nlinarith [mul_self_nonneg (f0.mulVec (m0.mulVec rv0).normalized).y,
        mul_self_nonneg (f0.mulVec (m0.mulVec rv0).normalized).z]
    have hz : (f0.mulVec (m0.mulVec rv0).normalized).z = 0 := by
      simp only [V2.sqNorm] at h0; nlinarith [mul_self_nonneg (f0.mulVec (m0.mulVec rv0).normalized).y,
        mul_self_nonneg (f0.mulVec (m0.mulVec rv0).normalized).z]
    have hone : 1 ≤ V3.dot (m0.mulVec rv0).normalized nrv0 := by
      rcases hd.2 with h | h | h
      · exact absurd hy h
      · exact absurd hz h
      · exact h
    have hac0 : safeAcos (V3.dot (m0.mulVec rv0).normalized nrv0) = 0 := by
      rw [safeAcos_real, Real.arccos_of_one_le hone]
    rw [hac0] at hac
    have _hz2 : LimV2 F (fun A => ⟨((f A).mulVec ((m A).mulVec (rv A)).normalized).y,
        ((f A).mulVec ((m A).mulVec (rv A)).normalized).z⟩) V2.zero := by
      rw [hy, hz] at ha; exact ha
    have b1 : ∀ᶠ A in F, |(⟨((f A).mulVec ((m A).mulVec (rv A)).normalized).y,
        ((f A).mulVec ((m A).mulVec (rv A)).normalized).z⟩ : V2 ℝ).normalized.x| ≤ 1 :=
      Eventually.of_forall fun A => (V2.normalized_le _).1
    have b2 : ∀ᶠ A in F, |(⟨((f A).mulVec ((m A).mulVec (rv A)).normalized).y,
        ((f A).mulVec ((m A).mulVec (rv A)).normalized).z⟩ : V2 ℝ).normalized.y| ≤ 1 :=
      Eventually.of_forall fun A => (V2.normalized_le _).2
    have h3 : LimV2 F (fun A => ((⟨((f A).mulVec ((m A).mulVec (rv A)).normalized).y,
        ((f A).mulVec ((m A).mulVec (rv A)).normalized).z⟩ : V2 ℝ).normalized.scale
          (safeAcos (V3.dot ((m A).mulVec (rv A)).normalized (nrv A))))) V2.zero := ⟨Lim.null_mul b1 hac, Lim.null_mul b2 hac⟩
    have h4 := h3.scale hw
    have h5 : (angleTerm f0 nrv0 rv0 m0 w0).2 = V2.zero.scale w0 := by
      unfold angleTerm
      simp only [hac0]
      ext <;> simp [V2.scale, V2.zero]
    rw [h5]
    exact h4

theorem lim_reconstruct {s : ι → V2 ℝ} {s0 : V2 ℝ} (h : LimV2 F s s0) (hs : s0.norm ≠ 1 / 10000) :
    LimV F (fun A => reconstruct (s A)) (reconstruct s0) := by
  have hn := h.norm
  have he := Lim.lit (F := F) 1 10000
  have h1 : (lit 1 10000 : ℝ) = 1 / 10000 := by simp
  unfold reconstruct
  simp only []
  rcases lt_or_gt_of_ne hs with h2 | h2
  · rw [if_pos (by rw [h1]; exact h2)]
    exact LimV.ite_true ⟨Lim.one, h.x, h.y⟩ (hn.lt he (by rw [h1]; exact h2))
  · rw [if_neg (by rw [h1]; exact h2.not_gt)]
    have hne : s0.norm ≠ 0 := by have : (0 : ℝ) < 1 / 10000 := by norm_num
                                 linarith
    have hq := hn.sin.div hn hne
    exact LimV.ite_false ⟨hn.cos, hq.mul h.x, hq.mul h.y⟩ (hn.not_lt he (by rw [h1]; exact h2))

end Modulation

/-! ### lists -/

/-- A family of folds. -/
theorem lim_foldl {X Y X0 Y0 : Type} (R : (ι → X) → X0 → Prop) (S : (ι → Y) → Y0 → Prop)
    (f : ι → Y → X → Y) (f0 : Y0 → X0 → Y0)
    (hf : ∀ acc acc0 x x0, S acc acc0 → R x x0 → S (fun A => f A (acc A) (x A)) (f0 acc0 x0))
    (l : List (ι → X)) (l0 : List X0) (hl : List.Forall₂ R l l0) :
    ∀ acc acc0, S acc acc0 → S (fun A => (l.map (fun x => x A)).foldl (f A) (acc A)) (l0.foldl f0 acc0) := by
  induction hl with
  | nil => intro acc acc0 h; exact h
  | cons hx _ ih =>
    intro acc acc0 h
    exact ih _ _ (hf _ _ _ _ h hx)

namespace Modulation

structure LimI (F : Filter ι) (i : ι → Item ℝ) (i0 : Item ℝ) : Prop where
  base : LimB F (fun A => (i A).base) i0.base
  matrix : LimM F (fun A => (i A).matrix) i0.matrix
  basis : LimM F (fun A => (i A).basis) i0.basis
  dist : Lim F (fun A => (i A).dist) i0.dist

theorem lim_sum {l : List (ι → ℝ)} {l0 : List ℝ} (h : List.Forall₂ (Lim F) l l0) :
    Lim F (fun A => Modulation.sum (l.map (fun x => x A))) (Modulation.sum l0) :=
  lim_foldl (Lim F) (Lim F) (fun _ a b => a + b) (fun a b => a + b)
    (fun _ _ _ _ h1 h2 => h1.add h2) l l0 h _ _ Lim.zero

theorem lim_critical {l : List (ι → ℝ)} {l0 : List ℝ} {c : ι → ℝ} {c0 : ℝ} (h : List.Forall₂ (Lim F) l l0) (hc : Lim F c c0)
    (hne : ∀ d ∈ l0, d ≠ c0) :
    ∀ᶠ A in F, ((l.map (fun x => x A)).map (fun d => if d ≤ c A then (1 : Int) else 0))
      = l0.map (fun d => if d ≤ c0 then (1 : Int) else 0) := by
  induction h with
  | nil => exact Eventually.of_forall fun _ => rfl
  | @cons x x0 l l0 hx _ ih =>
    have h1 : ∀ᶠ A in F, (if x A ≤ c A then (1 : Int) else 0) = if x0 ≤ c0 then (1 : Int) else 0 := by
      rcases lt_or_gt_of_ne (hne x0 (by simp)) with h2 | h2
      · rw [if_pos h2.le]; exact (hx.le hc h2).mono fun _ h => if_pos h
      · rw [if_neg h2.not_ge]; exact (hx.not_le hc h2).mono fun _ h => if_neg h
    filter_upwards [h1, ih fun d hd => hne d (by simp [hd])] with A k1 k2
    simp only [List.map_cons, k1, k2]

theorem lim_weights {l : List (ι → ℝ)} {l0 : List ℝ} {c p : ι → ℝ} {c0 p0 : ℝ} (h : List.Forall₂ (Lim F) l l0) (hc : Lim F c c0)
    (hp : Lim F p p0) (hne : ∀ d ∈ l0, d ≠ c0) :
    ∃ ws : List (ι → ℝ), (∀ᶠ A in F, weightObstacles (l.map (fun x => x A)) (c A) (p A) = ws.map (fun x => x A)) ∧
      List.Forall₂ (Lim F) ws (weightObstacles l0 c0 p0) := by
  have hev := lim_critical h hc hne
  unfold weightObstacles
  simp only []
  generalize hs : (l0.map (fun d => if d ≤ c0 then (1 : Int) else 0)) = crit at hev
  by_cases h0 : 0 < crit.foldl (· + ·) 0
  · refine ⟨crit.map (fun i A => MathTools.ofInt i / MathTools.ofInt (crit.foldl (· + ·) 0)), ?_, ?_⟩
    · filter_upwards [hev] with A h1
      rw [h1, if_pos h0, List.map_map]; rfl
    · rw [if_pos h0]
      have hne : (lit (crit.foldl (· + ·) 0) 1 : ℝ) ≠ 0 := by
        have : ((crit.foldl (· + ·) 0 : ℤ) : ℝ) ≠ 0 := by exact_mod_cast h0.ne'
        simpa using this
      rw [List.forall₂_map_left_iff, List.forall₂_map_right_iff]
      exact List.forall₂_same.mpr fun i _ => (Lim.lit i 1).div (Lim.lit _ 1) hne
  · have hpos : ∀ d ∈ l0, c0 < d := by
      intro d hd
      by_contra hcd
      apply h0
      have key : ∀ (l : List ℝ) (a : Int), a ≤ (l.map (fun d => if d ≤ c0 then (1 : Int) else 0)).foldl (· + ·) a := by
        intro l
        induction l with
        | nil => intro a; exact le_refl _
        | cons b l ih =>
          intro a
          simp only [List.map_cons, List.foldl_cons]
          refine le_trans ?_ (ih _)
          split <;> omega
      obtain ⟨l1, l2, rfl⟩ := List.append_of_mem hd
      rw [← hs, List.map_append, List.foldl_append, List.map_cons, List.foldl_cons, if_pos (_root_.not_lt.mp hcd)]
      have h1 := key l1 0
      have h2 := key l2 ((l1.map (fun d => if d ≤ c0 then (1 : Int) else 0)).foldl (· + ·) 0 + 1)
      omega
    have hpw : List.Forall₂ (Lim F) (l.map (fun d A => CMath.pow (d A - c A) (-p A)))
        (l0.map (fun d => CMath.pow (d - c0) (-p0))) := by
      rw [List.forall₂_map_left_iff, List.forall₂_map_right_iff]
      exact (forall₂_right h hpos).imp fun x x0 hx => (hx.1.sub hc).pow hp.neg (sub_pos.mpr hx.2)
    have hsum := lim_sum hpw
    refine ⟨l.map (fun d A => CMath.pow (d A - c A) (-p A) /
      Modulation.sum ((l.map (fun d A => CMath.pow (d A - c A) (-p A))).map (fun x => x A))), ?_, ?_⟩
    · filter_upwards [hev] with A h1
      rw [h1, if_neg h0]
      simp only [List.map_map]
      rfl
    · rw [if_neg h0]
      have hp' : ∀ w ∈ l0.map (fun d => CMath.pow (d - c0) (-p0)), (0 : ℝ) < w := by
        intro w hw
        obtain ⟨d, hd, rfl⟩ := List.mem_map.mp hw
        exact Real.rpow_pos_of_pos (sub_pos.mpr (hpos d hd)) _
      have hfold : ∀ (l : List ℝ) (a : ℝ), l.foldl (· + ·) a = a + l.sum := by
        intro l
        induction l with
        | nil => intro a; simp
        | cons b l ih => intro a; rw [List.foldl_cons, ih, List.sum_cons]; ring
      by_cases hnil : l0 = []
      · subst hnil; cases h; exact .nil
      · have hs0 : 0 < Modulation.sum (l0.map (fun d => CMath.pow (d - c0) (-p0))) := by
          unfold Modulation.sum
          rw [hfold, zero_add]
          apply List.sum_pos _ hp'
          simpa using hnil
        rw [List.forall₂_map_left_iff, List.forall₂_map_right_iff]
        rw [List.forall₂_map_left_iff] at hpw
        exact hpw.imp fun x x0 hx => hx.div hsum hs0.ne'

def LimZ (F : Filter ι) (y : ι → Item ℝ × ℝ) (y0 : Item ℝ × ℝ) : Prop := LimI F (fun A => (y A).1) y0.1 ∧ Lim F (fun A => (y A).2) y0.2

theorem lim_zipVel {x : ι → V3 ℝ} {x0 : V3 ℝ} {l : List (ι → Item ℝ × ℝ)} {l0 : List (Item ℝ × ℝ)}
    (hx : LimV F x x0) (hl : List.Forall₂ (LimZ F) l l0) :
    LimV F (fun A => zipVel (x A) (l.map (fun y => y A))) (zipVel x0 l0) :=
  lim_foldl (LimZ F) (LimV F)
    (fun A acc y => acc + obstacleVelocity (x A) y.1.base y.1.dist y.2 y.1.basis)
    (fun acc y => acc + obstacleVelocity x0 y.1.base y.1.dist y.2 y.1.basis)
    (fun _ _ _ _ h1 h2 => h1.add (lim_obstacleVelocity hx h2.1.base h2.1.dist h2.2 h2.1.basis)) _ _ hl _ _ LimV.zero

theorem lim_zipSum {rv : ι → V3 ℝ} {rv0 : V3 ℝ} {l : List (ι → Item ℝ × ℝ)} {l0 : List (Item ℝ × ℝ)}
    (hrv : LimV F rv rv0) (h0 : rv0 ≠ V3.zero) (hl : List.Forall₂ (LimZ F) l l0)
    (hd : ∀ y ∈ l0, Definite (dsFrame rv0.normalized).transpose rv0.normalized rv0 y.1.matrix) :
    Lim F (fun A => (zipSum (rv A) (l.map (fun y => y A))).1) (zipSum rv0 l0).1 ∧
    LimV2 F (fun A => (zipSum (rv A) (l.map (fun y => y A))).2) (zipSum rv0 l0).2 := by
  have hn := hrv.normalized (sqNorm_pos h0)
  have hf := (lim_dsFrame hn).transpose
  exact lim_foldl
    (fun y y0 => LimZ F y y0 ∧ Definite (dsFrame rv0.normalized).transpose rv0.normalized rv0 y0.1.matrix)
    (fun acc acc0 => Lim F (fun A => (acc A).1) acc0.1 ∧ LimV2 F (fun A => (acc A).2) acc0.2)
    (fun A acc y =>
      let t := angleTerm (dsFrame (rv A).normalized).transpose (rv A).normalized (rv A) y.1.matrix y.2
      (acc.1 + t.1, acc.2.add t.2))
    (fun acc y =>
      let t := angleTerm (dsFrame rv0.normalized).transpose rv0.normalized rv0 y.1.matrix y.2
      (acc.1 + t.1, acc.2.add t.2))
    (fun _ _ y y0 h1 h2 =>
      let h3 := lim_angleTerm hf hn hrv h2.1.1.matrix h2.1.2 h2.2
      ⟨h1.1.add h3.1, h1.2.add h3.2⟩) _ _ (forall₂_right hl hd) (fun _ => (0, V2.zero)) (0, V2.zero) ⟨Lim.zero, LimV2.zero⟩

theorem lim_zipOut {rv ov : ι → V3 ℝ} {rv0 ov0 : V3 ℝ} {acc : ι → ℝ × V2 ℝ} {acc0 : ℝ × V2 ℝ}
    (hrv : LimV F rv rv0) (h0 : rv0 ≠ V3.zero) (hov : LimV F ov ov0) (h1 : Lim F (fun A => (acc A).1) acc0.1)
    (h2 : LimV2 F (fun A => (acc A).2) acc0.2) (ha : acc0.2.norm ≠ 1 / 10000) :
    LimV F (fun A => zipOut (rv A) (ov A) (acc A)) (zipOut rv0 ov0 acc0) := by
  have hrec := (lim_dsFrame (hrv.normalized (sqNorm_pos h0))).mulVec (lim_reconstruct h2 ha)
  have h3 : LimV F (fun A => ⟨_, _, _⟩) ⟨_, _, _⟩ := ⟨hrec.x.mul h1, hrec.y.mul h1, hrec.z.mul h1⟩
  exact h3.add hov

/-- The speeds alone: no condition on the directions. -/
theorem lim_zipMag {rv : ι → V3 ℝ} {rv0 : V3 ℝ} {l : List (ι → Item ℝ × ℝ)} {l0 : List (Item ℝ × ℝ)}
    (hrv : LimV F rv rv0) (hl : List.Forall₂ (LimZ F) l l0) :
    Lim F (fun A => (zipSum (rv A) (l.map (fun y => y A))).1) (zipSum rv0 l0).1 :=
  lim_foldl (LimZ F) (fun (acc : ι → ℝ × V2 ℝ) (acc0 : ℝ × V2 ℝ) => Lim F (fun A => (acc A).1) acc0.1)
    (fun A acc y =>
      let t := angleTerm (dsFrame (rv A).normalized).transpose (rv A).normalized (rv A) y.1.matrix y.2
      (acc.1 + t.1, acc.2.add t.2))
    (fun acc y =>
      let t := angleTerm (dsFrame rv0.normalized).transpose rv0.normalized rv0 y.1.matrix y.2
      (acc.1 + t.1, acc.2.add t.2))
    (fun _ _ _ _ h1 h2 => h1.add ((h2.1.matrix.mulVec hrv).norm.mul h2.2)) _ _ hl (fun _ => (0, V2.zero)) (0, V2.zero) Lim.zero

theorem reconstruct_bound (s : V2 ℝ) : |(reconstruct s).x| ≤ 1 ∧ |(reconstruct s).y| ≤ 1 ∧ |(reconstruct s).z| ≤ 1 := by
  have hx : |s.x| ≤ s.norm ∧ |s.y| ≤ s.norm := by
    have h0 : 0 ≤ s.norm := Real.sqrt_nonneg _
    have h1 : s.norm ^ 2 = s.x * s.x + s.y * s.y :=
      Real.sq_sqrt (add_nonneg (mul_self_nonneg _) (mul_self_nonneg _))
    constructor <;> refine abs_le_of_sq_le_sq ?_ h0 <;> nlinarith [mul_self_nonneg s.x, mul_self_nonneg s.y]
  unfold reconstruct
  simp only []
  split
  · rename_i h
    have h1 : (lit 1 10000 : ℝ) = 1 / 10000 := by simp
    rw [h1] at h
    exact ⟨by simp, by linarith [hx.1], by linarith [hx.2]⟩
  · rename_i h
    have h1 : (lit 1 10000 : ℝ) = 1 / 10000 := by simp
    rw [h1] at h
    have hn : 0 < s.norm := by linarith [not_lt.mp h, (by norm_num : (0 : ℝ) < 1 / 10000)]
    have key : ∀ t : ℝ, |t| ≤ s.norm → |Real.sin s.norm / s.norm * t| ≤ 1 := by
      intro t ht
      rw [abs_mul, abs_div, abs_of_pos hn, div_mul_eq_mul_div, div_le_one hn]
      calc |Real.sin s.norm| * |t| ≤ 1 * s.norm :=
            mul_le_mul (Real.abs_sin_le_one _) ht (abs_nonneg _) zero_le_one
        _ = s.norm := one_mul _
    exact ⟨Real.abs_cos_le_one _, key _ hx.1, key _ hx.2⟩

theorem dsFrame_bound (v : V3 ℝ) : ∀ u ∈ [(dsFrame v.normalized).c0, (dsFrame v.normalized).c1, (dsFrame v.normalized).c2],
    |u.x| ≤ 2 ∧ |u.y| ≤ 2 ∧ |u.z| ≤ 2 := by
  have hn : V3.sqNorm v.normalized ≤ 1 := by
    by_cases h : v = V3.zero
    · subst h
      have : (V3.zero : V3 ℝ).normalized = V3.zero := by
        unfold V3.normalized
        rw [if_neg]; simp [V3.sqNorm, V3.dot, V3.zero]
      rw [this]; simp [V3.sqNorm, V3.dot, V3.zero]
    · have := V3.norm_sq v.normalized
      rw [V3.norm_normalized h] at this
      linarith
  generalize v.normalized = n at hn
  simp only [V3.sqNorm, V3.dot] at hn
  have hx : |n.x| ≤ 1 := abs_le_of_sq_le_sq (by nlinarith [mul_self_nonneg n.x, mul_self_nonneg n.y, mul_self_nonneg n.z]) one_pos.le
  have hy : |n.y| ≤ 1 := abs_le_of_sq_le_sq (by nlinarith [mul_self_nonneg n.x, mul_self_nonneg n.y, mul_self_nonneg n.z]) one_pos.le
  have hz : |n.z| ≤ 1 := abs_le_of_sq_le_sq (by nlinarith [mul_self_nonneg n.x, mul_self_nonneg n.y, mul_self_nonneg n.z]) one_pos.le
  unfold dsFrame
  simp only [ite_self]
  simp only [V3.cross, V3.unitZ, List.mem_cons, List.not_mem_nil, or_false, forall_eq_or_imp, forall_eq]
  rw [abs_le] at hx hy hz
  refine ⟨⟨abs_le.mpr ⟨by linarith, by linarith⟩, abs_le.mpr ⟨by linarith, by linarith⟩, abs_le.mpr ⟨by linarith, by linarith⟩⟩,
    ⟨abs_le.mpr ⟨by linarith, by linarith⟩, abs_le.mpr ⟨by linarith, by linarith⟩, abs_le.mpr ⟨by linarith, by linarith⟩⟩, ?_⟩
  have s1 := sq_nonneg (n.x - n.z); have s2 := sq_nonneg (n.x + n.z); have s3 := sq_nonneg (n.y - n.z); have s4 := sq_nonneg (n.y + n.z)
  have q1 := mul_self_nonneg n.x; have q2 := mul_self_nonneg n.y; have q3 := mul_self_nonneg n.z
  refine ⟨abs_le.mpr ⟨by nlinarith, by nlinarith⟩, abs_le.mpr ⟨by nlinarith, by nlinarith⟩, abs_le.mpr ⟨by nlinarith, by nlinarith⟩⟩

/-- The result at vanishing speed. -/
theorem lim_zipOut_null {rv ov : ι → V3 ℝ} {rv0 ov0 : V3 ℝ} {acc : ι → ℝ × V2 ℝ} {acc0 : ℝ × V2 ℝ}
    (hov : LimV F ov ov0) (h1 : Lim F (fun A => (acc A).1) acc0.1) (h0 : acc0.1 = 0) :
    LimV F (fun A => zipOut (rv A) (ov A) (acc A)) (zipOut rv0 ov0 acc0) := by
  have hb : ∀ (r : V3 ℝ) (s : V2 ℝ), |((dsFrame r.normalized).mulVec (reconstruct s)).x| ≤ 6 ∧
      |((dsFrame r.normalized).mulVec (reconstruct s)).y| ≤ 6 ∧ |((dsFrame r.normalized).mulVec (reconstruct s)).z| ≤ 6 := by
    intro r s
    obtain ⟨b0, b1, b2⟩ := reconstruct_bound s
    have hd := dsFrame_bound r
    simp only [List.mem_cons, List.not_mem_nil, or_false, forall_eq_or_imp, forall_eq] at hd
    obtain ⟨⟨x0, y0, z0⟩, ⟨x1, y1, z1⟩, ⟨x2, y2, z2⟩⟩ := hd
    have key : ∀ a b c d e f : ℝ, |a| ≤ 2 → |b| ≤ 2 → |c| ≤ 2 → |d| ≤ 1 → |e| ≤ 1 → |f| ≤ 1 → |a * d + b * e + c * f| ≤ 6 := by
      intro a b c d e f ha hb hc hd he hf
      have g : ∀ p q : ℝ, |p| ≤ 2 → |q| ≤ 1 → |p * q| ≤ 2 := by
        intro p q hp hq
        rw [abs_mul]
        calc |p| * |q| ≤ 2 * 1 := mul_le_mul hp hq (abs_nonneg _) (by norm_num)
          _ = 2 := by norm_num
      have i1 := abs_add_le (a * d + b * e) (c * f)
      have i2 := abs_add_le (a * d) (b * e)
      linarith [g a d ha hd, g b e hb he, g c f hc hf]
    exact ⟨key _ _ _ _ _ _ x0 x1 x2 b0 b1 b2, key _ _ _ _ _ _ y0 y1 y2 b0 b1 b2, key _ _ _ _ _ _ z0 z1 z2 b0 b1 b2⟩
  have h2 : zipOut rv0 ov0 acc0 = V3.zero + ov0 := by
    unfold zipOut
    simp only [h0, mul_zero]
    rfl
  rw [h2]
  rw [h0] at h1
  refine LimV.add ⟨?_, ?_, ?_⟩ hov
  · exact Lim.null_mul (Eventually.of_forall fun A => (hb (rv A) (acc A).2).1) h1
  · exact Lim.null_mul (Eventually.of_forall fun A => (hb (rv A) (acc A).2).2.1) h1
  · exact Lim.null_mul (Eventually.of_forall fun A => (hb (rv A) (acc A).2).2.2) h1

/-- One obstacle has the weight 1. -/
theorem weight_alone (d c p : ℝ) : weightObstacles [d] c p = [1] := by
  unfold weightObstacles
  simp only [List.map_cons, List.map_nil, List.foldl_cons, List.foldl_nil, zero_add]
  by_cases h : d ≤ c
  · simp [h, MathTools.ofInt]
  · have : (0 : ℝ) < (d - c) ^ (-p) := Real.rpow_pos_of_pos (by linarith [not_le.mp h]) _
    simp [h, Modulation.sum, this.ne']

theorem zipSum_null {rv : V3 ℝ} {l : List (Item ℝ × ℝ)} (h : ∀ y ∈ l, y.1.matrix.mulVec rv = V3.zero) :
    (zipSum rv l).1 = 0 := by
  unfold zipSum
  have key : ∀ (l : List (Item ℝ × ℝ)) (acc : ℝ × V2 ℝ), (∀ y ∈ l, y.1.matrix.mulVec rv = V3.zero) →
      (l.foldl (fun (acc : ℝ × V2 ℝ) y =>
        let t := angleTerm (dsFrame rv.normalized).transpose rv.normalized rv y.1.matrix y.2
        (acc.1 + t.1, acc.2.add t.2)) acc).1 = acc.1 := by
    intro l
    induction l with
    | nil => intro acc _; rfl
    | cons y l ih =>
      intro acc hl
      rw [List.foldl_cons, ih _ fun z hz => hl z (by simp [hz])]
      show acc.1 + V3.norm (y.1.matrix.mulVec rv) * y.2 = acc.1
      rw [hl y (by simp), V3.norm_eq_zero.mpr rfl]
      ring
  exact key l _ h

theorem lim_combine {x v : ι → V3 ℝ} {x0 v0 : V3 ℝ} {l : List (ι → Item ℝ)} {l0 : List (Item ℝ)} {c p : ι → ℝ}
    {c0 p0 : ℝ} (hx : LimV F x x0) (hv : LimV F v v0) (hl : List.Forall₂ (LimI F) l l0) (hc : Lim F c c0) (hp : Lim F p p0)
    (hd : Settled x0 v0 l0 c0 p0) :
    LimV F (fun A => combine (x A) (v A) (l.map (fun i => i A)) (c A) (p A)) (combine x0 v0 l0 c0 p0) := by
  have hdist : List.Forall₂ (Lim F) (l.map (fun i A => (i A).dist)) (l0.map (·.dist)) := by
    rw [List.forall₂_map_left_iff, List.forall₂_map_right_iff]
    exact hl.imp fun _ _ h => h.dist
  obtain ⟨ws, hw1, hw2⟩ : ∃ ws : List (ι → ℝ), (∀ᶠ A in F,
      weightObstacles ((l.map (fun i A => (i A).dist)).map (fun x => x A)) (c A) (p A) = ws.map (fun x => x A)) ∧
      List.Forall₂ (Lim F) ws (weightObstacles (l0.map (·.dist)) c0 p0) := by
    rcases hd.weights with h | h
    · exact lim_weights hdist hc hp (by
        intro d hd'; obtain ⟨i, hi, rfl⟩ := List.mem_map.mp hd'; exact h i hi)
    · obtain ⟨i0, rfl⟩ := List.length_eq_one_iff.mp h
      cases hl with
      | cons hi hn =>
        cases hn
        refine ⟨[fun _ => 1], Eventually.of_forall fun A => ?_, ?_⟩
        · simp only [List.map_cons, List.map_nil, weight_alone]
        · simp only [List.map_cons, List.map_nil, weight_alone]
          exact .cons Lim.one .nil
  have hz : List.Forall₂ (LimZ F) ((l.zip ws).map (fun y A => (y.1 A, y.2 A)))
      (l0.zip (weightObstacles (l0.map (·.dist)) c0 p0)) := by
    rw [List.forall₂_map_left_iff]
    exact forall₂_zip hl hw2
  have hov := lim_zipVel hx hz
  have hrv := hv.sub hov
  have hout : LimV F (fun A => zipOut (v A - zipVel (x A) (((l.zip ws).map (fun y A => (y.1 A, y.2 A))).map (fun y => y A)))
      (zipVel (x A) (((l.zip ws).map (fun y A => (y.1 A, y.2 A))).map (fun y => y A)))
      (zipSum (v A - zipVel (x A) (((l.zip ws).map (fun y A => (y.1 A, y.2 A))).map (fun y => y A)))
        (((l.zip ws).map (fun y A => (y.1 A, y.2 A))).map (fun y => y A))))
      (combine x0 v0 l0 c0 p0) := by
    rw [combine_zip]
    rcases hd.outcome with h | ⟨h1, h2, h3⟩
    · exact lim_zipOut_null hov (lim_zipMag hrv hz) (zipSum_null fun y hy => h y.1 (List.of_mem_zip hy).1)
    · have hsum := lim_zipSum hrv h1 hz fun y hy => h2 y.1 (List.of_mem_zip hy).1
      exact lim_zipOut hrv h1 hov hsum.1 hsum.2 h3
  refine LimV.congr hout ?_
  filter_upwards [hw1] with A h1
  have h2 : (l.map (fun i => i A)).map (·.dist) = (l.map (fun i A => (i A).dist)).map (fun x => x A) := by
    rw [List.map_map, List.map_map]; rfl
  have h3 : (l.map (fun i => i A)).zip (ws.map (fun x => x A)) = ((l.zip ws).map (fun y A => (y.1 A, y.2 A))).map (fun y => y A) := by
    rw [List.zip_map, List.map_map]; rfl
  rw [combine_zip, h2, h1, h3]

variable {e : ι → Ellipsoid ℝ × V3 ℝ} {e0 : Ellipsoid ℝ × V3 ℝ} {x v : ι → V3 ℝ} {x0 v0 : V3 ℝ} {m c p : ι → ℝ}
  {m0 c0 p0 : ℝ}

theorem lim_ellItem (h : LimER F e e0) (hx : LimV F x x0) (hm : Lim F m m0) (hc : Clear e0.1 e0.2 x0 m0) :
    LimI F (fun A => ellItem (e A).1 (e A).2 (x A) (m A)) (ellItem e0.1 e0.2 x0 m0) := by
  obtain ⟨k1, k2, k3, he⟩ := h.ell
  have hn := he.normal hx hm hc.lengths hc.normal
  have hd := he.distance hx (LimV.const hm) hc.lengths
  have hr := lim_referenceDirection he.base.pose hx h.ref hc.direction
  have hb := lim_referenceBasis hn hr hc.tangent
  exact ⟨he.base, lim_product he.base.pose.orientation hb (lim_eigenvalues hd) hc.regular hc.rotation,
    lim_orthogonalBasis hn hc.tangent, hd⟩

theorem lim_ellRep (h : LimER F e e0) (hx : LimV F x x0) (hm : Lim F m m0) (hc : ClearRep e0.1 x0 m0) :
    LimV F (fun A => ellRep (e A).1 (e A).2 (x A) (m A)) (ellRep e0.1 e0.2 x0 m0) := by
  obtain ⟨k1, k2, k3, he⟩ := h.ell
  obtain ⟨h1, h2, h3⟩ := hc
  have hd := he.distance hx (LimV.const hm) h1
  have ht := Lim.lit (F := F) 11 10
  have h4 : (lit 11 10 : ℝ) = 11 / 10 := by simp
  unfold ellRep
  rcases lt_or_gt_of_ne h2 with h5 | h5
  · rw [if_pos (by rw [h4]; exact h5)]
    exact LimV.ite_true (LimV.smul ((Lim.lit (F := F) 2 1).div hd h3) (hx.sub h.ref)) (hd.lt ht (by rw [h4]; exact h5))
  · rw [if_neg (by rw [h4]; exact h5.not_gt)]
    exact LimV.ite_false LimV.zero (hd.not_lt ht (by rw [h4]; exact h5))


theorem lim_ellOut {es : List (ι → Ellipsoid ℝ × V3 ℝ)} {es0 : List (Ellipsoid ℝ × V3 ℝ)}
    (he : List.Forall₂ (LimER F) es es0) (hx : LimV F x x0) (hv : LimV F v v0) (hm : Lim F m m0) (hc : Lim F c c0) (hp : Lim F p p0)
    (rep : Bool) (hr : Steady es0 x0 v0 m0 rep c0 p0) :
    LimV F (fun A => ellOut (es.map (fun er => er A)) (x A) (v A) (m A) rep (c A) (p A)) (ellOut es0 x0 v0 m0 rep c0 p0) := by
  have hitems : List.Forall₂ (LimI F) (es.map fun er A => ellItem (er A).1 (er A).2 (x A) (m A))
      (es0.map fun er => ellItem er.1 er.2 x0 m0) := by
    rw [List.forall₂_map_left_iff, List.forall₂_map_right_iff]
    exact (forall₂_right he hr.clear).imp fun _ _ h => lim_ellItem h.1 hx hm h.2
  have hcomb := lim_combine hx hv hitems hc hp hr.settled
  have e1 : ∀ A, (es.map fun er A => ellItem (er A).1 (er A).2 (x A) (m A)).map (fun i => i A)
      = (es.map (fun er => er A)).map fun er => ellItem er.1 er.2 (x A) (m A) := by
    intro A; rw [List.map_map, List.map_map]; rfl
  simp only [e1] at hcomb
  cases rep with
  | false =>
    unfold ellOut
    simp only [finish_real, Bool.false_eq_true, if_false]
    exact hcomb
  | true =>
    have hreps : List.Forall₂ (LimV F) (es.map fun er A => ellRep (er A).1 (er A).2 (x A) (m A))
        (es0.map fun er => ellRep er.1 er.2 x0 m0) := by
      rw [List.forall₂_map_left_iff, List.forall₂_map_right_iff]
      exact (forall₂_right he (hr.clearRep rfl)).imp fun _ _ h => lim_ellRep h.1 hx hm h.2
    have hsum := lim_foldl (LimV F) (LimV F) (fun _ a b => a + b)
      (fun a b => a + b) (fun _ _ _ _ h1 h2 => h1.add h2) _ _ hreps _ _ LimV.zero
    have e2 : ∀ A, (es.map fun er A => ellRep (er A).1 (er A).2 (x A) (m A)).map (fun i => i A)
        = (es.map (fun er => er A)).map fun er => ellRep er.1 er.2 (x A) (m A) := by
      intro A; rw [List.map_map, List.map_map]; rfl
    simp only [e2] at hsum
    have ht := Lim.lit (F := F) 1 10000
    have h4 : (lit 1 10000 : ℝ) = 1 / 10000 := by simp
    unfold ellOut
    simp only [finish_real, if_true]
    rcases lt_or_gt_of_ne (hr.push rfl) with h5 | h5
    · rw [if_neg (by rw [h4]; exact h5.not_gt)]
      exact LimV.ite_false hcomb (ht.not_lt hsum.norm (by rw [h4]; exact h5))
    · rw [if_pos (by rw [h4]; exact h5)]
      exact LimV.ite_true (hcomb.add hsum) (ht.lt hsum.norm (by rw [h4]; exact h5))

end Modulation
end DOA
