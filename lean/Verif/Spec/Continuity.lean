import Mathlib.Topology.Order.Basic
import Mathlib.Topology.Instances.Real.Lemmas
import Verif.Spec.Fp

/-!
# Situations at which the commanded velocity is continuous
-/

namespace DOA
open Filter Topology

variable {ι : Type}

/-- The numbers `x` tend to `a`. -/
def Lim (F : Filter ι) (x : ι → ℝ) (a : ℝ) : Prop := Tendsto x F (𝓝 a)

/-- The vectors `v` tend to `a`. -/
structure LimV (F : Filter ι) (v : ι → V3 ℝ) (a : V3 ℝ) : Prop where
  x : Lim F (fun A => (v A).x) a.x
  y : Lim F (fun A => (v A).y) a.y
  z : Lim F (fun A => (v A).z) a.z

/-- The quaternions `q` tend to `a`. -/
structure LimQ (F : Filter ι) (q : ι → Quat ℝ) (a : Quat ℝ) : Prop where
  w : Lim F (fun A => (q A).w) a.w
  x : Lim F (fun A => (q A).x) a.x
  y : Lim F (fun A => (q A).y) a.y
  z : Lim F (fun A => (q A).z) a.z

/-- The poses `p` tend to `a`. -/
structure LimP (F : Filter ι) (p : ι → Pose ℝ) (a : Pose ℝ) : Prop where
  position : LimV F (fun A => (p A).position) a.position
  orientation : LimQ F (fun A => (p A).orientation) a.orientation

/-- State and margin of the obstacles `b` tend to those of `b0`. -/
structure LimB (F : Filter ι) (b : ι → Base ℝ) (b0 : Base ℝ) : Prop where
  pose : LimP F (fun A => (b A).pose) b0.pose
  lin : LimV F (fun A => (b A).state.linearVelocity) b0.state.linearVelocity
  ang : LimV F (fun A => (b A).state.angularVelocity) b0.state.angularVelocity
  margin : LimV F (fun A => (b A).margin) b0.margin

/-- The exponents are exact natural numbers, everything else converges. -/
structure LimE (F : Filter ι) (e : ι → Ellipsoid ℝ) (e0 : Ellipsoid ℝ) (k1 k2 k3 : ℕ) : Prop where
  base : LimB F (fun A => (e A).base) e0.base
  axis : LimV F (fun A => (e A).axis) e0.axis
  curv : ∀ᶠ A in F, (e A).curv = ⟨k1, k2, k3⟩
  curv0 : e0.curv = ⟨k1, k2, k3⟩
  pos : 1 ≤ k1 ∧ 1 ≤ k2 ∧ 1 ≤ k3

namespace Modulation

/-- The ellipsoids tend to `e0.1`, their reference points to `e0.2`. -/
structure LimER (F : Filter ι) (e : ι → Ellipsoid ℝ × V3 ℝ) (e0 : Ellipsoid ℝ × V3 ℝ) : Prop where
  ell : ∃ k1 k2 k3, LimE F (fun A => (e A).1) e0.1 k1 k2 k3
  ref : LimV F (fun A => (e A).2) e0.2

end Modulation
end DOA

namespace DOA.Modulation

/-- The velocities of the obstacles combine continuously: the weights do not jump (no obstacle at the critical distance,
or a single obstacle), and either the agent is brought to a standstill, or the direction of the result is determined and
its angle is not at the threshold of the code. -/
structure Settled (x v : V3 ℝ) (its : List (Item ℝ)) (c p : ℝ) : Prop where
  weights : (∀ i ∈ its, i.dist ≠ c) ∨ its.length = 1
  outcome :
    let ws := weightObstacles (its.map (·.dist)) c p
    let rv := (relativeVelocities x v its ws).1
    (∀ i ∈ its, i.matrix.mulVec rv = V3.zero) ∨
    (rv ≠ V3.zero ∧ (∀ i ∈ its, Definite (dsFrame rv.normalized).transpose rv.normalized rv i.matrix) ∧
      (((its.zip ws).foldl (fun (acc : ℝ × V2 ℝ) y =>
        let t := angleTerm (dsFrame rv.normalized).transpose rv.normalized rv y.1.matrix y.2
        (acc.1 + t.1, acc.2.add t.2)) (0, V2.zero)).2).norm ≠ 1 / 10000)

/-- No comparison of the program is a tie here. -/
structure Steady (es : List (Ellipsoid ℝ × V3 ℝ)) (x v : V3 ℝ) (m : ℝ) (rep : Bool) (c p : ℝ) : Prop where
  clear : ∀ er ∈ es, Clear er.1 er.2 x m
  settled : Settled x v (es.map fun er => ellItem er.1 er.2 x m) c p
  clearRep : rep = true → ∀ er ∈ es, ClearRep er.1 x m
  push : rep = true → ((es.map fun er => ellRep er.1 er.2 x m).foldl (· + ·) V3.zero).norm ≠ 1 / 10000

/-- One obstacle at rest, seen from outside by an agent that sees the reference point behind the surface. -/
structure Calm (er : Ellipsoid ℝ × V3 ℝ) (x : V3 ℝ) (m : ℝ) : Prop where
  smooth : ∃ k, Spec.Smooth er.1 m k
  lin : er.1.base.state.linearVelocity = V3.zero
  ang : er.1.base.state.angularVelocity = V3.zero
  star : Spec.gdist er.1 m er.2 < Spec.gdist er.1 m x
  outside : 1 < Spec.gdist er.1 m x
  tangent : (V3.cross (er.1.normalToAgent x m) V3.unitZ).norm ≠ 1 / 10000

/-- The pointers `l` lead to the obstacles `es`; the envelope of the agent is none of them. -/
structure Beside (l : List Ptr) (es : List (Ellipsoid ℝ × V3 ℝ)) (m : ℝ) (s : Heap ℝ × Agent ℝ) : Prop where
  leads : List.Forall₂ (Leads s.1) l es
  envelope : ∃ (q : Ptr) (env : Ellipsoid ℝ), q ∉ l ∧ s.2.envelope = some q ∧ s.1[q]? = some (.ellipsoid env)
  margin : s.2.margin = m

end DOA.Modulation
