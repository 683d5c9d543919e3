import Verif.Model.Fp
import Verif.Model.Modulation
import Verif.Model.RealInst
import Verif.Spec.Modulation

/-!
# Finite precision: loading real data

The data of the exact program, every number rounded to a double of the arithmetic `A`.
-/

set_option linter.unusedSectionVars false

namespace DOA

/-- a real number as a double -/
def Arith.ld (A : Arith) (x : ℝ) : Fp A := ⟨A.rnd x⟩

def V3.fp (A : Arith) (v : V3 ℝ) : V3 (Fp A) := ⟨A.ld v.x, A.ld v.y, A.ld v.z⟩
def Quat.fp (A : Arith) (q : Quat ℝ) : Quat (Fp A) := ⟨A.ld q.w, A.ld q.x, A.ld q.y, A.ld q.z⟩
def Pose.fp (A : Arith) (p : Pose ℝ) : Pose (Fp A) := ⟨p.position.fp A, p.orientation.fp A⟩
def State.fp (A : Arith) (s : State ℝ) : State (Fp A) := ⟨s.pose.fp A, s.linearVelocity.fp A, s.angularVelocity.fp A⟩
def Base.fp (A : Arith) (b : Base ℝ) : Base (Fp A) := ⟨b.name, b.state.fp A, b.refPos.map (V3.fp A), b.margin.fp A⟩
def Ellipsoid.fp (A : Arith) (e : Ellipsoid ℝ) : Ellipsoid (Fp A) := ⟨e.base.fp A, e.axis.fp A, e.curv.fp A⟩
def Hull.fp (A : Arith) (h : Hull ℝ) : Hull (Fp A) :=
  ⟨h.base.fp A, h.isInside, h.resolution, A.ld h.minRadius, h.cart.map (V3.fp A), h.polar.map (V3.fp A)⟩
def Aggregate.fp (A : Arith) (a : Aggregate ℝ) : Aggregate (Fp A) := ⟨a.base.fp A, a.inside.fp A, a.outside.fp A, a.prims⟩

def Obj.fp (A : Arith) : Obj ℝ → Obj (Fp A)
  | .plain b => .plain (b.fp A)
  | .ellipsoid e => .ellipsoid (e.fp A)
  | .hull h => .hull (h.fp A)
  | .aggregate a => .aggregate (a.fp A)

def Heap.fp (A : Arith) (h : Heap ℝ) : Heap (Fp A) := h.map (Obj.fp A)
def Agent.fp (A : Arith) (a : Agent ℝ) : Agent (Fp A) := ⟨a.state.fp A, A.ld a.margin, a.envelope, A.ld a.deltaT⟩

/-- The components are finite doubles with the value `w`. -/
def V3.Is {A : Arith} (v : V3 (Fp A)) (w : V3 ℝ) : Prop := v.x.v = .fin w.x ∧ v.y.v = .fin w.y ∧ v.z.v = .fin w.z

/-! ### regular inputs

The branches of the code make the result a discontinuous function of the input.  An input is regular if in the exact run no
comparison that selects between different values is a tie, and no vector that is normalised and no divisor vanishes. -/

/-- no half length is exactly at the threshold 1e-4 -/
def OffThreshold (l : V3 ℝ) : Prop := l.x ≠ 1 / 10000 ∧ l.y ≠ 1 / 10000 ∧ l.z ≠ 1 / 10000

namespace Modulation
section
variable {α : Type} [Add α] [Sub α] [Mul α] [Div α] [Neg α] [Zero α] [One α]
  [LE α] [LT α] [DecidableLE α] [DecidableLT α] [CMath α]

/-- what is stored for an ellipsoid with reference point `r` -/
def ellItem (e : Ellipsoid α) (r x : V3 α) (m : α) : Item α :=
  let n := e.normalToAgent x m
  let d := e.distanceToPoint x (V3.const m)
  { base := e.base,
    matrix := modulationProduct e.base.orientation (referenceBasis n (referenceDirection e.base.pose x r))
      (diagonalEigenvalues d 1),
    basis := orthogonalBasis n, dist := d }

/-- the repulsion of an ellipsoid with reference point `r` -/
def ellRep (e : Ellipsoid α) (r x : V3 α) (m : α) : V3 α :=
  if e.distanceToPoint x (V3.const m) < lit 11 10 then
    V3.smul (lit 2 1 / e.distanceToPoint x (V3.const m)) (x - r)
  else V3.zero

/-- the pointer leads to this ellipsoid with this reference point -/
def Leads (h : Heap α) (p : Ptr) (er : Ellipsoid α × V3 α) : Prop :=
  h[p]? = some (.ellipsoid er.1) ∧ er.1.base.refPos = some er.2

end

/-- Nothing in the computation for this obstacle is at a threshold or divides by zero. -/
structure Clear (e : Ellipsoid ℝ) (r x : V3 ℝ) (m : ℝ) : Prop where
  rotation : 0 < e.base.orientation.sqNorm
  lengths : OffThreshold (e.axis + e.base.margin + V3.const m)
  normal : e.normalToAgent x m ≠ V3.zero
  tangent : (V3.cross (e.normalToAgent x m) V3.unitZ).norm ≠ 1 / 10000
  direction : referenceDirection e.base.pose x r ≠ V3.zero
  regular : (referenceBasis (e.normalToAgent x m) (referenceDirection e.base.pose x r)).det ≠ 0

/-- The repulsion of this obstacle is not at its threshold, and does not divide by zero. -/
def ClearRep (e : Ellipsoid ℝ) (x : V3 ℝ) (m : ℝ) : Prop :=
  OffThreshold (e.axis + e.base.margin + V3.const m) ∧ e.distanceToPoint x (V3.const m) ≠ 11 / 10 ∧
    e.distanceToPoint x (V3.const m) ≠ 0

/-- The direction of the modulated velocity is well defined, or it does not matter. -/
def Definite (frameT : M3 ℝ) (nrv rv : V3 ℝ) (m : M3 ℝ) : Prop :=
  m.mulVec rv ≠ V3.zero ∧
  ((frameT.mulVec (m.mulVec rv).normalized).y ≠ 0 ∨ (frameT.mulVec (m.mulVec rv).normalized).z ≠ 0 ∨
    1 ≤ V3.dot (m.mulVec rv).normalized nrv)

/-- The hypotheses of the convergence of `combine`: no comparison is a tie, no vector that is normalised vanishes. -/
structure Decided (x v : V3 ℝ) (its : List (Item ℝ)) (c p : ℝ) : Prop where
  critical : ∀ i ∈ its, i.dist ≠ c
  moving : (relativeVelocities x v its (weightObstacles (its.map (·.dist)) c p)).1 ≠ V3.zero
  definite : ∀ i ∈ its,
    let rv := (relativeVelocities x v its (weightObstacles (its.map (·.dist)) c p)).1
    Definite (dsFrame rv.normalized).transpose rv.normalized rv i.matrix
  angle : (((its.zip (weightObstacles (its.map (·.dist)) c p)).foldl (fun (acc : ℝ × V2 ℝ) y =>
    let rv := (relativeVelocities x v its (weightObstacles (its.map (·.dist)) c p)).1
    let t := angleTerm (dsFrame rv.normalized).transpose rv.normalized rv y.1.matrix y.2
    (acc.1 + t.1, acc.2.add t.2)) (0, V2.zero)).2).norm ≠ 1 / 10000

/-- The hypotheses for all obstacles together. -/
structure Regular (es : List (Ellipsoid ℝ × V3 ℝ)) (x v : V3 ℝ) (m : ℝ) (rep : Bool) (c p : ℝ) : Prop where
  clear : ∀ er ∈ es, Clear er.1 er.2 x m
  decided : Decided x v (es.map fun er => ellItem er.1 er.2 x m) c p
  clearRep : rep = true → ∀ er ∈ es, ClearRep er.1 x m
  push : rep = true → ((es.map fun er => ellRep er.1 er.2 x m).foldl (· + ·) V3.zero).norm ≠ 1 / 10000

open Spec

/-- One static obstacle in sight of an agent outside. -/
structure Free (er : Ellipsoid ℝ × V3 ℝ) (x : V3 ℝ) (m c : ℝ) : Prop where
  smooth : ∃ k, k ≤ 2 ^ 52 ∧ Smooth er.1 m k
  lin : er.1.base.state.linearVelocity = V3.zero
  ang : er.1.base.state.angularVelocity = V3.zero
  star : gdist er.1 m er.2 < gdist er.1 m x
  outside : 1 < gdist er.1 m x
  critical : gdist er.1 m x ≠ c
  tangent : (V3.cross (er.1.normalToAgent x m) V3.unitZ).norm ≠ 1 / 10000

/-- The sum in angle space for static obstacles. -/
noncomputable def turn (es : List (Ellipsoid ℝ × V3 ℝ)) (x v : V3 ℝ) (m c p : ℝ) : V2 ℝ :=
  let its := es.map fun er => ellItem er.1 er.2 x m
  ((its.zip (weightObstacles (its.map (·.dist)) c p)).foldl (fun (acc : ℝ × V2 ℝ) y =>
    let t := angleTerm (dsFrame v.normalized).transpose v.normalized v y.1.matrix y.2
    (acc.1 + t.1, acc.2.add t.2)) (0, V2.zero)).2

end Modulation
end DOA
