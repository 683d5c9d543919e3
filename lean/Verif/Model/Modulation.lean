import Verif.Model.Agent
import Verif.Model.Environment

/-!
# Modulation (src/Modulation.cpp)
-/

namespace DOA.Modulation

variable {α : Type} [Add α] [Sub α] [Mul α] [Div α] [Neg α] [Zero α] [One α]
  [LE α] [LT α] [DecidableLE α] [DecidableLT α] [CMath α]

/-- sum of an `ArrayXd` (`.sum()`), 0 for the empty array. -/
def sum (l : List α) : α := l.foldl (· + ·) 0

/-- `weight_obstacles` (src/Modulation.cpp:27-50). -/
def weightObstacles (distances : List α) (critical power : α) : List α :=
  let crit : List Int := distances.map fun d => if d ≤ critical then 1 else 0
  let s : Int := crit.foldl (· + ·) 0
  if 0 < s then crit.map fun c => MathTools.ofInt c / MathTools.ofInt s
  else
    let w := distances.map fun d => CMath.pow (d - critical) (-power)
    w.map fun x => x / sum w

/-- `compute_diagonal_eigenvalues` (src/Modulation.cpp:52-60), the diagonal as a vector. -/
def diagonalEigenvalues (d reactivity : α) : V3 α :=
  let delta := if d ≤ 1 then 1 else 1 / CMath.pow d (1 / reactivity)
  ⟨1 - delta, 1 + delta, 1 + delta⟩

/-- `tangent_vector` of `compute_basis_matrices` (src/Modulation.cpp:64-71). -/
def tangentVector (n : V3 α) : V3 α :=
  let t := V3.cross n V3.unitZ
  if t.norm < lit 1 10000 then V3.cross n V3.unitY else t

/-- the orthogonal basis (src/Modulation.cpp:73-75). -/
def orthogonalBasis (n : V3 α) : M3 α :=
  let t := tangentVector n
  ⟨n, t, V3.cross t n⟩

/-- `reference_direction` (src/Modulation.cpp:77-78). -/
def referenceDirection (pose : Pose α) (agentPos ref : V3 α) : V3 α :=
  (pose.inverse.apply agentPos - pose.inverse.apply ref).normalized

/-- the reference basis (src/Modulation.cpp:85-87). -/
def referenceBasis (n r : V3 α) : M3 α :=
  let t := tangentVector n
  ⟨r, t, V3.cross t r⟩

/-- `compute_basis_matrices` (src/Modulation.cpp:62-89): (reference basis, orthogonal basis). -/
def basisMatrices (n : V3 α) (agentPos : V3 α) (obstacle : Base α) : Res (M3 α × M3 α) := do
  let ref ← obstacle.ref
  let r := referenceDirection obstacle.pose agentPos ref
  .ok (referenceBasis n r, orthogonalBasis n)

/-- the product at src/Modulation.cpp:22, associated to the left. -/
def modulationProduct (q : Quat α) (b : M3 α) (d : V3 α) : M3 α :=
  M3.mul (M3.mul (M3.mulDiag (M3.mul q.toM3 b) d) b.inverse) q.inverse.toM3

/-- `compute_modulation_matrix` (src/Modulation.cpp:7-25): (modulation matrix, orthogonal basis,
distance). -/
def modulationMatrix (h : Heap α) (a : Agent α) (o : Obj α) : Res (M3 α × M3 α × α) := do
  let n ← h.normalToAgent o a.state.position a.margin
  let d ← h.distanceToAgent o a.state.position a.margin
  let b ← basisMatrices n a.state.position o.base
  let ev := diagonalEigenvalues d 1
  .ok (modulationProduct o.base.orientation b.1 ev, b.2, d)

/-- The velocity of one obstacle at the agent, as weighted in the loop of
`compute_relative_velocities` (src/Modulation.cpp:97-103). -/
def obstacleVelocity (agentPos : V3 α) (o : Base α) (d w : α) (basis : M3 α) : V3 α :=
  let ang := V3.cross o.state.angularVelocity (agentPos - o.position)
  let expWeight := CMath.exp (-(maxS 1 d - 1))
  let v := V3.smul expWeight (o.state.linearVelocity + ang)
  let v := basis.transpose.mulVec v
  let v := basis.mulVec v
  ⟨v.x * w, v.y * w, v.z * w⟩

/-- Everything `modulate_velocity` stores per obstacle.  `base` is read again from the obstacle by
`compute_relative_velocities` (position and velocities only, which no shift changes). -/
structure Item (α : Type) where
  base : Base α
  matrix : M3 α
  basis : M3 α
  dist : α

/-- `compute_relative_velocities` (src/Modulation.cpp:91-107): (relative velocity of the agent,
combined obstacle velocity). -/
def relativeVelocities (agentPos agentVel : V3 α) (items : List (Item α)) (weights : List α) :
    V3 α × V3 α :=
  let ov := (items.zip weights).foldl
    (fun acc x => acc + obstacleVelocity agentPos x.1.base x.1.dist x.2 x.1.basis) V3.zero
  (agentVel - ov, ov)

/-- `compute_dynamical_system_frame` (src/Modulation.cpp:109-121).  The `if` recomputes the very same
cross product (`unit_vector` is not changed), so it has no effect; it is transcribed all the same. -/
def dsFrame (v : V3 α) : M3 α :=
  let unit : V3 α := V3.unitZ
  let c := V3.cross v unit
  let c := if c.norm < lit 1 10000 then
      let _c : V3 α := V3.unitY
      V3.cross v unit
    else c
  ⟨v, c, V3.cross c v⟩

/-- `safe_acos` (src/Modulation.cpp:123-128). -/
def safeAcos (x : α) : α :=
  let x := if x < -1 then -1 else if 1 < x then 1 else x
  CMath.acos x

/-- One pass of the loop at src/Modulation.cpp:173-189 for matrix `m`, weight `w`: the contribution
to the speed and to the angle space sum. `nrv` is `normalized_relative_velocity`. -/
def angleTerm (frameT : M3 α) (nrv rv : V3 α) (m : M3 α) (w : α) : α × V2 α :=
  let mv := m.mulVec rv
  let mag := mv.norm * w
  let nmv := mv.normalized
  let t := frameT.mulVec nmv
  let a : V2 α := ⟨t.y, t.z⟩
  let a := a.normalized
  let cosAngle := V3.dot nmv nrv
  let a := a.scale (safeAcos cosAngle)
  let a := a.scale w
  (mag, a)

/-- `reconstructed_velocity` (src/Modulation.cpp:191-201). -/
def reconstruct (s : V2 α) : V3 α :=
  let n := s.norm
  if n < lit 1 10000 then ⟨1, s.x, s.y⟩
  else ⟨CMath.cos n, CMath.sin n / n * s.x, CMath.sin n / n * s.y⟩

/-- The arithmetic core of `modulate_velocity` (src/Modulation.cpp:161-205): from the stored matrices
and distances to the velocity before repulsion. -/
def combine (agentPos agentVel : V3 α) (items : List (Item α)) (critical power : α) : V3 α :=
  let weights := weightObstacles (items.map (·.dist)) critical power
  let velocities := relativeVelocities agentPos agentVel items weights
  let rv := velocities.1
  let nrv := rv.normalized
  let frame := dsFrame nrv
  let frameT := frame.transpose
  let acc := (items.zip weights).foldl
    (fun (acc : α × V2 α) x =>
      let t := angleTerm frameT nrv rv x.1.matrix x.2
      (acc.1 + t.1, acc.2.add t.2)) (0, V2.zero)
  let rec_ := reconstruct acc.2
  let mv := frame.mulVec rec_
  let mv : V3 α := ⟨mv.x * acc.1, mv.y * acc.1, mv.z * acc.1⟩
  mv + velocities.2

/-- The first loop (src/Modulation.cpp:144-159): optional shift of the reference point, then the
modulation matrix. -/
def collect (planar : Bool) (a : Agent α) : Heap α → List Ptr → Res (Heap α × List (Item α))
  | h, [] => .ok (h, [])
  | h, p :: rest => do
    let h ← if planar then h.shiftReferencePoint p a.state.position a.state.linearVelocity
      else .ok h
    let o ← h.deref p
    let m ← modulationMatrix h a o
    let r ← collect planar a h rest
    .ok (r.1, { base := o.base, matrix := m.1, basis := m.2.1, dist := m.2.2 } :: r.2)

/-- The repulsion loop (src/Modulation.cpp:208-214). -/
def repulsionSum (h : Heap α) (a : Agent α) (obstacles : List Ptr) : Res (V3 α) :=
  obstacles.foldlM (fun acc p => do
    let o ← h.deref p
    let v ← h.generateRepulsion o a.state.position a.margin (lit 11 10)
    .ok (acc + v)) V3.zero

/-- src/Modulation.cpp:209-227: repulsion and the NaN guard. -/
def finish (repulsion : Option (V3 α)) (mv : V3 α) : V3 α :=
  let mv := match repulsion with
    | none => mv
    | some r => if lit 1 10000 < r.norm then mv + r else mv
  if mv.hasNaN then V3.zero else mv

/-- `modulate_velocity` (src/Modulation.cpp:130-229). The loop variable is a shared pointer, so the
shifts of the reference points remain visible after the call: the new heap is returned. -/
def modulateVelocity (h : Heap α) (a : Agent α) (e : Env)
    (isLocal addRepulsion planar : Bool) (critical power : α) : Res (Heap α × V3 α) := do
  let obstacles := e.list
  if obstacles.isEmpty then .ok (h, a.state.linearVelocity)
  else do
    let sight ← if isLocal then do
        let env ← a.getEnvelope h
        h.isIntersectingList env obstacles
      else .ok true
    if !sight then .ok (h, a.state.linearVelocity)
    else do
      let r ← collect planar a h obstacles
      let mv := combine a.state.position a.state.linearVelocity r.2 critical power
      let rep ← if addRepulsion then do
          let v ← repulsionSum r.1 a obstacles
          .ok (some v)
        else .ok none
      .ok (r.1, finish rep mv)

end DOA.Modulation
