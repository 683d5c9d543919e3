import Verif.Model.Modulation
import Verif.Model.FloatInst
import Verif.Model.Optimization

/-!
# The repository's unit tests, replayed on the model with hardware doubles

These are tests of the transcription, not proofs.  Sources: tests/testEllipsoidObstacle.cpp,
tests/testEnvironment.cpp, tests/testModulation.cpp, tests/testState.cpp.
-/

namespace DOA.Sanity

/-- `ASSERT_NEAR`. -/
def near (a b tol : Float) : Bool := (a - b).abs ≤ tol
def near3 (a b : V3 Float) (tol : Float) : Bool := near a.x b.x tol && near a.y b.y tol && near a.z b.z tol
def nearM (a b : M3 Float) (tol : Float) : Bool :=
  near3 a.c0 b.c0 tol && near3 a.c1 b.c1 tol && near3 a.c2 b.c2 tol
def nearQ (a b : Quat Float) (tol : Float) : Bool :=
  near a.w b.w tol && near a.x b.x tol && near a.y b.y tol && near a.z b.z tol

def okAnd {β : Type} (r : Res β) (f : β → Bool) : Bool :=
  match r with
  | .ok b => f b
  | _ => false

def ell (name : String) (s : State Float) : Ellipsoid Float :=
  Ellipsoid.ofBase (Base.mkState name s (V3.const 0))

/-! testEllipsoidObstacle.cpp -/

def p (x y z : Float) : V3 Float := ⟨x, y, z⟩
def e1 (x y z : Float) : Ellipsoid Float := ell "e1" (State.ofPosition (p x y z))

#guard near ((e1 2 1 0).distanceToPoint (p 1 0 0) (V3.const 0)) 2 0.01
#guard near ((e1 0 0 0).distanceToPoint (p 1 0 0) (V3.const 0)) 1 0.01
#guard near ((e1 0.9 0 0).distanceToPoint (p 1 0 0) (V3.const 0)) 0.01 0.01
#guard near3 ((e1 2 1 0).normalToAgent (p 1 0 0) 0) (p (-0.70710678) (-0.70710678) 0) 0.01
#guard near3 ((e1 0 0 0).normalToAgent (p 1 0 0) 0) (p 1 0 0) 0.01
#guard near3 ((e1 0.9 0 0).normalToAgent (p 1 0 0) 0) (p 1 0 0) 0.01

def both (a b : Ellipsoid Float) (r : Bool) : Bool :=
  okAnd (a.isIntersectingEllipsoid b) (· == r) && okAnd (b.isIntersectingEllipsoid a) (· == r)

def rotE (name : String) (x y z th : Float) : Ellipsoid Float :=
  ell name (State.mk2 (p x y z) (Quat.ofAngleZ th))

#guard both (Ellipsoid.ofBase (Base.mkName "e1" (V3.const 0)))
  { Ellipsoid.ofBase (Base.mkName "e2" (V3.const 0)) with axis := p 2 2 0 } true
#guard both (Ellipsoid.ofBase (Base.mkName "e1" (V3.const 0))) (rotE "e2" 1 1 0 0.75) true
#guard both (Ellipsoid.ofBase (Base.mkName "e1" (V3.const 0))) (rotE "e2" 4 4 0 0.75) false
#guard both { rotE "e1" 3.7 4.7 0 0.75 with axis := p 0.75 0.2 0 }
  { rotE "e2" 4.6 4.7 0 (-0.75) with axis := p 0.75 0.2 0 } true
#guard both { rotE "e1" 3 0.62 0 0 with axis := p 0.05 0.7 0 }
  { rotE "e2" 4.6 4.7 0 (-0.75) with axis := p 0.75 0.2 0 } false

/-! testState.cpp -/

def P (x y z : Float) (q : Quat Float) : Pose Float := Pose.mk2 (p x y z) q

#guard near3 ((P 1 2 3 ⟨1,0,0,0⟩).mul (P 4 5 6 ⟨1,0,0,0⟩)).position (p 5 7 9) 0.00001
#guard near3 ((P 1 2 3 ⟨0.70710678,0.70710678,0,0⟩).mul (P 4 5 6 ⟨0,0,0.70710678,0.70710678⟩)).position
  (p 5 (-4) 8) 0.00001
#guard nearQ ((P 1 2 3 ⟨0.70710678,0.70710678,0,0⟩).mul
  (P 4 5 6 ⟨0,0,0.70710678,0.70710678⟩)).orientation ⟨0,0,0,1⟩ 0.00001
#guard near3 (P 1 2 3 ⟨1,0,0,0⟩).inverse.position (p (-1) (-2) (-3)) 0.00001
#guard near3 (P 1 2 3 ⟨0.70710678,0.70710678,0,0⟩).inverse.position (p (-1) (-3) 2) 0.00001
#guard nearQ (P 1 2 3 ⟨0.70710678,0.70710678,0,0⟩).inverse.orientation
  ⟨0.70710678,-0.70710678,0,0⟩ 0.00001

/-! testModulation.cpp -/

def nearL (a b : List Float) (tol : Float) : Bool :=
  a.length == b.length && (a.zip b).all fun x => near x.1 x.2 tol

#guard nearL (Modulation.weightObstacles [0,1,2,3,4] 1 2) [0.5,0.5,0,0,0] 0.00001
#guard nearL (Modulation.weightObstacles [1,2,3,4,5] 1 2) [1,0,0,0,0] 0.00001
#guard nearL (Modulation.weightObstacles [2,3,4,5,6] 1 2)
  [0.6832416, 0.1708104, 0.07591573, 0.0427026, 0.02732966] 0.00001
#guard near3 (Modulation.diagonalEigenvalues (2 : Float) 1) (p 0.5 1.5 1.5) 0.0001

def agentAt (h : Heap Float) (x y z : Float) : Heap Float × Agent Float :=
  Agent.mk2 h (State.ofPosition (p x y z)) 0

#guard okAnd (Modulation.modulationMatrix [] (agentAt [] 1 0 0).2 (.ellipsoid (e1 2 1 0))) fun r =>
  nearM r.1 ⟨p 1 (-0.5) 0, p (-0.5) 1 0, p 0 0 1.5⟩ 0.0001 &&
  nearM r.2.1 ⟨p (-0.70710678) (-0.70710678) 0, p (-0.70710678) 0.70710678 0, p 0 0 1⟩ 0.0001 &&
  near r.2.2 2 0.0001
#guard okAnd (Modulation.modulationMatrix [] (agentAt [] 1 0 0).2
    (.ellipsoid (rotE "e1" 2 1 0 (0.3 * 3.141592653589793)))) fun r =>
  nearM r.2.1 ⟨p (-0.98768834) 0.15643447 0, p 0.15643447 0.98768834 0, p 0 0 1⟩ 0.0001

def modHeap : Heap Float :=
  [.ellipsoid (e1 2 1 0),
   .ellipsoid (ell "e2" ((State.ofPosition (p 0 0 0)).setLinearVelocity (p (-0.5) (-0.5) 0))),
   .ellipsoid (ell "e3" (State.ofPosition (p 0.9 0 0)))]

def modRun (upd : Bool) : Res (V3 Float) := do
  let env := Env.mk' false
  let env ← env.addObstacle modHeap 0
  let env ← env.addObstacle modHeap 1
  let env ← env.addObstacle modHeap 2
  let (h, env) ← if upd then env.update modHeap else .ok (modHeap, env)
  let (h, a) := agentAt h 1 0 0
  let (h, a) ← a.setLinearVelocity h (p 0.5 0.5 0)
  let (_, v) ← Modulation.modulateVelocity h a env false false false 1 2
  .ok v

-- The truth value of the repository's test needs `env.update()`, which that test does not call:
-- as written there, the list is empty and the velocity is returned unchanged.
#guard okAnd (modRun true) fun v => near3 v (p (-0.25) 1.25 0) 0.0001
#guard okAnd (modRun false) fun v => near3 v (p 0.5 0.5 0) 0

/-! testEnvironment.cpp, test Aggregation -/

def ellAt (name : String) (x y z : Float) : Obj Float :=
  .ellipsoid (Ellipsoid.ofBase (Base.mkPos name (p x y z) (V3.const 0)))

def refX (h : Heap Float) (e : Env) (k : String) : Res Float := do
  let q ← e.lookup h k
  let o ← h.deref q
  let r ← o.base.ref
  .ok r.x

def aggRun : Res Bool := do
  let h : Heap Float := [ellAt "e1" 0.5 0 0, ellAt "e2" (-0.5) 0 0, ellAt "e0" 0 0 0]
  let env ← (Env.mk' true).addObstacle h 0
  let env ← env.addObstacle h 1
  let (h, env) ← env.update h
  let c1 := env.list.length == 1
  let x ← refX h env "aggregate_e1_e2"
  let c2 := x.abs < 1e-4
  let q ← env.lookup h "aggregate_e1_e2"
  let h ← h.setRef q (p 1 0 0)
  let x1 ← refX h env "e1"
  let x2 ← refX h env "e2"
  let c3 := (x1 - 1).abs < 1e-4 && (x2 - 1).abs < 1e-4
  let env ← env.addObstacle h 2
  let (h, env) ← env.update h
  let x ← refX h env "aggregate_e0_e1_e2"
  let c4 := x.abs < 1e-4
  let env ← env.removeObstacle "e0"
  let (h, env) ← env.update h
  let x ← refX h env "aggregate_e1_e2"
  let c5 := x.abs < 1e-4
  let q ← env.lookup h "e1"
  let h := h.modify q (fun o => o.mapBase (·.setPosition (p 2 0 0)))
  let (_, env) ← env.update h
  let c6 := env.list.length == 2
  .ok (c1 && c2 && c3 && c4 && c5 && c6)

#guard okAnd aggRun id

/-- testOptimization.cpp: the names of the aggregated obstacles. -/
def optimizationNames : Res (List String) := do
  let s := Optimization.scene (α := Float)
  let r ← Aggregation.aggregateObstacles s.1 Optimization.obstacleList
  r.2.mapM (fun p => do let o ← r.1.deref p; .ok o.name)

#guard okAnd optimizationNames (· == ["aggregate_e1_e2", "aggregate_e3_e4_e8", "aggregate_e5_e6", "e7"])
#guard okAnd (Optimization.program (α := Float)) (·.length == 62)

end DOA.Sanity
