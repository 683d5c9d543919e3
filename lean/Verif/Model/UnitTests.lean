import Verif.Model.Modulation

/-!
# The unit tests of the project

Every `TEST` of tests/testState.cpp, testEllipsoidObstacle.cpp, testModulation.cpp and testEnvironment.cpp as a program
that returns what is asserted. Printing is left out. An `Eigen` vector, matrix or quaternion is compared coefficient by
coefficient, as in the loops of the tests.
-/

namespace DOA.UnitTests

variable {α : Type} [Add α] [Sub α] [Mul α] [Div α] [Neg α] [Zero α] [One α]
  [LE α] [LT α] [DecidableLE α] [DecidableLT α] [CMath α]

/-- One assertion. -/
inductive Check (α : Type) where
  /-- `ASSERT_NEAR(value, truth, tol)` -/
  | near (value truth tol : α)
  /-- `abs(value) < bound` -/
  | below (value bound : α)
  /-- `value == truth` of numbers -/
  | same (value truth : α)
  /-- `ASSERT_EQ(value, truth)` of truth values -/
  | answer (value truth : Bool)
  /-- `EXPECT_TRUE(size == n)` -/
  | size (n m : Nat)

/-- The coefficients of a vector. -/
def near3 (a b : V3 α) (tol : α) : List (Check α) := [.near a.x b.x tol, .near a.y b.y tol, .near a.z b.z tol]

/-- The coefficients of a matrix. -/
def nearM (a b : M3 α) (tol : α) : List (Check α) := near3 a.c0 b.c0 tol ++ near3 a.c1 b.c1 tol ++ near3 a.c2 b.c2 tol

/-- The coefficients of a quaternion. -/
def nearQ (a b : Quat α) (tol : α) : List (Check α) :=
  [.near a.x b.x tol, .near a.y b.y tol, .near a.z b.z tol, .near a.w b.w tol]

/-! ## tests/testState.cpp -/

/-- 0.70710678 -/
def half : α := lit 70710678 100000000

/-- tests/testState.cpp:7-21 -/
def multiplyBoth : Res (List (Check α)) :=
  let tf1 := Pose.mk2 (α := α) ⟨1, lit 2 1, lit 3 1⟩ ⟨1, 0, 0, 0⟩
  let tf2 := Pose.mk2 (α := α) ⟨lit 4 1, lit 5 1, lit 6 1⟩ ⟨1, 0, 0, 0⟩
  let tf3 := tf1.mul tf2
  .ok (near3 (tf1.mulAssign tf2).position tf3.position (lit 1 100000))

/-- tests/testState.cpp:24-38 -/
def multiplySame : Res (List (Check α)) :=
  let tf1 := Pose.mk2 (α := α) ⟨1, lit 2 1, lit 3 1⟩ ⟨1, 0, 0, 0⟩
  let tf2 := Pose.mk2 (α := α) ⟨lit 4 1, lit 5 1, lit 6 1⟩ ⟨1, 0, 0, 0⟩
  .ok (near3 (tf1.mulAssign tf2).position ⟨lit 5 1, lit 7 1, lit 9 1⟩ (lit 1 100000))

/-- tests/testState.cpp:40-62 -/
def multiplyDifferent : Res (List (Check α)) :=
  let tf1 := Pose.mk2 (α := α) ⟨1, lit 2 1, lit 3 1⟩ ⟨half, half, 0, 0⟩
  let tf2 := Pose.mk2 (α := α) ⟨lit 4 1, lit 5 1, lit 6 1⟩ ⟨0, 0, half, half⟩
  let tf1 := tf1.mulAssign tf2
  .ok (near3 tf1.position ⟨lit 5 1, -lit 4 1, lit 8 1⟩ (lit 1 100000) ++
    nearQ tf1.orientation ⟨0, 0, 0, 1⟩ (lit 1 100000))

/-- tests/testState.cpp:64-82 -/
def inverseNull : Res (List (Check α)) :=
  let tf1 := (Pose.mk2 (α := α) ⟨1, lit 2 1, lit 3 1⟩ ⟨1, 0, 0, 0⟩).inverse
  .ok (near3 tf1.position ⟨-1, -lit 2 1, -lit 3 1⟩ (lit 1 100000) ++
    nearQ tf1.orientation ⟨1, 0, 0, 0⟩ (lit 1 100000))

/-- tests/testState.cpp:84-102 -/
def inverseNonNull : Res (List (Check α)) :=
  let tf1 := (Pose.mk2 (α := α) ⟨1, lit 2 1, lit 3 1⟩ ⟨half, half, 0, 0⟩).inverse
  .ok (near3 tf1.position ⟨-1, -lit 3 1, lit 2 1⟩ (lit 1 100000) ++
    nearQ tf1.orientation ⟨half, -half, 0, 0⟩ (lit 1 100000))

def stateTests : List (Res (List (Check α))) :=
  [multiplyBoth, multiplySame, multiplyDifferent, inverseNull, inverseNonNull]

/-! ## tests/testEllipsoidObstacle.cpp -/

/-- `Ellipsoid e("e1", State(position))` -/
def ellipsoid (name : String) (s : State α) : Ellipsoid α := Ellipsoid.ofBase (Base.mkState name s (V3.const 0))

/-- `Agent agent(State(agent_position))` -/
def agent (h : Heap α) (p : V3 α) : Heap α × Agent α := Agent.mk2 h (State.ofPosition p) 0

/-- tests/testEllipsoidObstacle.cpp:8-60, three tests -/
def distance (position : V3 α) (truth : α) : Res (List (Check α)) := do
  let e := ellipsoid "e1" (State.ofPosition position)
  let a := (agent ([] : Heap α) ⟨1, 0, 0⟩).2
  let d ← Heap.distanceToAgent [] (.ellipsoid e) a.state.position a.margin
  .ok [.near d truth (lit 1 100)]

/-- tests/testEllipsoidObstacle.cpp:62-114, three tests -/
def normal (position truth : V3 α) : Res (List (Check α)) := do
  let e := ellipsoid "e1" (State.ofPosition position)
  let a := (agent ([] : Heap α) ⟨1, 0, 0⟩).2
  let n ← Heap.normalToAgent [] (.ellipsoid e) a.state.position a.margin
  .ok (near3 n truth (lit 1 100))

/-- `ASSERT_EQ` in both orders. -/
def both (e1 e2 : Ellipsoid α) (truth : Bool) : Res (List (Check α)) := do
  let b1 ← Heap.isIntersecting [] (.ellipsoid e1) (.ellipsoid e2)
  let b2 ← Heap.isIntersecting [] (.ellipsoid e2) (.ellipsoid e1)
  .ok [.answer b1 truth, .answer b2 truth]

/-- `Ellipsoid e("name", State(position, orientation))` with the angle given. -/
def turned (name : String) (p : V3 α) (angle : α) : Ellipsoid α := ellipsoid name (State.mk2 p (Quat.ofAngleZ angle))

/-- `Ellipsoid e("name")` -/
def named (name : String) : Ellipsoid α := Ellipsoid.ofBase (Base.mkName name (V3.const 0))

/-- tests/testEllipsoidObstacle.cpp:116-124 -/
def isInside : Res (List (Check α)) := both (named "e1") { named "e2" with axis := ⟨lit 2 1, lit 2 1, 0⟩ } true

/-- tests/testEllipsoidObstacle.cpp:127-136 -/
def isIntersecting : Res (List (Check α)) := both (named "e1") (turned "e2" ⟨1, 1, 0⟩ (lit 75 100)) true

/-- tests/testEllipsoidObstacle.cpp:138-147 -/
def isNotIntersecting : Res (List (Check α)) :=
  both (named "e1") (turned "e2" ⟨lit 4 1, lit 4 1, 0⟩ (lit 75 100)) false

/-- tests/testEllipsoidObstacle.cpp:149-163 -/
def isIntersectingRotated : Res (List (Check α)) :=
  both { turned "e1" ⟨lit 37 10, lit 47 10, 0⟩ (lit 75 100) with axis := ⟨lit 75 100, lit 2 10, 0⟩ }
    { turned "e2" ⟨lit 46 10, lit 47 10, 0⟩ (-lit 75 100) with axis := ⟨lit 75 100, lit 2 10, 0⟩ } true

/-- tests/testEllipsoidObstacle.cpp:165-181 -/
def isNotIntersectingRotated : Res (List (Check α)) :=
  both { turned "e1" ⟨lit 3 1, lit 62 100, 0⟩ 0 with axis := ⟨lit 5 100, lit 7 10, 0⟩ }
    { turned "e2" ⟨lit 46 10, lit 47 10, 0⟩ (-lit 75 100) with axis := ⟨lit 75 100, lit 2 10, 0⟩ } false

def ellipsoidTests : List (Res (List (Check α))) :=
  [distance ⟨lit 2 1, 1, 0⟩ (lit 2 1), distance ⟨0, 0, 0⟩ 1, distance ⟨lit 9 10, 0, 0⟩ (lit 1 100),
   normal ⟨lit 2 1, 1, 0⟩ ⟨-half, -half, 0⟩, normal ⟨0, 0, 0⟩ ⟨1, 0, 0⟩, normal ⟨lit 9 10, 0, 0⟩ ⟨1, 0, 0⟩,
   isInside, isIntersecting, isNotIntersecting, isIntersectingRotated, isNotIntersectingRotated]

/-! ## tests/testModulation.cpp -/

/-- tests/testModulation.cpp:9-61, three tests. The loop of the tests runs over the computed weights; that there are as many
as expected is asserted in addition. -/
def weights (distances truth : List α) : Res (List (Check α)) :=
  let w := Modulation.weightObstacles distances 1 (lit 2 1)
  .ok (.size w.length truth.length :: (w.zip truth).map fun x => .near x.1 x.2 (lit 1 100000))

/-- the matrix with 0.70710678 of three tests -/
def basisTruth : M3 α := ⟨⟨-half, -half, 0⟩, ⟨-half, half, 0⟩, ⟨0, 0, 1⟩⟩

/-- tests/testModulation.cpp:63-104; the orthogonal basis is printed but not compared -/
def basis : Res (List (Check α)) := do
  let e := ellipsoid "e1" (State.mk2 (α := α) ⟨lit 2 1, 1, 0⟩ ⟨1, 0, 0, 0⟩)
  let a := (agent ([] : Heap α) ⟨1, 0, 0⟩).2
  let n ← Heap.normalToAgent [] (.ellipsoid e) a.state.position a.margin
  let b ← Modulation.basisMatrices n a.state.position e.base
  .ok (nearM b.1 basisTruth (lit 1 10000))

/-- tests/testModulation.cpp:106-135 -/
def basisRotated : Res (List (Check α)) := do
  let e := turned "e1" (⟨lit 2 1, 1, 0⟩ : V3 α) (lit 3 10 * CMath.pi)
  let a := (agent ([] : Heap α) ⟨1, 0, 0⟩).2
  let n ← Heap.normalToAgent [] (.ellipsoid e) a.state.position a.margin
  let b ← Modulation.basisMatrices n a.state.position e.base
  .ok (nearM b.2 ⟨⟨-lit 98768834 100000000, lit 15643447 100000000, 0⟩, ⟨lit 15643447 100000000, lit 98768834 100000000, 0⟩,
    ⟨0, 0, 1⟩⟩ (lit 1 10000))

/-- tests/testModulation.cpp:137-159 -/
def eigenvalues : Res (List (Check α)) := do
  let e := ellipsoid "e1" (State.ofPosition (α := α) ⟨lit 2 1, 1, 0⟩)
  let a := (agent ([] : Heap α) ⟨1, 0, 0⟩).2
  let d ← Heap.distanceToAgent [] (.ellipsoid e) a.state.position a.margin
  .ok (near3 (Modulation.diagonalEigenvalues d 1) ⟨lit 5 10, lit 15 10, lit 15 10⟩ (lit 1 10000))

/-- tests/testModulation.cpp:161-205 -/
def matrix : Res (List (Check α)) := do
  let e := ellipsoid "e1" (State.ofPosition (α := α) ⟨lit 2 1, 1, 0⟩)
  let a := (agent ([] : Heap α) ⟨1, 0, 0⟩).2
  let m ← Modulation.modulationMatrix [] a (.ellipsoid e)
  .ok (nearM m.1 ⟨⟨1, -lit 5 10, 0⟩, ⟨-lit 5 10, 1, 0⟩, ⟨0, 0, lit 15 10⟩⟩ (lit 1 10000) ++
    nearM m.2.1 basisTruth (lit 1 10000) ++ [.near m.2.2 (lit 2 1) (lit 1 10000)])

/-- The obstacles of the two tests that follow. -/
def three : Heap α :=
  [.ellipsoid (ellipsoid "e1" (State.mk2 ⟨lit 2 1, 1, 0⟩ ⟨1, 0, 0, 0⟩)),
   .ellipsoid (ellipsoid "e2" ((State.mk2 ⟨0, 0, 0⟩ ⟨1, 0, 0, 0⟩).setLinearVelocity ⟨-lit 5 10, -lit 5 10, 0⟩)),
   .ellipsoid (ellipsoid "e3" (State.mk2 ⟨lit 9 10, 0, 0⟩ ⟨1, 0, 0, 0⟩))]

/-- tests/testModulation.cpp:207-264 -/
def relative : Res (List (Check α)) := do
  let s := agent (three : Heap α) ⟨1, 0, 0⟩
  let s ← s.2.setLinearVelocity s.1 ⟨lit 5 10, lit 5 10, 0⟩
  let items ← [0, 1, 2].mapM fun p => do
    let o ← s.1.deref p
    let m ← Modulation.modulationMatrix s.1 s.2 o
    .ok { base := o.base, matrix := m.1, basis := m.2.1, dist := m.2.2 : Modulation.Item α }
  let w := Modulation.weightObstacles (items.map (·.dist)) 1 (lit 2 1)
  let v := Modulation.relativeVelocities s.2.state.position s.2.state.linearVelocity items w
  .ok (near3 v.1 ⟨lit 75 100, lit 75 100, 0⟩ (lit 1 10000) ++ near3 v.2 ⟨-lit 25 100, -lit 25 100, 0⟩ (lit 1 10000))

/-- tests/testModulation.cpp:266-298. The test does not call `env.update()`; `withUpdate` says whether the call is
inserted after the obstacles have been added. -/
def modulate (withUpdate : Bool) : Res (List (Check α)) := do
  let env := Env.mk' false
  let env ← env.addObstacle (three : Heap α) 0
  let env ← env.addObstacle (three : Heap α) 1
  let env ← env.addObstacle (three : Heap α) 2
  let u ← if withUpdate then env.update three else .ok (three, env)
  let s := agent u.1 ⟨1, 0, 0⟩
  let s ← s.2.setLinearVelocity s.1 ⟨lit 5 10, lit 5 10, 0⟩
  let r ← Modulation.modulateVelocity s.1 s.2 u.2 false false false 1 (lit 2 1)
  .ok (near3 r.2 ⟨-lit 25 100, lit 125 100, 0⟩ (lit 1 10000))

/-- All tests of the file but the last. -/
def modulationTests : List (Res (List (Check α))) :=
  [weights [0, 1, lit 2 1, lit 3 1, lit 4 1] [lit 5 10, lit 5 10, 0, 0, 0],
   weights [1, lit 2 1, lit 3 1, lit 4 1, lit 5 1] [1, 0, 0, 0, 0],
   weights [lit 2 1, lit 3 1, lit 4 1, lit 5 1, lit 6 1] [lit 6832416 10000000, lit 1708104 10000000,
     lit 7591573 100000000, lit 427026 10000000, lit 2732966 100000000],
   basis, basisRotated, eigenvalues, matrix, relative]

/-! ## tests/testEnvironment.cpp -/

/-- tests/testEnvironment.cpp:8-20; `r1` … `r5` are the values of `rand()` -/
def addObstacle (randMax r1 r2 r3 r4 r5 : Nat) : Res (List (Check α)) := do
  let pos : V3 α := ⟨MathTools.randFloat r1 randMax (lit 3 1) (-lit 3 1), MathTools.randFloat r2 randMax (lit 3 1) (-lit 3 1), 0⟩
  let e := turned "e1" pos (MathTools.randFloat r3 randMax (lit 2 1) 0 * CMath.pi)
  let h : Heap α := [.ellipsoid { e with axis := ⟨MathTools.randFloat r4 randMax (lit 3 1) (lit 2 10),
    MathTools.randFloat r5 randMax (lit 3 1) (lit 2 10), 0⟩ }]
  let env ← (Env.mk' true).addObstacle h 0
  let p ← env.lookup h "e1"
  let o ← h.deref p
  .ok [.same o.position.x pos.x]

/-- tests/testEnvironment.cpp:22-37; printing the first obstacle is left out -/
def getList : Res (List (Check α)) := do
  let h : Heap α := [.ellipsoid (named "e0"), .ellipsoid (named "e1"), .ellipsoid (named "e2")]
  let env ← [0, 1, 2].foldlM (fun e p => e.addObstacle h p) (Env.mk' false)
  let r ← env.update h
  .ok [.size r.2.list.length 3]

/-- `env[k]->get_reference_position()(0)` -/
def refX (h : Heap α) (e : Env) (k : String) : Res α := do
  let p ← e.lookup h k
  let o ← h.deref p
  let r ← o.base.ref
  .ok r.x

/-- tests/testEnvironment.cpp:39-88, with the obstacles `e1`, `e2` and `e0` at the addresses 0, 1 and 2 -/
def aggregationOf (h : Heap α) : Res (List (Check α)) := do
  let env ← (Env.mk' true).addObstacle h 0
  let env ← env.addObstacle h 1
  let u ← env.update h
  let x1 ← refX u.1 u.2 "aggregate_e1_e2"
  let p ← u.2.lookup u.1 "aggregate_e1_e2"
  let h ← u.1.setRef p ⟨1, 0, 0⟩
  let x2 ← refX h u.2 "e1"
  let x3 ← refX h u.2 "e2"
  let env ← u.2.addObstacle h 2
  let u2 ← env.update h
  let x4 ← refX u2.1 u2.2 "aggregate_e0_e1_e2"
  let env ← u2.2.removeObstacle "e0"
  let u3 ← env.update u2.1
  let x5 ← refX u3.1 u3.2 "aggregate_e1_e2"
  let p ← u3.2.lookup u3.1 "e1"
  let o ← u3.1.deref p
  let u4 ← u3.2.update (u3.1.set p (o.mapBase (·.setPosition ⟨lit 2 1, 0, 0⟩)))
  .ok [.size u.2.list.length 1, .below x1 (lit 1 10000), .below (x2 - 1) (lit 1 10000), .below (x3 - 1) (lit 1 10000),
    .below x4 (lit 1 10000), .below x5 (lit 1 10000), .size u4.2.list.length 2]

/-- tests/testEnvironment.cpp:39-88. The obstacle `e0`, created later in the test, is there from the beginning. -/
def aggregation : Res (List (Check α)) :=
  let ell (name : String) (p : V3 α) : Obj α := .ellipsoid (Ellipsoid.ofBase (Base.mkPos name p (V3.const 0)))
  aggregationOf [ell "e1" ⟨lit 5 10, 0, 0⟩, ell "e2" ⟨-lit 5 10, 0, 0⟩, ell "e0" ⟨0, 0, 0⟩]

end DOA.UnitTests
