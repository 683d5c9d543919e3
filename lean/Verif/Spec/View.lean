import Verif.Spec.Ellipsoid
import Verif.Model.Loop
import Verif.Model.RealInst

/-!
# The same scene in other coordinates

The coordinates are turned about the vertical axis and shifted; `side = -1` also exchanges left and right.
-/

namespace DOA.Spec

/-- New coordinates: turned by the angle with cosine `c` and sine `s`, after a reflection if `side = -1`, and shifted. -/
structure View where
  c : ℝ
  s : ℝ
  side : ℝ
  shift : V3 ℝ

namespace View

/-- `c` and `s` are the cosine and the sine of an angle, `side` is a sign. -/
def Valid (V : View) : Prop := V.c * V.c + V.s * V.s = 1 ∧ V.side * V.side = 1

/-- Left and right exchanged if `side = -1`. -/
def flip (V : View) (u : V3 ℝ) : V3 ℝ := ⟨u.x, V.side * u.y, u.z⟩

/-- A direction in the new coordinates. -/
def vector (V : View) (u : V3 ℝ) : V3 ℝ :=
  ⟨V.c * u.x - V.s * (V.side * u.y), V.s * u.x + V.c * (V.side * u.y), u.z⟩

/-- A point in the new coordinates. -/
def point (V : View) (x : V3 ℝ) : V3 ℝ := V.vector x + V.shift

end View

/-- `e'` is the ellipsoid `e` in the new coordinates. The angular velocity changes its sign with the reflection. A
reflection is asked for only if the exponents are whole numbers (otherwise `pow` is not defined on both sides). -/
structure SameEllipsoid (V : View) (e e' : Ellipsoid ℝ) : Prop where
  unit : e.base.orientation.norm = 1
  unit' : e'.base.orientation.norm = 1
  pose : ∀ u, e'.base.pose.apply (V.flip u) = V.point (e.base.pose.apply u)
  axis : e'.axis = e.axis
  curv : e'.curv = e.curv
  margin : e'.base.margin = e.base.margin
  ref : e'.base.refPos = e.base.refPos.map V.point
  linear : e'.base.state.linearVelocity = V.vector e.base.state.linearVelocity
  angular : e'.base.state.angularVelocity = V3.smul V.side (V.vector e.base.state.angularVelocity)
  whole : V.side = -1 → ∃ k1 k2 k3, HasCurv e k1 k2 k3

/-- The listed objects are ellipsoids, and the second heap has them in the new coordinates. -/
def SameObstacles (V : View) (h h' : Heap ℝ) (l : List Ptr) : Prop :=
  ∀ p ∈ l, ∃ e e', h[p]? = some (.ellipsoid e) ∧ h'[p]? = some (.ellipsoid e') ∧ SameEllipsoid V e e'

/-- The agent in the new coordinates. -/
structure SameView (V : View) (a a' : Agent ℝ) : Prop where
  position : a'.state.position = V.point a.state.position
  velocity : a'.state.linearVelocity = V.vector a.state.linearVelocity
  margin : a'.margin = a.margin

/-- No obstacle moves, or the normal towards the agent is horizontal (in the frame of the obstacle). -/
def RestOrLevel (h : Heap ℝ) (a : Agent ℝ) (l : List Ptr) : Prop :=
  ∀ p ∈ l, ∀ e, h[p]? = some (.ellipsoid e) →
    (e.base.state.linearVelocity = V3.zero ∧ e.base.state.angularVelocity = V3.zero) ∨
      (e.normalToAgent a.state.position a.margin).z = 0

/-- The envelopes are the same ellipse in both coordinates, and all obstacles are upright. -/
def SameSight (V : View) (h h' : Heap ℝ) (a a' : Agent ℝ) (l : List Ptr) : Prop :=
  (∃ q q' e e', a.envelope = some q ∧ a'.envelope = some q' ∧ h[q]? = some (.ellipsoid e) ∧
    h'[q']? = some (.ellipsoid e') ∧ SameEllipsoid V e e' ∧ ZRotated e) ∧
  ∀ p ∈ l, ∀ e, h[p]? = some (.ellipsoid e) → ZRotated e

/-- The constants of the control loop in the new coordinates. -/
def View.loop (V : View) (c : Loop ℝ) : Loop ℝ := { c with target := V.point c.target }

/-- Two states of a control loop: the same scene, the obstacles at rest, the envelopes apart from the obstacles. -/
structure SameScene (V : View) (l : List Ptr) (s s' : Heap ℝ × Agent ℝ) : Prop where
  obstacles : SameObstacles V s.1 s'.1 l
  agent : SameView V s.2 s'.2
  rest : ∀ p ∈ l, ∀ e, s.1[p]? = some (.ellipsoid e) →
    e.base.state.linearVelocity = V3.zero ∧ e.base.state.angularVelocity = V3.zero
  envelope : ∃ q e, s.2.envelope = some q ∧ s.1[q]? = some (.ellipsoid e) ∧ q ∉ l
  envelope' : ∃ q e, s'.2.envelope = some q ∧ s'.1[q]? = some (.ellipsoid e) ∧ q ∉ l

end DOA.Spec
