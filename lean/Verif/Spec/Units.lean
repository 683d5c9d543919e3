import Verif.Spec.Ellipsoid
import Verif.Model.Loop

/-!
# C98: the same scene in other units

In the new units all lengths are multiplied by `k` and all speeds by `m` (so times by `k / m`).
-/

namespace DOA.Spec

/-- Other units of length and speed. -/
structure Units where
  k : ℝ
  m : ℝ

/-- Units are positive. -/
def Units.Valid (U : Units) : Prop := 0 < U.k ∧ 0 < U.m

/-- `e'` is the ellipsoid `e` in the new units. The three exponents are the same whole number, and no half length (with the
margin `r` of the agent) is so short that the code takes it for zero, in neither units. -/
structure ScaledEllipsoid (U : Units) (r : ℝ) (e e' : Ellipsoid ℝ) : Prop where
  position : e'.base.state.pose.position = V3.smul U.k e.base.state.pose.position
  orientation : e'.base.state.pose.orientation = e.base.state.pose.orientation
  axis : e'.axis = V3.smul U.k e.axis
  margin : e'.base.margin = V3.smul U.k e.base.margin
  curv : e'.curv = e.curv
  ref : e'.base.refPos = e.base.refPos.map (V3.smul U.k)
  linear : e'.base.state.linearVelocity = V3.smul U.m e.base.state.linearVelocity
  angular : e'.base.state.angularVelocity = V3.smul (U.m / U.k) e.base.state.angularVelocity
  exponent : ∃ c : ℕ, HasCurv e c c c
  long : AllGt (halfLengths e (V3.const r)) (1 / 10000)
  long' : AllGt (halfLengths e' (V3.const (U.k * r))) (1 / 10000)

/-- The listed objects are ellipsoids, and the second heap has them in the new units. -/
def ScaledObstacles (U : Units) (r : ℝ) (h h' : Heap ℝ) (l : List Ptr) : Prop :=
  ∀ p ∈ l, ∃ e e', h[p]? = some (.ellipsoid e) ∧ h'[p]? = some (.ellipsoid e') ∧ ScaledEllipsoid U r e e'

/-- The agent in the new units. -/
structure ScaledAgent (U : Units) (a a' : Agent ℝ) : Prop where
  position : a'.state.position = V3.smul U.k a.state.position
  velocity : a'.state.linearVelocity = V3.smul U.m a.state.linearVelocity
  margin : a'.margin = U.k * a.margin

/-- The constants of the control loop in the new units: gain is 1/time, `dt` is a time. -/
noncomputable def Units.loop (U : Units) (c : Loop ℝ) : Loop ℝ :=
  { c with
    gain := c.gain * (U.m / U.k)
    dt := c.dt * (U.k / U.m)
    target := V3.smul U.k c.target
    maxVel := c.maxVel.map (U.m * ·) }

/-- Two states of a control loop: the same scene, the envelopes apart from the obstacles. -/
structure ScaledScene (U : Units) (l : List Ptr) (s s' : Heap ℝ × Agent ℝ) : Prop where
  obstacles : ScaledObstacles U s.2.margin s.1 s'.1 l
  agent : ScaledAgent U s.2 s'.2
  envelope : ∃ q e, s.2.envelope = some q ∧ s.1[q]? = some (.ellipsoid e) ∧ q ∉ l
  envelope' : ∃ q e, s'.2.envelope = some q ∧ s'.1[q]? = some (.ellipsoid e) ∧ q ∉ l

end DOA.Spec
