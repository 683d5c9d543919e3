import Verif.Spec.Alike
import Verif.Spec.Ellipsoid

/-!
# Specification: the same scene seen from another origin

The axes keep their directions; every point `x` becomes `x + t`.
-/

namespace DOA.Spec

/-- The members of class `Obstacle` seen from another origin. -/
def movedBase (t : V3 ℝ) (b : Base ℝ) : Base ℝ :=
  { b with state := { b.state with pose := { b.state.pose with position := b.state.pose.position + t } },
           refPos := b.refPos.map (· + t) }

/-- A hull seen from another origin: the polar surface points are relative to the centre of the hull, the Cartesian ones
are points of space. -/
def movedHull (t : V3 ℝ) (k : Hull ℝ) : Hull ℝ := { k with base := movedBase t k.base, cart := k.cart.map (· + t) }

/-- An obstacle of any kind seen from another origin. Aggregates refer to their parts by pointers, which do not depend on
coordinates. -/
def movedObj (t : V3 ℝ) : Obj ℝ → Obj ℝ
  | .plain b => .plain (movedBase t b)
  | .ellipsoid e => .ellipsoid { e with base := movedBase t e.base }
  | .hull k => .hull (movedHull t k)
  | .aggregate a => .aggregate { a with base := movedBase t a.base, inside := movedHull t a.inside,
                                        outside := movedHull t a.outside }

/-- All objects seen from another origin. -/
def movedHeap (t : V3 ℝ) (h : Heap ℝ) : Heap ℝ := h.map (movedObj t)

/-- An agent seen from another origin. -/
def movedAgent (t : V3 ℝ) (a : Agent ℝ) : Agent ℝ :=
  { a with state := { a.state with pose := { a.state.pose with position := a.state.pose.position + t } } }

/-- Either the origin moves in the x-y plane, or every ellipsoid is rotated about the z axis only. -/
def Level (t : V3 ℝ) (h : Heap ℝ) : Prop := t.z = 0 ∨ ∀ (p : Ptr) (e : Ellipsoid ℝ), h[p]? = some (.ellipsoid e) → ZRotated e

/-- A control loop with the target seen from another origin. -/
def movedLoop (t : V3 ℝ) (c : Loop ℝ) : Loop ℝ := { c with target := c.target + t }

end DOA.Spec
