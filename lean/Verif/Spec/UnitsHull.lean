import Verif.Spec.Units
import Verif.Spec.Alike

/-!
# C98: hulls and aggregates in other units
-/

namespace DOA.Spec

/-- The members of class `Obstacle` in the new units. -/
noncomputable def scaledBase (U : Units) (b : Base ℝ) : Base ℝ :=
  { b with
    state := ⟨⟨V3.smul U.k b.state.pose.position, b.state.pose.orientation⟩, V3.smul U.m b.state.linearVelocity,
      V3.smul (U.m / U.k) b.state.angularVelocity⟩
    refPos := b.refPos.map (V3.smul U.k)
    margin := V3.smul U.k b.margin }

/-- A surface point in polar coordinates: only the radius is a length. -/
def scaledPolar (U : Units) (q : V3 ℝ) : V3 ℝ := ⟨U.k * q.x, q.y, q.z⟩

/-- A hull in the new units. -/
noncomputable def scaledHull (U : Units) (k : Hull ℝ) : Hull ℝ :=
  { k with
    base := scaledBase U k.base
    minRadius := U.k * k.minRadius
    polar := k.polar.map (scaledPolar U)
    cart := k.cart.map (V3.smul U.k) }

/-- An ellipsoid in the new units. -/
noncomputable def scaledEll (U : Units) (e : Ellipsoid ℝ) : Ellipsoid ℝ :=
  { e with base := scaledBase U e.base, axis := V3.smul U.k e.axis }

/-- An obstacle of any kind in the new units. -/
noncomputable def scaledObj (U : Units) : Obj ℝ → Obj ℝ
  | .plain b => .plain (scaledBase U b)
  | .ellipsoid e => .ellipsoid (scaledEll U e)
  | .hull k => .hull (scaledHull U k)
  | .aggregate a => .aggregate { a with
      base := scaledBase U a.base
      inside := scaledHull U a.inside
      outside := scaledHull U a.outside }

/-- All objects in the new units. -/
noncomputable def scaledHeap (U : Units) (h : Heap ℝ) : Heap ℝ := h.map (scaledObj U)

/-- Three equal whole exponents, and no half length (without the margin of the agent) is so short that the code takes it
for zero, in neither units. -/
structure ThickEll (U : Units) (e : Ellipsoid ℝ) : Prop where
  exponent : ∃ c : ℕ, HasCurv e c c c
  long : AllGt (halfLengths e V3.zero) (1 / 10000)
  long' : AllGt (V3.smul U.k (halfLengths e V3.zero)) (1 / 10000)

/-- The listed ellipsoids are thick (those that are only members of listed aggregates need not be). -/
def ThickListed (U : Units) (h : Heap ℝ) (l : List Ptr) : Prop :=
  ∀ p ∈ l, ∀ e, h[p]? = some (.ellipsoid e) → ThickEll U e

/-- At the place of the agent the normal of every listed hull and aggregate is long enough in both units for the code to
take it for a direction, and no listed hull or aggregate moves. -/
def SteadyHulls (U : Units) (h : Heap ℝ) (a : Agent ℝ) (l : List Ptr) : Prop :=
  ∀ p ∈ l, ∀ o, h[p]? = some o → (∀ e, o ≠ .ellipsoid e) →
    (o.base.state.linearVelocity = V3.zero ∧ o.base.state.angularVelocity = V3.zero) ∧
    ∀ n, h.normalToAgent o a.state.position a.margin = .ok n → 1 / 10000 ≤ n.norm ∧ 1 / 10000 ≤ U.k * n.norm

end DOA.Spec
