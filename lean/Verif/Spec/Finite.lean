import Verif.Lemmas.Dbl
import Verif.Model.Modulation

/-!
# Scenes without exceptional values

When the computation with doubles divides by nothing that is zero (C101).
-/

namespace DOA

/-- The directions of the 500 rays of the hulls of aggregates. -/
def GridAngle (f : ℝ) : Prop := ∃ i : ℕ, i < 500 ∧ f = -Real.pi + i * ((2 * Real.pi - 1 / 10000) / 499)

/-- An ellipsoid with nonzero half lengths in the plane, and no ray is parallel to the y axis of its frame. -/
structure FitE (e : Ellipsoid ℝ) : Prop where
  solid : e.Solid
  ray : ∀ f, GridAngle f → (e.base.pose.orientation.conjugate.rotate ⟨Real.cos f, Real.sin f, 0⟩).x ≠ 0

/-- A hull with the axes of the world and 500 rays, as in every aggregate. -/
structure FitK (k : Hull ℝ) : Prop where
  rays : k.resolution = 500
  axes : k.base.pose.orientation = Quat.one

def FitO : Obj ℝ → Prop
  | .ellipsoid e => FitE e
  | .aggregate a => FitK a.inside ∧ FitK a.outside
  | .hull _ => True
  | .plain _ => True

/-- Only for ellipsoids: nonzero half lengths in the plane. -/
def SolidO : Obj ℝ → Prop
  | .ellipsoid e => e.Solid
  | _ => True

/-- Every obstacle in memory is fit. -/
def Fit (h : Heap ℝ) : Prop := ∀ (p : Ptr) (o : Obj ℝ), h[p]? = some o → FitO o

def Solids (h : Heap ℝ) : Prop := ∀ (p : Ptr) (o : Obj ℝ), h[p]? = some o → SolidO o

/-- The point is not the centre of the hull, and no radius is zero. -/
structure Clear (k : Hull ℝ) (x : V3 ℝ) : Prop where
  off : k.base.pose.inverse.apply x ≠ V3.zero
  radii : ∀ q ∈ k.polar, q.x ≠ 0

/-- What each kind of obstacle needs so that its queries meet no exceptional value: an ellipsoid integer curvature, nonzero half
lengths and, with planar modulation, a heading that is not parallel to the y axis of its frame; a hull an agent that is not
in its centre. -/
def Kind (planar : Bool) (a : Agent ℝ) : Obj ℝ → Prop
  | .ellipsoid el => el.NatCurv ∧ el.Solid ∧ (planar = true → (el.base.pose.inverse.apply a.state.position).x
      ≠ (el.base.pose.inverse.apply (a.state.position + a.state.linearVelocity)).x)
  | .hull k => Clear k a.state.position
  | .aggregate g => Clear g.inside a.state.position ∧ Clear g.outside a.state.position
  | .plain _ => True

/-- The reference basis that is used is not singular. -/
def Upright (h : Heap ℝ) (a : Agent ℝ) (o : Obj ℝ) : Prop :=
  ∀ n ref, h.normalToAgent o a.state.position a.margin = .ok n → o.base.refPos = some ref →
    (Modulation.referenceBasis n (Modulation.referenceDirection o.base.pose a.state.position ref)).det ≠ 0

end DOA
