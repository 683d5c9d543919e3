import Verif.Model.Objects
import Verif.Model.RealInst

/-!
# Specification: (super)ellipsoids

Everything is said in coordinates of the obstacle frame: `y` stands for the world point
`e.base.pose.apply y` (C21 shows that every world point has exactly one such `y`).
-/

namespace DOA.Spec
open DOA

/-- Half lengths of the obstacle inflated by its own margin and an extra margin `m`. -/
def halfLengths (e : Ellipsoid ℝ) (m : V3 ℝ) : V3 ℝ :=
  ⟨e.axis.x + e.base.margin.x + m.x, e.axis.y + e.base.margin.y + m.y,
   e.axis.z + e.base.margin.z + m.z⟩

/-- `F(y) = (y₁/l₁)^(2k₁) + (y₂/l₂)^(2k₂) + (y₃/l₃)^(2k₃)`. -/
noncomputable def level (l : V3 ℝ) (k1 k2 k3 : ℕ) (y : V3 ℝ) : ℝ :=
  (y.x / l.x) ^ (2 * k1) + (y.y / l.y) ^ (2 * k2) + (y.z / l.z) ^ (2 * k3)

/-- The obstacle has (positive) integer curvature exponents. -/
def HasCurv (e : Ellipsoid ℝ) (k1 k2 k3 : ℕ) : Prop :=
  e.curv = ⟨(k1 : ℝ), (k2 : ℝ), (k3 : ℝ)⟩ ∧ 1 ≤ k1 ∧ 1 ≤ k2 ∧ 1 ≤ k3

/-- All half lengths exceed a bound. -/
def AllGt (l : V3 ℝ) (b : ℝ) : Prop := b < l.x ∧ b < l.y ∧ b < l.z

/-- The obstacle is rotated about the z axis only (or not at all). -/
def ZRotated (e : Ellipsoid ℝ) : Prop :=
  e.base.orientation.norm = 1 ∧ e.base.orientation.x = 0 ∧ e.base.orientation.y = 0

/-- Points of the x-y plane covered by the ellipse with half lengths `l` of a z-rotated obstacle:
images of frame points `(y₁,y₂,0)` with `(y₁/l₁)² + (y₂/l₂)² ≤ 1`. -/
def InEllipse (e : Ellipsoid ℝ) (l : V3 ℝ) (x y : ℝ) : Prop :=
  ∃ u v : ℝ, (u / l.x) ^ 2 + (v / l.y) ^ 2 ≤ 1 ∧
    x = (e.base.pose.apply ⟨u, v, 0⟩).x ∧ y = (e.base.pose.apply ⟨u, v, 0⟩).y

/-- The boundary of the same ellipse. -/
def OnEllipse (e : Ellipsoid ℝ) (l : V3 ℝ) (x y : ℝ) : Prop :=
  ∃ u v : ℝ, (u / l.x) ^ 2 + (v / l.y) ^ 2 = 1 ∧
    x = (e.base.pose.apply ⟨u, v, 0⟩).x ∧ y = (e.base.pose.apply ⟨u, v, 0⟩).y

end DOA.Spec
