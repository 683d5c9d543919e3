import Verif.Lemmas.Ellipsoid
import Mathlib.Analysis.Convex.Deriv
import Mathlib.Analysis.Convex.Mul

/-! The level function is convex. -/

namespace DOA.Ellipsoid
open DOA.Spec

/-- an even power lies above its tangents -/
theorem even_pow_tangent (k : ℕ) (a b : ℝ) :
    (2 * k : ℕ) * a ^ (2 * k - 1) * (b - a) ≤ b ^ (2 * k) - a ^ (2 * k) := by
  have hc : ConvexOn ℝ Set.univ fun x : ℝ => x ^ (2 * k) := (even_two_mul k).convexOn_pow
  have hd := hasDerivAt_pow (2 * k) a
  rcases lt_trichotomy a b with h | h | h
  · have := hc.le_slope_of_hasDerivAt (Set.mem_univ _) (Set.mem_univ _) h hd
    rw [slope_def_field, le_div_iff₀ (by linarith)] at this
    exact this
  · subst h; simp
  · have := hc.slope_le_of_hasDerivAt (Set.mem_univ _) (Set.mem_univ _) h hd
    rw [slope_def_field, div_le_iff₀ (by linarith)] at this
    linarith

/-- the level function lies above its tangent planes -/
theorem level_tangent (l : V3 ℝ) (k1 k2 k3 : ℕ) (y w : V3 ℝ) :
    ((2 * k1 : ℕ) * (y.x / l.x) ^ (2 * k1 - 1) * ((w - y).x / l.x)) +
       ((2 * k2 : ℕ) * (y.y / l.y) ^ (2 * k2 - 1) * ((w - y).y / l.y)) +
       ((2 * k3 : ℕ) * (y.z / l.z) ^ (2 * k3 - 1) * ((w - y).z / l.z)) ≤
      level l k1 k2 k3 w - level l k1 k2 k3 y := by
  have h1 := even_pow_tangent k1 (y.x / l.x) (w.x / l.x)
  have h2 := even_pow_tangent k2 (y.y / l.y) (w.y / l.y)
  have h3 := even_pow_tangent k3 (y.z / l.z) (w.z / l.z)
  simp only [level, V3.sub_x, V3.sub_y, V3.sub_z, sub_div]
  linarith

end DOA.Ellipsoid
