import Verif.Spec.Fp
import Verif.Model.Loop

/-!
# Finite precision: the control loop
-/

namespace DOA

/-- The constants of the loop, rounded. -/
def Loop.fp (A : Arith) (c : Loop ℝ) : Loop (Fp A) :=
  { gain := A.ld c.gain, dt := A.ld c.dt, target := c.target.fp A, maxVel := c.maxVel.map A.ld, isLocal := c.isLocal,
    addRepulsion := c.addRepulsion, planar := c.planar, critical := A.ld c.critical, power := A.ld c.power }

/-- `pow(0, n) = 0` for positive integers `n` (C11 F.10.4.4). -/
def Arith.PowZero (A : Arith) : Prop := ∀ n : ℕ, 0 < n → A.pow 0 (n : ℝ) = .fin 0

/-- Conditions on the constants of the loop, on the obstacle and on the start, in exact arithmetic. `T` is the distance from
which on the agent is drawn to its target, `R` bounds the distance of the agent from its target. -/
structure Kept (c : Loop ℝ) (centre x0 : V3 ℝ) (l L κ : ℝ) (k : ℕ) (T R : ℝ) : Prop where
  gain : 0 < c.gain
  dt : 0 < c.dt
  maxVel : ∀ v, c.maxVel = some v → 0 < v
  critical : c.critical ≤ 1
  far : 11 / 10 ≤ T
  turn : κ / 10 ^ 7 ≤ 1 - κ / T
  rate : 4 * κ ^ 2 * (c.dt * c.gain) ≤ 1 - κ / T
  start : V3.norm (x0 - c.target) < R
  near : 3 / 2 * L * T + V3.norm (centre - c.target) +
    c.dt * (2 * κ * (1 + 1 / 10 ^ 8) * (c.gain * R) + 33 / 10 * L) < R
  step : 2 * k * (c.dt * c.gain * ((1 + 22 / 10 ^ 8 * κ) * R)) < l
  error : 22 / 10 ^ 9 * κ * k * (c.gain * R) < l
  push : 121 / 10 ^ 6 * k < l

end DOA
