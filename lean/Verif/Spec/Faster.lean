import Verif.Model.Loop
import Verif.Model.RealInst

/-! # The same scene with another unit of time -/

namespace DOA.Spec
open DOA

/-- A state with all speeds multiplied by `m`. -/
noncomputable def fasterState (m : ℝ) (s : State ℝ) : State ℝ :=
  { s with linearVelocity := V3.smul m s.linearVelocity, angularVelocity := V3.smul m s.angularVelocity }

/-- An obstacle with its speeds multiplied by `m`. -/
noncomputable def faster (m : ℝ) (o : Obj ℝ) : Obj ℝ := o.mapBase fun b => { b with state := fasterState m b.state }

/-- The memory with all speeds multiplied by `m`. -/
noncomputable def fasterHeap (m : ℝ) (h : Heap ℝ) : Heap ℝ := h.map (faster m)

/-- An agent with its speeds multiplied by `m`. -/
noncomputable def fasterAgent (m : ℝ) (a : Agent ℝ) : Agent ℝ := { a with state := fasterState m a.state }

/-- The constants of the control loop: gain and largest speed multiplied by `m`, the time step divided by `m`. -/
noncomputable def fasterLoop (m : ℝ) (c : Loop ℝ) : Loop ℝ :=
  { c with gain := c.gain * m, dt := c.dt / m, maxVel := c.maxVel.map (m * ·) }

end DOA.Spec
