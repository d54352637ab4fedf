import Mathlib.Analysis.Real.Sqrt
import Verif.Spec.Num
import Verif.Model.KalmanSim

/-
The steady state of a filter that tracks a constant velocity disturbed by random accelerations: the
gains of the alpha-beta filter as functions of the tracking index (Kalata 1984).
-/

namespace Verif

instance : CLit ℚ := ⟨fun n => .ok n⟩
noncomputable instance : CLit ℝ := ⟨fun n => .ok n⟩

namespace AlphaBeta

/-- The tracking index: acceleration noise against measurement noise. -/
noncomputable def index (dt measnoise accelnoise : ℝ) : ℝ := accelnoise * dt ^ 2 / measnoise

/-- The damping parameter for tracking index `l`. -/
noncomputable def damping (l : ℝ) : ℝ := (4 + l - √(8 * l + l ^ 2)) / 4

/-- Position gain for tracking index `l`. -/
noncomputable def alpha (l : ℝ) : ℝ := 1 - damping l ^ 2

/-- Velocity gain (times the time step) for tracking index `l`. -/
noncomputable def beta (l : ℝ) : ℝ := 2 * (2 - alpha l) - 4 * √(1 - alpha l)

end AlphaBeta
end Verif
