import Verif.Model.KalmanSim
import Verif.Model.Output

/-
Model of what example/desktop/kalman-sim.e.cpp prints (lines 91-97, 158-168).
-/

namespace Verif

/-- Integer literals as floating-point numbers. -/
instance {f : Ieee.Format} : CLit (Flt f) := ⟨fun n => Flt.ofRat f n⟩

namespace KalmanSim
variable {T : Type} [CNum T] [CLit T]

/-- The constants of the program (kalman-sim.e.cpp:58, 62-63), with `double` for `real_t`; the literal `0.2`
is rounded. -/
def constants (f : Ieee.Format) : Res (Params (Flt f)) := do
  .ok ⟨← CLit.lit 1, ← CLit.lit 10, ← Flt.ofRat f (1 / 5)⟩

/-- The system as printed before the run (kalman-sim.e.cpp:91-97); `R` is still a number there. -/
def printSystem (elem : T → Text) (p : Params T) : Res Text := do
  let A ← Output.matrix elem (← sysA p)
  let B ← Output.matrix elem (← sysB p)
  let H ← Output.matrix elem (← sysH)
  let R ← CNum.mul p.measnoise p.measnoise
  let Q ← Output.matrix elem (← sysQ p)
  .ok ("\nA = % System dynamics matrix (state-k-1 => state-k)\n".toList ++ A ++
    "\nB = % Control input matrix (control => state)\n".toList ++ B ++
    "\nH = % Measurement output matrix (state => measurement estimation)\n".toList ++ H ++
    "\nR = ".toList ++ elem R ++ " % Measurement noise covariance\n".toList ++
    "\nQ = % Process noise covariance\n".toList ++ Q)

/-- The collected readings (kalman-sim.e.cpp:158-168). -/
def printReadings (elem : T → Text) (rows : List (Row T)) : Text :=
  "\npos = ".toList ++ Output.vector elem (rows.map Row.pos) ++
  "\nposmeas = ".toList ++ Output.vector elem (rows.map Row.posmeas) ++
  "\nposhat = ".toList ++ Output.vector elem (rows.map Row.poshat) ++
  "\nposgain = ".toList ++ Output.vector elem (rows.map Row.posgain) ++
  "\nposecov = ".toList ++ Output.vector elem (rows.map Row.posecov) ++
  "\nvel = ".toList ++ Output.vector elem (rows.map Row.vel) ++
  "\nvelhat = ".toList ++ Output.vector elem (rows.map Row.velhat) ++
  "\nvelgain = ".toList ++ Output.vector elem (rows.map Row.velgain) ++
  "\nvelecov = ".toList ++ Output.vector elem (rows.map Row.velecov)

/-- The program (kalman-sim.e.cpp:53-169): all that it writes to the standard output. -/
def program (elem : T → Text) (p : Params T) (gs : List (T × T × T)) : Res Text := do
  let system ← printSystem elem p
  let rows ← main false p gs
  .ok (system ++ printReadings elem rows)

end KalmanSim
end Verif
