import Verif.Spec.KalmanStat

/- Linear functions of the data and innovations, for the properties of Props/KalmanLinear.lean. -/

namespace Verif
open Matrix

/-- A function of the measurements that is linear up to a constant: `c + G₁ z₁ + G₂ z₂ + …` (as many
terms as there are both gains and measurements). -/
def affine {m u : Nat} (c : State) : List (Matrix (Fin 2) (Fin m) ℝ) →
    List (ColVec ℝ u × ColVec ℝ m) → State
  | G :: Gs, d :: ds => affine (c + G * d.2.toMatrix) Gs ds
  | _, _ => c

/-- The innovation of a step from the true state `x` and the estimate `xh`: the measurement minus the
measurement predicted from the estimate. -/
def innovation {Ω : Type} {m u : Nat} (A : Matrix (Fin 2) (Fin 2) ℝ) (B : Matrix (Fin 2) (Fin u) ℝ)
    (H : Matrix (Fin m) (Fin 2) ℝ) (x xh : Ω → State) (s : NoisyStep Ω u m) :
    Ω → Matrix (Fin m) (Fin 1) ℝ :=
  fun ω => (H * (A * x ω + B * s.control.toMatrix + s.process ω) + s.measurement ω) -
    H * (A * xh ω + B * s.control.toMatrix)

end Verif
