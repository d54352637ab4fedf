import Mathlib.LinearAlgebra.Matrix.NonsingularInverse
import Verif.Model.Kalman
import Verif.Spec.Matrix
import Verif.Spec.Num

/-
The textbook Kalman filter for a system with `S` states, `M` measurements and `U` controls, over
mathematical matrices (vectors are one-column matrices).
-/

namespace Verif
open Matrix

/-- Textbook equations: `x⁻ = A x + B u`, `P⁻ = A P Aᵀ + Q`, `K = P⁻ Hᵀ (H P⁻ Hᵀ + R)⁻¹`,
`x = x⁻ + K (z - H x⁻)`, `P = (1 - K H) P⁻`. -/
structure Textbook {F S M U : Type} [Field F] [Fintype S] [Fintype M] [Fintype U] [DecidableEq S]
    [DecidableEq M]
    (A : Matrix S S F) (B : Matrix S U F) (H : Matrix M S F) (Q : Matrix S S F) (R : Matrix M M F)
    (x : Matrix S (Fin 1) F) (P : Matrix S S F) (u : Matrix U (Fin 1) F) (z : Matrix M (Fin 1) F)
    (x' : Matrix S (Fin 1) F) (K : Matrix S M F) (P' : Matrix S S F) : Prop where
  gain : K = (A * P * Aᵀ + Q) * Hᵀ * (H * (A * P * Aᵀ + Q) * Hᵀ + R)⁻¹
  state : x' = (A * x + B * u) + K * (z - H * (A * x + B * u))
  cov : P' = (1 - K * H) * (A * P * Aᵀ + Q)

namespace Kalman
variable {T : Type} {m u : Dim} [Field T]

/-- The predicted covariance of an estimator. -/
def Pm (k : Kalman T m u) : Matrix (Fin 2) (Fin 2) T :=
  k.A.toMatrix * k.P.toMatrix * k.A.toMatrixᵀ + k.Q.toMatrix

/-- The innovation covariance of an estimator. -/
def Sm (k : Kalman T m u) : Matrix (Fin m.val) (Fin m.val) T :=
  k.H.toMatrix * k.Pm * k.H.toMatrixᵀ + k.R.toMatrix

/-- The predicted state. -/
def xm (k : Kalman T m u) (v : ColVec T u.val) : Matrix (Fin 2) (Fin 1) T :=
  k.A.toMatrix * k.xhat.toMatrix + k.B.toMatrix * v.toMatrix

end Kalman
end Verif
