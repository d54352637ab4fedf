import Mathlib.LinearAlgebra.Matrix.PosDef
import Mathlib.Analysis.Real.Sqrt
import Verif.Spec.Kalman

/-
The steady state of a Kalman filter: the algebraic Riccati equation, and when it has a solution.
-/

namespace Verif
open Matrix

namespace Steady
variable {n m : Type} [Fintype n] [Fintype m] [DecidableEq n] [DecidableEq m]

/-- `L` solves the algebraic Riccati equation (in terms of the covariance after the correction):
predicting and correcting lead back to `L`. -/
def Cov (A : Matrix n n ℝ) (H : Matrix m n ℝ) (Q : Matrix n n ℝ) (R : Matrix m m ℝ)
    (L : Matrix n n ℝ) : Prop :=
  L.PosSemidef ∧ (A * L * Aᵀ + Q) -
    (A * L * Aᵀ + Q) * Hᵀ * (H * (A * L * Aᵀ + Q) * Hᵀ + R)⁻¹ * (H * (A * L * Aᵀ + Q)) = L

/-- Some fixed gain `G`, not necessarily a good one, keeps the error covariance bounded: there is a
covariance `Y` that a step with the gain `G` does not exceed. -/
def Bounded (A : Matrix n n ℝ) (H : Matrix m n ℝ) (Q : Matrix n n ℝ) (R : Matrix m m ℝ) : Prop :=
  ∃ (G : Matrix n m ℝ) (Y : Matrix n n ℝ), Y.PosSemidef ∧
    (Y - ((1 - G * H) * (A * Y * Aᵀ + Q) * (1 - G * H)ᵀ + G * R * Gᵀ)).PosSemidef

/-- The process noise of two steps together acts in every direction, although that of one step may not:
`Q` may be singular. -/
def Reaches (A Q : Matrix n n ℝ) : Prop := (Q + A * Q * Aᵀ).PosDef

/-- Equal up to `ε` in every element. -/
def Close {a b : Type} (ε : ℝ) (X Y : Matrix a b ℝ) : Prop := ∀ i j, |X i j - Y i j| < ε

end Steady
end Verif
