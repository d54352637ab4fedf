import Verif.Spec.KalmanSteady
import Verif.Model.Kalman

/- A real system that follows the model of the estimator up to bounded disturbances. -/

namespace Verif
open Matrix

variable {m u : Dim}

/-- A system that starts in state `x`, is driven by the controls in the list and by disturbances of at
most `D` in every component, and is measured by the measurements in the list with errors of at most `D`,
ends in state `x'`. -/
inductive Disturbed (A : Matrix (Fin 2) (Fin 2) ℝ) (B : Matrix (Fin 2) (Fin u.val) ℝ)
    (H : Matrix (Fin m.val) (Fin 2) ℝ) (D : ℝ) (x : Matrix (Fin 2) (Fin 1) ℝ) :
    List (ColVec ℝ u.val × ColVec ℝ m.val) → Matrix (Fin 2) (Fin 1) ℝ → Prop
  | nil : Disturbed A B H D x [] x
  | snoc (ds y v z w n) : Disturbed A B H D x ds y → (∀ i, |w i 0| ≤ D) → (∀ i, |n i 0| ≤ D) →
      z.toMatrix = H * (A * y + B * v.toMatrix + w) + n →
      Disturbed A B H D x (ds ++ [(v, z)]) (A * y + B * v.toMatrix + w)

end Verif
