import Mathlib.LinearAlgebra.Matrix.PosDef
import Mathlib.LinearAlgebra.Matrix.Adjugate
import Mathlib.Analysis.Real.Sqrt

/-
The parts of a matrix of order two that are symmetric and that are not.
-/

namespace Verif.Skew
open Matrix

/-- How far the matrix is from a symmetric one: half the difference of the elements beside the diagonal. -/
noncomputable def skew (P : Matrix (Fin 2) (Fin 2) ℝ) : ℝ := (P 0 1 - P 1 0) / 2

/-- The mean of the matrix and its transpose. -/
noncomputable def sym (P : Matrix (Fin 2) (Fin 2) ℝ) : Matrix (Fin 2) (Fin 2) ℝ := (1 / 2 : ℝ) • (P + Pᵀ)

theorem symmetric_iff (P : Matrix (Fin 2) (Fin 2) ℝ) : Pᵀ = P ↔ skew P = 0 := by
  constructor
  · intro h
    have := congrFun (congrFun h 0) 1
    simp only [Matrix.transpose_apply] at this
    rw [skew, this]; ring
  · intro h
    have h' : P 0 1 = P 1 0 := by rw [skew] at h; linarith
    ext i j
    fin_cases i <;> fin_cases j <;> simp [h']

/-- The two parts determine the matrix. -/
theorem parts (P : Matrix (Fin 2) (Fin 2) ℝ) : P = sym P + skew P • !![0, 1; -1, 0] := by
  ext i j
  fin_cases i <;> fin_cases j <;> simp [sym, skew] <;> ring

end Verif.Skew
