import Verif.Spec.Kalman
import Verif.Spec.Matrix
import Mathlib.LinearAlgebra.Matrix.NonsingularInverse
import Mathlib.Analysis.Matrix.PosDef
import Mathlib.MeasureTheory.Integral.Bochner.Basic
import Mathlib.MeasureTheory.Function.L1Space.Integrable

/-
What an optimal estimate is: the end of the best-fitting trajectory, and the estimate with the least
error covariance for a randomly disturbed system.
-/

namespace Verif
open Matrix

/-- A state. -/
abbrev State := Matrix (Fin 2) (Fin 1) ℝ

section
variable {m u : Nat} (A : Matrix (Fin 2) (Fin 2) ℝ) (B : Matrix (Fin 2) (Fin u) ℝ)
  (H : Matrix (Fin m) (Fin 2) ℝ) (Q : Matrix (Fin 2) (Fin 2) ℝ) (R : Matrix (Fin m) (Fin m) ℝ)

/-- How badly a trajectory fits the model and the measurements: the sum over its steps of the squared
process disturbance weighted by `Q⁻¹` and the squared measurement error weighted by `R⁻¹`.  Each step
is the control and measurement together with the state reached. -/
noncomputable def misfit (x : State) : List ((ColVec ℝ u × ColVec ℝ m) × State) → ℝ
  | [] => 0
  | ((v, z), y) :: l =>
    ((y - (A * x + B * v.toMatrix))ᵀ * Q⁻¹ * (y - (A * x + B * v.toMatrix))) 0 0 +
      ((z.toMatrix - H * y)ᵀ * R⁻¹ * (z.toMatrix - H * y)) 0 0 + misfit y l

/-- The same including the squared deviation of the initial state from the initial estimate. -/
noncomputable def totalMisfit (P0 : Matrix (Fin 2) (Fin 2) ℝ) (xh0 x : State)
    (l : List ((ColVec ℝ u × ColVec ℝ m) × State)) : ℝ :=
  ((x - xh0)ᵀ * P0⁻¹ * (x - xh0)) 0 0 + misfit A B H Q R x l

/-- The state a trajectory ends in. -/
def lastState (x : State) : List ((ColVec ℝ u × ColVec ℝ m) × State) → State
  | [] => x
  | (_, y) :: l => lastState y l
end

/-! ### A system with random disturbances -/

section
open MeasureTheory
variable {Ω : Type} [MeasurableSpace Ω] {m u : Nat}

/-- Matrix of expected products `E[f gᵀ]` of two random vectors. -/
noncomputable def moment (μ : Measure Ω) {n p : Nat} (f : Ω → Matrix (Fin n) (Fin 1) ℝ)
    (g : Ω → Matrix (Fin p) (Fin 1) ℝ) : Matrix (Fin n) (Fin p) ℝ :=
  Matrix.of fun i j => ∫ ω, f ω i 0 * g ω j 0 ∂μ

/-- All components have finite variance. -/
def SquareIntegrable (μ : Measure Ω) {n : Nat} (f : Ω → Matrix (Fin n) (Fin 1) ℝ) : Prop :=
  ∀ i, MemLp (fun ω => f ω i 0) 2 μ

/-- One time step of the real system: a known control, a process disturbance and a measurement
error. -/
structure NoisyStep (Ω : Type) (u m : Nat) where
  control : ColVec ℝ u
  process : Ω → State
  measurement : Ω → Matrix (Fin m) (Fin 1) ℝ

/-- A column vector with the given entries. -/
def ofMatrix {n : Nat} (z : Matrix (Fin n) (Fin 1) ℝ) : ColVec ℝ n := ⟨.ofFn fun i => z ⟨i.val, by
  have := i.isLt; omega⟩ 0⟩

variable (A : Matrix (Fin 2) (Fin 2) ℝ) (B : Matrix (Fin 2) (Fin u) ℝ) (H : Matrix (Fin m) (Fin 2) ℝ)

/-- The state of the real system after the steps: `x' = A x + B u + w` each. -/
def truth (x : Ω → State) : List (NoisyStep Ω u m) → Ω → State
  | [] => x
  | s :: l => truth (fun ω => A * x ω + B * s.control.toMatrix + s.process ω) l

/-- What the estimator is given: controls and measurements `z = H x' + v`. -/
def observed (x : Ω → State) : List (NoisyStep Ω u m) → Ω → List (ColVec ℝ u × ColVec ℝ m)
  | [], _ => []
  | s :: l, ω =>
    (s.control, ofMatrix (H * (A * x ω + B * s.control.toMatrix + s.process ω) + s.measurement ω)) ::
      observed (fun ω => A * x ω + B * s.control.toMatrix + s.process ω) l ω

/-- A linear filter with the same structure as the estimator but arbitrary gains. -/
def otherFilter (xh : Ω → State) : List (Matrix (Fin 2) (Fin m) ℝ) →
    (Ω → List (ColVec ℝ u × ColVec ℝ m)) → Ω → State
  | [], _ => xh
  | G :: Gs, ds => otherFilter (fun ω => match ds ω with
      | [] => xh ω
      | d :: _ => A * xh ω + B * d.1.toMatrix +
          G * (d.2.toMatrix - H * (A * xh ω + B * d.1.toMatrix))) Gs (fun ω => (ds ω).tail)

/-- Initial error, process disturbances and measurement errors have finite variance and are mutually
uncorrelated. -/
structure Uncorrelated (μ : Measure Ω) (e : Ω → State) (steps : List (NoisyStep Ω u m)) : Prop where
  initial : SquareIntegrable μ e
  noise : ∀ s ∈ steps, SquareIntegrable μ s.process ∧ SquareIntegrable μ s.measurement
  initial_noise : ∀ s ∈ steps, moment μ e s.process = 0 ∧ moment μ e s.measurement = 0
  same_step : ∀ s ∈ steps, moment μ s.process s.measurement = 0
  other_step : steps.Pairwise fun s t =>
    moment μ s.process t.process = 0 ∧ moment μ s.process t.measurement = 0 ∧
    moment μ s.measurement t.process = 0 ∧ moment μ s.measurement t.measurement = 0
end
end Verif
