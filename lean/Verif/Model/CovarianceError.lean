import Verif.Model.KalmanSim

/-
Model of example/desktop/covariance-error.e.cpp: the error covariance after a measurement in the simplified form and in
Joseph's form, for gains that are not optimal.

Simplifications: nothing is printed; the time `t`, which is only printed, is left out.  (For the output see
Model/DesktopExamples.lean.)
-/

namespace Verif
namespace CovarianceError
variable {T : Type} [CNum T]

/-- `P - K * H * P` (covariance-error.e.cpp:50): outer product (matrix.hpp:267), `A * B` (382), `A - A` (368). -/
def simplified (K : Mat T 2 1) (H : Mat T 1 2) (P : Mat T 2 2) : Res (Mat T 2 2) := do
  P.sub (← Mat.mul (← K.outer H) P)

/-- `A = eye - K * H`, `A * PJ * transposed(A) + K * R * transposed(K)` (covariance-error.e.cpp:52-53): `A * v`
(matrix.hpp:316), `transposed( colvec )` (438). -/
def joseph (K : Mat T 2 1) (H : Mat T 1 2) (R : T) (PJ : Mat T 2 2) : Res (Mat T 2 2) := do
  let A ← Mat.sub (← Mat.eye T 2) (← K.outer H)
  Mat.add (← Mat.mul (← A.mul PJ) (← A.transposed22)) (← Mat.outer (← K.mulS R) (← K.transposedCol))

/-- `K_t K = { 0.1f+k, 0.1f+k }` (covariance-error.e.cpp:48); `tenth` is the constant `0.1f`. -/
def gain (tenth k : T) : Res (Mat T 2 1) := do
  Mat.ofList 2 1 [← CNum.add tenth k, ← CNum.add tenth k]

/-- The variables `P` and `PJ`. -/
structure State (T : Type) where
  P : Mat T 2 2
  PJ : Mat T 2 2

/-- The body of the loop (covariance-error.e.cpp:48-53). -/
def pass (tenth : T) (H : Mat T 1 2) (R k : T) (s : State T) : Res (State T) := do
  let K ← gain tenth k
  .ok ⟨← simplified K H s.P, ← joseph K H R s.PJ⟩

/-- `for ( k = ...; k > 0.001; k /= 2 )` (covariance-error.e.cpp:39); `more` is the condition, `fuel` bounds the number
of tests. -/
def loop [CLit T] (more : T → Bool) (tenth : T) (H : Mat T 1 2) (R : T) : (fuel : Nat) → (k : T) → State T → Res (State T)
  | 0, _, _ => .error .outOfFuel
  | fuel + 1, k, s =>
    if more k then do
      let s ← pass tenth H R k s
      loop more tenth H R fuel (← CNum.div k (← CLit.lit 2)) s
    else .ok s

/-- `main` (covariance-error.e.cpp:24-54); `H`, `R` and `P` are written as in the simulation (kalman-sim.e.cpp). -/
def program [CLit T] (more : T → Bool) (tenth : T) (p : KalmanSim.Params T) (fuel : Nat) : Res (State T) := do
  let H ← KalmanSim.sysH
  let R ← CNum.mul p.measnoise p.measnoise
  let P ← KalmanSim.sysQ p
  loop more tenth H R fuel (← CLit.lit 1) ⟨P, P⟩

end CovarianceError
end Verif
