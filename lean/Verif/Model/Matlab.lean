import Mathlib.LinearAlgebra.Matrix.NonsingularInverse
import Mathlib.LinearAlgebra.Matrix.Notation
import Mathlib.Algebra.Order.Floor.Ring
import Mathlib.Algebra.Order.Archimedean.Real.Basic
import Verif.Spec.KalmanSim

/-
Model of example/matlab/kalman.m and kalman-sim.m, the programs the C++ code was derived from, over mathematical
matrices of reals.  Printing and plotting are left out; the random draws are a parameter.
-/

namespace Verif
namespace Matlab
open Matrix KalmanSim

/-- What `kalman` returns (kalman.m:8-13). -/
structure Out (S M : Nat) where
  K : Matrix (Fin S) (Fin M) ℝ
  xhat : Matrix (Fin S) (Fin 1) ℝ
  P : Matrix (Fin S) (Fin S) ℝ

open Classical in
/-- `inv` (kalman.m:39).  Simplification: a singular matrix is an error (the interpreter warns and returns `Inf`). -/
noncomputable def inv {M : Nat} (S : Matrix (Fin M) (Fin M) ℝ) : Res (Matrix (Fin M) (Fin M) ℝ) :=
  if S.det = 0 then .error .divByZero else .ok S⁻¹

/-- `kalman( u, z, A, B, H, Q, R, P, xhat )` (kalman.m:8-47). -/
noncomputable def kalman {S M U : Nat} (u : Matrix (Fin U) (Fin 1) ℝ) (z : Matrix (Fin M) (Fin 1) ℝ)
    (A : Matrix (Fin S) (Fin S) ℝ) (B : Matrix (Fin S) (Fin U) ℝ) (H : Matrix (Fin M) (Fin S) ℝ)
    (Q : Matrix (Fin S) (Fin S) ℝ) (R : Matrix (Fin M) (Fin M) ℝ) (P : Matrix (Fin S) (Fin S) ℝ)
    (xhat : Matrix (Fin S) (Fin 1) ℝ) : Res (Out S M) := do
  let xhat := A * xhat + B * u
  let P := A * P * Aᵀ + Q
  let K := P * Hᵀ * (← inv (H * P * Hᵀ + R))
  let xhat := xhat + K * (z - H * xhat)
  let P := (1 - K * H) * P
  .ok ⟨K, xhat, P⟩

/-- Element `X(i)` of a matrix, counted from 1 down the columns (kalman-sim.m:76-84). -/
def elem {n m : Nat} (X : Matrix (Fin n) (Fin m) ℝ) (i : Nat) : Res ℝ :=
  if h : 1 ≤ i ∧ i ≤ n * m then
    have hn : 0 < n := by
      rcases Nat.eq_zero_or_pos n with rfl | hn
      · omega
      · exact hn
    .ok (X ⟨(i - 1) % n, Nat.mod_lt _ hn⟩ ⟨(i - 1) / n, (Nat.div_lt_iff_lt_mul hn).2 (by rw [Nat.mul_comm]; omega)⟩)
  else .error .outOfBounds

/-- `A` (kalman-sim.m:19-20). -/
def sysA (p : Params ℝ) : Matrix (Fin 2) (Fin 2) ℝ := !![1, p.dt; 0, 1]
/-- `B` (kalman-sim.m:23-24). -/
noncomputable def sysB (p : Params ℝ) : Matrix (Fin 2) (Fin 1) ℝ := !![p.dt * p.dt / 2; p.dt]
/-- `H` (kalman-sim.m:27). -/
def sysH : Matrix (Fin 1) (Fin 2) ℝ := !![1, 0]
/-- `R` (kalman-sim.m:34). -/
def sysR (p : Params ℝ) : Matrix (Fin 1) (Fin 1) ℝ := !![p.measnoise * p.measnoise]
/-- `Q`, and the initial `P` (kalman-sim.m:37-42). -/
noncomputable def sysQ (p : Params ℝ) : Matrix (Fin 2) (Fin 2) ℝ :=
  (p.accelnoise * p.accelnoise) • !![p.dt * p.dt * p.dt * p.dt / 4, p.dt * p.dt * p.dt / 2;
    p.dt * p.dt * p.dt / 2, p.dt * p.dt]

/-- One pass of the loop (kalman-sim.m:66-84) with the draws `g`: the new `x`, the results of `kalman` and what is
appended to the nine arrays. -/
noncomputable def pass (p : Params ℝ) (x xhat : Matrix (Fin 2) (Fin 1) ℝ) (P : Matrix (Fin 2) (Fin 2) ℝ)
    (g : ℝ × ℝ × ℝ) : Res (Matrix (Fin 2) (Fin 1) ℝ × Out 2 1 × Row ℝ) := do
  let u : Matrix (Fin 1) (Fin 1) ℝ := !![1]
  let x := sysA p * x + sysB p * u + p.accelnoise • !![p.dt ^ 2 / 2 * g.1; p.dt * g.2.1]
  let z := sysH * x + !![p.measnoise * g.2.2]
  let o ← kalman u z (sysA p) (sysB p) sysH (sysQ p) (sysR p) P xhat
  .ok (x, o, {
    pos := ← elem x 1
    posmeas := ← elem z 1
    poshat := ← elem o.xhat 1
    posgain := ← elem o.K 1
    posecov := ← elem o.P 1
    vel := ← elem x 2
    velhat := ← elem o.xhat 2
    velgain := ← elem o.K 2
    velecov := ← elem o.P 2 })

/-- The loop (kalman-sim.m:64-85), one pass per element of the list. -/
noncomputable def loop (p : Params ℝ) : (x xhat : Matrix (Fin 2) (Fin 1) ℝ) → (P : Matrix (Fin 2) (Fin 2) ℝ) →
    List (ℝ × ℝ × ℝ) → Res (List (Row ℝ))
  | _, _, _, [] => .ok []
  | x, xhat, P, g :: gs => do
    let (x, o, row) ← pass p x xhat P g
    .ok (row :: (← loop p x o.xhat o.P gs))

/-- The number of elements of `0 : dt : T` (kalman-sim.m:64), for positive `dt`. -/
noncomputable def count (dt T : ℝ) : Nat := (⌊T / dt⌋ + 1).toNat

/-- The program (kalman-sim.m:10-85); `g i` are the draws of pass `i`. -/
noncomputable def main (p : Params ℝ) (T : ℝ) (g : Nat → ℝ × ℝ × ℝ) : Res (List (Row ℝ)) :=
  loop p 0 0 (sysQ p) ((List.range (count p.dt T)).map g)

end Matlab

namespace KalmanSim

open Classical in
/-- The loop with its condition `i*dt < T` (kalman-sim.e.cpp:127-155); `g i` are the draws of pass `i`. -/
noncomputable def timedLoop (p : Params ℝ) (T : ℝ) (A : Mat ℝ 2 2) (B : Mat ℝ 2 1) (H : Mat ℝ 1 2) (g : Nat → ℝ × ℝ × ℝ) :
    (fuel i : Nat) → Kalman ℝ .one .one → ColVec ℝ 2 → Res (List (Row ℝ))
  | 0, _, _, _ => .error .outOfFuel
  | fuel + 1, i, k, x =>
    if i * p.dt < T then do
      let (k, x, row) ← step p A B H k x (g i)
      .ok (row :: (← timedLoop p T A B H g fuel (i + 1) k x))
    else .ok []

/-- `main` with the loop condition (kalman-sim.e.cpp:53-155). -/
noncomputable def timedMain (avr : Bool) (p : Params ℝ) (T : ℝ) (g : Nat → ℝ × ℝ × ℝ) (fuel : Nat) :
    Res (List (Row ℝ)) := do
  timedLoop p T (← sysA p) (← sysB p) (← sysH) g fuel 0 (← estim avr p) (← start)

end KalmanSim
end Verif
