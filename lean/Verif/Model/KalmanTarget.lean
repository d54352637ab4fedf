import Verif.Model.KalmanSim

/-
Model of the program example/avr/avr-kalman-sim.e.cpp.  Up to line 83 it is that of example/desktop/kalman-sim.e.cpp
(lines 53-123), so the definitions of Model/KalmanSim are used.

The number of passes of the loop `for ( int i = 0; i*dt < T; ++i )` (line 87) is a parameter of `main`; `passes` computes
it from the condition of the loop, which does not depend on the body.
-/

namespace Verif
namespace KalmanTarget
open KalmanSim
variable {T : Type} [CNum T] [CLit T]

/-- One pass of the loop (avr-kalman-sim.e.cpp:89-101): no noise is added.  The number `z` is converted to a matrix
by the call of `update` (matrix.hpp:67-71). -/
def pass (A : Mat T 2 2) (B : Mat T 2 1) (H : Mat T 1 2) (k : Kalman T .one .one) (x : ColVec T 2) :
    Res (Kalman T .one .one × ColVec T 2) := do
  let u ← Mat.ofList 1 1 [← CLit.lit 1]
  let x ← Mat.add (← A.mulVec x) (← B.mulM11 u)
  let z ← H.dot x
  let k ← k.update u (Mat.fill 1 1 z)
  .ok (k, x)

/-- The loop (avr-kalman-sim.e.cpp:87-102) with `n` passes. -/
def loop (A : Mat T 2 2) (B : Mat T 2 1) (H : Mat T 1 2) : Nat → Kalman T .one .one → ColVec T 2 →
    Res (Kalman T .one .one × ColVec T 2)
  | 0, k, x => .ok (k, x)
  | n + 1, k, x => do
    let (k, x) ← pass A B H k x
    loop A B H n k x

/-- `main` (avr-kalman-sim.e.cpp:34-103) with `n` passes of the loop; the results are the final `estim` and `x`. -/
def main (avr : Bool) (p : Params T) (n : Nat) : Res (Kalman T .one .one × ColVec T 2) := do
  loop (← sysA p) (← sysB p) (← sysH) n (← estim avr p) (← start)

/-- The number of passes of `for ( int i = 0; i*dt < T; ++i )` (avr-kalman-sim.e.cpp:87, kalman-sim.e.cpp:127) from `i` on;
`room` is the distance from `i` to the largest `int`, beyond which `++i` is undefined.  `i` is converted to the numeric
type and multiplied by `dt`. -/
def passesFrom (lt : T → T → Bool) (duration dt : T) : (room : Nat) → (i : Nat) → Res Nat
  | 0, i => do
    if lt (← CNum.mul (← CLit.lit i) dt) duration then .error .overflow else .ok 0
  | room + 1, i => do
    if lt (← CNum.mul (← CLit.lit i) dt) duration then
      .ok ((← passesFrom lt duration dt room (i + 1)) + 1)
    else .ok 0

/-- All passes; `int` has `bits` bits. -/
def passes (lt : T → T → Bool) (bits : Nat) (duration dt : T) : Res Nat :=
  passesFrom lt duration dt (2 ^ (bits - 1) - 1) 0

/-- `main` (avr-kalman-sim.e.cpp:34-103) with the duration `T` (line 38). -/
def program (avr : Bool) (lt : T → T → Bool) (bits : Nat) (duration : T) (p : Params T) :
    Res (Kalman T .one .one × ColVec T 2) := do
  main avr p (← passes lt bits duration p.dt)

end KalmanTarget
end Verif
