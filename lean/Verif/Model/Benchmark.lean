import Verif.Model.AvrExamples
import Verif.Model.KalmanSim

/-
Model of the program time/avr-kalman-time.cpp; its class `kalman` is `Kalman.updateVariant`.  The constants that
it shares with kalman-sim.e.cpp, and which are written in the same way, are those of `KalmanSim`.

Simplification: the endless loop is cut off after a number of passes; the time that a pass takes is not modelled.
-/

namespace Verif
namespace Benchmark
open Mcu KalmanSim

/-- `bit_mask( pin )` (avr-kalman-time.cpp:22-25); `int` has 16 bits. -/
def bit_mask (pin : Nat) : Res Byte :=
  if pin < 15 then .ok (BitVec.setWidth 8 (1#16 <<< pin)) else .error .badShift

/-- `init_led()` (avr-kalman-time.cpp:18-20, 27-31). -/
def init_led {σ : Type} (hw : Hw σ) : M σ Unit := do
  wr hw Demo.PORTB 0xff
  let m ← pureRes (bit_mask 5)
  wr hw Demo.DDRB ((← rd hw Demo.DDRB) ||| m)

/-- `blink_led()` (avr-kalman-time.cpp:33-36). -/
def blink_led {σ : Type} (hw : Hw σ) : M σ Unit := do
  let m ← pureRes (bit_mask 5)
  wr hw Demo.PORTB ((← rd hw Demo.PORTB) ^^^ m)

section
variable {T : Type} [CNum T] [CLit T]

/-- The statements of `main` before the loop, without `init_led` (avr-kalman-time.cpp:203-261): the estimator, the
constant control input and the constant measurement, each converted to a vector (lines 255, 272). -/
def prepare (avr : Bool) (p : Params T) : Res (Kalman T .one .one × ColVec T 1 × ColVec T 1) := do
  let A ← sysA p
  let B ← sysB p
  let H ← sysH
  let x ← start
  let k ← estim avr p
  let u := Mat.fill 1 1 (← CLit.lit 1)
  let x ← Mat.add (← A.mulVec x) (← B.mulM11 u)
  let z ← H.dot x
  .ok (k, u, Mat.fill 1 1 z)

variable {σ : Type}

/-- The first `n` passes of the loop (avr-kalman-time.cpp:263-273). -/
def passes (hw : Hw σ) (compute : Bool) (u z : ColVec T 1) :
    (n : Nat) → Kalman T .one .one → M σ (Kalman T .one .one)
  | 0, k => pure k
  | n + 1, k => do
    blink_led hw
    passes hw compute u z n (← pureRes (k.updateVariant compute u z))

/-- `main` (avr-kalman-time.cpp:199-274) up to and including pass `n`; `compute` is false if
`KE_UPDATE_KALMAN_GAIN` is defined as 0 (lines 89-95). -/
def main (hw : Hw σ) (avr compute : Bool) (p : Params T) (n : Nat) : M σ (Kalman T .one .one) := do
  init_led hw
  let (k, u, z) ← pureRes (prepare avr p)
  passes hw compute u z n k

end
end Benchmark
end Verif
