import Verif.Model.Kalman

/-
Model of the simulation in example/desktop/kalman-sim.e.cpp (its estimator is also that of
example/avr/avr-kalman-sim.e.cpp).

Simplifications: the draws of the normal distribution are parameters; the loop
`for ( int i = 0; i*dt < T; ++i )` (line 127) runs once per element of the list of draws; the vectors
of results are a list of rows; nothing is printed.
-/

namespace Verif

/-- Conversion of an integer literal to the numeric type. -/
class CLit (T : Type) where
  lit : Int → Res T

namespace KalmanSim
variable {T : Type} [CNum T] [CLit T]

/-- `dt`, `measnoise`, `accelnoise` (kalman-sim.e.cpp:58, 62-63). -/
structure Params (T : Type) where
  dt : T
  measnoise : T
  accelnoise : T

/-- `A` (kalman-sim.e.cpp:66-67). -/
def sysA (p : Params T) : Res (Mat T 2 2) := do
  Mat.ofList 2 2 [← CLit.lit 1, p.dt, ← CLit.lit 0, ← CLit.lit 1]

/-- `B` (kalman-sim.e.cpp:70-71). -/
def sysB (p : Params T) : Res (Mat T 2 1) := do
  Mat.ofList 2 1 [← CNum.div (← CNum.mul p.dt p.dt) (← CLit.lit 2), p.dt]

/-- `H` (kalman-sim.e.cpp:74). -/
def sysH : Res (Mat T 1 2) := do
  Mat.ofList 1 2 [← CLit.lit 1, ← CLit.lit 0]

/-- `x` (kalman-sim.e.cpp:77). -/
def start : Res (ColVec T 2) := do
  Mat.ofList 2 1 [← CLit.lit 0, ← CLit.lit 0]

/-- `R` (kalman-sim.e.cpp:81), converted to a matrix by the call of the constructor (line 120,
matrix.hpp:67-71). -/
def sysR (p : Params T) : Res (Mat T 1 1) := do
  .ok (Mat.fill 1 1 (← CNum.mul p.measnoise p.measnoise))

/-- `Q` (kalman-sim.e.cpp:84-86). -/
def sysQ (p : Params T) : Res (Mat T 2 2) := do
  let v ← CNum.mul p.accelnoise p.accelnoise
  let d2 ← CNum.mul p.dt p.dt
  let d3 ← CNum.mul d2 p.dt
  let d4 ← CNum.mul d3 p.dt
  Mat.mulS (← Mat.ofList 2 2 [← CNum.div d4 (← CLit.lit 4), ← CNum.div d3 (← CLit.lit 2),
    ← CNum.div d3 (← CLit.lit 2), d2]) v

/-- The estimator (kalman-sim.e.cpp:76-78, 88-89, 114-123): `P` starts as `Q`, the state as 0. -/
def estim (avr : Bool) (p : Params T) : Res (Kalman T .one .one) := do
  let x ← start
  .ok (Kalman.init avr p.dt (← sysA p) (← sysB p) (← sysH) (← sysQ p) (← sysR p) (← sysQ p) x)

/-- `process_noise( dt, accelnoise )` (kalman-sim.e.cpp:37-42) for the draws `g1` and `g2`. -/
def process_noise (p : Params T) (g1 g2 : T) : Res (ColVec T 2) := do
  let a ← CNum.mul (← CNum.div (← CNum.mul p.dt p.dt) (← CLit.lit 2)) g1
  let b ← CNum.mul p.dt g2
  Mat.mulS (← Mat.ofList 2 1 [a, b]) p.accelnoise

/-- `meas_noise( measnoise )` (kalman-sim.e.cpp:44-49) for the draw `g`. -/
def meas_noise (p : Params T) (g : T) : Res T := CNum.mul p.measnoise g

/-- What one pass of the loop appends to the vectors (kalman-sim.e.cpp:101-110). -/
structure Row (T : Type) where
  pos : T
  posmeas : T
  poshat : T
  posgain : T
  posecov : T
  vel : T
  velhat : T
  velgain : T
  velecov : T
deriving DecidableEq

/-- One pass of the loop (kalman-sim.e.cpp:129-154); `g` are the three draws in the order of use. -/
def step (p : Params T) (A : Mat T 2 2) (B : Mat T 2 1) (H : Mat T 1 2) (k : Kalman T .one .one)
    (x : ColVec T 2) (g : T × T × T) : Res (Kalman T .one .one × ColVec T 2 × Row T) := do
  let u ← Mat.ofList 1 1 [← CLit.lit 1]
  let x ← Mat.add (← Mat.add (← A.mulVec x) (← B.mulM11 u)) (← process_noise p g.1 g.2.1)
  let z ← CNum.add (← H.dot x) (← meas_noise p g.2.2)
  let k ← k.update u (Mat.fill 1 1 z)
  let K ← k.kalman_gain
  let xhat := k.system_state
  let ecov := k.estimation_error_covariance
  .ok (k, x, {
    pos := ← x.idx 0
    posmeas := z
    poshat := ← xhat.idx 0
    posgain := ← K.idx 0
    posecov := ← ecov.idx 0
    vel := ← x.idx 1
    velhat := ← xhat.idx 1
    velgain := ← K.idx 1
    velecov := ← ecov.idx 1 })

/-- The loop (kalman-sim.e.cpp:127-155). -/
def loop (p : Params T) (A : Mat T 2 2) (B : Mat T 2 1) (H : Mat T 1 2) :
    Kalman T .one .one → ColVec T 2 → List (T × T × T) → Res (List (Row T))
  | _, _, [] => .ok []
  | k, x, g :: gs => do
    let (k, x, row) ← step p A B H k x g
    .ok (row :: (← loop p A B H k x gs))

/-- `main` up to the printing of the results (kalman-sim.e.cpp:53-155). -/
def main (avr : Bool) (p : Params T) (gs : List (T × T × T)) : Res (List (Row T)) := do
  loop p (← sysA p) (← sysB p) (← sysH) (← estim avr p) (← start) gs

end KalmanSim
end Verif
