import Verif.Model.Matrix

/-
Model of include/dsp/kalman.hpp, and of its variant in time/avr-kalman-time.cpp.

The class template compiles `update` only for `S = 2` (there is no `transposed` for other square
matrices, matrix.hpp:460-477), `M` equal to 1 or 2 (likewise `inverted`, matrix.hpp:484-505) and `U`
equal to 1 or 2 (only `A * A1x1`, matrix.hpp:338, and `A * x` with a square `A`, matrix.hpp:419,
accept `B * u`).  Which `operator*` etc. is called depends on these numbers: the definitions below
follow C++ overload resolution for each.

Simplification: C++ leaves the evaluation order of operands unspecified; the model evaluates left to
right.  (The operands have no side effects; the order only selects which of several reasons for
undefined behaviour is reported.)
-/

namespace Verif

/-- The possible values of the template arguments `M` and `U`. -/
inductive Dim where
  | one
  | two
deriving DecidableEq

/-- The number denoted by a `Dim`. -/
@[reducible] def Dim.val : Dim → Nat
  | .one => 1
  | .two => 2

/-- `class kalman<T,2,M,U>`, its data members (kalman.hpp:129-141).  `K` is `none` while it is
indeterminate. -/
structure Kalman (T : Type) (m u : Dim) where
  A : Mat T 2 2
  B : Mat T 2 u.val
  H : Mat T m.val 2
  Q : Mat T 2 2
  R : Mat T m.val m.val
  K : Option (Mat T 2 m.val)
  P : Mat T 2 2
  xhat : ColVec T 2
  t : T
  dt : T

namespace Kalman
variable {T : Type} {m u : Dim}

section
variable [CNum T]

/-- Constructor (kalman.hpp:51-70).  `K` has no initialiser: on desktop it is indeterminate
(`matrix() = default`, matrix.hpp:60), on AVR it is zero (`matrix() : storage()`, matrix.hpp:58). -/
def init (avr : Bool) (dt : T) (A : Mat T 2 2) (B : Mat T 2 u.val) (H : Mat T m.val 2) (Q : Mat T 2 2)
    (R : Mat T m.val m.val) (P : Mat T 2 2) (xhat : ColVec T 2) : Kalman T m u where
  A := A
  B := B
  H := H
  Q := Q
  R := R
  P := P
  xhat := xhat
  t := CNum.zero
  dt := dt
  K := if avr then some (Mat.fill 2 m.val CNum.zero) else none

/-- The expression `B * u` (kalman.hpp:83): `A * A1x1` (matrix.hpp:338-342) for `U = 1`,
`A * x` (matrix.hpp:419-431) for `U = 2`. -/
def control : (u : Dim) → Mat T 2 u.val → ColVec T u.val → Res (ColVec T 2)
  | .one, B, v => B.mulM11 v
  | .two, B, v => B.mulVec v

/-- Step 1a, `A * xhat + B * u` (kalman.hpp:83). -/
def predictState (A : Mat T 2 2) (B : Mat T 2 u.val) (xhat : ColVec T 2) (v : ColVec T u.val) :
    Res (ColVec T 2) := do
  Mat.add (← A.mulVec xhat) (← control u B v)

/-- Step 1b, `A * P * transposed(A) + Q` (kalman.hpp:86). -/
def predictCov (A P Q : Mat T 2 2) : Res (Mat T 2 2) := do
  Mat.add (← Mat.mul (← A.mul P) (← A.transposed22)) Q

/-- Step 2a, `P * transposed(H) * inverted(H * P * transposed(H) + R)` (kalman.hpp:92).
`M = 1`: `A * x` (matrix.hpp:419), `x * A` (403), dot product (253), `v + vec_1x1` (187),
`inverted( T )` (484), `A * v` (316).
`M = 2`: `A * B` (382), `A + A` (354), `inverted( matrix<T,2,2> )` (492). -/
def gain : (m : Dim) → (P : Mat T 2 2) → (H : Mat T m.val 2) → (R : Mat T m.val m.val) →
    Res (Mat T 2 m.val)
  | .one, P, H, R => do
    let PHt ← P.mulVec (← H.transposedRow)
    let HPHt ← Mat.dot (← H.vecMul P) (← H.transposedRow)
    PHt.mulS (← Mat.invertedS (← R.add11s HPHt))
  | .two, P, H, R => do
    let PHt ← P.mul (← H.transposed22)
    let HPHt ← Mat.mul (← H.mul P) (← H.transposed22)
    PHt.mul (← Mat.inverted22 (← HPHt.add R))

/-- Step 2b, `xhat + K * (z - H * xhat)` (kalman.hpp:95).
`M = 1`: dot product (matrix.hpp:253), `vec_1x1 - v` (195), `A * v` (316), `A + A` (354).
`M = 2`: `A * x` (419), `A - A` (368), `A * x`, `A + A`. -/
def correctState : (m : Dim) → (xhat : ColVec T 2) → (K : Mat T 2 m.val) → (H : Mat T m.val 2) →
    (z : ColVec T m.val) → Res (ColVec T 2)
  | .one, xhat, K, H, z => do
    Mat.add xhat (← K.mulS (← z.sub11s (← H.dot xhat)))
  | .two, xhat, K, H, z => do
    Mat.add xhat (← K.mulVec (← z.sub (← H.mulVec xhat)))

/-- The product `K * H` (kalman.hpp:98): outer product (matrix.hpp:267) or `A * B` (382). -/
def gainH : (m : Dim) → (K : Mat T 2 m.val) → (H : Mat T m.val 2) → Res (Mat T 2 2)
  | .one, K, H => K.outer H
  | .two, K, H => K.mul H

/-- Step 2c, `(I() - K * H) * P` (kalman.hpp:98, 124-127). -/
def correctCov (m : Dim) (K : Mat T 2 m.val) (H : Mat T m.val 2) (P : Mat T 2 2) :
    Res (Mat T 2 2) := do
  Mat.mul (← Mat.sub (← Mat.eye T 2) (← gainH m K H)) P

/-- `update( u, z )` (kalman.hpp:74-99). -/
def update (k : Kalman T m u) (v : ColVec T u.val) (z : ColVec T m.val) : Res (Kalman T m u) := do
  let t ← CNum.add k.t k.dt
  let xhat ← predictState k.A k.B k.xhat v
  let P ← predictCov k.A k.P k.Q
  let K ← gain m P k.H k.R
  let xhat ← correctState m xhat K k.H z
  let P ← correctCov m K k.H P
  .ok { k with t := t, xhat := xhat, P := P, K := some K }

/-- `update` of the variant (time/avr-kalman-time.cpp:100-128); `compute` is the data member
`compute_kalman_gain` (89-95, 172).  The time is not advanced (line 103 is commented out). -/
def updateVariant (compute : Bool) (k : Kalman T m u) (v : ColVec T u.val) (z : ColVec T m.val) :
    Res (Kalman T m u) := do
  let xhat ← predictState k.A k.B k.xhat v
  let k ← (if compute then do
      let P ← predictCov k.A k.P k.Q
      let K ← gain m P k.H k.R
      let P ← correctCov m K k.H P
      Except.ok { k with P := P, K := some K }
    else Except.ok k)
  match k.K with
  | none => .error .indeterminate
  | some K =>
    let xhat ← correctState m xhat K k.H z
    .ok { k with xhat := xhat }

/-- Successive calls of `update`, one per element of the list. -/
def run (k : Kalman T m u) : List (ColVec T u.val × ColVec T m.val) → Res (Kalman T m u)
  | [] => .ok k
  | d :: ds => do run (← k.update d.1 d.2) ds

/-- Successive calls of the variant's `update`. -/
def runVariant (compute : Bool) (k : Kalman T m u) :
    List (ColVec T u.val × ColVec T m.val) → Res (Kalman T m u)
  | [] => .ok k
  | d :: ds => do runVariant compute (← k.updateVariant compute d.1 d.2) ds

end

/-- `system_state()` (kalman.hpp:103-106). -/
def system_state (k : Kalman T m u) : ColVec T 2 := k.xhat

/-- `kalman_gain()` (kalman.hpp:108-111): copying an indeterminate matrix reads indeterminate
values. -/
def kalman_gain (k : Kalman T m u) : Res (Mat T 2 m.val) :=
  match k.K with
  | none => .error .indeterminate
  | some K => .ok K

/-- `estimation_error_covariance()` (kalman.hpp:113-116). -/
def estimation_error_covariance (k : Kalman T m u) : Mat T 2 2 := k.P

/-- `time()` (kalman.hpp:118-121). -/
def time (k : Kalman T m u) : T := k.t

end Kalman
end Verif
