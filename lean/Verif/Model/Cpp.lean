/-
Basic notions shared by all model modules: undefined behaviour as an explicit outcome,
the law-free class of C++ numeric types, and the C++ counting loop.
-/

namespace Verif

/-- Reasons why an execution has no defined result.  (Not from the sources: C++ semantics.) -/
inductive Err where
  /-- access outside an array -/
  | outOfBounds
  /-- signed integer overflow -/
  | overflow
  /-- division by zero -/
  | divByZero
  /-- shift amount out of range, or left shift losing bits -/
  | badShift
  /-- failed `assert` -/
  | assertFail
  /-- read of an indeterminate (never initialised) value -/
  | indeterminate
  /-- mathematical function outside its domain (the C++ function returns a NaN) -/
  | domain
  /-- a C++ exception is thrown -/
  | exception
  /-- the bound put on the number of iterations of a waiting loop is exhausted -/
  | outOfFuel
deriving DecidableEq, Repr

/-- Result of a C++ computation: a value, or a reason for undefined behaviour. -/
abbrev Res := Except Err

/-- The operations the library uses on a numeric type `T` (template parameter `T` of
`include/num/matrix.hpp:45`, `include/dsp/kalman.hpp:28`).  No laws are assumed, and every
operation may be undefined (`Res`), so `double`, `float` and `fixed_point` are all instances.
Simplification: conversions of the literals `0` and `1` to `T` are the constants `zero`, `one`;
`v != 0` is `isNonZero`. -/
class CNum (T : Type) where
  zero : T
  one : T
  add : T → T → Res T
  sub : T → T → Res T
  mul : T → T → Res T
  div : T → T → Res T
  neg : T → Res T
  isNonZero : T → Bool

/-- The C++ loop `for( int i = 0; i < n; ++i ) body` on a state `s`
(e.g. `include/num/matrix.hpp:258`). -/
def forRange {σ : Type} : (n : Nat) → (body : Nat → σ → Res σ) → σ → Res σ
  | 0, _, s => .ok s
  | n + 1, body, s => (forRange n body s).bind (body n)

end Verif
