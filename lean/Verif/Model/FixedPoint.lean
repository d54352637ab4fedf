import Mathlib.Algebra.Order.Floor.Ring
import Mathlib.Algebra.Order.Archimedean.Real.Basic
import Verif.Model.Cpp

/-
Model of include/num/fixed-point.hpp: bit-exact, including C++ integer promotions.
-/

namespace Verif

/-- The implementation types admitted by `promote` (fixed-point.hpp:38-40): `int8_t`, `int16_t`,
`int32_t`. -/
inductive Width where
  | w8
  | w16
  | w32
deriving DecidableEq

/-- Number of bits. -/
@[reducible] def Width.bits : Width → Nat
  | .w8 => 8
  | .w16 => 16
  | .w32 => 32

/-- Number of bits of `promote_t<T>` (fixed-point.hpp:38-43). -/
@[reducible] def Width.promote : Width → Nat
  | .w8 => 16
  | .w16 => 32
  | .w32 => 64

/-- What the language implementation leaves open: the width of `int` (16 bits on AVR, 32 on desktop),
and whether a left shift of a negative number is undefined (C++17 by the letter) or multiplies
(C++20, and GCC, Clang, MSVC in every mode). -/
structure Platform where
  intBits : Nat
  strictShift : Bool
  int_eq : intBits = 16 ∨ intBits = 32

/-- The value `v` in a signed type of `n` bits; signed overflow is undefined. -/
def checked (n : Nat) (v : Int) : Res Int :=
  if -2 ^ (n - 1) ≤ v ∧ v < 2 ^ (n - 1) then .ok v else .error .overflow

/-- Width in which the built-in arithmetic on operands of `n` bits happens: integral promotion to
`int`. -/
def Platform.arith (p : Platform) (n : Nat) : Nat := max n p.intBits

/-- `e >> F` for a signed `e` of `n` bits (after promotion): arithmetic shift. -/
def shr (n : Nat) (e : Int) (F : Nat) : Res Int :=
  if F < n then .ok (e / 2 ^ F) else .error .badShift

/-- `e << F` for a signed `e` of `n` bits (after promotion). -/
def Platform.shl (p : Platform) (n : Nat) (e : Int) (F : Nat) : Res Int :=
  if n ≤ F then .error .badShift
  else if p.strictShift ∧ e < 0 then .error .badShift
  else checked n (e * 2 ^ F)

/-- `a / b` in a signed type of `n` bits: truncation toward zero; `min / -1` overflows. -/
def divInt (n : Nat) (a b : Int) : Res Int :=
  if b = 0 then .error .divByZero else checked n (a.tdiv b)

/-- `detail::power2( n )` (fixed-point.hpp:47-53): doubling loop in `int64_t`. -/
def power2 : Nat → Res Int
  | 0 => .ok 1
  | n + 1 => do checked 64 ((← power2 n) * 2)

/-- `class fixed_point<T,I,F>` (fixed-point.hpp:59-221); `storage` (220) is an integer of `w.bits`
bits.  The parameter `I` occurs in no computation.  Simplification: `F` is not negative. -/
@[ext] structure Fx (w : Width) (F : Nat) where
  storage : BitVec w.bits
deriving DecidableEq

namespace Fx
variable {w : Width} {F : Nat}

/-- `static_cast<T>( v )`: reduction modulo `2^bits` (guaranteed since C++20, implementation-defined
before, and what GCC, Clang and MSVC do). -/
def narrow (w : Width) (F : Nat) (v : Int) : Fx w F := ⟨BitVec.ofInt w.bits v⟩

/-- `fixed_point( construct_t, T value )` (fixed-point.hpp:95-97). -/
def construct (F : Nat) (v : BitVec w.bits) : Fx w F := ⟨v⟩

/-- `fixed_point( U value )` for integral `U` (fixed-point.hpp:99-102): the product is computed in
`int64_t`.  Simplification: `U` is a type whose values convert to `int64_t` unchanged (not
`uint64_t`). -/
def ofInt (w : Width) (F : Nat) (value : Int) : Res (Fx w F) := do
  .ok (narrow w F (← checked 64 ((← power2 F) * value)))

/-- Conversion of a floating-point number to a signed integer of `n` bits: truncation; undefined if
the truncated number does not fit.  Simplification: the floating-point number is a real number. -/
noncomputable def truncTo (n : Nat) (x : ℝ) : Res Int :=
  checked n (if 0 ≤ x then ⌊x⌋ else ⌈x⌉)

/-- `fixed_point( float value )`, `fixed_point( double value )` (fixed-point.hpp:104-110).
Simplification: floating-point arithmetic is exact. -/
noncomputable def ofReal (w : Width) (F : Nat) (value : ℝ) : Res (Fx w F) := do
  let p ← power2 F
  .ok (narrow w F (← truncTo w.bits (p * value + (if 0 ≤ value then 1 / 2 else -1 / 2))))

/-- `min()` (fixed-point.hpp:114-117). -/
def min (w : Width) (F : Nat) : Fx w F := ⟨BitVec.ofInt w.bits (-2 ^ (w.bits - 1))⟩
/-- `max()` (fixed-point.hpp:119-122). -/
def max (w : Width) (F : Nat) : Fx w F := ⟨BitVec.ofInt w.bits (2 ^ (w.bits - 1) - 1)⟩

/-- `underlying_value()` (fixed-point.hpp:124-127). -/
def underlying_value (x : Fx w F) : BitVec w.bits := x.storage

/-- `as<U>()` for a signed integral `U` of `n` bits (fixed-point.hpp:129-133): conversion to `U`
(modulo `2^n`), then division in `int64_t`. -/
def asInt (n : Nat) (x : Fx w F) : Res Int := do
  divInt 64 (BitVec.ofInt n x.underlying_value.toInt).toInt (← power2 F)

/-- `as_double()`, `as<double>()` (fixed-point.hpp:129-138).  Simplification: floating-point
arithmetic is exact. -/
noncomputable def asReal (x : Fx w F) : Res ℝ := do
  let p ← power2 F
  .ok ((x.underlying_value.toInt : ℝ) / p)

/-- Unary `operator-` (fixed-point.hpp:143): negated in `int` or wider, then narrowed. -/
def neg (p : Platform) (x : Fx w F) : Res (Fx w F) := do
  .ok (narrow w F (← checked (p.arith w.bits) (-x.storage.toInt)))

/-- `operator+=`, `operator+` (fixed-point.hpp:145-148, 167-170). -/
def add (p : Platform) (a b : Fx w F) : Res (Fx w F) := do
  .ok (narrow w F (← checked (p.arith w.bits) (a.storage.toInt + b.storage.toInt)))

/-- `operator-=`, `operator-` (fixed-point.hpp:150-153, 172-175). -/
def sub (p : Platform) (a b : Fx w F) : Res (Fx w F) := do
  .ok (narrow w F (← checked (p.arith w.bits) (a.storage.toInt - b.storage.toInt)))

/-- `operator*=`, `operator*` (fixed-point.hpp:155-159, 177-180). -/
def mul (p : Platform) (a b : Fx w F) : Res (Fx w F) := do
  let n := p.arith w.promote
  .ok (narrow w F (← shr n (← checked n (a.storage.toInt * b.storage.toInt)) F))

/-- `operator/=`, `operator/` (fixed-point.hpp:161-165, 182-185). -/
def div (p : Platform) (a b : Fx w F) : Res (Fx w F) := do
  let n := p.arith w.promote
  .ok (narrow w F (← divInt n (← p.shl n a.storage.toInt F) b.storage.toInt))

/-- `operator==` (fixed-point.hpp:189-192). -/
def eq (a b : Fx w F) : Bool := a.storage.toInt == b.storage.toInt
/-- `operator!=` (fixed-point.hpp:194-197). -/
def ne (a b : Fx w F) : Bool := !(eq a b)
/-- `operator<` (fixed-point.hpp:199-202). -/
def lt (a b : Fx w F) : Bool := decide (a.storage.toInt < b.storage.toInt)
/-- `operator<=` (fixed-point.hpp:204-207). -/
def le (a b : Fx w F) : Bool := !(lt b a)
/-- `operator>` (fixed-point.hpp:209-212). -/
def gt (a b : Fx w F) : Bool := lt b a
/-- `operator>=` (fixed-point.hpp:214-217). -/
def ge (a b : Fx w F) : Bool := !(lt a b)

/-- `to_rep` (fixed-point.hpp:225-235). -/
def to_rep (x : Fx w F) : BitVec w.bits := x.underlying_value
/-- `from_rep` (fixed-point.hpp:239-249). -/
def from_rep (F : Nat) (v : BitVec w.bits) : Fx w F := construct F v
/-- `from_value` (fixed-point.hpp:253-263): the implementation type is that of the value. -/
def from_value (F : Nat) (v : BitVec w.bits) : Fx w F := construct F v

/-- Fixed point as a numeric type of the matrices and the estimator.  The literals `0` and `1` are
converted by `fixed_point( int )`, i.e. have representation `0` and `2^F` modulo the range (for
`F ≤ 62`). -/
@[reducible] def cnum (p : Platform) (w : Width) (F : Nat) : CNum (Fx w F) where
  zero := narrow w F 0
  one := narrow w F (2 ^ F)
  add := add p
  sub := sub p
  mul := mul p
  div := div p
  neg := neg p
  isNonZero x := ne x (narrow w F 0)

end Fx
end Verif
