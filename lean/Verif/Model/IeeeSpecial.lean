import Verif.Model.Ieee
import Verif.Model.KalmanSim

/-
The floating point types of C++ with infinities, NaN and both zeros.  (Not from the sources: semantics of
`double` and `float` where the C++ implementation conforms to IEEE 754, `std::numeric_limits<T>::is_iec559`.)
No operation fails: overflow and division by zero deliver infinities, invalid operations NaN.

Simplifications: all NaNs are one; rounding to nearest, ties to even; no traps.
-/

namespace Verif

/-- The data of format `f`. -/
inductive XFlt (f : Ieee.Format) where
  | nan
  | inf (neg : Bool)
  | zero (neg : Bool)
  | num (x : Flt f) (h : x.val ≠ 0)
deriving DecidableEq

namespace XFlt
variable {f : Ieee.Format}

/-- `std::signbit`, of a NaN left open. -/
def sign : XFlt f → Bool
  | nan => false
  | inf s => s
  | zero s => s
  | num x _ => decide (x.val < 0)

/-- The value of a finite number, 0 otherwise. -/
def val : XFlt f → ℚ
  | num x _ => x.val
  | _ => 0

/-- `std::isfinite`. -/
def isFinite : XFlt f → Bool
  | zero _ => true
  | num _ _ => true
  | _ => false

/-- The result of an operation on finite numbers whose exact result is `x`; a zero gets sign `s`, a number that
rounds to zero keeps its sign, one that rounds to more than the largest number becomes an infinity. -/
def round (f : Ieee.Format) (s : Bool) (x : ℚ) : XFlt f :=
  if x = 0 then zero s
  else if h : |Ieee.rnd f x| ≤ f.max then
    if h0 : Ieee.rnd f x = 0 then zero (decide (x < 0)) else num ⟨Ieee.rnd f x, Ieee.rnd_digits f x, h⟩ h0
  else inf (decide (x < 0))

/-- Unary minus. -/
def neg : XFlt f → XFlt f
  | nan => nan
  | inf s => inf !s
  | zero s => zero !s
  | num x h => num x.neg (neg_ne_zero.2 h)

/-- `a + b`; an exact sum of zero is `+0` unless both are `-0`. -/
def add : XFlt f → XFlt f → XFlt f
  | nan, _ => nan
  | _, nan => nan
  | inf s, inf t => if s = t then inf s else nan
  | inf s, _ => inf s
  | _, inf t => inf t
  | a, b => round f (a.sign && b.sign) (a.val + b.val)

/-- `a - b`. -/
def sub (a b : XFlt f) : XFlt f := a.add b.neg

/-- `a * b`. -/
def mul : XFlt f → XFlt f → XFlt f
  | nan, _ => nan
  | _, nan => nan
  | inf _, zero _ => nan
  | zero _, inf _ => nan
  | inf s, b => inf (s ^^ b.sign)
  | a, inf t => inf (a.sign ^^ t)
  | a, b => round f (a.sign ^^ b.sign) (a.val * b.val)

/-- `a / b`. -/
def div : XFlt f → XFlt f → XFlt f
  | nan, _ => nan
  | _, nan => nan
  | inf _, inf _ => nan
  | inf s, b => inf (s ^^ b.sign)
  | a, inf t => zero (a.sign ^^ t)
  | zero _, zero _ => nan
  | a, zero t => inf (a.sign ^^ t)
  | a, b => round f (a.sign ^^ b.sign) (a.val / b.val)

/-- `a != 0`; true for NaN. -/
def nonZero : XFlt f → Bool
  | zero _ => false
  | _ => true

/-- The arithmetic. -/
instance cnum : CNum (XFlt f) where
  zero := zero false
  one := num Flt.one one_ne_zero
  add a b := .ok (a.add b)
  sub a b := .ok (a.sub b)
  mul a b := .ok (a.mul b)
  div a b := .ok (a.div b)
  neg a := .ok a.neg
  isNonZero := nonZero

/-- Integer literals. -/
instance clit : CLit (XFlt f) where
  lit n := .ok (round f false n)

end XFlt
end Verif
