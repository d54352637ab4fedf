import Verif.Model.FixedPoint
import Verif.Model.Ieee

/-
Model of the conversions between fixed point and floating point (include/num/fixed-point.hpp:104-110,
129-138), with the rounding of the floating-point type `f` (binary64 for `double` on the desktop, binary32
for `float`, and for `double` on AVR).  `Model/FixedPoint` has the same conversions over the reals.
-/

namespace Verif
namespace Fx
variable {w : Width} {F : Nat}

/-- `as<double>()`, `as<float>()`, `as_double()` (fixed-point.hpp:129-138): the integer and the power of two
are converted to the floating-point type, then divided. -/
def asFlt (f : Ieee.Format) (x : Fx w F) : Res (Flt f) := do
  let p ← power2 F
  CNum.div (← Flt.ofRat f x.underlying_value.toInt) (← Flt.ofRat f p)

/-- The conversion of a floating-point number to an integer drops the fraction. -/
def dropFraction (x : ℚ) : Int := if 0 ≤ x then ⌊x⌋ else ⌈x⌉

/-- `fixed_point( double value )`, `fixed_point( float value )` (fixed-point.hpp:104-110). -/
def ofFlt {f : Ieee.Format} (w : Width) (F : Nat) (value : Flt f) : Res (Fx w F) := do
  let p ← Flt.ofRat f (← power2 F)
  let half ← Flt.ofRat f (if 0 ≤ value.val then 1 / 2 else -1 / 2)
  let s ← CNum.add (← CNum.mul p value) half
  .ok (narrow w F (← checked w.bits (dropFraction s.val)))

end Fx
end Verif
