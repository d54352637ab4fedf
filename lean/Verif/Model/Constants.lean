import Verif.Model.Ieee

/-
Model of include/num/constants.hpp.
-/

namespace Verif.Constants

/-- The literal `3.1415926535897932384626433832795028841971` (num/constants.hpp:14). -/
def piLiteral : ℚ := 31415926535897932384626433832795028841971 / 10 ^ 40

/-- `num::pi<T>` (num/constants.hpp:13-14), for `T` the floating-point format `f`: the literal has the type `double`,
of the format `d` (binary64 on the desktop, binary32 on AVR), and is converted to `T`. -/
def pi (d f : Ieee.Format) : Res (Flt f) := do
  let x ← Flt.ofRat d piLiteral
  Flt.ofRat f x.val

/-- `2 * num::pi<T> * fnorm`, the angle in `response( fnorm )` (dsp/biquad.hpp:337, dsp/onepole.hpp:296). -/
def angle {f : Ieee.Format} (p fnorm : Flt f) : Res (Flt f) := do
  CNum.mul (← CNum.mul (← Flt.ofRat f 2) p) fnorm

end Verif.Constants
