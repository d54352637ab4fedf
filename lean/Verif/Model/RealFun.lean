import Mathlib.Analysis.SpecialFunctions.Arcosh
import Mathlib.Analysis.SpecialFunctions.Arsinh
import Mathlib.Analysis.SpecialFunctions.Log.Base
import Mathlib.Analysis.SpecialFunctions.Trigonometric.Basic
import Verif.Model.Cpp

/-
The functions of `<cmath>` used by the filter designs, on real numbers (idealisation of `double`:
exact values, no rounding).  Where the C++ function has a pole or a domain error, or a conversion to
`int` is undefined, the model has an error, so that Mathlib's conventional values (1/0 = 0, ...)
cannot enter a theorem.
-/

namespace Verif.RealFun

open Classical in
/-- `a / b`. -/
noncomputable def div (a b : ℝ) : Res ℝ := if b = 0 then .error .divByZero else .ok (a / b)

open Classical in
/-- `std::tan( x )`; a pole where `cos x = 0`. -/
noncomputable def tan (x : ℝ) : Res ℝ :=
  if Real.cos x = 0 then .error .divByZero else .ok (Real.sin x / Real.cos x)

open Classical in
/-- `std::sqrt( x )`; domain error for `x < 0`. -/
noncomputable def sqrt (x : ℝ) : Res ℝ := if x < 0 then .error .domain else .ok (Real.sqrt x)

open Classical in
/-- `std::log10( x )`; domain error for `x < 0`, pole at 0. -/
noncomputable def log10 (x : ℝ) : Res ℝ := if x ≤ 0 then .error .domain else .ok (Real.logb 10 x)

/-- `std::pow( 10, x )`. -/
noncomputable def pow10 (x : ℝ) : ℝ := (10 : ℝ) ^ x

open Classical in
/-- `std::acosh( x )`; domain error for `x < 1`. -/
noncomputable def acosh (x : ℝ) : Res ℝ := if x < 1 then .error .domain else .ok (Real.arcosh x)

open Classical in
/-- Conversion of a real number to a 32-bit `int` (`as<int>( std::ceil( x ) )`): undefined if the value
does not fit. -/
noncomputable def ceilInt (x : ℝ) : Res ℤ :=
  if -2147483648 ≤ ⌈x⌉ ∧ ⌈x⌉ ≤ 2147483647 then .ok ⌈x⌉ else .error .overflow

end Verif.RealFun
