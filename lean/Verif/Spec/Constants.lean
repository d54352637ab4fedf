import Mathlib.Analysis.SpecialFunctions.Trigonometric.Basic
import Verif.Spec.DesignFloat

/-
What is said of the constant pi and of the tangent at it.
-/

namespace Verif.Constants
open Ieee

/-- The formats of `double` and of `T`: the three pairs that occur, on the desktop (first two) and on AVR. -/
def PiFormats (d f : Format) : Prop :=
  d = binary64 ∧ f = binary64 ∨ d = binary64 ∧ f = binary32 ∨ d = binary32 ∧ f = binary32

/-- The least that is to be expected of `std::tan`: the sign of the result is right. -/
def SignRight {f : Format} (tan : Flt f → Res (Flt f)) : Prop := ∀ x y : Flt f, tan x = .ok y →
  (0 ≤ Real.tan x.val → 0 ≤ y.val) ∧ (Real.tan x.val ≤ -1 → y.val < 0)

end Verif.Constants
