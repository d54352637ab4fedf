import Mathlib.Data.Rat.Defs
import Mathlib.Algebra.Order.Field.Rat
import Mathlib.Algebra.Order.Field.Basic

/-
The finite numbers of the interchange formats of IEEE 754 (section 3.4), by their fields.
-/

namespace Verif.Ieee

/-- The value of the encoding with the sign bit `s`, the biased exponent `E` (`w` bits) and the trailing significand `m` (`t` bits):
with the hidden bit unless `E` is zero. -/
def field (w t : ℕ) (s : Bool) (E m : ℕ) : ℚ :=
  (if s then -1 else 1) *
    (if E = 0 then (m : ℚ) / 2 ^ t * 2 ^ (1 - (2 ^ (w - 1) - 1) : ℤ) else (1 + (m : ℚ) / 2 ^ t) * 2 ^ ((E : ℤ) - (2 ^ (w - 1) - 1)))

/-- `x` is the value of some encoding; the largest exponent is that of the infinities and NaNs. -/
def Encoded (w t : ℕ) (x : ℚ) : Prop := ∃ s E m, E < 2 ^ w - 1 ∧ m < 2 ^ t ∧ x = field w t s E m

end Verif.Ieee
