import Verif.Model.Ieee

/-
What IEEE 754 requires of an operation in round-to-nearest mode.
-/

namespace Verif
namespace Ieee

/-- `c` is `x` rounded: no number of the format is nearer to `x`, and if another one, `d`, is as near, then
`c` is the one whose last digit is even (an even multiple of the distance of the two, a power of 2). -/
structure RoundsTo (f : Format) (x : ℚ) (c : Flt f) : Prop where
  nearest : ∀ d : Flt f, |c.val - x| ≤ |d.val - x|
  even : ∀ d : Flt f, d.val ≠ c.val → |d.val - x| = |c.val - x| →
    ∃ n e : ℤ, c.val = 2 * n * 2 ^ e ∧ |d.val - c.val| = 2 ^ e

/-- The outcome `r` of an operation with exact result `x`: `x` rounded, unless it is at least half a unit
of the last digit beyond the largest number. -/
def Correct (f : Format) (x : ℚ) (r : Res (Flt f)) : Prop :=
  (|x| < f.max + 2 ^ f.top / 2 → ∃ c, r = .ok c ∧ RoundsTo f x c) ∧
    (f.max + 2 ^ f.top / 2 ≤ |x| → r = .error .overflow)

end Ieee
end Verif
