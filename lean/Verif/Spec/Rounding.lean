import Mathlib.Data.Real.Basic
import Verif.Model.Cpp

/-
Arithmetic with rounding: the standard model.  Every operation whose exact result has modulus at most
`M` is defined and has a relative error of at most `u`; products may in addition have an absolute
error of at most `η` (underflow of floating point, truncation of fixed point).

IEEE double, rounding to nearest: `u = 2^-53`, `η = 2^-1075`, `M` the largest finite number.
Fixed point with `F` fractional bits: `u = 0`, `η = 2^-F`, `M` the largest number
(`Fx.rounding`).
-/

namespace Verif

structure Rounding (T : Type) [CNum T] (val : T → ℝ) (u η M : ℝ) : Prop where
  u_nonneg : 0 ≤ u
  η_nonneg : 0 ≤ η
  zero : val CNum.zero = 0
  add : ∀ a b, |val a + val b| ≤ M →
    ∃ c, CNum.add a b = .ok c ∧ |val c - (val a + val b)| ≤ u * |val a + val b|
  sub : ∀ a b, |val a - val b| ≤ M →
    ∃ c, CNum.sub a b = .ok c ∧ |val c - (val a - val b)| ≤ u * |val a - val b|
  mul : ∀ a b, |val a * val b| ≤ M →
    ∃ c, CNum.mul a b = .ok c ∧ |val c - val a * val b| ≤ u * |val a * val b| + η

end Verif
