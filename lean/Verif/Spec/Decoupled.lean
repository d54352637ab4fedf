import Verif.Spec.Matrix
import Verif.Model.Kalman

/-
Arithmetics with exact zeros and diagonal matrices.
-/

namespace Verif

/-- Operations with zero are exact. -/
class ZeroExact (T : Type) [CNum T] : Prop where
  mul_zero : ∀ a : T, CNum.mul a CNum.zero = .ok CNum.zero
  zero_mul : ∀ a : T, CNum.mul CNum.zero a = .ok CNum.zero
  add_zero : ∀ a : T, CNum.add a CNum.zero = .ok a
  zero_add : ∀ a : T, CNum.add CNum.zero a = .ok a
  sub_zero : ∀ a : T, CNum.sub a CNum.zero = .ok a

/-- The off-diagonal entries are exactly zero. -/
def Mat.IsDiag {T : Type} [CNum T] (A : Mat T 2 2) : Prop := A.get 0 1 = CNum.zero ∧ A.get 1 0 = CNum.zero

end Verif
