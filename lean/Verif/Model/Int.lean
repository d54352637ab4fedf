import Verif.Model.FixedPoint

/-
The built-in signed integer types as value type `T` of the templates, as in `matrix<int,2,2>`
(test/matrix.t.cpp).  (Not from the sources: C++ semantics.)
-/

namespace Verif

/-- A signed integer type of `n` bits, at least as wide as `int` (so that there is no promotion).  Results
that do not fit are undefined. -/
structure CInt (n : Nat) where
  val : Int
deriving DecidableEq

namespace CInt
variable {n : Nat}

/-- The result of an operation. -/
def of (n : Nat) (v : Int) : Res (CInt n) := do .ok ⟨← checked n v⟩

instance cnum : CNum (CInt n) where
  zero := ⟨0⟩
  one := ⟨1⟩
  add a b := of n (a.val + b.val)
  sub a b := of n (a.val - b.val)
  mul a b := of n (a.val * b.val)
  div a b := do .ok ⟨← divInt n a.val b.val⟩
  neg a := of n (-a.val)
  isNonZero a := a.val != 0

end CInt
end Verif
