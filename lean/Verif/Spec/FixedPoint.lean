import Mathlib.Data.Rat.Cast.Order
import Mathlib.Tactic.Ring
import Verif.Model.FixedPoint

/- The number a fixed-point object stands for. -/

namespace Verif
namespace Fx
variable {w : Width} {F : Nat}

/-- `x` represents the rational number `storage * 2^-F`. -/
def val (x : Fx w F) : ℚ := (x.storage.toInt : ℚ) / 2 ^ F

/-- The distance of neighbouring fixed-point numbers. -/
def ulp (F : Nat) : ℚ := 1 / 2 ^ F

/-- The length of the range of values: the number of values times their distance. -/
def range (w : Width) (F : Nat) : ℚ := 2 ^ w.bits * ulp F

end Fx
end Verif
