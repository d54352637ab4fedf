import Verif.Lemmas.KalmanFloat
import Verif.Model.FixedFloat

/-
The cases of test/fixed-point.t.cpp that have expectations, evaluated in the model (32-bit `int`): evidence that
the model is one of the code, not a property.  Copies, moves and assignments have no counterpart; `char` is taken
to be signed.
-/

namespace Verif.Validation
open Fx Ieee

private def pc : Platform := ⟨32, true, .inr rfl⟩

/-- `lest::approx` (test/lest/lest.hpp:429-458), in exact arithmetic. -/
def approx (lhs magnitude : ℚ) : Bool :=
  decide (|lhs - magnitude| < 100 / 2 ^ 23 * (1 + min |lhs| |magnitude|))

private abbrev fp := Fx .w32 16
private def i (n : Int) : Res fp := Fx.ofInt .w32 16 n
private def eqInt {w F} (a : Res (Fx w F)) (n : Int) : Bool := Res.yields (do .ok (Fx.eq (← a) (← Fx.ofInt w F n))) id

-- fixed-point.t.cpp:59-64
example : (do Fx.asInt 32 (← i 42)) = .ok 42 := by decide +kernel
-- 66-71
example : Res.yields (do Fx.asFlt binary32 (← Fx.ofFlt .w32 16 (← Flt.ofRat binary32 (123 / 100))))
    (fun x => approx x.val (123 / 100)) = true := by decide +kernel
-- 73-78
example : Res.yields (do Fx.asFlt binary64 (← Fx.ofFlt .w32 16 (← Flt.ofRat binary64 (314 / 100))))
    (fun x => approx x.val (314 / 100)) = true := by decide +kernel
-- 114-119
example : eqInt (.ok (Fx.min .w8 4)) (-8) = true := by decide +kernel
-- 121-127
example : Res.yields (do Fx.asFlt binary64 (Fx.max .w8 4)) (fun x => approx x.val (79375 / 10000)) = true ∧
    Res.yields (do .ok (Fx.eq (Fx.max .w8 4) (← Fx.ofFlt .w8 4 (← Flt.ofRat binary64 (79375 / 10000))))) id = true := by
  decide +kernel
-- 129-138
example : (do .ok (← Fx.ofInt .w16 0 42).underlying_value) = .ok (42#16 <<< ((16 - 1) - 15)) ∧
    (do .ok (← Fx.ofInt .w16 1 42).underlying_value) = .ok (42#16 <<< ((16 - 1) - 14)) ∧
    (do .ok (← Fx.ofInt .w16 12 4).underlying_value) = .ok (4#16 <<< ((16 - 1) - 3)) := by decide +kernel
-- 140-150
example : (do .ok (Fx.eq (← i 4) (← i 4))) = .ok true ∧ eqInt (i 4) 4 = true ∧
    (do .ok (Fx.ne (← i 4) (← i 2))) = .ok true := by decide +kernel
-- 152-170
example : (do .ok (Fx.lt (← i 2) (← i 4))) = .ok true ∧ (do .ok (Fx.le (← i 2) (← i 4))) = .ok true ∧
    (do .ok (Fx.le (← i 2) (← i 2))) = .ok true ∧ (do .ok (Fx.gt (← i 4) (← i 2))) = .ok true ∧
    (do .ok (Fx.ge (← i 4) (← i 2))) = .ok true ∧ (do .ok (Fx.ge (← i 4) (← i 4))) = .ok true ∧
    (do .ok (Fx.lt (← i 4) (← i 2))) = .ok false ∧ (do .ok (Fx.le (← i 4) (← i 2))) = .ok false ∧
    (do .ok (Fx.gt (← i 2) (← i 4))) = .ok false ∧ (do .ok (Fx.ge (← i 2) (← i 4))) = .ok false := by decide +kernel
-- 179-184
example : eqInt (do Fx.neg pc (← i 42)) (-42) = true := by decide +kernel
-- 186-209
example : eqInt (do Fx.add pc (← i 4) (← i 2)) (4 + 2) = true ∧ eqInt (do Fx.sub pc (← i 4) (← i 2)) (4 - 2) = true ∧
    eqInt (do Fx.mul pc (← i 4) (← i 2)) (4 * 2) = true ∧ eqInt (do Fx.div pc (← i 4) (← i 2)) (4 / 2) = true := by
  decide +kernel
-- 211-217
example : (do .ok (Fx.to_rep (← i 123))) = (do .ok (← i 123).underlying_value) := by decide +kernel
-- 219-232
example : (Fx.from_rep (w := .w32) 16 123#32).underlying_value = 123#32 ∧
    (Fx.from_value (w := .w32) 8 123#32).underlying_value = 123#32 := by decide +kernel
-- 234-241
example : power2 0 = .ok 1 ∧ power2 1 = .ok 2 ∧ power2 2 = .ok 4 ∧ power2 3 = .ok 8 ∧ power2 4 = .ok 16 := by
  decide +kernel

end Verif.Validation
