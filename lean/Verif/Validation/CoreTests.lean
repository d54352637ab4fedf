import Verif.Lemmas.KalmanFloat
import Verif.Model.FloatRange
import Verif.Model.StdShims

/-
The cases of test/core.t.cpp and test/stdcpp.t.cpp, evaluated in the model: evidence that the model is one of the
code, not a property.
-/

namespace Verif.Validation
open StdShims Ieee Range

private def pc : Platform := ⟨32, true, .inr rfl⟩
private def int : IntTy := ⟨32, true, by decide⟩
private def unsigned : IntTy := ⟨32, false, by decide⟩
private def i8 : ArithTy := .int ⟨8, true, by decide⟩
private def i16 : ArithTy := .int ⟨16, true, by decide⟩
private def i32 : ArithTy := .int ⟨32, true, by decide⟩
private def i64 : ArithTy := .int ⟨64, true, by decide⟩

-- core.t.cpp:38-52
example : as int 7 = 7 ∧ asOfFloat int (77 / 10) = .ok 7 := by decide +kernel
-- 54-69: the 43rd number is 42
example : (do .ok (← (rangeFrom (int.num pc) 0).visitStep (int.num pc) 43).1.getLast?) = .ok (some 42) := by
  decide +kernel
-- 71-84
example : (do .ok (← (setStep (int.num pc) (rangeFrom (int.num pc) 0) 3).visitStep (int.num pc) 4).1) =
    .ok [0, 3, 6, 9] := by decide +kernel
-- 86-93
example : (range (0 : Int) 4).visit (int.num pc) 10 = .ok ([0, 1, 2, 3], true) := by decide +kernel
-- 95-102
example : (rangeStep (int.num pc) 0 10 3).visitStep (int.num pc) 10 = .ok ([0, 3, 6, 9], true) := by decide +kernel
-- 104-111
example : Res.yields (do
      (rangeStep (Flt.num binary64) (← Flt.ofRat binary64 (-2)) (← Flt.ofRat binary64 (5 / 2))
        (← Flt.ofRat binary64 (1 / 2))).visitStep (Flt.num binary64) 20)
    (fun r => r.2 && decide (r.1.map Flt.val = [-2, -3 / 2, -1, -1 / 2, 0, 1 / 2, 1, 3 / 2, 2])) = true := by
  decide +kernel
-- 113-144
example : (indices 3).visit (int.num pc) 10 = .ok ([0, 1, 2], true) ∧
    (indices 4).visit (int.num pc) 10 = .ok ([0, 1, 2, 3], true) ∧
    (indices 5).visit (int.num pc) 10 = .ok ([0, 1, 2, 3, 4], true) := by decide +kernel
-- stdcpp.t.cpp:41-51
example : (do .ok (← Std20.copy [1, 2, 3, 0, 0, 0] 0 3 3).1) = .ok [1, 2, 3, 1, 2, 3] := by decide +kernel
-- 67-104
example : (limits pc .float).is_signed = true ∧ (limits pc .double).is_signed = true ∧
    (limits pc .float).is_integer = false ∧ (limits pc .double).is_integer = false ∧
    [i8, i16, i32, i64].map (fun t => (limits pc t).is_signed) = [true, true, true, true] ∧
    [i8, i16, i32, i64].map (fun t => (limits pc t).is_integer) = [true, true, true, true] ∧
    [i8, i16, i32, i64].map (fun t => (limits pc t).digits) = [some 7, some 15, some 31, some 63] ∧
    [i8, i16, i32, i64].map (fun t => (limits pc t).min) =
      [some (.ok (-128)), some (.ok (-32768)), some (.ok (-2147483648)), some (.ok (-0x8000000000000000))] ∧
    [i8, i16, i32, i64].map (fun t => (limits pc t).max) =
      [some (.ok 127), some (.ok 32767), some (.ok 2147483647), some (.ok 0x7fffffffffffffff)] := by decide +kernel
-- 111-124
example : swap [7, 42] 0 1 = .ok [42, 7] ∧ InitList.empty.size = 0 ∧ InitList.empty.begin_ = none := by decide +kernel

end Verif.Validation
