import Mathlib.Algebra.Field.Defs
import Mathlib.Algebra.Field.Rat
import Mathlib.Algebra.Order.Ring.Rat
import Mathlib.Algebra.Ring.Int.Defs
import Mathlib.Data.Real.Basic
import Verif.Model.Cpp

/-
What it means for a C++ numeric type to compute exactly (idealisation of `double`), or merely
never to fail.
-/

namespace Verif

/-- The operations of the numeric type are always defined (true for IEEE floating point; division is
not mentioned because a division by zero is undefined in C++). -/
class TotalNum (T : Type) [CNum T] : Prop where
  add_ok : ∀ a b : T, ∃ c, CNum.add a b = .ok c
  sub_ok : ∀ a b : T, ∃ c, CNum.sub a b = .ok c
  mul_ok : ∀ a b : T, ∃ c, CNum.mul a b = .ok c
  neg_ok : ∀ a : T, ∃ c, CNum.neg a = .ok c

/-- The numeric type computes exactly in a ring. -/
class ExactRing (T : Type) [Ring T] [CNum T] : Prop where
  zero_eq : (CNum.zero : T) = 0
  one_eq : (CNum.one : T) = 1
  add_eq : ∀ a b : T, CNum.add a b = .ok (a + b)
  sub_eq : ∀ a b : T, CNum.sub a b = .ok (a - b)
  mul_eq : ∀ a b : T, CNum.mul a b = .ok (a * b)
  neg_eq : ∀ a : T, CNum.neg a = .ok (-a)

/-- The numeric type computes exactly in a field; division by zero is undefined. -/
class ExactField (T : Type) [Field T] [CNum T] : Prop extends ExactRing T where
  div_eq : ∀ a b : T, b ≠ 0 → CNum.div a b = .ok (a / b)
  div_zero : ∀ a : T, CNum.div a 0 = .error .divByZero
  isNonZero_iff : ∀ a : T, CNum.isNonZero a = true ↔ a ≠ 0

instance (T : Type) [Ring T] [CNum T] [ExactRing T] : TotalNum T where
  add_ok a b := ⟨_, ExactRing.add_eq a b⟩
  sub_ok a b := ⟨_, ExactRing.sub_eq a b⟩
  mul_ok a b := ⟨_, ExactRing.mul_eq a b⟩
  neg_ok a := ⟨_, ExactRing.neg_eq a⟩

/-- Any field is an exact numeric type: `double` idealised to exact arithmetic. -/
@[reducible] def CNum.ofField (K : Type) [Field K] [DecidableEq K] : CNum K where
  zero := 0
  one := 1
  add a b := .ok (a + b)
  sub a b := .ok (a - b)
  mul a b := .ok (a * b)
  div a b := if b = 0 then .error .divByZero else .ok (a / b)
  neg a := .ok (-a)
  isNonZero a := decide (a ≠ 0)

theorem ExactField.ofField (K : Type) [Field K] [DecidableEq K] :
    @ExactField K _ (CNum.ofField K) :=
  letI := CNum.ofField K
  { zero_eq := rfl, one_eq := rfl
    add_eq := fun _ _ => rfl, sub_eq := fun _ _ => rfl
    mul_eq := fun _ _ => rfl, neg_eq := fun _ => rfl
    div_eq := fun _ _ h => if_neg h
    div_zero := fun _ => if_pos rfl
    isNonZero_iff := fun _ => decide_eq_true_iff }

/-- The rational numbers as an exact numeric type; used for concrete examples. -/
instance : CNum ℚ := CNum.ofField ℚ
instance : ExactField ℚ := ExactField.ofField ℚ

/-- The real numbers as an exact numeric type: `double` idealised. -/
noncomputable instance : CNum ℝ := CNum.ofField ℝ
instance : ExactField ℝ := ExactField.ofField ℝ

end Verif
