import Verif.Model.FixedPoint

/-
Model of include/core/range.hpp: ranges and their iterators, for integer types (bit-exact, including
promotions) and for exact real arithmetic.
-/

namespace Verif

/-- The operations ranges use on a value type `T`.  `add`, `mul` are the built-in operators (on promoted
operands), `store` is the conversion to `T` on assignment. -/
structure RangeNum (T : Type) where
  zero : T
  one : T
  add : T → T → Res T
  mul : T → T → Res T
  store : T → T
  eq : T → T → Bool
  ge : T → T → Bool

/-- An integer type. -/
structure IntTy where
  bits : Nat
  signed : Bool
  bits_eq : bits = 8 ∨ bits = 16 ∨ bits = 32 ∨ bits = 64

namespace IntTy

/-- Least value. -/
def lo (t : IntTy) : Int := if t.signed then -2 ^ (t.bits - 1) else 0
/-- Greatest value. -/
def hi (t : IntTy) : Int := if t.signed then 2 ^ (t.bits - 1) - 1 else 2 ^ t.bits - 1

/-- Integral promotion: types narrower than `int` become `int`. -/
def promote (p : Platform) (t : IntTy) : IntTy := 
  if t.bits < p.intBits then ⟨p.intBits, true, by have := p.int_eq; omega⟩ else t

/-- The value `v` computed in type `t`: signed overflow is undefined, unsigned wraps. -/
def result (t : IntTy) (v : Int) : Res Int :=
  if t.signed then checked t.bits v else .ok (v % 2 ^ t.bits)

/-- Conversion to type `t`: modulo `2^bits` (for signed types guaranteed since C++20,
implementation-defined before). -/
def convert (t : IntTy) (v : Int) : Int :=
  if t.signed then (v + 2 ^ (t.bits - 1)) % 2 ^ t.bits - 2 ^ (t.bits - 1) else v % 2 ^ t.bits

/-- Arithmetic of ranges over integer type `t`. -/
def num (p : Platform) (t : IntTy) : RangeNum Int where
  zero := 0
  one := 1
  add a b := (t.promote p).result (a + b)
  mul a b := (t.promote p).result (a * b)
  store := t.convert
  eq a b := a == b
  ge a b := decide (b ≤ a)

end IntTy

/-- Arithmetic of ranges over a floating-point type.  Simplification: exact. -/
noncomputable def realNum : RangeNum ℝ where
  zero := 0
  one := 1
  add a b := .ok (a + b)
  mul a b := .ok (a * b)
  store a := a
  eq a b := decide (a = b)
  ge a b := decide (b ≤ a)

namespace Range
variable {T : Type}

/-- `range_iter_base` (range.hpp:28-74), `range_proxy::iterator` (81-86). -/
structure Iter (T : Type) where
  current : T

namespace Iter
/-- `operator*` (range.hpp:42-45). -/
def deref (i : Iter T) : T := i.current
/-- `operator++` (range.hpp:52-55). -/
def next (A : RangeNum T) (i : Iter T) : Res (Iter T) := do
  .ok ⟨A.store (← A.add i.current A.one)⟩
/-- `operator++( int )` (range.hpp:57-60): the old and the new iterator. -/
def postNext (A : RangeNum T) (i : Iter T) : Res (Iter T × Iter T) := do
  let copy := i
  .ok (copy, ← i.next A)
/-- `operator==` (range.hpp:62-65). -/
def beq (A : RangeNum T) (i other : Iter T) : Bool := A.eq i.current other.current
/-- `operator!=` (range.hpp:67-70). -/
def bne (A : RangeNum T) (i other : Iter T) : Bool := !i.beq A other
end Iter

/-- `step_range_proxy::iterator` (range.hpp:106-140). -/
structure StepIter (T : Type) where
  current : T
  factor : T
  first : T
  step : T
  infinite : Bool

namespace StepIter
/-- Constructor (range.hpp:108-113, 136). -/
def make (A : RangeNum T) (current step : T) (infinite : Bool) : StepIter T :=
  ⟨current, A.zero, current, step, infinite⟩
/-- `operator*` (range.hpp:42-45). -/
def deref (i : StepIter T) : T := i.current
/-- `operator++` (range.hpp:115-118). -/
def next (A : RangeNum T) (i : StepIter T) : Res (StepIter T) := do
  let factor := A.store (← A.add i.factor A.one)
  .ok { i with factor, current := A.store (← A.add i.first (← A.mul factor i.step)) }
/-- `operator++( int )` (range.hpp:120-123): the old and the new iterator. -/
def postNext (A : RangeNum T) (i : StepIter T) : Res (StepIter T × StepIter T) := do
  let copy := i
  .ok (copy, ← i.next A)
/-- `operator==` (range.hpp:125-128). -/
def beq (A : RangeNum T) (i other : StepIter T) : Bool := !i.infinite && A.ge i.current other.current
/-- `operator!=` (range.hpp:130-133). -/
def bne (A : RangeNum T) (i other : StepIter T) : Bool := !i.beq A other
end StepIter

/-- `range_proxy` (range.hpp:78-99), `step_range_proxy` (103-153): `begin()` and `end()`. -/
structure Proxy (I : Type) where
  first : I
  last : I

/-- `range( first, last )` (range.hpp:172-176, 198-204).  Simplification: the arguments have already been
converted to their common type. -/
def range (first last : T) : Proxy (Iter T) := ⟨⟨first⟩, ⟨last⟩⟩

/-- `range( first, last, step )` (range.hpp:142-145, 180-184, 208-214).  Simplification: the arguments
have already been converted to their common type. -/
def rangeStep (A : RangeNum T) (first last step : T) : Proxy (StepIter T) :=
  ⟨.make A first step false, .make A last step false⟩

/-- `infinite_range_proxy` (range.hpp:157-162). -/
def infinite (A : RangeNum T) (first step : T) : Proxy (StepIter T) :=
  ⟨.make A first step true, .make A first step true⟩

/-- `range( begin )` (range.hpp:160, 218-222). -/
def rangeFrom (A : RangeNum T) (begin_ : T) : Proxy (StepIter T) := infinite A begin_ A.one

/-- `infinite_range_proxy::step( step_ )` (range.hpp:164-167). -/
def setStep (A : RangeNum T) (r : Proxy (StepIter T)) (step : T) : Proxy (StepIter T) :=
  infinite A r.first.deref step

/-- `indices( c )` for a C-array, a container or an initialiser list of the given size
(range.hpp:226-261). -/
def indices (size : Int) : Proxy (Iter Int) := ⟨⟨0⟩, ⟨size⟩⟩

/-- The first iterations of `for ( auto i : range )`, at most `fuel`: the values of `i`, and whether the loop
ended.  (C++ semantics of the range-based for statement.) -/
def visit {I : Type} (deref : I → T) (next : I → Res I) (bne : I → I → Bool) (last : I) :
    (fuel : Nat) → I → Res (List T × Bool)
  | 0, i => .ok ([], !bne i last)
  | fuel + 1, i =>
    if bne i last then do
      let (l, b) ← visit deref next bne last fuel (← next i)
      .ok (deref i :: l, b)
    else .ok ([], true)

/-- `for ( auto i : r )` on a `range_proxy`. -/
def Proxy.visit (A : RangeNum T) (r : Proxy (Iter T)) (fuel : Nat) : Res (List T × Bool) :=
  Range.visit Iter.deref (Iter.next A) (Iter.bne A) r.last fuel r.first

/-- `for ( auto i : r )` on a `step_range_proxy`. -/
def Proxy.visitStep (A : RangeNum T) (r : Proxy (StepIter T)) (fuel : Nat) : Res (List T × Bool) :=
  Range.visit StepIter.deref (StepIter.next A) (StepIter.bne A) r.last fuel r.first

end Range
end Verif
