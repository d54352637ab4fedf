import Verif.Model.Algorithm
import Verif.Model.Range

/-
Model of the replacements of the standard library used on AVR, include/std/limits.hpp and
include/std/utility.hpp, of the requirement on the implementation type of `fixed_point`
(num/fixed-point.hpp:65), and of `as` (core/shims.hpp).
-/

namespace Verif

/-- The types for which `numeric_limits` is specialised (limits.hpp:26-145). -/
inductive ArithTy where
  | int (t : IntTy)
  | float
  | double

/-- The members of `numeric_limits<T>`; those of a floating-point type that limits.hpp lacks are `none`. -/
structure Limits where
  is_signed : Bool
  is_integer : Bool
  digits : Option Nat
  min : Option (Res Int)
  max : Option (Res Int)

namespace StdShims

/-- The macro `__INTn_MAX__` of a signed type or `__UINTn_MAX__` of an unsigned one (predefined by GCC). -/
def maxMacro (t : IntTy) : Int := if t.signed then 2 ^ (t.bits - 1) - 1 else 2 ^ t.bits - 1

/-- `numeric_limits<T>` on AVR (limits.hpp:26-145): `min()` of a signed type is computed from the macro of the
maximum, whose type is at least `int`. -/
def limits (p : Platform) : ArithTy → Limits
  | .float => ⟨true, false, none, none, none⟩
  | .double => ⟨true, false, none, none, none⟩
  | .int t =>
    if t.signed then
      { is_signed := true
        is_integer := true
        digits := some (t.bits - 1)
        min := some (do
          let m ← (t.promote p).result (-maxMacro t)
          .ok (t.convert (← (t.promote p).result (m - 1))))
        max := some (.ok (t.convert (maxMacro t))) }
    else
      { is_signed := true
        is_integer := true
        digits := some t.bits
        min := some (.ok (t.convert 0))
        max := some (.ok (t.convert (maxMacro t))) }

/-- `std::numeric_limits<T>::is_signed` and `is_integer` of a desktop (limits.hpp:13-20; semantics of the
standard library). -/
def desktopSigned : ArithTy → Bool
  | .int t => t.signed
  | _ => true
/-- See `desktopSigned`. -/
def desktopInteger : ArithTy → Bool
  | .int _ => true
  | _ => false

/-- `is_signed_v<T>` and `is_integral_v<T>` (type_traits.hpp:80-90 on AVR, otherwise those of the standard
library), as used by the requirement of `fixed_point` (fixed-point.hpp:65). -/
def admitted (avr : Bool) (p : Platform) (t : ArithTy) : Bool :=
  if avr then (limits p t).is_signed && (limits p t).is_integer
  else desktopSigned t && desktopInteger t

/-- Unary `operator-` of `fixed_point<T>` (fixed-point.hpp:143) for any integral `T`: the representation
afterwards. -/
def fixedNeg (p : Platform) (t : IntTy) (storage : Int) : Res Int := do
  .ok (t.convert (← (t.promote p).result (-storage)))

variable {α : Type}

/-- Read through a reference, as an index into one memory. -/
def read (m : List α) (i : Nat) : Res α :=
  match m[i]? with
  | some x => .ok x
  | none => .error .outOfBounds

/-- Write through a reference. -/
def write (m : List α) (i : Nat) (x : α) : Res (List α) :=
  if i < m.length then .ok (m.set i x) else .error .outOfBounds

/-- `swap( a, b )` (utility.hpp:22-26, 47-51): the memory afterwards.  Simplification: moving is copying. -/
def swap (m : List α) (a b : Nat) : Res (List α) := do
  let t ← read m a
  let y ← read m b
  let m ← write m a y
  write m b t

/-- `std::initializer_list<T>` on AVR (utility.hpp:59-103): `m_array`, as index into one memory or null, and
`m_size`. -/
structure InitList where
  m_array : Option Nat
  m_size : Nat

namespace InitList

/-- `initializer_list()` (utility.hpp:70-73). -/
def empty : InitList := ⟨none, 0⟩
/-- `initializer_list( arr, len )` (utility.hpp:91-94), which only the compiler calls. -/
def make (arr len : Nat) : InitList := ⟨some arr, len⟩
/-- `size()` (utility.hpp:75-78). -/
def size (l : InitList) : Nat := l.m_size
/-- `begin()` (utility.hpp:80-83, 101-105). -/
def begin_ (l : InitList) : Option Nat := l.m_array
/-- `end()` (utility.hpp:85-88, 107-111): adding anything but 0 to a null pointer is undefined. -/
def end_ (l : InitList) : Res (Option Nat) :=
  match l.begin_ with
  | some b => .ok (some (b + l.size))
  | none => if l.size = 0 then .ok none else .error .outOfBounds

end InitList

/-- `matrix( std::initializer_list<T> il )` (matrix.hpp:73-77) in memory: `storage` begins at `dst` and is
already value-initialised.  For a null pointer the loop of `copy` ends at once. -/
def constructMatrix (m : List α) (il : InitList) (dst : Nat) : Res (List α) := do
  match il.begin_, ← il.end_ with
  | some b, some e => .ok (← Std20.copy m b e dst).1
  | none, none => .ok m
  | _, _ => .error .outOfBounds

/-- `as<T>( value )` for integral types (shims.hpp:19-38): `static_cast`, then the conversion back to `T`. -/
def as (t : IntTy) (value : Int) : Int := t.convert value

/-- `as<T>( value )` for a floating-point argument (shims.hpp:19-38): truncation, undefined if the truncated
number is not a value of the type.  Simplification: the argument is a rational number. -/
def asOfFloat (t : IntTy) (value : ℚ) : Res Int :=
  let v := if 0 ≤ value then ⌊value⌋ else ⌈value⌉
  if t.lo ≤ v ∧ v ≤ t.hi then .ok v else .error .overflow

end StdShims
end Verif
