import Verif.Model.StdShims

/-
Model of the remaining replacements of the standard library used on AVR: include/std/type_traits.hpp
and include/std/complex.hpp.
-/

namespace Verif
namespace TypeTraits

/-- A C++ object type, possibly cv-qualified; the unqualified types are numbered.  (Not from the sources: C++ semantics.
Simplification: no arrays and no functions.) -/
structure ObjTy where
  isConst : Bool
  isVolatile : Bool
  base : Nat
deriving DecidableEq, Repr

/-- A C++ type: an object type or a reference to one.  A reference itself cannot be qualified. -/
inductive Ty where
  | obj (o : ObjTy)
  | lref (o : ObjTy)
  | rref (o : ObjTy)
deriving DecidableEq, Repr

/-- `remove_reference<T>::type` (type_traits.hpp:40-42). -/
def remove_reference : Ty → Ty
  | .lref o => .obj o
  | .rref o => .obj o
  | t => t

/-- `remove_const<T>::type` (type_traits.hpp:44-45): the specialisation matches an object type that is const, with what
is left of it as `T`. -/
def remove_const : Ty → Ty
  | .obj ⟨true, v, b⟩ => .obj ⟨false, v, b⟩
  | t => t

/-- `remove_volatile<T>::type` (type_traits.hpp:47-48). -/
def remove_volatile : Ty → Ty
  | .obj ⟨c, true, b⟩ => .obj ⟨c, false, b⟩
  | t => t

/-- `remove_cv<T>::type` (type_traits.hpp:50-54). -/
def remove_cv (t : Ty) : Ty := remove_volatile (remove_const t)

/-- `integral_constant<T,v>::value`, its conversion and its call (type_traits.hpp:61-71). -/
structure IntegralConstant (α : Type) (v : α) where
/-- `value` (type_traits.hpp:64). -/
def IntegralConstant.value {α : Type} {v : α} (_ : IntegralConstant α v) : α := v
/-- `operator value_type()` (type_traits.hpp:69). -/
def IntegralConstant.convert {α : Type} {v : α} (c : IntegralConstant α v) : α := c.value
/-- `operator()()` (type_traits.hpp:70). -/
def IntegralConstant.call {α : Type} {v : α} (c : IntegralConstant α v) : α := c.value

/-- The base class of `is_same<T,U>` (type_traits.hpp:88-95): the partial specialisation is chosen iff both arguments
are one type. -/
def is_same_v (t u : Ty) : Bool := if t = u then true else false

/-- `enable_if<B,T>::type` (type_traits.hpp:97-104): absent unless `B`. -/
def enable_if : Bool → Ty → Option Ty
  | true, t => some t
  | false, _ => none

/-- How a function ends: with a value or without the `return` it needs, which is undefined behaviour. -/
inductive Exit (α : Type) where
  | returns (x : α)
  | flowsOff
deriving DecidableEq, Repr

/-- `complex<T>` on AVR (complex.hpp:26-104). -/
structure Complex (T : Type) where
  re_ : T
  im_ : T
deriving DecidableEq, Repr

namespace Complex
variable {T X : Type}

/-- `complex( re, im )` (complex.hpp:32-35). -/
def make (re im : T) : Complex T := ⟨re, im⟩
/-- `complex( re )` with the default `T()` for the imaginary part (complex.hpp:32-35). -/
def ofReal (zero re : T) : Complex T := make re zero
/-- `real()` (complex.hpp:64-67). -/
def real (z : Complex T) : T := z.re_
/-- `imag()` (complex.hpp:69-72). -/
def imag (z : Complex T) : T := z.im_
/-- `complex( complex<X> )` (complex.hpp:39-43); `conv` is the conversion from `X` to `T`. -/
def convert (conv : X → T) (z : Complex X) : Complex T := ⟨conv z.real, conv z.imag⟩
/-- `real( value )` (complex.hpp:74-77). -/
def setReal (z : Complex T) (v : T) : Complex T := { z with re_ := v }
/-- `imag( value )` (complex.hpp:79-82). -/
def setImag (z : Complex T) (v : T) : Complex T := { z with im_ := v }

/-- `operator=( T )` (complex.hpp:45-49): the object when the end of the function is reached, and how that is. -/
def assignScalar (zero : T) (z : Complex T) (x : T) : Complex T × Exit (Complex T) :=
  let z := { z with re_ := x }
  let z := { z with im_ := zero }
  (z, .flowsOff)

/-- `operator=( complex )` (complex.hpp:51-55, 57-62). -/
def assign (conv : X → T) (z : Complex T) (cx : Complex X) : Complex T × Exit (Complex T) :=
  let z := { z with re_ := conv cx.real }
  let z := { z with im_ := conv cx.imag }
  (z, .flowsOff)

/-- The compound assignments, which are declared but not defined (complex.hpp:84-99): whatever a program supplies. -/
structure Compound (T : Type) where
  addS : Complex T → T → Complex T
  subS : Complex T → T → Complex T
  mulS : Complex T → T → Complex T
  divS : Complex T → T → Complex T
  add : Complex T → Complex T → Complex T
  sub : Complex T → Complex T → Complex T
  mul : Complex T → Complex T → Complex T
  div : Complex T → Complex T → Complex T

/-- The operands of the binary operators (complex.hpp:116-186). -/
inductive Operand (T : Type) where
  | scalar (x : T)
  | cplx (z : Complex T)

/-- The four operators. -/
inductive Op where
  | add | sub | mul | div
deriving DecidableEq, Repr

/-- `complex( lhs )`, the copy or the conversion at the left of each compound assignment. -/
def ofOperand (zero : T) : Operand T → Complex T
  | .scalar x => ofReal zero x
  | .cplx z => z

/-- `operator+`, `-`, `*`, `/` (complex.hpp:116-186): `complex( lhs ) op= rhs`.  Of two scalars they are not defined. -/
def binary (c : Compound T) (zero : T) (op : Op) (lhs rhs : Operand T) : Option (Complex T) :=
  match lhs, rhs with
  | .scalar _, .scalar _ => none
  | l, .scalar x =>
    match op with
    | .add => some (c.addS (ofOperand zero l) x)
    | .sub => some (c.subS (ofOperand zero l) x)
    | .mul => some (c.mulS (ofOperand zero l) x)
    | .div => some (c.divS (ofOperand zero l) x)
  | l, .cplx z =>
    match op with
    | .add => some (c.add (ofOperand zero l) z)
    | .sub => some (c.sub (ofOperand zero l) z)
    | .mul => some (c.mul (ofOperand zero l) z)
    | .div => some (c.div (ofOperand zero l) z)

end Complex
end TypeTraits
end Verif
