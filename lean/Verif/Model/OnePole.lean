import Verif.Model.Biquad
import Verif.Model.RealFun

/-
Model of include/dsp/onepole.hpp and include/dsp/onepole-design.hpp.

Not modelled: normalising division (81-95), `Tie` and construction from zeros and poles (97-120,
174-179, 238-275): they use members (`a2`, `b1`, `b2`, `s1`) the types do not have and cannot be
instantiated.
-/

namespace Verif

/-- `OnePoleT<T,S>` (onepole.hpp:132-284) with its members `a.a1`, `b.b0`, `w.v1` (277-283, 31-51).
Simplifications: `S` is `T` (the default); the one-member structs `AT`, `BT`, `WT` are their member. -/
@[ext] structure OnePole (T : Type) where
  a1 : T
  b0 : T
  v1 : T

namespace OnePole
variable {T : Type} [CNum T]

/-- `OnePoleT()` (onepole.hpp:149), with the member initialisers 34, 42, 50. -/
def default : OnePole T := ⟨CNum.zero, CNum.zero, CNum.zero⟩

/-- `OnePoleT( B )` (onepole.hpp:151-156). -/
def ofB (b0 : T) : OnePole T := ⟨CNum.zero, b0, CNum.zero⟩

/-- `OnePoleT( B, A )` (onepole.hpp:160-172). -/
def ofBA (b0 a1 : T) : OnePole T := ⟨a1, b0, CNum.zero⟩

omit [CNum T] in
/-- `coeff_a()` (onepole.hpp:183-186). -/
def coeff_a (q : OnePole T) : T := q.a1
omit [CNum T] in
/-- `coeff_b()` (onepole.hpp:188-191). -/
def coeff_b (q : OnePole T) : T := q.b0
omit [CNum T] in
/-- `state()` (onepole.hpp:193-196). -/
def state (q : OnePole T) : T := q.v1

/-- `reset()` (onepole.hpp:217-220). -/
def reset (q : OnePole T) : OnePole T := { q with v1 := CNum.zero }

/-- `step( x )` (onepole.hpp:222-225): the new state is the output. -/
def step (q : OnePole T) (x : T) : Res (T × OnePole T) := do
  let y ← CNum.sub (← CNum.mul x q.b0) (← CNum.mul q.v1 q.a1)
  .ok (y, { q with v1 := y })

omit [CNum T] in
/-- `swap` (onepole.hpp:229-236): both filters afterwards. -/
def swap (q other : OnePole T) : OnePole T × OnePole T :=
  (⟨other.a1, other.b0, other.v1⟩, ⟨q.a1, q.b0, q.v1⟩)

/-- `solve( a, b )` (onepole.hpp:70-79): divides, then returns 7. -/
noncomputable def solve (a b : ℝ) : Res ℂ := do
  let _b ← RealFun.div b a
  .ok 7

/-- `poles()` (onepole.hpp:198-201). -/
noncomputable def poles (q : OnePole ℝ) : Res ℂ := solve 1 q.a1

omit [CNum T] in
/-- `zeros()` (onepole.hpp:203-206): a default-constructed complex number. -/
noncomputable def zeros (_q : OnePole ℝ) : ℂ := 0

omit [CNum T] in
/-- `is_stable()` (onepole.hpp:210-213). -/
def is_stable (_q : OnePole T) : Bool := true

open Classical in
/-- `response( op, fnorm )` (onepole.hpp:288-301).  A pole at that frequency divides by zero. -/
noncomputable def response (q : OnePole ℝ) (fnorm : ℝ) : Res ℂ :=
  let w := 2 * Real.pi * fnorm
  let czn1 := Biquad.polar1 (-w)
  let den := 1 + q.a1 * czn1
  if den = 0 then .error .divByZero else .ok (q.b0 / den)

/-- `onepole_design_method<low_pass>::design( f, fs )` (onepole-design.hpp:73-83): `(b0, a1)`.
The unqualified `exp` and `abs` are read as those of real numbers. -/
noncomputable def designLowPass (f fs : ℝ) : Res (ℝ × ℝ) := do
  let a1 := -Real.exp (← RealFun.div (-1 * Real.pi * f) fs)
  let b0 := 1 - |a1|
  .ok (b0, a1)

/-- `onepole_design_method<high_pass>::design( f, fs )` (onepole-design.hpp:87-97): `(b0, a1)`. -/
noncomputable def designHighPass (f fs : ℝ) : Res (ℝ × ℝ) := do
  let a1 := Real.exp (-1 * Real.pi * (0.5 - (← RealFun.div f fs)))
  let b0 := 1 - |a1|
  .ok (b0, a1)

/-- `make_onepole( coeff )` (onepole-design.hpp:119-123). -/
def make_onepole (coeff : T × T) : OnePole T := ofBA coeff.1 coeff.2

end OnePole
end Verif
