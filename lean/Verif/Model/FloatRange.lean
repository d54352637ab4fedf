import Verif.Model.Ieee
import Verif.Model.Range

/-
`core/range.hpp` over a floating-point type with its rounding (`Model/Range.lean` has exact reals instead), and
the frequency sweeps of the example programs.
-/

namespace Verif

/-- Arithmetic of ranges over a floating-point type (range.hpp:54, 117, 127: `+`, `*`, `>=`, `==` of the
type, `factor` and `current` are of the type itself). -/
def Flt.num (f : Ieee.Format) : RangeNum (Flt f) where
  zero := Flt.zero
  one := Flt.one
  add a b := Flt.ofRat f (a.val + b.val)
  mul a b := Flt.ofRat f (a.val * b.val)
  store a := a
  eq a b := decide (a.val = b.val)
  ge a b := decide (b.val ≤ a.val)

namespace FloatRange
open Range
variable (f : Ieee.Format)

/-- `Fstep = ( Fhi - Flo ) / ( Nsamp - 1 )` with `Flo = 0.0`, `Fhi = 0.5` (biquad.e.cpp:72-75,
biquad-cascade.e.cpp:79-82, biquad-design.e.cpp:92-95, chebyshev-design.e.cpp:238-241, onepole.e.cpp:72-75,
onepole-design.e.cpp:84-87).  The divisor is an `int`, converted. -/
def fstep (N : ℕ) : Res (Flt f) := do
  let hi ← Flt.ofRat f (1 / 2)
  CNum.div (← CNum.sub hi Flt.zero) (← Flt.ofRat f ((N : ℚ) - 1))

/-- The frequencies of `range( Flo, Fhi + Fstep, Fstep )` with that step (biquad.e.cpp:77 and the like), up to
`fuel` of them, and whether the loop has ended. -/
def sweep (N fuel : ℕ) : Res (List (Flt f) × Bool) := do
  let hi ← Flt.ofRat f (1 / 2)
  let step ← fstep f N
  (rangeStep (Flt.num f) Flt.zero (← CNum.add hi step) step).visitStep (Flt.num f) fuel

/-- The frequencies of `range( Flo + Fstep, Fhi, Fstep )` (biquad-design.e.cpp:148, 156), which leaves out both
ends. -/
def innerSweep (N fuel : ℕ) : Res (List (Flt f) × Bool) := do
  let hi ← Flt.ofRat f (1 / 2)
  let step ← fstep f N
  (rangeStep (Flt.num f) (← CNum.add Flt.zero step) hi step).visitStep (Flt.num f) fuel

end FloatRange
end Verif
