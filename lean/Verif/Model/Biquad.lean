import Mathlib.Analysis.SpecialFunctions.Pow.Complex
import Verif.Model.Cpp

/-
Model of include/dsp/biquad.hpp.

The step functions are over any numeric type.  What uses `std::complex` (poles, zeros, stability,
construction from zeros and poles, response) is over the real numbers, with complex numbers,
`sqrt`, `abs`, `polar` exact.  (On AVR the complex operations are declared, not defined:
include/std/complex.hpp:84-192.)
-/

namespace Verif

/-- `AT<V>` (biquad.hpp:31-36). -/
@[ext] structure BqA (T : Type) where
  a1 : T
  a2 : T

/-- `BT<V>` (biquad.hpp:40-44). -/
@[ext] structure BqB (T : Type) where
  b0 : T
  b1 : T
  b2 : T

/-- `WT<V>` (biquad.hpp:48-52). -/
@[ext] structure BqW (T : Type) where
  v1 : T
  v2 : T

/-- `SolutionT<V>` (biquad.hpp:62-67). -/
@[ext] structure Solution where
  s0 : ℂ
  s1 : ℂ

/-- `BiQuadT<T,S>` (biquad.hpp:143-325), members 320-324.  Simplification: coefficient type `S` is
the value type `T` (the default). -/
@[ext] structure Biquad (T : Type) where
  a : BqA T
  b : BqB T
  w : BqW T

namespace Biquad
variable {T : Type} [CNum T]

/-- Default member initialisers of `AT`, `BT`, `WT` (biquad.hpp:34, 43, 51). -/
def zeroA : BqA T := ⟨CNum.zero, CNum.zero⟩
def zeroB : BqB T := ⟨CNum.zero, CNum.zero, CNum.zero⟩
def zeroW : BqW T := ⟨CNum.zero, CNum.zero⟩

/-- `BiQuadT()` (biquad.hpp:160). -/
def default : Biquad T := ⟨zeroA, zeroB, zeroW⟩

/-- `BiQuadT( B )` (biquad.hpp:162-167). -/
def ofB (b : BqB T) : Biquad T := ⟨zeroA, b, zeroW⟩

/-- `BiQuadT( B, A )` (biquad.hpp:171-183). -/
def ofBA (b : BqB T) (a : BqA T) : Biquad T := ⟨a, b, zeroW⟩

omit [CNum T] in
/-- `coeff_a()` (biquad.hpp:194-197). -/
def coeff_a (q : Biquad T) : BqA T := q.a
omit [CNum T] in
/-- `coeff_b()` (biquad.hpp:199-202). -/
def coeff_b (q : Biquad T) : BqB T := q.b
omit [CNum T] in
/-- `state()` (biquad.hpp:204-207). -/
def state (q : Biquad T) : BqW T := q.w

/-- `reset()` (biquad.hpp:231-234). -/
def reset (q : Biquad T) : Biquad T := { q with w := zeroW }

/-- `step_df2` (biquad.hpp:243-253): the output and the filter afterwards. -/
def step_df2 (q : Biquad T) (x : T) : Res (T × Biquad T) := do
  let w0 ← CNum.sub (← CNum.sub x (← CNum.mul q.a.a1 q.w.v1)) (← CNum.mul q.a.a2 q.w.v2)
  let y ← CNum.add (← CNum.add (← CNum.mul q.b.b0 w0) (← CNum.mul q.b.b1 q.w.v1))
    (← CNum.mul q.b.b2 q.w.v2)
  .ok (y, { q with w := { v1 := w0, v2 := q.w.v1 } })

/-- `step_df2_transposed` (biquad.hpp:257-266). -/
def step_df2_transposed (q : Biquad T) (x : T) : Res (T × Biquad T) := do
  let y ← CNum.add (← CNum.mul q.b.b0 x) q.w.v1
  let v1 ← CNum.add (← CNum.sub (← CNum.mul q.b.b1 x) (← CNum.mul q.a.a1 y)) q.w.v2
  let v2 ← CNum.sub (← CNum.mul q.b.b2 x) (← CNum.mul q.a.a2 y)
  .ok (y, { q with w := { v1 := v1, v2 := v2 } })

/-- `step` (biquad.hpp:236-239). -/
def step (q : Biquad T) (x : T) : Res (T × Biquad T) := q.step_df2 x

omit [CNum T] in
/-- `swap` (biquad.hpp:270-277): both filters afterwards. -/
def swap (q other : Biquad T) : Biquad T × Biquad T :=
  (⟨other.a, other.b, other.w⟩, ⟨q.a, q.b, q.w⟩)

/-- `solve( a, b, c )` (biquad.hpp:71-90).  A zero leading coefficient divides by zero. -/
noncomputable def solve (a b c : ℝ) : Res Solution :=
  if a = 0 then .error .divByZero else
    let b := b / a
    let c := c / a
    let ds : ℂ := ((⟨b * b, 0⟩ : ℂ) - ((4 * c : ℝ) : ℂ)) ^ (1 / 2 : ℂ)
    .ok ⟨(-(b : ℂ) + ds) / 2, (-(b : ℂ) - ds) / 2⟩

/-- `poles()` (biquad.hpp:209-212). -/
noncomputable def poles (q : Biquad ℝ) : Res Solution := solve 1 q.a.a1 q.a.a2

/-- `zeros()` (biquad.hpp:214-217). -/
noncomputable def zeros (q : Biquad ℝ) : Res Solution := solve q.b.b0 q.b.b1 q.b.b2

open Classical in
/-- `is_stable()` (biquad.hpp:221-227). -/
noncomputable def is_stable (q : Biquad ℝ) : Res Bool := do
  let p ← q.poles
  .ok (decide (‖p.s0‖ ≤ 1) && decide (‖p.s1‖ ≤ 1))

open Classical in
/-- `to_coeff( z )` (biquad.hpp:303-316). -/
noncomputable def to_coeff (z : Solution) : ℝ × ℝ :=
  if z.s0.im ≠ 0 then (-2 * z.s0.re, z.s0.re * z.s0.re + z.s0.im * z.s0.im)
  else (-z.s0.re - z.s1.re, z.s0.re * z.s1.re)

/-- `BiQuadT( z, p, k )` and `to_coeff( z, p, k )` (biquad.hpp:187-190, 285-295). -/
noncomputable def ofZPK (z p : Solution) (k : ℝ) : Biquad ℝ where
  b := ⟨k, k * (to_coeff z).1, k * (to_coeff z).2⟩
  a := ⟨(to_coeff p).1, (to_coeff p).2⟩
  w := ⟨0, 0⟩

/-- `std::polar( 1, t )`. -/
noncomputable def polar1 (t : ℝ) : ℂ := ⟨Real.cos t, Real.sin t⟩

open Classical in
/-- `response( bq, fnorm )` (biquad.hpp:329-343).  A pole at that frequency divides by zero. -/
noncomputable def response (q : Biquad ℝ) (fnorm : ℝ) : Res ℂ :=
  let w := 2 * Real.pi * fnorm
  let czn1 := polar1 (-w)
  let czn2 := polar1 (-2 * w)
  let num := (q.b.b0 : ℂ) + q.b.b1 * czn1 + q.b.b2 * czn2
  let den := 1 + q.a.a1 * czn1 + q.a.a2 * czn2
  if den = 0 then .error .divByZero else .ok (num / den)

end Biquad
end Verif
