import Verif.Model.Biquad

/-
Model of include/dsp/biquad-cascade.hpp.
-/

namespace Verif

/-- `BiQuadCascadeT<T,N>` (biquad-cascade.hpp:21-148), members 144-147.  Simplification: `next` is a
natural number (it is decremented only when positive, line 85-87). -/
@[ext] structure Cascade (T : Type) (N : Nat) where
  biquad : Vector (Biquad T) N
  next : Nat

namespace Cascade
variable {T : Type} {N : Nat}

/-- `biquad[k]` as a value; outside the array the behaviour is undefined. -/
def get (c : Cascade T N) (k : Nat) : Res (Biquad T) :=
  if h : k < N then .ok c.biquad[k] else .error .outOfBounds

/-- `biquad[k] = q`; outside the array the behaviour is undefined. -/
def set (c : Cascade T N) (k : Nat) (q : Biquad T) : Res (Cascade T N) :=
  if h : k < N then .ok { c with biquad := c.biquad.set k q } else .error .outOfBounds

/-- `BiQuadCascadeT( bq... )` (biquad-cascade.hpp:30-34); more than `N` arguments do not compile, the
remaining elements are default-constructed. -/
def ofList [CNum T] (l : List (Biquad T)) (_h : l.length ≤ N) : Cascade T N where
  biquad := Vector.ofFn fun k => l.getD k Biquad.default
  next := l.length

/-- `size()` (biquad-cascade.hpp:38-41). -/
def size (c : Cascade T N) : Nat := c.next

/-- `reserved()` (biquad-cascade.hpp:43-46). -/
def reserved (_ : Cascade T N) : Nat := N

/-- `assert( 0 <= i && i < next )` (biquad-cascade.hpp:50, 57, 64, 85, 111).  A failing assertion is
an error; on AVR, or with `NDEBUG`, there is no check and the behaviour is not specified. -/
def assertIndex (c : Cascade T N) (i : Int) : Res Unit :=
  if 0 ≤ i ∧ i < c.next then .ok () else .error .assertFail

/-- `coeff_a( i )` (biquad-cascade.hpp:48-53). -/
def coeff_a (c : Cascade T N) (i : Int) : Res (BqA T) := do
  c.assertIndex i
  .ok (← c.get i.toNat).coeff_a

/-- `coeff_b( i )` (biquad-cascade.hpp:55-60). -/
def coeff_b (c : Cascade T N) (i : Int) : Res (BqB T) := do
  c.assertIndex i
  .ok (← c.get i.toNat).coeff_b

/-- `state( i )` (biquad-cascade.hpp:62-67). -/
def state (c : Cascade T N) (i : Int) : Res (BqW T) := do
  c.assertIndex i
  .ok (← c.get i.toNat).state

/-- `clear()` (biquad-cascade.hpp:71-74). -/
def clear (c : Cascade T N) : Cascade T N := { c with next := 0 }

/-- `append( bq )` (biquad-cascade.hpp:76-81). -/
def append (c : Cascade T N) (bq : Biquad T) : Res (Cascade T N) := do
  if ¬ c.next < c.reserved then .error .assertFail
  else
    let c' ← c.set c.next bq
    .ok { c' with next := c.next + 1 }

/-- `remove( i )` (biquad-cascade.hpp:83-92). -/
def remove (c : Cascade T N) (i : Int) : Res (Cascade T N) := do
  c.assertIndex i
  let next := c.next - 1
  let c := { c with next := next }
  forRange (next - i.toNat) (fun j c => do
    let k := i.toNat + j
    c.set k (← c.get (k + 1))) c

/-- `insert( i, bq )` (biquad-cascade.hpp:94-105). -/
def insert (c : Cascade T N) (i : Int) (bq : Biquad T) : Res (Cascade T N) := do
  if ¬ (0 ≤ i ∧ i < c.next ∧ c.next < c.reserved) then .error .assertFail
  else
    let next := c.next
    let c ← forRange (next - i.toNat) (fun j c => do
      let k := next - j
      c.set k (← c.get (k - 1))) c
    let c := { c with next := next + 1 }
    c.set i.toNat bq

/-- `replace( i, bq )` (biquad-cascade.hpp:109-116): the previous section and the cascade. -/
def replace (c : Cascade T N) (i : Int) (bq : Biquad T) : Res (Biquad T × Cascade T N) := do
  c.assertIndex i
  let (bq, bi) := bq.swap (← c.get i.toNat)
  .ok (bq, ← c.set i.toNat bi)

/-- `is_stable( filters )` (biquad-cascade.hpp:152-161).  `begin()`, `end()` (120-140) delimit
`biquad[0..next)`. -/
noncomputable def is_stable (c : Cascade ℝ N) : Res Bool :=
  forRange c.next (fun k result => do
    let bq ← c.get k
    if result then bq.is_stable else .ok false) true

/-- `response( filters, fnorm )` (biquad-cascade.hpp:165-176). -/
noncomputable def response (c : Cascade ℝ N) (fnorm : ℝ) : Res ℂ :=
  forRange c.next (fun k result => do
    let bq ← c.get k
    .ok (result * (← bq.response fnorm))) 1

/-- `reset( filters )` (biquad-cascade.hpp:180-187). -/
def reset [CNum T] (c : Cascade T N) : Res (Cascade T N) :=
  forRange c.next (fun k c => do c.set k (← c.get k).reset) c

/-- The loop of `step`, `step_df2`, `step_df2_transposed` for the step function `f` of a section. -/
def stepWith (f : Biquad T → T → Res (T × Biquad T)) (c : Cascade T N) (v : T) :
    Res (T × Cascade T N) :=
  forRange c.next (fun k (v, c) => do
    let (v, bq) ← f (← c.get k) v
    .ok (v, ← c.set k bq)) (v, c)

/-- `step( filters, v )` (biquad-cascade.hpp:191-199). -/
def step [CNum T] (c : Cascade T N) (v : T) : Res (T × Cascade T N) := stepWith Biquad.step c v

/-- `step_df2( filters, v )` (biquad-cascade.hpp:203-211). -/
def step_df2 [CNum T] (c : Cascade T N) (v : T) : Res (T × Cascade T N) :=
  stepWith Biquad.step_df2 c v

/-- `step_df2_transposed( filters, v )` (biquad-cascade.hpp:215-223). -/
def step_df2_transposed [CNum T] (c : Cascade T N) (v : T) : Res (T × Cascade T N) :=
  stepWith Biquad.step_df2_transposed c v

end Cascade
end Verif
