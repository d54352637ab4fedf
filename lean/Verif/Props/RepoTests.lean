import Verif.Model.Matrix
import Verif.Model.FixedPoint
import Verif.Model.Cascade
import Verif.Model.Range
import Verif.Model.Algorithm
import Verif.Props.Cascade
import Verif.Props.FixedPoint

/-
The unit tests of the repository (test/*.t.cpp), replayed on the model.  These are not the properties: they check the
model against expectations that the authors of the library wrote down.  Numbers: `int` of 32 bits in the tests of
matrices and ranges; rational or real numbers instead of `float` and `double`, so that `approx` becomes equality.
Left out: cases without expectation, printing, and properties of types.
-/

namespace Verif
namespace RepoTests

/-- `int` of 32 bits as numeric type of matrices. -/
@[reducible] def int32 : CNum Int where
  zero := 0
  one := 1
  add a b := checked 32 (a + b)
  sub a b := checked 32 (a - b)
  mul a b := checked 32 (a * b)
  div a b := divInt 32 a b
  neg a := checked 32 (-a)
  isNonZero a := a != 0

attribute [local instance] int32

/-- The elements of a matrix that a computation yields. -/
def elems {N M : Nat} {T : Type} (r : Res (Mat T N M)) : Res (List T) := r.map fun A => A.storage.toList

/-- Desktop platform. -/
def desktop : Platform := ⟨32, false, .inr rfl⟩

/-! ### matrix.t.cpp -/

/-- `matrix<int,2,2> A = { 1, 2, 3, 4 };` -/
def A : Mat Int 2 2 := ⟨#v[1, 2, 3, 4]⟩
/-- `rowvec<int,2>({1,2})` -/
def r12 : RowVec Int 2 := ⟨#v[1, 2]⟩
/-- `colvec<int,2>({1,2})` -/
def c12 : ColVec Int 2 := ⟨#v[1, 2]⟩
/-- `rowvec<int,1>({2})` -/
def r2 : RowVec Int 1 := ⟨#v[2]⟩
/-- `colvec<int,1>({3})` -/
def c3 : ColVec Int 1 := ⟨#v[3]⟩

-- 56-72: size()
example : (Mat.fill 1 3 0 : RowVec Int 3).size = 3 ∧ (Mat.fill 3 1 0 : ColVec Int 3).size = 3 ∧
    (Mat.fill 3 3 0 : Mat Int 3 3).size = 3 * 3 := by decide +kernel
-- 74-96: from a single value
example : (Mat.fill 1 2 7 : RowVec Int 2).idx 0 = .ok 7 ∧ (Mat.fill 1 2 7 : RowVec Int 2).idx 1 = .ok 7 := by
  decide +kernel
example : (Mat.fill 2 2 7 : Mat Int 2 2).idx 0 = .ok 7 ∧ (Mat.fill 2 2 7 : Mat Int 2 2).idx 1 = .ok 7 ∧
    (Mat.fill 2 2 7 : Mat Int 2 2).idx 2 = .ok 7 ∧ (Mat.fill 2 2 7 : Mat Int 2 2).idx 3 = .ok 7 := by decide +kernel
-- 98-177: from an initializer-list, copies
example : elems (Mat.ofList 1 2 [1, 2] : Res (RowVec Int 2)) = .ok [1, 2] := by decide +kernel
example : elems (Mat.ofList 2 1 [1, 2] : Res (ColVec Int 2)) = .ok [1, 2] := by decide +kernel
example : elems (Mat.ofList 2 2 [1, 2, 3, 4] : Res (Mat Int 2 2)) = .ok [1, 2, 3, 4] := by decide +kernel
-- 179-195: rows(), columns(), size()
example : (Mat.fill 2 3 0 : Mat Int 2 3).rows = 2 ∧ (Mat.fill 2 3 0 : Mat Int 2 3).columns = 3 ∧
    (Mat.fill 2 3 0 : Mat Int 2 3).size = 2 * 3 := by decide +kernel
-- 197-213: A[i], A(i)
example : A.idx 0 = .ok 1 ∧ A.idx 1 = .ok 2 ∧ A.idx 2 = .ok 3 ∧ A.idx 3 = .ok 4 := by decide +kernel
-- 215-222, 233-240: A(i,j), A.at(i,j)
example : A.at2 0 0 = .ok 1 ∧ A.at2 0 1 = .ok 2 ∧ A.at2 1 0 = .ok 3 ∧ A.at2 1 1 = .ok 4 := by decide +kernel
-- 224-231: A.at(i)
example : A.at1 0 = .ok 1 ∧ A.at1 1 = .ok 2 ∧ A.at1 2 = .ok 3 ∧ A.at1 3 = .ok 4 := by decide +kernel
-- 242-258: A[2] = 7, A(2) = 7
example : (A.setIdx 2 7 >>= fun B => B.idx 2) = .ok 7 := by decide +kernel
-- 260-267, 278-285: A(1,0) = 7, A.at(1,0) = 7
example : (A.set2 1 0 7 >>= fun B => B.at2 1 0) = .ok 7 := by decide +kernel
-- 269-276: A.at(2) = 7
example : (A.set1 2 7 >>= fun B => B.at1 2) = .ok 7 := by decide +kernel
-- 287-297: fill
example : Std20.fill A.storage.toList 0 4 7 = .ok [7, 7, 7, 7] := by decide +kernel
-- 299-304: equal
example : Std20.equal A.storage.toList A.storage.toList 0 4 0 = .ok true := by decide +kernel
-- 306-358: 1x1 with values
example : r2.add11s 7 = .ok (2 + 7) ∧ c3.add11s 7 = .ok (3 + 7) := by decide +kernel
example : r2.sub11s 7 = .ok (2 - 7) ∧ c3.sub11s 7 = .ok (3 - 7) := by decide +kernel
example : Mat.subs11 7 r2 = .ok (7 - 2) ∧ Mat.subs11 7 c3 = .ok (7 - 3) := by decide +kernel
example : r2.mul11s 3 = .ok (2 * 3) ∧ c3.mul11s 3 = .ok (3 * 3) := by decide +kernel
-- 360-386: vector times value
example : elems (r12.mulS 3) = .ok [1 * 3, 2 * 3] := by decide +kernel
example : elems (c12.mulS 3) = .ok [1 * 3, 2 * 3] := by decide +kernel
-- 388-403: dot and outer product
example : Mat.dot r12 c12 = .ok 5 := by decide +kernel
example : elems (Mat.outer c12 r12) = .ok [1, 2, 2, 4] := by decide +kernel
-- 405-443: matrix and value
example : elems (A.addS 7) = .ok [1 + 7, 2 + 7, 3 + 7, 4 + 7] := by decide +kernel
example : elems (A.mulS 7) = .ok [1 * 7, 2 * 7, 3 * 7, 4 * 7] := by decide +kernel
-- 445-463: sum, difference
example : elems (A.add A) = .ok [1 + 1, 2 + 2, 3 + 3, 4 + 4] := by decide +kernel
example : elems (A.sub A) = .ok [0, 0, 0, 0] := by decide +kernel
-- 465-477: 1x1 times matrix
example : elems (A.mulM11 ⟨#v[2]⟩) = .ok [2 * 1, 2 * 2, 2 * 3, 2 * 4] := by decide +kernel
-- 479-487: product
example : elems (A.mul A) = .ok [7, 10, 15, 22] := by decide +kernel
-- 489-521: products with vectors
example : elems (Mat.vecMul r12 A) = .ok [7, 10] := by decide +kernel
example : elems (Mat.mulVec A c12) = .ok [5, 11] := by decide +kernel
-- 523-551: transposition
example : elems (Mat.transposedRow r12) = .ok [1, 2] := by decide +kernel
example : elems (Mat.transposedCol c12) = .ok [1, 2] := by decide +kernel
example : elems (Mat.transposed22 A) = .ok [1, 3, 2, 4] := by decide +kernel
-- 567-574: inverted( value )
example : Mat.invertedS (1 / 2 : ℚ) = .ok 2 := by decide +kernel
-- 576-584: inverted( matrix ).  The expected value is the transpose of the inverse (C08).
example : elems (Mat.inverted22 (⟨#v[1, 2, 3, 4]⟩ : Mat ℚ 2 2)) = .ok [-2, 3 / 2, 1, -1 / 2] := by decide +kernel
-- 600-609: eye
example : elems (Mat.eye Int 3) = .ok [1, 0, 0, 0, 1, 0, 0, 0, 1] := by decide +kernel

/-! ### fixed-point.t.cpp -/

/-- `fixed_point<int, 15>`, `fp32_t`: 16 fractional bits. -/
abbrev FP := Fx .w32 16
/-- The value `n`. -/
def fp (n : Int) : FP := Fx.narrow .w32 16 (n * 2 ^ 16)

-- 59-64, 80-112: from an integral value, copies
example : (Fx.ofInt .w32 16 42 >>= fun a => a.asInt 32) = .ok 42 := by decide +kernel
-- 66-78: from floating point: the value is met up to half a unit
example : ∃ a : FP, Fx.ofReal .w32 16 1.23 = .ok a ∧ a = ⟨80609#32⟩ := by
  refine ⟨_, ?_, rfl⟩
  have hp : power2 16 = .ok 65536 := by decide +kernel
  have hf : ⌊((65536 : ℤ) : ℝ) * 1.23 + 1 / 2⌋ = 80609 := by rw [Int.floor_eq_iff]; norm_num
  have hp0 : (0 : ℝ) ≤ ((65536 : ℤ) : ℝ) * 1.23 + 1 / 2 := by norm_num
  have h0 : (0 : ℝ) ≤ 1.23 := by norm_num
  rw [Fx.ofReal, hp]
  show (Fx.truncTo 32 (((65536 : ℤ) : ℝ) * 1.23 + if (0 : ℝ) ≤ 1.23 then 1 / 2 else -1 / 2)).bind _ = _
  rw [if_pos h0, Fx.truncTo, if_pos hp0, hf]
  rfl
-- 114-119: min()
example : (Fx.ofInt .w8 4 (-8)).map (fun b => Fx.eq (Fx.min .w8 4) b) = .ok true := by decide +kernel
-- 121-127: max(), 7.9375 = 127/16
example : (Fx.max .w8 4).asReal = .ok 7.9375 := by
  have hp : power2 4 = .ok 16 := by decide +kernel
  have hm : (Fx.max .w8 4).underlying_value.toInt = 127 := by decide +kernel
  rw [Fx.asReal, hp, hm]
  show Except.ok (((127 : ℤ) : ℝ) / ((16 : ℤ) : ℝ)) = _
  norm_num
-- 129-138: underlying_value()
example : (Fx.ofInt .w16 (15 - 15) 42).map (·.underlying_value) = .ok (42#16 <<< ((16 - 1) - 15)) := by decide +kernel
example : (Fx.ofInt .w16 (15 - 14) 42).map (·.underlying_value) = .ok (42#16 <<< ((16 - 1) - 14)) := by decide +kernel
example : (Fx.ofInt .w16 (15 - 3) 4).map (·.underlying_value) = .ok (4#16 <<< ((16 - 1) - 3)) := by decide +kernel
-- `fp n` is what the constructor delivers.
example : Fx.ofInt .w32 16 4 = .ok (fp 4) ∧ Fx.ofInt .w32 16 2 = .ok (fp 2) ∧ Fx.ofInt .w32 16 (-42) = .ok (fp (-42)) := by
  decide +kernel
-- 140-150: equality
example : Fx.eq (fp 4) (fp 4) = true ∧ Fx.ne (fp 4) (fp 2) = true := by decide +kernel
-- 152-170: order
example : Fx.lt (fp 2) (fp 4) ∧ Fx.le (fp 2) (fp 4) ∧ Fx.le (fp 2) (fp 2) ∧ Fx.gt (fp 4) (fp 2) ∧ Fx.ge (fp 4) (fp 2) ∧
    Fx.ge (fp 4) (fp 4) ∧ !Fx.lt (fp 4) (fp 2) ∧ !Fx.le (fp 4) (fp 2) ∧ !Fx.gt (fp 2) (fp 4) ∧ !Fx.ge (fp 2) (fp 4) := by
  decide +kernel
-- 179-184: unary minus
example : Fx.neg desktop (fp 42) = .ok (fp (-42)) := by decide +kernel
-- 186-209: arithmetic
example : Fx.add desktop (fp 4) (fp 2) = .ok (fp (4 + 2)) := by decide +kernel
example : Fx.sub desktop (fp 4) (fp 2) = .ok (fp (4 - 2)) := by decide +kernel
example : Fx.mul desktop (fp 4) (fp 2) = .ok (fp (4 * 2)) := by decide +kernel
example : Fx.div desktop (fp 4) (fp 2) = .ok (fp (4 / 2)) := by decide +kernel
-- 211-232: to_rep, from_rep, from_value
example : (fp 123).to_rep = (fp 123).underlying_value ∧ (Fx.from_rep 16 123#32 : FP).underlying_value = 123#32 ∧
    (Fx.from_value 8 123#32 : Fx .w32 8).underlying_value = 123#32 := by decide +kernel
-- 234-241: power2
example : power2 0 = .ok 1 ∧ power2 1 = .ok 2 ∧ power2 2 = .ok 4 ∧ power2 3 = .ok 8 ∧ power2 4 = .ok 16 := by
  decide +kernel

/-! ### biquad.t.cpp -/

/-- The outputs of a filter for some inputs, and the filter afterwards. -/
def outs {S : Type} (f : S → ℚ → Res (ℚ × S)) (q : S) : List ℚ → Res (List ℚ × S)
  | [] => .ok ([], q)
  | x :: xs => do
    let (y, q) ← f q x
    let (ys, q) ← outs f q xs
    .ok (y :: ys, q)

-- 19-30: default
example : (Biquad.default : Biquad ℚ) = ⟨⟨0, 0⟩, ⟨0, 0, 0⟩, ⟨0, 0⟩⟩ := rfl
-- 32-50, 78-93: from coefficients
example : (Biquad.ofB (⟨1, 2, 3⟩ : BqB ℚ)).coeff_b = ⟨1, 2, 3⟩ := rfl
example : (Biquad.ofBA (⟨1, 2, 3⟩ : BqB ℚ) ⟨4, 5⟩).coeff_b = ⟨1, 2, 3⟩ ∧
    (Biquad.ofBA (⟨1, 2, 3⟩ : BqB ℚ) ⟨4, 5⟩).coeff_a = ⟨4, 5⟩ := ⟨rfl, rfl⟩
-- 95-110: state()
example : (outs Biquad.step (Biquad.ofB ⟨7, 0, 0⟩) (List.replicate 8 1.23)).map
    (fun r => (r.1.getLast?, r.2.state.v1, r.2.state.v2)) = .ok (some (7 * 1.23), 1.23, 1.23) := by decide +kernel
-- 143-159: reset()
example : (outs Biquad.step (Biquad.ofB ⟨7, 0, 0⟩) (List.replicate 7 1.23)).map
    (fun r => (decide (r.2.state.v1 ≠ 0), decide (r.2.state.v2 ≠ 0), r.2.reset.state.v1, r.2.reset.state.v2))
    = .ok (true, true, 0, 0) := by decide +kernel
-- 168-190: step(), step_df2(), step_df2_transposed()
example : (outs Biquad.step (Biquad.ofB ⟨7, 0, 0⟩) [0, 1]).map Prod.fst = .ok [0, 7] := by decide +kernel
example : (outs Biquad.step_df2 (Biquad.ofB ⟨7, 0, 0⟩) [0, 1]).map Prod.fst = .ok [0, 7] := by decide +kernel
example : (outs Biquad.step_df2_transposed (Biquad.ofB ⟨7, 0, 0⟩) [0, 1]).map Prod.fst = .ok [0, 7] := by
  decide +kernel

-- 193-209: solve()
example : Biquad.solve 10 (-12) 3.5 = .ok ⟨0.7, 0.5⟩ := by
  rw [(C38_solve 10 (-12) 3.5 (by norm_num)).1 (by norm_num)]
  have : √((-12 : ℝ) ^ 2 - 4 * 10 * 3.5) = 2 := by
    rw [show (-12 : ℝ) ^ 2 - 4 * 10 * 3.5 = 2 ^ 2 by norm_num, Real.sqrt_sq (by norm_num)]
  rw [this, abs_of_pos (by norm_num)]
  norm_num
-- 52-63, 112-130: zeros, poles and gain
example : (Biquad.ofZPK ⟨0.7, 0.5⟩ ⟨0.4, -0.3⟩ 10).zeros = .ok ⟨0.7, 0.5⟩ ∧
    (Biquad.ofZPK ⟨0.7, 0.5⟩ ⟨0.4, -0.3⟩ 10).poles = .ok ⟨0.4, -0.3⟩ ∧
    (Biquad.ofZPK ⟨0.7, 0.5⟩ ⟨0.4, -0.3⟩ 10).coeff_b.b0 = 10 := by
  have hb : (Biquad.ofZPK ⟨0.7, 0.5⟩ ⟨0.4, -0.3⟩ 10).b = ⟨10, -12, 3.5⟩ := by
    norm_num [Biquad.ofZPK, Biquad.to_coeff]
  have ha : (Biquad.ofZPK ⟨0.7, 0.5⟩ ⟨0.4, -0.3⟩ 10).a = ⟨-0.1, -0.12⟩ := by
    norm_num [Biquad.ofZPK, Biquad.to_coeff]
  refine ⟨?_, ?_, by rw [Biquad.coeff_b, hb]⟩
  · rw [Biquad.zeros, hb, (C38_solve 10 (-12) 3.5 (by norm_num)).1 (by norm_num)]
    have : √((-12 : ℝ) ^ 2 - 4 * 10 * 3.5) = 2 := by
      rw [show (-12 : ℝ) ^ 2 - 4 * 10 * 3.5 = 2 ^ 2 by norm_num, Real.sqrt_sq (by norm_num)]
    rw [this, abs_of_pos (by norm_num)]
    norm_num
  · rw [Biquad.poles, ha, (C38_solve 1 (-0.1) (-0.12) (by norm_num)).1 (by norm_num)]
    have : √((-0.1 : ℝ) ^ 2 - 4 * 1 * (-0.12)) = 0.7 := by
      rw [show (-0.1 : ℝ) ^ 2 - 4 * 1 * (-0.12) = 0.7 ^ 2 by norm_num, Real.sqrt_sq (by norm_num)]
    rw [this, abs_of_pos (by norm_num)]
    norm_num
-- 132-141: is_stable()
example : (Biquad.ofBA ⟨1, 0, 0⟩ ⟨0.2, -0.2⟩).is_stable = .ok true ∧
    (Biquad.ofBA ⟨1, 0, 0⟩ ⟨1.2, -0.9⟩).is_stable = .ok false := by
  constructor
  · rw [C37_triangle]
    constructor <;> norm_num [Biquad.ofBA, abs_le]
  · obtain ⟨s, h, -⟩ := C37_is_stable_poles (Biquad.ofBA ⟨1, 0, 0⟩ ⟨1.2, -0.9⟩)
    have := (C37_triangle (Biquad.ofBA ⟨1, 0, 0⟩ ⟨1.2, -0.9⟩)).not
    cases s
    · exact h
    · exact absurd h (this.2 (by norm_num [Biquad.ofBA, abs_le]))
-- 161-166: response()
example : (Biquad.ofB ⟨7, 0, 0⟩).response 0 = .ok 7 := by
  simp [Biquad.response, Biquad.ofB, Biquad.zeroA, Biquad.polar1, CNum.zero]

/-! ### biquad-cascade.t.cpp -/

/-- `BiQuad{{ b, 0, 0 }}`. -/
def g (b : ℚ) : Biquad ℚ := Biquad.ofB ⟨b, 0, 0⟩
/-- A cascade of three, with room for `N`. -/
def c123 (N : Nat) (h : 3 ≤ N) : Cascade ℚ N := Cascade.ofList [g 1, g 2, g 3] h
/-- `bqc.coeff_b( i ).b0`. -/
def b0 {N : Nat} (c : Cascade ℚ N) (i : Int) : Res ℚ := (c.coeff_b i).map (·.b0)

-- 18-26, 68-76: empty
example : (Cascade.ofList [] (Nat.zero_le 7) : Cascade ℚ 7).size = 0 ∧
    (Cascade.ofList [] (Nat.zero_le 7) : Cascade ℚ 7).reserved = 7 := by decide +kernel
-- 28-46: construction
example : (c123 3 (by decide)).size = 3 ∧ (c123 3 (by decide)).reserved = 3 ∧ b0 (c123 3 (by decide)) 0 = .ok 1 ∧
    b0 (c123 3 (by decide)) 1 = .ok 2 ∧ b0 (c123 3 (by decide)) 2 = .ok 3 := by decide +kernel
-- 78-84: size()
example : (Cascade.ofList [g 0, g 0, g 0, g 0, g 0] (by decide) : Cascade ℚ 7).size = 5 := by decide +kernel
-- 86-102: append
example : ((Cascade.ofList [] (Nat.zero_le 3) : Cascade ℚ 3).append (g 1)).map (fun c => (c.size, b0 c 0))
    = .ok (1, .ok 1) := by decide +kernel
example : (((Cascade.ofList [] (Nat.zero_le 3) : Cascade ℚ 3).append (g 1)).bind (·.append (g 2))).map
    (fun c => (c.size, b0 c 0, b0 c 1)) = .ok (2, .ok 1, .ok 2) := by decide +kernel
-- 104-123: insert
example : ((c123 4 (by decide)).insert 1 (g 7)).map (fun c => (c.size, b0 c 0, b0 c 1, b0 c 2))
    = .ok (4, .ok 1, .ok 7, .ok 2) := by decide +kernel
-- 125-142: replace
example : ((c123 3 (by decide)).replace 1 (g 7)).map (fun r => (r.1.coeff_b.b0, b0 r.2 0, b0 r.2 1, b0 r.2 2))
    = .ok (2, .ok 1, .ok 7, .ok 3) := by decide +kernel
-- 144-162: remove
example : ((c123 3 (by decide)).remove 0).map (fun c => (c.size, b0 c 0, b0 c 1)) = .ok (2, .ok 2, .ok 3) := by
  decide +kernel
-- 164-180: clear
example : (c123 3 (by decide)).clear.size = 0 := by decide +kernel
-- 214-235, 280-303: state, reset
example : (outs Cascade.step (c123 3 (by decide)) (List.replicate 7 1.23)).map (fun r => (r.2.state 1).map
    (fun w => (decide (w.v1 ≠ 0), decide (w.v2 ≠ 0)))) = .ok (.ok (true, true)) := by decide +kernel
example : (outs Cascade.step (c123 3 (by decide)) (List.replicate 7 1.23)).map (fun r => (r.2.reset.bind (·.state 1)).map
    (fun w => (w.v1, w.v2))) = .ok (.ok (0, 0)) := by decide +kernel
-- 319-362: step, step_df2, step_df2_transposed
example : (outs Cascade.step (c123 3 (by decide)) [0, 1]).map Prod.fst = .ok [0, 6] := by decide +kernel
example : (outs Cascade.step_df2 (c123 3 (by decide)) [0, 1]).map Prod.fst = .ok [0, 6] := by decide +kernel
example : (outs Cascade.step_df2_transposed (c123 3 (by decide)) [0, 1]).map Prod.fst = .ok [0, 6] := by decide +kernel

-- 257-278: is_stable()
example : (Cascade.ofList [Biquad.ofB ⟨1, 0, 0⟩, Biquad.ofB ⟨2, 0, 0⟩] (by decide) : Cascade ℝ 3).is_stable = .ok true := by
  have h (b : ℝ) : (Biquad.ofB ⟨b, 0, 0⟩).is_stable = .ok true := by
    rw [C37_triangle]
    constructor <;> norm_num [Biquad.ofB, Biquad.zeroA, CNum.zero]
  obtain ⟨hw, hl, -⟩ := C40_construct (N := 3) [Biquad.ofB (⟨1, 0, 0⟩ : BqB ℝ), Biquad.ofB ⟨2, 0, 0⟩] (by decide)
  obtain ⟨s, h1, h2⟩ := C43_is_stable _ hw
  rw [h1, h2.2]
  rw [hl]
  simp [h]
example : (Cascade.ofList [Biquad.ofBA ⟨1, 0, 0⟩ ⟨1.2, -1.2⟩, Biquad.ofB ⟨2, 0, 0⟩] (by decide) : Cascade ℝ 3).is_stable
    = .ok false := by
  obtain ⟨hw, hl, -⟩ := C40_construct (N := 3) [Biquad.ofBA (⟨1, 0, 0⟩ : BqB ℝ) ⟨1.2, -1.2⟩, Biquad.ofB ⟨2, 0, 0⟩] (by decide)
  obtain ⟨s, h1, h2⟩ := C43_is_stable _ hw
  rw [h1]
  cases s
  · rfl
  · have := h2.1 rfl (Biquad.ofBA ⟨1, 0, 0⟩ ⟨1.2, -1.2⟩) (by rw [hl]; simp)
    rw [C37_triangle] at this
    norm_num [Biquad.ofBA, abs_le] at this
-- 305-317: response()
example : (Cascade.ofList [Biquad.ofB ⟨1, 0, 0⟩, Biquad.ofB ⟨2, 0, 0⟩, Biquad.ofB ⟨3, 0, 0⟩] (by decide) :
    Cascade ℝ 3).response 0 = .ok 6 := by
  have h (b : ℝ) : (Biquad.ofB ⟨b, 0, 0⟩).response 0 = .ok (b : ℂ) := by
    simp [Biquad.response, Biquad.ofB, Biquad.zeroA, Biquad.polar1, CNum.zero]
  obtain ⟨hw, hl, -⟩ := C40_construct (N := 3)
    [Biquad.ofB (⟨1, 0, 0⟩ : BqB ℝ), Biquad.ofB ⟨2, 0, 0⟩, Biquad.ofB ⟨3, 0, 0⟩] (by decide)
  rw [C43_response _ hw 0 (fun q => (q.b.b0 : ℂ)) (by
    intro q hq
    rw [hl] at hq
    simp only [List.mem_cons, List.not_mem_nil, or_false] at hq
    obtain rfl | rfl | rfl := hq <;> exact h _), hl]
  norm_num [Biquad.ofB]

/-! ### core.t.cpp -/

open Range

/-- `int`. -/
def int : RangeNum Int := (⟨32, true, by decide⟩ : IntTy).num desktop

-- 54-69: range( 0 ), left at 42
example : (rangeFrom int 0).visitStep int 43 = .ok ((List.range 43).map (fun k : ℕ => (k : ℤ)), false) := by
  decide +kernel
-- 71-84: range( 0 ).step( 3 ), left at 9
example : (setStep int (rangeFrom int 0) 3).visitStep int 4 = .ok ([0, 3, 6, 9], false) := by decide +kernel
-- 86-93: range( 0, 4 )
example : (range 0 4).visit int 99 = .ok ([0, 1, 2, 3], true) := by decide +kernel
-- 95-102: range( 0, 10, 3 )
example : (rangeStep int 0 10 3).visitStep int 99 = .ok ([0, 3, 6, 9], true) := by decide +kernel
-- 113-143: indices
example : (indices 3).visit int 99 = .ok ([0, 1, 2], true) := by decide +kernel
example : (indices 4).visit int 99 = .ok ([0, 1, 2, 3], true) := by decide +kernel
example : (indices 5).visit int 99 = .ok ([0, 1, 2, 3, 4], true) := by decide +kernel

/-! ### stdcpp.t.cpp -/

-- 42-52: copy
example : Std20.copy [1, 2, 3, 0, 0, 0] 0 3 3 = .ok ([1, 2, 3, 1, 2, 3], 6) := by decide +kernel

end RepoTests
end Verif
