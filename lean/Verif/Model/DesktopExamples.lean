import Verif.Model.ChebyshevInfo
import Verif.Model.CovarianceError
import Verif.Model.FloatRange
import Verif.Model.Int
import Verif.Model.KalmanSimOutput

/-
Model of what the examples example/desktop/range.e.cpp, matrix.e.cpp and covariance-error.e.cpp print.
-/

namespace Verif.DesktopExamples
open Output Range

/-! ### range.e.cpp -/

/-- `for ( auto i : r ) { std::cout << i << " "; if ( stop( i ) ) break; }` (range.e.cpp:20-26 and the like) on what has been
written before; `fuel` bounds the number of iterations. -/
def loop {T I : Type} (deref : I → T) (next : I → Res I) (bne : I → I → Bool) (last : I) (show_ : T → Text) (stop : T → Bool) :
    (fuel : ℕ) → I → Text → Res Text
  | 0, _, _ => .error .outOfFuel
  | fuel + 1, i, os =>
    if bne i last then
      let os := os ++ show_ (deref i) ++ " ".toList
      if stop (deref i) then .ok os
      else do loop deref next bne last show_ stop fuel (← next i) os
    else .ok os

/-- The loop over a `range_proxy`. -/
def plain {T : Type} (A : RangeNum T) (show_ : T → Text) (r : Proxy (Iter T)) (fuel : ℕ) (os : Text) : Res Text :=
  loop Iter.deref (Iter.next A) (Iter.bne A) r.last show_ (fun _ => false) fuel r.first os

/-- The loop over a `step_range_proxy`. -/
def stepping {T : Type} (A : RangeNum T) (show_ : T → Text) (stop : T → Bool) (r : Proxy (StepIter T)) (fuel : ℕ) (os : Text) :
    Res Text :=
  loop StepIter.deref (StepIter.next A) (StepIter.bne A) r.last show_ stop fuel r.first os

/-- `int` -/
def int (p : Platform) : IntTy := ⟨p.intBits, true, by have := p.int_eq; omega⟩

/-- `std::size_t`, of 64 bits. -/
def size : IntTy := ⟨64, false, by simp⟩

/-- `main` of range.e.cpp (range.e.cpp:14-93); `double` is binary64.  The containers have 3, 4 and 5 elements. -/
def rangeMain (p : Platform) (fuel : ℕ) : Res Text := do
  let os ← stepping ((int p).num p) integer (· == 42) (rangeFrom ((int p).num p) 20) fuel
    "\nrange( 20 ), infinite, break at 42: ".toList
  let os ← stepping ((int p).num p) integer (fun i => decide (7 ≤ i)) (setStep ((int p).num p) (rangeFrom ((int p).num p) 0) 2) fuel
    (os ++ "\nrange( 0 ).step( 2 ), infinite, break at 7: ".toList)
  let os ← plain ((int p).num p) integer (range 0 10) fuel (os ++ "\nrange( 0, 10 ): ".toList)
  let os ← stepping ((int p).num p) integer (fun _ => false) (rangeStep ((int p).num p) 0 10 3) fuel
    (os ++ "\nrange( 0, 10, 3 ): ".toList)
  let first ← Flt.ofRat Ieee.binary64 (-5)
  let last ← Flt.ofRat Ieee.binary64 5.5
  let step ← Flt.ofRat Ieee.binary64 0.5
  let os ← stepping (Flt.num Ieee.binary64) float (fun _ => false) (rangeStep (Flt.num Ieee.binary64) first last step) fuel
    (os ++ "\nrange( -5, 5.5, 0.5 ): ".toList)
  let os ← plain (size.num p) integer (indices 3) fuel (os ++ "\nindices( c_arr ): ".toList)
  let os ← plain (size.num p) integer (indices 4) fuel (os ++ "\nindices( std_vec ): ".toList)
  let os ← plain (size.num p) integer (indices 5) fuel (os ++ "\nindices({ 1,2,4,6,8 }): ".toList)
  .ok (os ++ "\n".toList)

/-! ### matrix.e.cpp -/

/-- `main` of matrix.e.cpp (matrix.e.cpp:13-47) for given `x`, `y` and `A`; `elem` is the output of an element, `elemInt` that of
an `int`. -/
def matrixMain {T : Type} [CNum T] [CLit T] (elem : T → Text) (p : Platform) (x : ColVec T 2) (y : RowVec T 2) (A : Mat T 2 2) :
    Res Text := do
  let two ← CLit.lit (T := T) 2
  let os := "\nx =\n".toList ++ (← matrix elem x)
  let os := os ++ "\nx + x =\n".toList ++ (← matrix elem (← x.add x))
  let os := os ++ "\nx * 2 =\n".toList ++ (← matrix elem (← x.mulS two))
  let os := os ++ "\n2 * x =\n".toList ++ (← matrix elem (← x.sMul two))
  let os := os ++ "\ntransposed(x) =\n".toList ++ (← matrix elem (← x.transposedCol))
  let os := os ++ "\ny =\n".toList ++ (← matrix elem y)
  let os := os ++ "\nx * y =\n".toList ++ (← matrix elem (← x.outer y))
  let os := os ++ "\ny * x =\n ".toList ++ elem (← y.dot x) ++ "\n".toList
  let os := os ++ "\nA =\n".toList ++ (← matrix elem A)
  let os := os ++ "\nA + A =\n".toList ++ (← matrix elem (← A.add A))
  let os := os ++ "\nA * 2 =\n".toList ++ (← matrix elem (← A.mulS two))
  let os := os ++ "\n2 * A =\n".toList ++ (← matrix elem (← A.sMul two))
  let os := os ++ "\nA * x =\n ".toList ++ (← matrix elem (← A.mulVec x))
  let os := os ++ "\ny * A =\n ".toList ++ (← matrix elem (← y.vecMul A))
  let os := os ++ "\ntransposed(A) =\n".toList ++ (← matrix elem (← A.transposed22))
  let os := os ++ "\ninverted(A) =\n".toList ++ (← matrix elem (← A.inverted22))
  let os := os ++ "\nr =\n".toList ++ (← matrix elem (← A.mulVec x))
  .ok (os ++ "\neye<3,int>() =\n".toList ++ (← matrix (fun i : CInt p.intBits => integer i.val) (← Mat.eye (CInt p.intBits) 3)))

/-- The matrices of the program (matrix.e.cpp:15, 23, 29) and its output, with `double` as binary64. -/
def matrixProgram (p : Platform) : Res Text := do
  let one ← Flt.ofRat Ieee.binary64 1
  let two ← Flt.ofRat Ieee.binary64 2
  let three ← Flt.ofRat Ieee.binary64 3
  let four ← Flt.ofRat Ieee.binary64 4
  matrixMain float p (← Mat.ofList 2 1 [one, two]) (← Mat.ofList 1 2 [one, two]) (← Mat.ofList 2 2 [one, two, three, four])

/-! ### covariance-error.e.cpp -/

section
open CovarianceError
variable {T : Type} [CNum T] [CLit T] (elem : T → Text)

/-- The output of a pass (covariance-error.e.cpp:43-46). -/
def block (t : T) (s : State T) : Res Text := do
  let P ← matrix elem s.P
  let PJ ← matrix elem s.PJ
  .ok ("\ndt:".toList ++ elem t ++ " P:\n".toList ++ P ++ "\ndt:".toList ++ elem t ++ " PJ:\n".toList ++ PJ)

/-- The loop with its output and the time (covariance-error.e.cpp:38-54). -/
def passes (more : T → Bool) (tenth dt : T) (H : Mat T 1 2) (R : T) : (fuel : ℕ) → (k t : T) → State T → Text → Res Text
  | 0, _, _, _, _ => .error .outOfFuel
  | fuel + 1, k, t, s, os =>
    if more k then do
      let os := os ++ (← block elem t s)
      let s ← pass tenth H R k s
      passes more tenth dt H R fuel (← CNum.div k (← CLit.lit 2)) (← CNum.add t dt) s os
    else .ok os

/-- `main` of covariance-error.e.cpp (16-55). -/
def covarianceMain (more : T → Bool) (tenth : T) (p : KalmanSim.Params T) (fuel : ℕ) : Res Text := do
  let H ← KalmanSim.sysH
  let R ← CNum.mul p.measnoise p.measnoise
  let P ← KalmanSim.sysQ p
  passes elem more tenth p.dt H R fuel (← CLit.lit 1) CNum.zero ⟨P, P⟩ []

end

/-- The program with its constants, `float` being binary32 and `double` binary64: `measnoise`, `accelnoise` and the limit of the
loop are written as `double`s (covariance-error.e.cpp:25-27, 39, 48). -/
def covarianceProgram (fuel : ℕ) : Res Text := do
  let dt ← Flt.ofRat Ieee.binary32 1
  let measnoise ← Flt.ofRat Ieee.binary32 (← Flt.ofRat Ieee.binary64 0.14).val
  let accelnoise ← Flt.ofRat Ieee.binary32 (← Flt.ofRat Ieee.binary64 0.2).val
  let limit ← Flt.ofRat Ieee.binary64 0.001
  let tenth ← Flt.ofRat Ieee.binary32 0.1
  covarianceMain float (fun k => decide (limit.val < k.val)) tenth ⟨dt, measnoise, accelnoise⟩ fuel

end Verif.DesktopExamples
