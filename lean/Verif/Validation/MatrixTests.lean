import Verif.Lemmas.KalmanFloat
import Verif.Model.Int
import Verif.Model.Matrix
import Verif.Model.Ieee

/-
The cases of test/matrix.t.cpp that have expectations, evaluated in the model: evidence that the model is one
of the code, not a property.  Copies, moves and assignments of whole matrices (lines 121-177) have no
counterpart.
-/

namespace Verif.Validation
open Mat Ieee

private abbrev int := CInt 32
private def i (n : Int) : int := ⟨n⟩
private def is (l : List Int) : List int := l.map i

/-- The elements in memory order. -/
private def out {N M : Nat} (r : Res (Mat int N M)) : Res (List Int) := do .ok ((← r).storage.toList.map CInt.val)
private def val (r : Res int) : Res Int := do .ok (← r).val
private def mat (N M : Nat) (l : List Int) : Res (Mat int N M) := Mat.ofList N M (is l)

-- matrix.t.cpp:56-72: default construction
example : (fill 1 3 (i 0)).size = 3 ∧ (fill 3 1 (i 0)).size = 3 ∧ (fill 3 3 (i 0)).size = 9 := by decide
-- 74-96: construction from a single value
example : out (.ok (fill 1 2 (i 7))) = .ok [7, 7] ∧ out (.ok (fill 2 2 (i 7))) = .ok [7, 7, 7, 7] := by decide +kernel
-- 98-119: construction from an initializer-list
example : (do (← mat 1 2 [1, 2]).idx 0) = .ok (i 1) ∧ (do (← mat 1 2 [1, 2]).idx 1) = .ok (i 2) ∧
    (do (← mat 2 1 [1, 2]).idx 1) = .ok (i 2) ∧ (do (← mat 2 2 [1, 2, 3, 4]).idx 0) = .ok (i 1) ∧
    (do (← mat 2 2 [1, 2, 3, 4]).idx 3) = .ok (i 4) := by decide +kernel
-- 179-195: observers
example : (fill 2 3 (i 0)).rows = 2 ∧ (fill 2 3 (i 0)).columns = 3 ∧ (fill 2 3 (i 0)).size = 2 * 3 := by decide
-- 197-240: elements
example : (do (← mat 2 2 [1, 2, 3, 4]).idx 2) = .ok (i 3) ∧ (do (← mat 2 2 [1, 2, 3, 4]).at1 2) = .ok (i 3) ∧
    (do (← mat 2 2 [1, 2, 3, 4]).at2 0 0) = .ok (i 1) ∧ (do (← mat 2 2 [1, 2, 3, 4]).at2 0 1) = .ok (i 2) ∧
    (do (← mat 2 2 [1, 2, 3, 4]).at2 1 0) = .ok (i 3) ∧ (do (← mat 2 2 [1, 2, 3, 4]).at2 1 1) = .ok (i 4) := by
  decide +kernel
-- 242-285: changing an element
example : out (do (← mat 2 2 [1, 2, 3, 4]).setIdx 2 (i 7)) = .ok [1, 2, 7, 4] ∧
    out (do (← mat 2 2 [1, 2, 3, 4]).set1 2 (i 7)) = .ok [1, 2, 7, 4] ∧
    out (do (← mat 2 2 [1, 2, 3, 4]).set2 1 0 (i 7)) = .ok [1, 2, 7, 4] := by decide +kernel
-- 306-358: 1x1 with a value
example : val (do (← mat 1 1 [2]).add11s (i 7)) = .ok (2 + 7) ∧ val (do adds11 (i 7) (← mat 1 1 [3])) = .ok (7 + 3) ∧
    val (do (← mat 1 1 [2]).sub11s (i 7)) = .ok (2 - 7) ∧ val (do subs11 (i 7) (← mat 1 1 [3])) = .ok (7 - 3) ∧
    val (do (← mat 1 1 [2]).mul11s (i 3)) = .ok (2 * 3) ∧ val (do muls11 (i 3) (← mat 1 1 [3])) = .ok (3 * 3) := by
  decide +kernel
-- 360-386: vectors with a value
example : out (do (← mat 1 2 [1, 2]).mulS (i 3)) = .ok [3, 6] ∧ out (do sMul (i 3) (← mat 1 2 [1, 2])) = .ok [3, 6] ∧
    out (do (← mat 2 1 [1, 2]).mulS (i 3)) = .ok [3, 6] ∧ out (do sMul (i 3) (← mat 2 1 [1, 2])) = .ok [3, 6] := by
  decide +kernel
-- 388-403: inner and outer product
example : val (do dot (← mat 1 2 [1, 2]) (← mat 2 1 [1, 2])) = .ok 5 ∧
    out (do outer (← mat 2 1 [1, 2]) (← mat 1 2 [1, 2])) = .ok [1, 2, 2, 4] := by decide +kernel
-- 405-443: matrices with a value
example : out (do (← mat 2 2 [1, 2, 3, 4]).addS (i 7)) = .ok [8, 9, 10, 11] ∧
    out (do sAdd (i 7) (← mat 2 2 [1, 2, 3, 4])) = .ok [8, 9, 10, 11] ∧
    out (do (← mat 2 2 [1, 2, 3, 4]).mulS (i 7)) = .ok [7, 14, 21, 28] ∧
    out (do sMul (i 7) (← mat 2 2 [1, 2, 3, 4])) = .ok [7, 14, 21, 28] := by decide +kernel
-- 445-477: sums, differences, product with a 1x1 matrix
example : out (do (← mat 2 2 [1, 2, 3, 4]).add (← mat 2 2 [1, 2, 3, 4])) = .ok [2, 4, 6, 8] ∧
    out (do (← mat 2 2 [1, 2, 3, 4]).sub (← mat 2 2 [1, 2, 3, 4])) = .ok [0, 0, 0, 0] ∧
    out (do m11Mul (← mat 1 1 [2]) (← mat 2 2 [1, 2, 3, 4])) = .ok [2, 4, 6, 8] ∧
    out (do (← mat 2 2 [1, 2, 3, 4]).mulM11 (← mat 1 1 [2])) = .ok [2, 4, 6, 8] := by decide +kernel
-- 479-521: products
example : out (do (← mat 2 2 [1, 2, 3, 4]).mul (← mat 2 2 [1, 2, 3, 4])) = .ok [7, 10, 15, 22] ∧
    out (do vecMul (← mat 1 2 [1, 2]) (← mat 2 2 [1, 2, 3, 4])) = .ok [7, 10] ∧
    out (do (← mat 2 2 [1, 2, 3, 4]).mulVec (← mat 2 1 [1, 2])) = .ok [5, 11] := by decide +kernel
-- 523-551: transposition
example : out (do transposedRow (← mat 1 2 [1, 2])) = .ok [1, 2] ∧ out (do transposedCol (← mat 2 1 [1, 2])) = .ok [1, 2] ∧
    out (do transposed22 (← mat 2 2 [1, 2, 3, 4])) = .ok [1, 3, 2, 4] := by decide +kernel
-- 567-574: inversion of a number
example : Res.yields (do invertedS (← Flt.ofRat binary64 (1 / 2))) (fun v => decide (v.val = 2)) = true := by
  decide +kernel
-- 576-584: inversion of a 2x2 matrix.  The expected matrix is the transpose of the inverse (C08).
example : Res.yields (do inverted22 (← Mat.ofList 2 2 [← Flt.ofRat binary64 1, ← Flt.ofRat binary64 2,
      ← Flt.ofRat binary64 3, ← Flt.ofRat binary64 4]))
    (fun A => decide (A.storage.toList.map Flt.val = [-2, 3 / 2, 1, -1 / 2])) = true := by decide +kernel
-- 600-609: identity
example : out (eye int 3) = .ok [1, 0, 0, 0, 1, 0, 0, 0, 1] := by decide +kernel

end Verif.Validation
