import Verif.Model.DesignFloat
import Verif.Model.KalmanSimOutput
import Verif.Spec.Num
import Verif.Spec.KalmanSim

/-
Vocabulary for filter designs in floating point.
-/

namespace Verif.DesignFloat
open Ieee

/-- Formats with enough digits and exponents; `float` and `double` are such. -/
def Usual (f : Format) : Prop := 6 ≤ f.p ∧ f.q ≤ 1 - 3 * f.p ∧ 3 ≤ f.top

/-- The unit roundoff. -/
def unit (f : Format) : ℚ := 1 / 2 ^ f.p

/-- Coefficients of the denominator in the triangle of stability. -/
def InTriangle (a1 a2 : ℚ) : Prop := |a2| < 1 ∧ |a1| < 1 + a2

/-- No term of the denominator is lost against the others in rounding: each is at least four roundoffs of their sum. -/
def Well (f : Format) (v d s : ℚ) : Prop :=
  0 < v + d + s ∧ unit f * (v + d + s) ≤ 1 ∧ 4 * (unit f * (v + d + s)) ≤ v ∧ 4 * (unit f * (v + d + s)) ≤ d ∧
    4 * (unit f * (v + d + s)) ≤ s

/-- The exact coefficients of the low-pass, high-pass, band-pass and band-stop sections for the prewarped frequency
`K` and the quality `Q`: the numerators `K²`, `z² - 2 z + 1` … over `1 + K / Q + K²`. -/
def exact (R : Design.Kind) (K Q : ℚ) : Option (BqB ℚ × BqA ℚ) :=
  let W := 1 + K / Q + K ^ 2
  let a : BqA ℚ := ⟨2 * (K ^ 2 - 1) / W, (1 - K / Q + K ^ 2) / W⟩
  match R with
  | .low_pass => some (⟨K ^ 2 / W, 2 * K ^ 2 / W, K ^ 2 / W⟩, a)
  | .high_pass => some (⟨1 / W, -2 / W, 1 / W⟩, a)
  | .band_pass => some (⟨K / Q / W, 0, -(K / Q) / W⟩, a)
  | .band_stop => some (⟨(1 + K ^ 2) / W, 2 * (K ^ 2 - 1) / W, (1 + K ^ 2) / W⟩, a)
  | _ => none

/-- All coefficients within `r`. -/
def Near (r : ℚ) {f : Format} (c : Coeff (Flt f)) (x : BqB ℚ × BqA ℚ) : Prop :=
  |c.b.b0.val - x.1.b0| ≤ r ∧ |c.b.b1.val - x.1.b1| ≤ r ∧ |c.b.b2.val - x.1.b2| ≤ r ∧
    |c.a.a1.val - x.2.a1| ≤ r ∧ |c.a.a2.val - x.2.a2| ≤ r

/-- The three terms of the denominator of a section of the kind `R` as computed, for the gain `dbGain`, the prewarped
frequency `K` and the quality `Q`: the constant, the middle and the square one. -/
def terms {T : Type} [CNum T] [CLit T] (M : Math T) (R : Design.Kind) (dbGain K Q : T) : Res (T × T × T) :=
  match R, M.nonneg dbGain with
  | .low_shelf, true | .high_shelf, true => do
    .ok (CNum.one, ← CNum.mul (← M.sqrt (← CLit.lit 2)) K, ← CNum.mul K K)
  | .low_shelf, false => do
    let V ← dbV_factor M dbGain
    .ok (CNum.one, ← CNum.mul (← M.sqrt (← CNum.mul (← CLit.lit 2) V)) K, ← CNum.mul (← CNum.mul V K) K)
  | .high_shelf, false => do
    let V ← dbV_factor M dbGain
    .ok (V, ← CNum.mul (← M.sqrt (← CNum.mul (← CLit.lit 2) V)) K, ← CNum.mul K K)
  | .peak_band_eq, true => do .ok (CNum.one, ← CNum.mul (← CNum.div CNum.one Q) K, ← CNum.mul K K)
  | .peak_band_eq, false => do
    .ok (CNum.one, ← CNum.mul (← CNum.div (← dbV_factor M dbGain) Q) K, ← CNum.mul K K)
  | _, _ => do .ok (CNum.one, ← CNum.div K Q, ← CNum.mul K K)

/-- No term of `1 + K / Q + K²` is lost against the others in rounding. -/
def Apart (f : Format) (K Q : ℚ) : Prop :=
  0 < K ∧ 0 < Q ∧ 5 * (unit f * (1 + K / Q + K ^ 2)) ≤ 1 ∧ 5 * (unit f * (1 + K / Q + K ^ 2)) ≤ K / Q ∧
    5 * (unit f * (1 + K / Q + K ^ 2)) ≤ K ^ 2

open Classical in
/-- The functions on the real numbers. -/
noncomputable def realMath : Math ℝ where
  pi := Real.pi
  exp x := .ok (Real.exp x)
  tan := RealFun.tan
  sqrt := RealFun.sqrt
  pow10 x := .ok (RealFun.pow10 x)
  abs x := .ok |x|
  nonneg x := decide (0 ≤ x)

/-- What is assumed of the functions used in the one-pole designs: `pi` is positive, `exp` of a number not positive lies
between 0 and 1, `abs` is the absolute value. -/
structure Fair {f : Format} (M : Math (Flt f)) : Prop where
  pi : 0 < M.pi.val
  exp : ∀ x e : Flt f, x.val ≤ 0 → M.exp x = .ok e → 0 ≤ e.val ∧ e.val ≤ 1
  abs : ∀ x : Flt f, ∃ y, M.abs x = .ok y ∧ y.val = |x.val|

/-- `y` is a number of the format nearest to the real number `x`. -/
def Nearest {f : Format} (x : ℝ) (y : Flt f) : Prop := ∀ z : Flt f, |(y.val : ℝ) - x| ≤ |(z.val : ℝ) - x|

end Verif.DesignFloat
