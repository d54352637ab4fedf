import Verif.Model.IeeeSpecial

/-
Vocabulary for floating point with infinities and NaN.
-/

namespace Verif
namespace XFlt
variable {f : Ieee.Format}

/-- The datum is the finite number `y`; either zero is 0. -/
def Is (x : XFlt f) (y : Flt f) : Prop := x.isFinite = true ∧ x.val = y.val

/-- An infinity or NaN. -/
abbrev Bad (x : XFlt f) : Prop := x.isFinite = false

/-- Some element is not finite. -/
def SomeBad {N M : Nat} (A : Mat (XFlt f) N M) : Prop := ∃ i, ∃ h : i < N * M, A.storage[i].Bad
/-- No element is finite. -/
def AllBad {N M : Nat} (A : Mat (XFlt f) N M) : Prop := ∀ i (h : i < N * M), A.storage[i].Bad

/-- All elements are finite. -/
def AllFinite {N M : Nat} (A : Mat (XFlt f) N M) : Prop := ∀ i (h : i < N * M), A.storage[i].isFinite = true

/-- All elements are zero, of either sign. -/
def AllZero {N M : Nat} (A : Mat (XFlt f) N M) : Prop := ∀ i (h : i < N * M), ∃ s, A.storage[i] = zero s

instance {N M : Nat} (A : Mat (XFlt f) N M) : Decidable (AllFinite A) :=
  inferInstanceAs (Decidable (∀ i, ∀ h : i < N * M, A.storage[i].isFinite = true))

instance {N M : Nat} (A : Mat (XFlt f) N M) : Decidable (AllZero A) :=
  inferInstanceAs (Decidable (∀ i, ∀ h : i < N * M, ∃ s, A.storage[i] = zero s))

/-- The determinant of a 2x2 matrix, as computed: two products and their difference, each rounded. -/
def det (S : Mat (XFlt f) 2 2) : XFlt f := (S.storage[0].mul S.storage[3]).sub (S.storage[1].mul S.storage[2])

/-- The covariance of the innovation as computed, `H * P * H' + R`, for two measurements. -/
def innovationCov (P H R : Mat (XFlt f) 2 2) : Res (Mat (XFlt f) 2 2) := do
  Mat.add (← Mat.mul (← Mat.mul H P) (← H.transposed22)) R

end XFlt
end Verif
