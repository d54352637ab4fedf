import Mathlib.Data.Real.Basic
import Verif.Spec.Matrix
import Verif.Model.Kalman

/-
Arithmetic of accuracy `ω`: results of modulus up to `1 / ω` exist, with an absolute error of at most `ω` plus a relative error of at
most `ω`.
-/

namespace Verif

structure Accurate (T : Type) [CNum T] (val : T → ℝ) (ω : ℝ) : Prop where
  zero : val CNum.zero = 0
  one : val CNum.one = 1
  add : ∀ a b, |val a + val b| ≤ 1 / ω →
    ∃ c, CNum.add a b = .ok c ∧ |val c - (val a + val b)| ≤ ω * (|val a + val b| + 1)
  sub : ∀ a b, |val a - val b| ≤ 1 / ω →
    ∃ c, CNum.sub a b = .ok c ∧ |val c - (val a - val b)| ≤ ω * (|val a - val b| + 1)
  mul : ∀ a b, |val a * val b| ≤ 1 / ω →
    ∃ c, CNum.mul a b = .ok c ∧ |val c - val a * val b| ≤ ω * (|val a * val b| + 1)
  div : ∀ a b, val b ≠ 0 → |val a / val b| ≤ 1 / ω →
    ∃ c, CNum.div a b = .ok c ∧ |val c - val a / val b| ≤ ω * (|val a / val b| + 1)
  neg : ∀ a, |val a| ≤ 1 / ω → ∃ c, CNum.neg a = .ok c ∧ |val c - -val a| ≤ ω * (|val a| + 1)
  nonZero : ∀ a, val a ≠ 0 → CNum.isNonZero a = true

/-- The entries of `A` are within `ε` of those of `X`. -/
def Mat.Near {T : Type} {N M : Nat} (val : T → ℝ) (ε : ℝ) (A : Mat T N M) (X : Matrix (Fin N) (Fin M) ℝ) : Prop :=
  ∀ i j, |val (A.get i j) - X i j| ≤ ε

/-- The parameters and the state of `k` are within `ε` of those of the exact estimator. -/
structure Kalman.Near {T : Type} {m u : Dim} (val : T → ℝ) (ε : ℝ) (k : Kalman T m u) (k0 : Kalman ℝ m u) : Prop where
  A : k.A.Near val ε k0.A.toMatrix
  B : k.B.Near val ε k0.B.toMatrix
  H : k.H.Near val ε k0.H.toMatrix
  Q : k.Q.Near val ε k0.Q.toMatrix
  R : k.R.Near val ε k0.R.toMatrix
  P : k.P.Near val ε k0.P.toMatrix
  xhat : k.xhat.Near val ε k0.xhat.toMatrix

/-- Control and measurement within `ε` of exact ones, which are bounded by `D`. -/
structure Kalman.NearData {T : Type} {m u : Dim} (val : T → ℝ) (ε D : ℝ) (d : ColVec T u.val × ColVec T m.val)
    (d0 : ColVec ℝ u.val × ColVec ℝ m.val) : Prop where
  control : d.1.Near val ε d0.1.toMatrix
  measurement : d.2.Near val ε d0.2.toMatrix
  bound1 : ∀ i j, |d0.1.get i j| ≤ D
  bound2 : ∀ i j, |d0.2.get i j| ≤ D

end Verif
