import Verif.Spec.Kalman

/-
The same estimation problem written down in other coordinates of the state, other units or another order of the
measurements and of the controls, and another unit of time.
-/

namespace Verif
open Matrix
namespace Kalman
variable {T : Type} {m u : Dim} [Field T]

/-- A change of description: the state `x` is written as `S x`, the measurement `z` as `M z`, the control `v` as `V v`
and the time `t` as `c t`. -/
structure Change (T : Type) [Field T] (m u : Dim) where
  S : Matrix (Fin 2) (Fin 2) T
  M : Matrix (Fin m.val) (Fin m.val) T
  V : Matrix (Fin u.val) (Fin u.val) T
  c : T

/-- `k'` is the estimator `k` in the other description. -/
structure Redescribed (χ : Change T m u) (k k' : Kalman T m u) : Prop where
  A : k'.A.toMatrix * χ.S = χ.S * k.A.toMatrix
  B : k'.B.toMatrix * χ.V = χ.S * k.B.toMatrix
  H : k'.H.toMatrix * χ.S = χ.M * k.H.toMatrix
  Q : k'.Q.toMatrix = χ.S * k.Q.toMatrix * χ.Sᵀ
  R : k'.R.toMatrix = χ.M * k.R.toMatrix * χ.Mᵀ
  P : k'.P.toMatrix = χ.S * k.P.toMatrix * χ.Sᵀ
  xhat : k'.xhat.toMatrix = χ.S * k.xhat.toMatrix
  t : k'.t = χ.c * k.t
  dt : k'.dt = χ.c * k.dt

/-- Control and measurement in the other description. -/
def Redata (χ : Change T m u) (d d' : ColVec T u.val × ColVec T m.val) : Prop :=
  d'.1.toMatrix = χ.V * d.1.toMatrix ∧ d'.2.toMatrix = χ.M * d.2.toMatrix

/-- The estimator that is given measurement `i` only. -/
def alone (k : Kalman T .two u) (i : Fin 2) : Kalman T .one u :=
  { A := k.A, B := k.B, H := ⟨#v[k.H.get i 0, k.H.get i 1]⟩, Q := k.Q, R := ⟨#v[k.R.get i i]⟩, K := none,
    P := k.P, xhat := k.xhat, t := k.t, dt := k.dt }

/-- The estimator that is given measurement `i` while nothing moves, starting from the estimate of another one. -/
def still (k : Kalman T .two u) (i : Fin 2) (k' : Kalman T .one u) : Kalman T .one u :=
  { A := ⟨#v[1, 0, 0, 1]⟩, B := ⟨.replicate _ 0⟩, H := ⟨#v[k.H.get i 0, k.H.get i 1]⟩, Q := ⟨#v[0, 0, 0, 0]⟩,
    R := ⟨#v[k.R.get i i]⟩, K := none, P := k'.P, xhat := k'.xhat, t := k'.t, dt := k.dt }

end Kalman
end Verif
