import Mathlib.LinearAlgebra.Matrix.Defs
import Mathlib.Tactic.Ring
import Verif.Model.Matrix

/-
What a model matrix denotes: the mathematical matrix whose entry in row `i`, column `j` is the
storage element number `i*M+j` (row-major).
-/

namespace Verif
namespace Mat
variable {T : Type} {N M : Nat}

theorem pos_lt {i j : Nat} (hi : i < N) (hj : j < M) : i * M + j < N * M := by
  calc i * M + j < i * M + M := by omega
    _ = (i + 1) * M := by ring
    _ ≤ N * M := Nat.mul_le_mul_right M hi

/-- Element at row `i`, column `j`. -/
def get (A : Mat T N M) (i : Fin N) (j : Fin M) : T :=
  A.storage[i.val * M + j.val]'(pos_lt i.2 j.2)

/-- A model matrix as a mathematical matrix. -/
def toMatrix (A : Mat T N M) : Matrix (Fin N) (Fin M) T := A.get

/-- Entry `k` of a column vector. -/
def vget (x : ColVec T N) (k : Fin N) : T := x.get k 0
/-- Entry `k` of a row vector. -/
def rget (x : RowVec T M) (k : Fin M) : T := x.get 0 k

end Mat
end Verif
