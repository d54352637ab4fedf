import Mathlib.Data.Nat.Init

/- What it means that a sequence repeats itself. -/

namespace Verif

/-- From `N` on the sequence `x` has the period `p`. -/
def RepeatsFrom {α : Type} (N p : ℕ) (x : ℕ → α) : Prop := ∀ n, N ≤ n → x (n + p) = x n

end Verif
