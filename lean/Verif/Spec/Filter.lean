import Mathlib.RingTheory.PowerSeries.Basic
import Verif.Model.Cpp

/-
What a filter does, seen from outside: the sequence of outputs for a sequence of inputs; and the
textbook descriptions of such sequences: difference equations and z-transforms.
-/

namespace Verif
namespace Sig
variable {σ T : Type}

/-- The object after processing the first `n` samples of `x`. -/
def after (step : σ → T → Res (T × σ)) (s : σ) (x : ℕ → T) : ℕ → Res σ
  | 0 => .ok s
  | n + 1 => do
    let s' ← after step s x n
    let (_, s'') ← step s' (x n)
    .ok s''

/-- The output for sample `n` of `x`. -/
def out (step : σ → T → Res (T × σ)) (s : σ) (x : ℕ → T) (n : ℕ) : Res T := do
  let s' ← after step s x n
  let (y, _) ← step s' (x n)
  .ok y

/-- Started in `s` with input sequence `x` the object delivers the output sequence `y`, all steps
being defined. -/
def Runs (step : σ → T → Res (T × σ)) (s : σ) (x y : ℕ → T) : Prop :=
  ∀ n, out step s x n = .ok (y n)

/-- The sample `k` before sample `n`; the past before the first sample is zero. -/
def past [Zero T] (x : ℕ → T) (n k : ℕ) : T := if k ≤ n then x (n - k) else 0

/-- The difference equation
`y[n] = b0 x[n] + b1 x[n-1] + b2 x[n-2] - a1 y[n-1] - a2 y[n-2]` with zero past. -/
def DiffEq [CommRing T] (b0 b1 b2 a1 a2 : T) (x y : ℕ → T) : Prop :=
  ∀ n, y n = b0 * x n + b1 * past x n 1 + b2 * past x n 2 - a1 * past y n 1 - a2 * past y n 2

/-- The sequence delayed by `d` samples. -/
def delay [Zero T] (d : ℕ) (x : ℕ → T) (n : ℕ) : T := past x n d

/-- The z-transform of a sequence, as a formal power series in `z⁻¹`. -/
noncomputable def ztrans [CommRing T] (x : ℕ → T) : PowerSeries T := PowerSeries.mk x

/-- The polynomial `c0 + c1 z⁻¹ + c2 z⁻²`. -/
noncomputable def poly2 [CommRing T] (c0 c1 c2 : T) : PowerSeries T :=
  PowerSeries.C c0 + PowerSeries.C c1 * PowerSeries.X + PowerSeries.C c2 * PowerSeries.X ^ 2

end Sig
end Verif
