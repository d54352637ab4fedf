import Mathlib.Analysis.SpecialFunctions.Arcosh
import Mathlib.Analysis.SpecialFunctions.Pow.Real
import Mathlib.Analysis.SpecialFunctions.Trigonometric.Basic
import Mathlib.RingTheory.Polynomial.Chebyshev

/- Specification of Chebyshev filters. -/

namespace Verif

/-- The Chebyshev polynomial of degree `N` at `x`. -/
noncomputable def Cheb.T (N : ℕ) (x : ℝ) : ℝ := (Polynomial.Chebyshev.T ℝ N).eval x

namespace Design

/-- A meaningful specification: the pass band ends before the stop band begins, below half the sample
frequency, and the stop band is attenuated more than the pass band. -/
structure Valid (low : Bool) (fs fpass fstop Apass Astop : ℝ) : Prop where
  fpass_pos : 0 < fpass
  fstop_pos : 0 < fstop
  fpass_lt : fpass < fs / 2
  fstop_lt : fstop < fs / 2
  apart : if low then fpass < fstop else fstop < fpass
  Apass_pos : 0 < Apass
  Apass_lt : Apass < Astop

/-- The frequency `f` is in the pass band. -/
def InPass (low : Bool) (fs fpass f : ℝ) : Prop := if low then 0 ≤ f ∧ f ≤ fpass else fpass ≤ f ∧ f ≤ fs / 2

/-- The frequency `f` is in the stop band. -/
def InStop (low : Bool) (fs fstop f : ℝ) : Prop := if low then fstop ≤ f ∧ f ≤ fs / 2 else 0 ≤ f ∧ f ≤ fstop

/-- The prewarped frequency, inverted for a high-pass filter. -/
noncomputable def warp (low : Bool) (f fs : ℝ) : ℝ :=
  if low then Real.tan (Real.pi * f / fs) else 1 / Real.tan (Real.pi * f / fs)

/-- The ripple factor for an attenuation of `A` dB. -/
noncomputable def ripple (A : ℝ) : ℝ := √((10 : ℝ) ^ (A / 10) - 1)

/-- The order of the filter. -/
noncomputable def order (low : Bool) (fs fpass fstop Apass Astop : ℝ) : ℕ :=
  ⌈Real.arcosh (ripple Astop / ripple Apass) /
    Real.arcosh (warp low fstop fs / warp low fpass fs)⌉₊

end Design
end Verif
