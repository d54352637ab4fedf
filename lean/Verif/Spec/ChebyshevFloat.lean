import Verif.Model.ChebyshevFloat
import Verif.Spec.DesignFloat

/-
Vocabulary for the Chebyshev designs in floating point.
-/

namespace Verif.ChebyshevFloat
open Ieee DesignFloat

open Classical in
/-- The functions on the real numbers. -/
noncomputable def realMath : Math ℝ where
  toMath := DesignFloat.realMath
  pow x s := if x = 0 ∧ s < 0 then .error .divByZero else .ok (x ^ s)
  acosh := RealFun.acosh
  asinh x := .ok (Real.arsinh x)
  sinh x := .ok (Real.sinh x)
  sin x := .ok (Real.sin x)
  cos x := .ok (Real.cos x)
  ceilInt := RealFun.ceilInt
  lt x y := decide (x < y)
  hundredth := 0.01

/-- The sum of the terms of the denominator of a section for `W0`, `Wi` and the cosine `c`. -/
def weight (W0 Wi c : ℚ) : ℚ := 1 + 2 * (W0 * |c|) + W0 ^ 2 + Wi ^ 2

/-- No term of the denominator is lost against the others in rounding: each is at least five roundoffs of their sum. -/
def Clear (f : Format) (W0 Wi c : ℚ) : Prop :=
  5 * (unit f * weight W0 Wi c) ≤ 1 ∧ 5 * (unit f * weight W0 Wi c) ≤ 2 * (W0 * |c|) ∧
    5 * (unit f * weight W0 Wi c) ≤ W0 ^ 2 + Wi ^ 2

/-- The same for a first-order section. -/
def ClearFirst (f : Format) (W0 : ℚ) : Prop :=
  5 * (unit f * (1 + W0)) ≤ 1 ∧ 5 * (unit f * (1 + W0)) ≤ W0

/-- The two types of filters. -/
inductive Kind
  | type1
  | type2

/-- The design of a type. -/
def design {T : Type} [CNum T] [CLit T] (M : Math T) : Kind → Bool → T → T → T → T → T → Res (Digital T)
  | .type1 => chebyshev1_lp_hp_impl M
  | .type2 => chebyshev2_lp_hp_impl M

/-- `W0` is the value computed in the design of a filter of odd order for its first-order section. -/
def FirstValue {T : Type} [CNum T] [CLit T] (M : Math T) (k : Kind) (low : Bool) (fs fpass fstop Apass Astop W0 : T) :
    Prop :=
  ∃ s Wpass Wstop epass estop N a x, order M low fs fpass fstop Apass Astop = .ok (s, Wpass, Wstop, epass, estop, N) ∧
    N % 2 = 1 ∧ asinhN M estop N = .ok a ∧ M.sinh a = .ok x ∧
    (match k with | .type1 => CNum.mul x Wpass | .type2 => CNum.div x Wstop) = .ok W0

/-- `W0`, `Wi` and the cosine `c` are the values computed in the design for one of the second-order sections. -/
def Values {T : Type} [CNum T] [CLit T] (M : Math T) (k : Kind) (low : Bool) (fs fpass fstop Apass Astop W0 Wi c : T) :
    Prop :=
  ∃ s Wpass Wstop epass estop N a x th y, ∃ i : ℤ,
    order M low fs fpass fstop Apass Astop = .ok (s, Wpass, Wstop, epass, estop, N) ∧
    asinhN M estop N = .ok a ∧ M.sinh a = .ok x ∧
    (match k with | .type1 => CNum.mul x Wpass | .type2 => CNum.div x Wstop) = .ok W0 ∧
    1 ≤ i ∧ 2 * i ≤ N ∧ angle M N i = .ok th ∧ M.sin th = .ok y ∧ M.cos th = .ok c ∧
    (match k with | .type1 => CNum.mul Wpass y | .type2 => CNum.div y Wstop) = .ok Wi

/-- `+1` for low-pass and `-1` for high-pass filters. -/
def sign (low : Bool) : ℚ := if low then 1 else -1

/-- The exact coefficients of a second-order section for `W0`, `Wi` and the cosine `c`. -/
def exact (k : Kind) (low : Bool) (W0 Wi c : ℚ) : BqB ℚ × BqA ℚ :=
  let W := 1 - 2 * W0 * c + W0 ^ 2 + Wi ^ 2
  let a2 := (1 + 2 * W0 * c + W0 ^ 2 + Wi ^ 2) / W
  match k with
  | .type1 => (⟨(W0 ^ 2 + Wi ^ 2) / W, sign low * (2 * (W0 ^ 2 + Wi ^ 2) / W), (W0 ^ 2 + Wi ^ 2) / W⟩,
      ⟨sign low * (2 * (W0 ^ 2 + Wi ^ 2 - 1) / W), a2⟩)
  | .type2 => (⟨(1 + Wi ^ 2) / W, sign low * (2 * (1 - Wi ^ 2) / W), (1 + Wi ^ 2) / W⟩,
      ⟨sign low * (2 * (1 - W0 ^ 2 - Wi ^ 2) / W), a2⟩)

/-- The exact coefficients of a first-order section. -/
def exactFirst (low : Bool) (W0 : ℚ) : BqB ℚ × BqA ℚ :=
  (⟨1 / (1 + W0), sign low * (1 / (1 + W0)), 0⟩, ⟨sign low * ((1 - W0) / (1 + W0)), 0⟩)

end Verif.ChebyshevFloat
