import Mathlib.Analysis.SpecialFunctions.Trigonometric.Chebyshev.RootsExtrema
import Mathlib.Analysis.SpecialFunctions.Complex.Log
import Mathlib.FieldTheory.KummerExtension
import Mathlib.RingTheory.RootsOfUnity.Complex
import Verif.Spec.Chebyshev

/- The factorisation of `T_N(x)^2 + sinh(N a)^2`, `T_N` the Chebyshev polynomial, into the quadratic
factors that the sections of a Chebyshev filter realise. -/

namespace Verif.Cheb
open Finset

/-- The angle of zero `k` (from 0) of the Chebyshev polynomial of degree `N`. -/
noncomputable def phi (N k : ℕ) : ℝ := Real.pi * (2 * k + 1) / (2 * N)

/-- `X^{2N} + r^{2N}` factorises over the odd multiples of `pi / 2N`. -/
theorem prod_quad (N : ℕ) (hN : 0 < N) (E r : ℂ) :
    ∏ k ∈ range N, (E ^ 2 - 2 * (Real.cos (phi N k) : ℝ) * E * r + r ^ 2) =
      E ^ (2 * N) + r ^ (2 * N) := by
  have hNc : (N : ℂ) ≠ 0 := by exact_mod_cast hN.ne'
  have h2N : 2 * N ≠ 0 := by omega
  have hz := Complex.isPrimitiveRoot_exp (2 * N) h2N
  set al : ℂ := Complex.exp (Real.pi * Complex.I / (2 * N)) * r with hal
  have hpow : al ^ (2 * N) = -r ^ (2 * N) := by
    rw [hal, mul_pow, ← Complex.exp_nat_mul]
    have : ((2 * N : ℕ) : ℂ) * (Real.pi * Complex.I / (2 * N)) = Real.pi * Complex.I := by
      push_cast; field_simp
    rw [this, Complex.exp_pi_mul_I]
    ring
  have hp := X_pow_sub_C_eq_prod hz (by omega) hpow
  have he := congrArg (Polynomial.eval E) hp
  simp only [Polynomial.eval_sub, Polynomial.eval_pow, Polynomial.eval_X, Polynomial.eval_C,
    Polynomial.eval_prod, sub_neg_eq_add] at he
  rw [he, two_mul, prod_range_add, ← prod_range_reflect (fun x => E - _ ^ (N + x) * al),
    ← prod_mul_distrib]
  apply prod_congr rfl
  intro k hk
  have hk := mem_range.1 hk
  have e1 : Complex.exp (2 * Real.pi * Complex.I / (2 * N : ℕ)) ^ k * al =
      Complex.exp (phi N k * Complex.I) * r := by
    rw [hal, ← Complex.exp_nat_mul, ← mul_assoc, ← Complex.exp_add]
    congr 2
    unfold phi
    push_cast
    field_simp
  have e2 : Complex.exp (2 * Real.pi * Complex.I / (2 * N : ℕ)) ^ (N + (N - 1 - k)) * al =
      Complex.exp (-phi N k * Complex.I) * r := by
    rw [hal, ← Complex.exp_nat_mul, ← mul_assoc, ← Complex.exp_add]
    congr 1
    rw [← Complex.exp_periodic.sub_eq]
    congr 1
    unfold phi
    have : ((N + (N - 1 - k) : ℕ) : ℂ) = 2 * N - 1 - k := by
      rw [show N + (N - 1 - k) = 2 * N - 1 - k by omega, Nat.cast_sub (by omega),
        Nat.cast_sub (by omega)]
      push_cast; ring
    rw [this]
    push_cast
    field_simp
    ring
  have e3 : 2 * ((Real.cos (phi N k) : ℝ) : ℂ) =
      Complex.exp (phi N k * Complex.I) + Complex.exp (-phi N k * Complex.I) := by
    rw [Complex.ofReal_cos, Complex.cos]
    ring
  have e4 : Complex.exp (phi N k * Complex.I) * Complex.exp (-phi N k * Complex.I) = 1 := by
    rw [← Complex.exp_add]
    simp
  rw [← two_mul N, e1, e2, e3]
  linear_combination -r ^ 2 * e4

/-- Factor `k` of `T_N(x)^2 + sinh(N a)^2`. -/
noncomputable def fac (N : ℕ) (a x : ℝ) (k : ℕ) : ℝ :=
  x ^ 2 - 2 * x * Real.cos (phi N k) * Real.cosh a + Real.cos (phi N k) ^ 2 + Real.sinh a ^ 2

theorem prod_fac (N : ℕ) (hN : 0 < N) (a x : ℝ) :
    4 ^ N * ∏ k ∈ range N, fac N a x k = 4 * (T N x ^ 2 + Real.sinh (N * a) ^ 2) := by
  obtain ⟨z, hz⟩ := Complex.cos_surjective (x : ℂ)
  set E := Complex.exp (z * Complex.I) with hE
  have hE0 : E ≠ 0 := Complex.exp_ne_zero _
  set r : ℂ := Complex.exp a with hr
  have hr0 : r ≠ 0 := Complex.exp_ne_zero _
  have hEi : Complex.exp (-z * Complex.I) = E⁻¹ := by rw [hE, ← Complex.exp_neg, neg_mul]
  have hri : Complex.exp (-a) = r⁻¹ := by rw [hr, ← Complex.exp_neg]
  have hx : (x : ℂ) = (E + E⁻¹) / 2 := by rw [← hz, Complex.cos, hEi]
  have hch : ((Real.cosh a : ℝ) : ℂ) = (r + r⁻¹) / 2 := by rw [Complex.ofReal_cosh, Complex.cosh, hri]
  have hsh : ((Real.sinh a : ℝ) : ℂ) = (r - r⁻¹) / 2 := by rw [Complex.ofReal_sinh, Complex.sinh, hri]
  have hfac : ∀ k, ((fac N a x k : ℝ) : ℂ) * (4 * E ^ 2) =
      (E ^ 2 - 2 * (Real.cos (phi N k) : ℝ) * E * r + r ^ 2) *
        (E ^ 2 - 2 * (Real.cos (phi N k) : ℝ) * E * r⁻¹ + r⁻¹ ^ 2) := by
    intro k
    unfold fac
    push_cast [-Complex.ofReal_cos, -Complex.ofReal_cosh, -Complex.ofReal_sinh]
    rw [hx, hch, hsh]
    field_simp
    ring
  have hT : ((T N x : ℝ) : ℂ) = (E ^ N + E⁻¹ ^ N) / 2 := by
    unfold T
    rw [Polynomial.Chebyshev.complex_ofReal_eval_T, ← hz, Polynomial.Chebyshev.T_complex_cos,
      Complex.cos, ← hEi, hE, ← Complex.exp_nat_mul, ← Complex.exp_nat_mul]
    congr 2 <;> push_cast <;> ring_nf
  have hS : ((Real.sinh (N * a) : ℝ) : ℂ) = (r ^ N - r⁻¹ ^ N) / 2 := by
    rw [Complex.ofReal_sinh, Complex.sinh, ← hri, hr, ← Complex.exp_nat_mul, ← Complex.exp_nat_mul]
    congr 2 <;> push_cast <;> ring_nf
  have hprod : ((∏ k ∈ range N, fac N a x k : ℝ) : ℂ) * (4 * E ^ 2) ^ N =
      (E ^ (2 * N) + r ^ (2 * N)) * (E ^ (2 * N) + r⁻¹ ^ (2 * N)) := by
    rw [← prod_quad N hN E r, ← prod_quad N hN E r⁻¹, ← prod_mul_distrib]
    rw [Complex.ofReal_prod, ← card_range N, ← prod_const, card_range, ← prod_mul_distrib]
    exact prod_congr rfl fun k _ => hfac k
  have hgoal : ((4 ^ N * ∏ k ∈ range N, fac N a x k : ℝ) : ℂ) =
      ((4 * (T N x ^ 2 + Real.sinh (N * a) ^ 2) : ℝ) : ℂ) := by
    have hEN : (E ^ 2) ^ N ≠ 0 := pow_ne_zero _ (pow_ne_zero _ hE0)
    apply mul_right_cancel₀ hEN
    push_cast [-Complex.ofReal_sinh]
    rw [hT, hS]
    have : (4 : ℂ) ^ N * (∏ k ∈ range N, (fac N a x k : ℂ)) * (E ^ 2) ^ N =
        (∏ k ∈ range N, (fac N a x k : ℂ)) * (4 * E ^ 2) ^ N := by rw [mul_pow]; ring
    rw [this]
    push_cast at hprod
    rw [hprod, pow_mul, pow_mul, pow_mul, inv_pow, inv_pow, inv_pow, inv_pow, ← pow_mul E 2 N,
      ← pow_mul r 2 N, mul_comm 2 N, pow_mul E, pow_mul r]
    have h1 : E ^ N ≠ 0 := pow_ne_zero _ hE0
    have h2 : r ^ N ≠ 0 := pow_ne_zero _ hr0
    field_simp
    ring
  exact_mod_cast hgoal

end Verif.Cheb
