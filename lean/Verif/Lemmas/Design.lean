import Mathlib.Analysis.SpecialFunctions.Trigonometric.Deriv
import Verif.Model.Design
import Verif.Props.Biquad

/- Lemmas on the biquad designs: all are bilinear transforms of analog prototypes. -/

namespace Verif.Design

theorem div_ok {a b : ℝ} (h : b ≠ 0) : RealFun.div a b = .ok (a / b) := if_neg h

theorem sqrt_ok {a : ℝ} (h : 0 ≤ a) : RealFun.sqrt a = .ok (Real.sqrt a) := if_neg (not_lt.2 h)

/-- A second-order analog transfer function
`(n0 s^2 + n1 s + n2) / (d0 s^2 + d1 s + d2)`. -/
structure Proto where
  n0 : ℝ
  n1 : ℝ
  n2 : ℝ
  d0 : ℝ
  d1 : ℝ
  d2 : ℝ

/-- Its value at the complex frequency `s`. -/
noncomputable def Proto.eval (p : Proto) (s : ℂ) : ℂ :=
  (p.n0 * s ^ 2 + p.n1 * s + p.n2) / (p.d0 * s ^ 2 + p.d1 * s + p.d2)

/-- The bilinear transform `s = (1 - 1/z) / (1 + 1/z) / K`. -/
noncomputable def bilinear (p : Proto) (K : ℝ) : Coeff :=
  let d := p.d0 + p.d1 * K + p.d2 * K ^ 2
  { b := ⟨(p.n0 + p.n1 * K + p.n2 * K ^ 2) / d, 2 * (p.n2 * K ^ 2 - p.n0) / d,
      (p.n0 - p.n1 * K + p.n2 * K ^ 2) / d⟩
    a := ⟨2 * (p.d2 * K ^ 2 - p.d0) / d, (p.d0 - p.d1 * K + p.d2 * K ^ 2) / d⟩ }

theorem prewarp_ok {f fs : ℝ} (h0 : 0 < f) (h1 : f < fs / 2) :
    prewarp f fs = .ok (Real.tan (Real.pi * f / fs)) ∧ 0 < Real.tan (Real.pi * f / fs) := by
  have hs : 0 < fs := by linarith
  have hpi := Real.pi_pos
  have a0 : 0 < Real.pi * f / fs := by positivity
  have a1 : Real.pi * f / fs < Real.pi / 2 := by
    rw [div_lt_iff₀ hs]
    nlinarith
  have hc : 0 < Real.cos (Real.pi * f / fs) := Real.cos_pos_of_mem_Ioo ⟨by linarith, a1⟩
  refine ⟨?_, Real.tan_pos_of_pos_of_lt_pi_div_two a0 a1⟩
  unfold prewarp
  rw [div_ok hs.ne', bind_ok]
  unfold RealFun.tan
  rw [if_neg hc.ne', Real.tan_eq_sin_div_cos]

/-- Frequency response of a bilinear transform, before division. -/
theorem bilinear_response_aux (p : Proto) {K : ℝ} (hd : p.d0 + p.d1 * K + p.d2 * K ^ 2 ≠ 0) (g : ℝ) :
    let c : ℂ := (Real.cos (Real.pi * g) : ℝ)
    let s : ℂ := (Real.sin (Real.pi * g) : ℝ)
    let den := -p.d0 * s ^ 2 + p.d1 * K * s * c * Complex.I + p.d2 * K ^ 2 * c ^ 2
    den ≠ 0 → (make_biquad (bilinear p K)).response g =
      .ok ((-p.n0 * s ^ 2 + p.n1 * K * s * c * Complex.I + p.n2 * K ^ 2 * c ^ 2) / den) := by
  intro c s den hden
  have hf := response_formula (make_biquad (bilinear p K)) g
  simp only at hf
  set u := Complex.exp (-(2 * Real.pi * g * Complex.I)) with hu
  have hsc : s ^ 2 + c ^ 2 = 1 := by
    have := Real.sin_sq_add_cos_sq (Real.pi * g)
    simp only [s, c]
    exact_mod_cast this
  set w : ℂ := c - s * Complex.I with hw
  have hI : Complex.I ^ 2 = -1 := Complex.I_sq
  have hwu : u = w ^ 2 := by
    have : w = Complex.exp (-(Real.pi * g * Complex.I)) := by
      have h2 := polar1_eq (-(Real.pi * g))
      unfold Biquad.polar1 at h2
      rw [Real.cos_neg, Real.sin_neg] at h2
      have h3 : w = ⟨Real.cos (Real.pi * g), -Real.sin (Real.pi * g)⟩ := by
        rw [hw]
        apply Complex.ext <;> simp [c, s, -Complex.ofReal_cos, -Complex.ofReal_sin]
      rw [h3, h2]
      congr 1
      push_cast
      ring
    rw [this, ← Complex.exp_nat_mul, hu]
    congr 1
    push_cast
    ring
  have e1 : 1 + u = 2 * c * w := by
    rw [hwu, hw]
    linear_combination (-1 : ℂ) * hsc + s ^ 2 * hI
  have e2 : 1 - u = 2 * s * Complex.I * w := by
    rw [hwu, hw]
    linear_combination (-1 : ℂ) * hsc + s ^ 2 * hI
  have hw0 : w ≠ 0 := by
    intro h
    rw [h] at hwu
    have := Complex.exp_ne_zero (-(2 * Real.pi * g * Complex.I))
    rw [← hu, hwu] at this
    exact this (by ring)
  have hdc : (p.d0 : ℂ) + p.d1 * K + p.d2 * K ^ 2 ≠ 0 := by exact_mod_cast hd
  set d : ℂ := (p.d0 : ℂ) + p.d1 * K + p.d2 * K ^ 2 with hdd
  have key : ∀ x0 x1 x2 : ℂ, (x0 + x1 * K + x2 * K ^ 2) / d + 2 * (x2 * K ^ 2 - x0) / d * u +
      (x0 - x1 * K + x2 * K ^ 2) / d * u ^ 2 =
      (-x0 * s ^ 2 + x1 * K * s * c * Complex.I + x2 * K ^ 2 * c ^ 2) * (4 * w ^ 2 / d) := by
    intro x0 x1 x2
    field_simp
    have : x0 + x1 * K + x2 * K ^ 2 + 2 * u * (x2 * K ^ 2 - x0) +
        u ^ 2 * (x0 - x1 * K + x2 * K ^ 2) =
        x0 * (1 - u) ^ 2 + x1 * K * ((1 - u) * (1 + u)) + x2 * K ^ 2 * (1 + u) ^ 2 := by ring
    have h2 : x0 * (1 - u) ^ 2 + x1 * K * ((1 - u) * (1 + u)) + x2 * K ^ 2 * (1 + u) ^ 2 =
        4 * w ^ 2 * (-(x0 * s ^ 2) + x1 * K * s * c * Complex.I + x2 * K ^ 2 * c ^ 2) := by
      rw [e1, e2]
      linear_combination (4 * x0 * s ^ 2 * w ^ 2) * hI
    linear_combination this + h2
  have hden' := key p.d0 p.d1 p.d2
  have hnum' := key p.n0 p.n1 p.n2
  have hone : ((p.d0 : ℂ) + p.d1 * K + p.d2 * K ^ 2) / d = 1 := div_self hdc
  rw [hone] at hden'
  have hden2 : 1 + ((make_biquad (bilinear p K)).a.a1 : ℂ) * u +
      ((make_biquad (bilinear p K)).a.a2 : ℂ) * u ^ 2 = den * (4 * w ^ 2 / d) := by
    rw [← hden']
    simp only [make_biquad, Biquad.ofBA, bilinear]
    push_cast
    rfl
  have hnum2 : ((make_biquad (bilinear p K)).b.b0 : ℂ) + (make_biquad (bilinear p K)).b.b1 * u +
      (make_biquad (bilinear p K)).b.b2 * u ^ 2 =
      (-p.n0 * s ^ 2 + p.n1 * K * s * c * Complex.I + p.n2 * K ^ 2 * c ^ 2) * (4 * w ^ 2 / d) := by
    rw [← hnum']
    simp only [make_biquad, Biquad.ofBA, bilinear]
    push_cast
    rfl
  have hfac : 4 * w ^ 2 / d ≠ 0 := div_ne_zero (mul_ne_zero (by norm_num) (pow_ne_zero _ hw0)) hdc
  rw [hf, hden2, hnum2, if_neg (mul_ne_zero hden hfac), mul_div_mul_right _ _ hfac]

/-- Below the Nyquist frequency: the prototype at `s = i tan(pi g) / K`. -/
theorem bilinear_response (p : Proto) {K : ℝ} (hK : 0 < K) (h0 : 0 < p.d0) (h1 : 0 < p.d1)
    (h2 : 0 < p.d2) (g : ℝ) (hg : Real.cos (Real.pi * g) ≠ 0) :
    (make_biquad (bilinear p K)).response g =
      .ok (p.eval (Complex.I * (Real.tan (Real.pi * g) / K : ℝ))) := by
  have hc : ((Real.cos (Real.pi * g) : ℝ) : ℂ) ≠ 0 := by exact_mod_cast hg
  have hKc : (K : ℂ) ≠ 0 := by exact_mod_cast hK.ne'
  have hI : Complex.I ^ 2 = -1 := Complex.I_sq
  have hden : -p.d0 * ((Real.sin (Real.pi * g) : ℝ) : ℂ) ^ 2 +
      p.d1 * K * ((Real.sin (Real.pi * g) : ℝ) : ℂ) * ((Real.cos (Real.pi * g) : ℝ) : ℂ) * Complex.I +
      p.d2 * K ^ 2 * ((Real.cos (Real.pi * g) : ℝ) : ℂ) ^ 2 ≠ 0 := by
    intro h
    have hi := congrArg Complex.im h
    have hr := congrArg Complex.re h
    have e : -p.d0 * ((Real.sin (Real.pi * g) : ℝ) : ℂ) ^ 2 +
      p.d1 * K * ((Real.sin (Real.pi * g) : ℝ) : ℂ) * ((Real.cos (Real.pi * g) : ℝ) : ℂ) * Complex.I +
      p.d2 * K ^ 2 * ((Real.cos (Real.pi * g) : ℝ) : ℂ) ^ 2 =
      ⟨-p.d0 * Real.sin (Real.pi * g) ^ 2 + p.d2 * K ^ 2 * Real.cos (Real.pi * g) ^ 2,
        p.d1 * K * Real.sin (Real.pi * g) * Real.cos (Real.pi * g)⟩ := by
      rw [Complex.mk_eq_add_mul_I]
      push_cast
      ring
    rw [e] at hi hr
    simp only [Complex.zero_im, Complex.zero_re] at hi hr
    have hs : Real.sin (Real.pi * g) = 0 := by
      have : p.d1 * K * Real.sin (Real.pi * g) = 0 := (mul_eq_zero.1 hi).resolve_right hg
      exact (mul_eq_zero.1 this).resolve_left (by positivity)
    rw [hs] at hr
    have : 0 < p.d2 * K ^ 2 * Real.cos (Real.pi * g) ^ 2 := by positivity
    nlinarith
  rw [bilinear_response_aux p (by positivity) g hden]
  congr 1
  unfold Proto.eval
  rw [Real.tan_eq_sin_div_cos]
  push_cast at hc hden ⊢
  have key : ∀ x0 x1 x2 : ℂ,
      -x0 * Complex.sin (Real.pi * g) ^ 2 +
        x1 * K * Complex.sin (Real.pi * g) * Complex.cos (Real.pi * g) * Complex.I +
        x2 * K ^ 2 * Complex.cos (Real.pi * g) ^ 2 =
      (x0 * (Complex.I * (Complex.sin (Real.pi * g) / Complex.cos (Real.pi * g) / K)) ^ 2 +
        x1 * (Complex.I * (Complex.sin (Real.pi * g) / Complex.cos (Real.pi * g) / K)) + x2) *
        (K ^ 2 * Complex.cos (Real.pi * g) ^ 2) := by
    intro x0 x1 x2
    have : (Complex.I * (Complex.sin (Real.pi * g) / Complex.cos (Real.pi * g) / K)) ^ 2 =
        -(Complex.sin (Real.pi * g) / Complex.cos (Real.pi * g) / K) ^ 2 := by
      rw [mul_pow, hI]; ring
    rw [this]
    field_simp
  rw [key, key, mul_div_mul_right _ _ (mul_ne_zero (pow_ne_zero _ hKc) (pow_ne_zero _ hc))]

/-- At the Nyquist frequency: the prototype at infinity. -/
theorem bilinear_nyquist (p : Proto) {K : ℝ} (hK : 0 < K) (h0 : 0 < p.d0) (h1 : 0 < p.d1)
    (h2 : 0 < p.d2) :
    (make_biquad (bilinear p K)).response (1 / 2) = .ok ((p.n0 / p.d0 : ℝ) : ℂ) := by
  have hs : Real.sin (Real.pi * (1 / 2)) = 1 := by rw [mul_one_div, Real.sin_pi_div_two]
  have hc : Real.cos (Real.pi * (1 / 2)) = 0 := by rw [mul_one_div, Real.cos_pi_div_two]
  have := bilinear_response_aux p (K := K) (by positivity) (1 / 2)
  simp only [hs, hc] at this
  rw [this]
  · congr 1
    simp [neg_div_neg_eq]
  · have : (p.d0 : ℂ) ≠ 0 := by exact_mod_cast h0.ne'
    simpa using this

/-- Poles of a bilinear transform of a prototype with positive denominator coefficients. -/
theorem bilinear_stable (p : Proto) {K : ℝ} (hK : 0 < K) (h0 : 0 < p.d0) (h1 : 0 < p.d1)
    (h2 : 0 < p.d2) : ∃ s, (make_biquad (bilinear p K)).poles = .ok s ∧ ‖s.s0‖ < 1 ∧ ‖s.s1‖ < 1 := by
  obtain ⟨s, hs, -⟩ := poles_spec (make_biquad (bilinear p K))
  refine ⟨s, hs, (C37_triangle_open _ s hs).2 ?_⟩
  have hd : 0 < p.d0 + p.d1 * K + p.d2 * K ^ 2 := by positivity
  simp only [make_biquad, Biquad.ofBA, bilinear]
  have a0 : 0 < p.d2 * K ^ 2 := by positivity
  have a1 : 0 < p.d1 * K := by positivity
  constructor
  · rw [abs_div, abs_of_pos hd, div_lt_one hd, abs_lt]
    constructor <;> linarith
  · have e : 1 + (p.d0 - p.d1 * K + p.d2 * K ^ 2) / (p.d0 + p.d1 * K + p.d2 * K ^ 2) =
        2 * (p.d0 + p.d2 * K ^ 2) / (p.d0 + p.d1 * K + p.d2 * K ^ 2) := by
      field_simp
      ring
    rw [e, abs_div, abs_of_pos hd, div_lt_div_iff_of_pos_right hd, abs_lt]
    constructor <;> linarith

end Verif.Design
