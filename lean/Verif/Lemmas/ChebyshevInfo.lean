import Mathlib.Analysis.SpecialFunctions.Trigonometric.Inverse
import Mathlib.Analysis.SpecialFunctions.Trigonometric.Chebyshev.RootsExtrema
import Verif.Model.ChebyshevInfo
import Verif.Props.Chebyshev

/- Lemmas on the information reported by the Chebyshev designs. -/

namespace Verif.Design
open Cheb

theorem half_ofReal {x : ℝ} (h : 0 ≤ x) : (x : ℂ) ^ (1 / 2 : ℂ) = (√x : ℝ) := by
  rw [Real.sqrt_eq_rpow, Complex.ofReal_cpow h]
  norm_num

theorem half_ofReal_neg {x : ℝ} (h : x ≤ 0) : (x : ℂ) ^ (1 / 2 : ℂ) = (√(-x) : ℝ) * Complex.I := by
  rw [Complex.ofReal_cpow_of_nonpos h, ← Complex.ofReal_neg, half_ofReal (by linarith),
    show (Real.pi : ℂ) * Complex.I * (1 / 2) = (Real.pi / 2 : ℂ) * Complex.I by ring, Complex.exp_pi_div_two_mul_I]

/-- The complex inverse hyperbolic cosine of a real number from 1 on. -/
theorem cacosh_large {e : ℝ} (h : 1 ≤ e) : cacosh e = (Real.arcosh e : ℝ) := by
  unfold cacosh Real.arcosh
  have h1 : ((e : ℂ) + 1) = ((e + 1 : ℝ) : ℂ) := by push_cast; ring
  have h2 : ((e : ℂ) - 1) = ((e - 1 : ℝ) : ℂ) := by push_cast; ring
  rw [h1, h2, half_ofReal (by linarith), half_ofReal (by linarith), ← Complex.ofReal_mul, ← Complex.ofReal_add,
    ← Complex.ofReal_log (by positivity), ← Real.sqrt_mul (by linarith)]
  congr 4
  ring

/-- The same of a number between -1 and 1. -/
theorem cacosh_small {e : ℝ} (h0 : -1 ≤ e) (h : e ≤ 1) : cacosh e = (Real.arccos e : ℝ) * Complex.I := by
  unfold cacosh
  have h1 : ((e : ℂ) + 1) = ((e + 1 : ℝ) : ℂ) := by push_cast; ring
  have h2 : ((e : ℂ) - 1) = ((e - 1 : ℝ) : ℂ) := by push_cast; ring
  have h3 : (e : ℂ) + (√(e + 1) : ℝ) * ((√(-(e - 1)) : ℝ) * Complex.I) =
      Complex.exp ((Real.arccos e : ℝ) * Complex.I) := by
    rw [Complex.exp_mul_I, ← Complex.ofReal_cos, ← Complex.ofReal_sin, Real.cos_arccos h0 h, Real.sin_arccos, ← mul_assoc,
      ← Complex.ofReal_mul, ← Real.sqrt_mul (by linarith)]
    congr 4
    ring
  have h4 := Real.arccos_nonneg e
  have h5 := Real.arccos_le_pi e
  have hpi := Real.pi_pos
  rw [h1, h2, half_ofReal (by linarith), half_ofReal_neg (by linarith), h3, Complex.log_exp] <;>
    simp only [Complex.mul_im, Complex.ofReal_re, Complex.ofReal_im, Complex.I_re, Complex.I_im] <;> linarith

/-- The number of which the Chebyshev polynomial of degree `N` is `e`. -/
noncomputable def preimage (N : ℕ) (e : ℝ) : ℝ :=
  if 1 ≤ e then Real.cosh (Real.arcosh e / N) else Real.cos (Real.arccos e / N)

theorem T_preimage {N : ℕ} (hN : 0 < N) {e : ℝ} (h : 0 < e) : T N (preimage N e) = e := by
  have h0 : (N : ℝ) ≠ 0 := by positivity
  unfold preimage T
  split_ifs with h1
  · rw [Polynomial.Chebyshev.T_real_cosh, Int.cast_natCast, mul_div_cancel₀ _ h0, Real.cosh_arcosh h1]
  · rw [Polynomial.Chebyshev.T_real_cos, Int.cast_natCast, mul_div_cancel₀ _ h0,
      Real.cos_arccos (by linarith) (by linarith)]

theorem preimage_pos {N : ℕ} (hN : 0 < N) {e : ℝ} (h : 0 < e) : 0 < preimage N e := by
  unfold preimage
  split_ifs with h1
  · exact Real.cosh_pos _
  · have h2 := Real.arccos_nonneg e
    have h3 : Real.arccos e < Real.pi / 2 := Real.arccos_lt_pi_div_two.2 h
    have h4 : (1 : ℝ) ≤ N := by exact_mod_cast hN
    have h5 : Real.arccos e / N ≤ Real.arccos e := div_le_self h2 h4
    exact Real.cos_pos_of_mem_Ioo ⟨by have := div_nonneg h2 (by linarith : (0 : ℝ) ≤ N); linarith [Real.pi_pos], by linarith⟩

theorem one_le_preimage (N : ℕ) {e : ℝ} (h : 1 ≤ e) : 1 ≤ preimage N e := by
  unfold preimage
  rw [if_pos h]
  exact Real.one_le_cosh _

theorem cosh_cacosh (N : ℕ) {e : ℝ} (h : 0 < e) : Complex.cosh (cacosh e / N) = (preimage N e : ℝ) := by
  unfold preimage
  split_ifs with h1
  · rw [cacosh_large h1, Complex.ofReal_cosh]
    push_cast
    rfl
  · rw [cacosh_small (by linarith) (by linarith), mul_div_right_comm, Complex.cosh_mul_I, Complex.ofReal_cos]
    push_cast
    rfl

/-- The frequency whose warped value is `W`. -/
theorem corner_ok (low : Bool) {fs W : ℝ} (hfs : 0 < fs) (hW : 0 < W) :
    ∃ f, corner low fs W = .ok f ∧ 0 < f ∧ f < fs / 2 ∧ warp low f fs = W := by
  have hpi := Real.pi_pos
  have key (V : ℝ) (hV : 0 < V) : 0 < fs / Real.pi * Real.arctan V ∧ fs / Real.pi * Real.arctan V < fs / 2 ∧
      Real.tan (Real.pi * (fs / Real.pi * Real.arctan V) / fs) = V := by
    have h1 : 0 < Real.arctan V := Real.arctan_pos.2 hV
    have h2 := Real.arctan_lt_pi_div_two V
    refine ⟨by positivity, ?_, ?_⟩
    · have : fs / Real.pi * Real.arctan V < fs / Real.pi * (Real.pi / 2) := mul_lt_mul_of_pos_left h2 (by positivity)
      have e : fs / Real.pi * (Real.pi / 2) = fs / 2 := by field_simp
      linarith
    · rw [show Real.pi * (fs / Real.pi * Real.arctan V) / fs = Real.arctan V by field_simp, Real.tan_arctan]
  cases low
  · obtain ⟨h1, h2, h3⟩ := key (1 / W) (by positivity)
    refine ⟨_, ?_, h1, h2, ?_⟩
    · unfold corner powSign
      rw [if_neg (by simp), div_ok hW.ne', bind_ok]
    · unfold warp
      rw [if_neg (by simp), h3, one_div_one_div]
  · obtain ⟨h1, h2, h3⟩ := key W hW
    refine ⟨_, ?_, h1, h2, ?_⟩
    · unfold corner powSign
      rw [if_pos rfl, bind_ok]
    · unfold warp
      rw [if_pos rfl, h3]

section
variable {low : Bool} {fs fpass fstop Apass Astop : ℝ} (v : Valid low fs fpass fstop Apass Astop)
include v

theorem Valid.fs_pos : 0 < fs := by
  have := v.fpass_pos
  have := v.fpass_lt
  linarith

theorem exactOrder_ok : exactOrder (warp low fpass fs) (warp low fstop fs) (ripple Apass) (ripple Astop) =
    .ok (Real.arcosh (ripple Astop / ripple Apass) / Real.arcosh (warp low fstop fs / warp low fpass fs)) := by
  have p1 := ripple_pos v.Apass_pos
  have hac : ∀ x, 1 < x → RealFun.acosh x = .ok (Real.arcosh x) := fun x hx => if_neg (by linarith)
  unfold exactOrder
  rw [div_ok p1.ne', bind_ok, hac _ v.ratio_e, bind_ok, div_ok (warp_pos low v.fpass_pos v.fpass_lt).ne', bind_ok,
    hac _ v.ratio_W, bind_ok, div_ok (Real.arcosh_pos v.ratio_W).ne']

theorem info1 (hN : order low fs fpass fstop Apass Astop ≤ 2147483647) :
    ∃ f3, chebyshev1_info_impl low fs fpass fstop Apass Astop = .ok ⟨warp low fpass fs, warp low fstop fs, ripple Apass,
        ripple Astop, Real.arcosh (ripple Astop / ripple Apass) / Real.arcosh (warp low fstop fs / warp low fpass fs),
        order low fs fpass fstop Apass Astop, f3, Real.arsinh (ripple Astop) / order low fs fpass fstop Apass Astop⟩ ∧
      0 < f3 ∧ f3 < fs / 2 ∧
      warp low f3 fs = warp low fpass fs * preimage (order low fs fpass fstop Apass Astop) (1 / ripple Apass) := by
  have h0 := v.order_pos
  have hr := ripple_pos v.Apass_pos
  have hp := preimage_pos h0 (one_div_pos.2 hr)
  have hNz : ((order low fs fpass fstop Apass Astop : ℤ) : ℝ) ≠ 0 := by exact_mod_cast h0.ne'
  obtain ⟨f3, h1, h2, h3, h4⟩ := corner_ok low v.fs_pos (mul_pos (warp_pos low v.fpass_pos v.fpass_lt) hp)
  refine ⟨f3, ?_, h2, h3, h4⟩
  have c1 : cdiv 1 (ripple Apass : ℝ) = .ok ((1 / ripple Apass : ℝ) : ℂ) := by
    unfold cdiv
    rw [if_neg (by exact_mod_cast hr.ne')]
    push_cast
    rfl
  have c2 (z : ℂ) : cdiv z ((order low fs fpass fstop Apass Astop : ℤ) : ℂ) =
      .ok (z / (order low fs fpass fstop Apass Astop : ℕ)) := by
    unfold cdiv
    rw [if_neg (by exact_mod_cast h0.ne')]
    push_cast
    rfl
  unfold chebyshev1_info_impl
  rw [chebyshev_order_ok v hN, bind_ok]
  simp only []
  rw [exactOrder_ok v, bind_ok, div_ok hNz, bind_ok, c1, bind_ok, c2, bind_ok, cosh_cacosh _ (one_div_pos.2 hr),
    ← Complex.ofReal_mul, Complex.ofReal_re, h1, bind_ok, Int.cast_natCast]

theorem info2 (hN : order low fs fpass fstop Apass Astop ≤ 2147483647) :
    ∃ f3, chebyshev2_info_impl low fs fpass fstop Apass Astop = .ok ⟨warp low fpass fs, warp low fstop fs, ripple Apass,
        ripple Astop, Real.arcosh (ripple Astop / ripple Apass) / Real.arcosh (warp low fstop fs / warp low fpass fs),
        order low fs fpass fstop Apass Astop, f3, Real.arsinh (ripple Astop) / order low fs fpass fstop Apass Astop⟩ ∧
      0 < f3 ∧ f3 < fs / 2 ∧
      warp low f3 fs = warp low fstop fs / preimage (order low fs fpass fstop Apass Astop) (ripple Astop) := by
  have h0 := v.order_pos
  have hr := ripple_pos (v.Apass_pos.trans v.Apass_lt)
  have hp := preimage_pos h0 hr
  have hNz : ((order low fs fpass fstop Apass Astop : ℤ) : ℝ) ≠ 0 := by exact_mod_cast h0.ne'
  obtain ⟨f3, h1, h2, h3, h4⟩ := corner_ok low v.fs_pos (div_pos (warp_pos low v.fstop_pos v.fstop_lt) hp)
  refine ⟨f3, ?_, h2, h3, h4⟩
  have c2 (z : ℂ) : cdiv z ((order low fs fpass fstop Apass Astop : ℤ) : ℂ) =
      .ok (z / (order low fs fpass fstop Apass Astop : ℕ)) := by
    unfold cdiv
    rw [if_neg (by exact_mod_cast h0.ne')]
    push_cast
    rfl
  have c3 : cdiv (warp low fstop fs : ℝ) (preimage (order low fs fpass fstop Apass Astop) (ripple Astop) : ℝ) =
      .ok ((warp low fstop fs / preimage (order low fs fpass fstop Apass Astop) (ripple Astop) : ℝ) : ℂ) := by
    unfold cdiv
    rw [if_neg (by exact_mod_cast hp.ne')]
    push_cast
    rfl
  unfold chebyshev2_info_impl
  rw [chebyshev_order_ok v hN, bind_ok]
  simp only []
  rw [exactOrder_ok v, bind_ok, div_ok hNz, bind_ok, c2, bind_ok, cosh_cacosh _ hr, c3, bind_ok, Complex.ofReal_re, h1,
    bind_ok, Int.cast_natCast]
end

/-- Warped frequencies are ordered like frequencies (the other way round for a high pass). -/
theorem warp_le (low : Bool) {f f' fs : ℝ} (h0 : 0 < f) (h1 : f ≤ f') (h2 : f' < fs / 2) :
    if low then warp low f fs ≤ warp low f' fs else warp low f' fs ≤ warp low f fs := by
  rcases h1.eq_or_lt with rfl | h1
  · cases low <;> simp
  · have h3 := tan_prewarp_lt h0 h1 h2
    have h4 := warp_pos true h0 (h1.trans h2)
    unfold warp at h4
    rw [if_pos rfl] at h4
    cases low
    · unfold warp
      simp only [Bool.false_eq_true, if_false]
      exact one_div_le_one_div_of_le h4 h3.le
    · unfold warp
      simp only [if_true]
      exact h3.le

/-- The quotient in the squared gain in terms of warped frequencies. -/
theorem ratio_warp (low : Bool) {f fs : ℝ} (h0 : 0 < f) (h1 : f < fs / 2) :
    (if low then Real.sin (Real.pi * (f / fs)) ≠ 0 else Real.cos (Real.pi * (f / fs)) ≠ 0) ∧
    (if low then Real.cos (Real.pi * (f / fs)) ≠ 0 else Real.sin (Real.pi * (f / fs)) ≠ 0) ∧
    ((if low then Real.cos (Real.pi * (f / fs)) / Real.sin (Real.pi * (f / fs))
        else Real.sin (Real.pi * (f / fs)) / -Real.cos (Real.pi * (f / fs))) =
      (if low then 1 else -1) * (1 / warp low f fs)) ∧
    ((if low then Real.sin (Real.pi * (f / fs)) / Real.cos (Real.pi * (f / fs))
        else -Real.cos (Real.pi * (f / fs)) / Real.sin (Real.pi * (f / fs))) =
      (if low then 1 else -1) * warp low f fs) := by
  have hs : 0 < fs := by linarith
  have hpi := Real.pi_pos
  have hB0 : 0 < Real.pi * f / fs := by positivity
  have hB1 : Real.pi * f / fs < Real.pi / 2 := by rw [div_lt_iff₀ hs]; nlinarith
  have hsin := Real.sin_pos_of_pos_of_lt_pi hB0 (by linarith)
  have hcos := Real.cos_pos_of_mem_Ioo ⟨by linarith, hB1⟩
  rw [← mul_div_assoc]
  unfold warp
  rw [Real.tan_eq_sin_div_cos]
  cases low
  · simp only [Bool.false_eq_true, if_false]
    refine ⟨hcos.ne', hsin.ne', ?_, ?_⟩ <;> field_simp
  · simp only [if_true]
    refine ⟨hsin.ne', hcos.ne', ?_, ?_⟩ <;> field_simp

end Verif.Design
