import Verif.Lemmas.Design

/-
Properties C48-C51: include/dsp/biquad-design.hpp, include/dsp/filter-design.hpp,
include/dsp/filter.hpp (real arithmetic).

`g` is the normalised frequency (frequency / sample frequency) at which the response is taken, `f` the
nominal frequency and `fs` the sample frequency of the design.
-/

namespace Verif
open Sig Design

/-- The analog frequency, relative to the nominal one, that the bilinear transform maps to `g`. -/
noncomputable def warped (f fs g : ℝ) : ℝ := Real.tan (Real.pi * g) / Real.tan (Real.pi * f / fs)

theorem warped_zero (f fs : ℝ) : warped f fs 0 = 0 := by simp [warped]

theorem warped_nominal {f fs : ℝ} (h0 : 0 < f) (h1 : f < fs / 2) : warped f fs (f / fs) = 1 := by
  unfold warped
  rw [← mul_div_assoc]
  exact div_self (prewarp_ok h0 h1).2.ne'

theorem cos_nominal {f fs : ℝ} (h0 : 0 < f) (h1 : f < fs / 2) : Real.cos (Real.pi * (f / fs)) ≠ 0 := by
  intro h
  have := (prewarp_ok h0 h1).2
  rw [Real.tan_eq_sin_div_cos, mul_div_assoc, h, div_zero] at this
  exact lt_irrefl _ this

theorem dbV_factor_pos (d : ℝ) : 0 < dbV_factor d := by
  unfold dbV_factor dbP_factor RealFun.pow10
  positivity

/-! The designs as bilinear transforms. -/

section proto
variable {f fs Q : ℝ} (h0 : 0 < f) (h1 : f < fs / 2) (hQ : 0 < Q)
include h0 h1 hQ

theorem low_pass_eq : low_pass f fs Q =
    .ok (bilinear ⟨0, 0, 1, 1, 1 / Q, 1⟩ (Real.tan (Real.pi * f / fs))) := by
  obtain ⟨hp, hK⟩ := prewarp_ok h0 h1
  unfold low_pass bilinear
  rw [hp, bind_ok, div_ok hQ.ne', bind_ok, div_ok (by positivity), bind_ok]
  ring_nf

theorem high_pass_eq : high_pass f fs Q =
    .ok (bilinear ⟨1, 0, 0, 1, 1 / Q, 1⟩ (Real.tan (Real.pi * f / fs))) := by
  obtain ⟨hp, hK⟩ := prewarp_ok h0 h1
  unfold high_pass bilinear
  rw [hp, bind_ok, div_ok hQ.ne', bind_ok, div_ok (by positivity), bind_ok]
  ring_nf

theorem band_pass_eq : band_pass f fs Q =
    .ok (bilinear ⟨0, 1 / Q, 0, 1, 1 / Q, 1⟩ (Real.tan (Real.pi * f / fs))) := by
  obtain ⟨hp, hK⟩ := prewarp_ok h0 h1
  unfold band_pass bilinear
  rw [hp, bind_ok, div_ok hQ.ne', bind_ok, div_ok (by positivity), bind_ok]
  ring_nf

theorem band_stop_eq : band_stop f fs Q =
    .ok (bilinear ⟨1, 0, 1, 1, 1 / Q, 1⟩ (Real.tan (Real.pi * f / fs))) := by
  obtain ⟨hp, hK⟩ := prewarp_ok h0 h1
  unfold band_stop bilinear
  rw [hp, bind_ok, div_ok hQ.ne', bind_ok, div_ok (by positivity), bind_ok]
  ring_nf

theorem peak_eq (d : ℝ) : peak_band_eq d f fs Q = .ok (bilinear
    (if 0 ≤ d then ⟨1, dbV_factor d / Q, 1, 1, 1 / Q, 1⟩ else ⟨1, 1 / Q, 1, 1, dbV_factor d / Q, 1⟩)
    (Real.tan (Real.pi * f / fs))) := by
  obtain ⟨hp, hK⟩ := prewarp_ok h0 h1
  have hV := dbV_factor_pos d
  unfold peak_band_eq
  simp only [hp, bind_ok, div_ok hQ.ne', ge_iff_le]
  by_cases hd : 0 ≤ d
  · rw [if_pos hd, if_pos hd, div_ok (by positivity), bind_ok]
    unfold bilinear
    congr 3 <;> ring
  · rw [if_neg hd, if_neg hd, div_ok (by positivity), bind_ok]
    unfold bilinear
    congr 3 <;> ring

omit hQ

theorem low_shelf_eq (d : ℝ) : low_shelf d f fs = .ok (bilinear
    (if 0 ≤ d then ⟨1, √(2 * dbV_factor d), dbV_factor d, 1, √2, 1⟩
      else ⟨1, √2, 1, 1, √(2 * dbV_factor d), dbV_factor d⟩)
    (Real.tan (Real.pi * f / fs))) := by
  obtain ⟨hp, hK⟩ := prewarp_ok h0 h1
  have hV := dbV_factor_pos d
  unfold low_shelf
  simp only [hp, bind_ok, sqrt_ok (show (0 : ℝ) ≤ 2 by norm_num),
    sqrt_ok (show 0 ≤ 2 * dbV_factor d by positivity), ge_iff_le]
  by_cases hd : 0 ≤ d
  · rw [if_pos hd, if_pos hd, div_ok (by positivity), bind_ok]
    unfold bilinear
    congr 3 <;> ring
  · rw [if_neg hd, if_neg hd, div_ok (by positivity), bind_ok]
    unfold bilinear
    congr 3 <;> ring

theorem high_shelf_eq (d : ℝ) : high_shelf d f fs = .ok (bilinear
    (if 0 ≤ d then ⟨dbV_factor d, √(2 * dbV_factor d), 1, 1, √2, 1⟩
      else ⟨1, √2, 1, dbV_factor d, √(2 * dbV_factor d), 1⟩)
    (Real.tan (Real.pi * f / fs))) := by
  obtain ⟨hp, hK⟩ := prewarp_ok h0 h1
  have hV := dbV_factor_pos d
  unfold high_shelf
  simp only [hp, bind_ok, sqrt_ok (show (0 : ℝ) ≤ 2 by norm_num),
    sqrt_ok (show 0 ≤ 2 * dbV_factor d by positivity), ge_iff_le]
  by_cases hd : 0 ≤ d
  · rw [if_pos hd, if_pos hd, div_ok (by positivity), bind_ok]
    unfold bilinear
    congr 3 <;> ring
  · rw [if_neg hd, if_neg hd, div_ok (by positivity), bind_ok]
    unfold bilinear
    congr 3 <;> ring

end proto

/-! ### C48 nominal gains -/

theorem eval_I (p : Proto) (x : ℝ) : p.eval (Complex.I * x) =
    ((p.n2 - p.n0 * x ^ 2 : ℝ) + (p.n1 * x : ℝ) * Complex.I) /
      ((p.d2 - p.d0 * x ^ 2 : ℝ) + (p.d1 * x : ℝ) * Complex.I) := by
  have hI : Complex.I ^ 2 = -1 := Complex.I_sq
  unfold Proto.eval
  congr 1
  · push_cast
    linear_combination (p.n0 * x ^ 2 : ℂ) * hI
  · push_cast
    linear_combination (p.d0 * x ^ 2 : ℂ) * hI

/-- **C48** Low-pass: below the Nyquist frequency the response is that of the analog second-order
low-pass `1 / (1 + (i w)/Q + (i w)^2)` at the warped frequency `w`; at the Nyquist frequency it is 0. -/
theorem C48_low_pass {f fs Q : ℝ} (h0 : 0 < f) (h1 : f < fs / 2) (hQ : 0 < Q) :
    ∃ c, biquad_design .low_pass 0 f fs Q = .ok c ∧
      (∀ g, Real.cos (Real.pi * g) ≠ 0 → (make_biquad c).response g = .ok
        (1 / ((1 - warped f fs g ^ 2 : ℝ) + (warped f fs g / Q : ℝ) * Complex.I))) ∧
      (make_biquad c).response (1 / 2) = .ok 0 := by
  have hK := (prewarp_ok h0 h1).2
  refine ⟨_, low_pass_eq h0 h1 hQ, fun g hg => ?_, ?_⟩
  · rw [bilinear_response _ hK (by norm_num) (by simpa using hQ) (by norm_num) g hg]
    show Except.ok (Proto.eval _ (Complex.I * (warped f fs g : ℝ))) = _
    rw [eval_I]
    congr 2
    · simp
    · simp [div_eq_inv_mul]
  · rw [bilinear_nyquist _ hK (by norm_num) (by simpa using hQ) (by norm_num)]
    simp

/-- **C48** High-pass: the analog high-pass `(i w)^2 / (1 + (i w)/Q + (i w)^2)`; 1 at the Nyquist
frequency. -/
theorem C48_high_pass {f fs Q : ℝ} (h0 : 0 < f) (h1 : f < fs / 2) (hQ : 0 < Q) :
    ∃ c, biquad_design .high_pass 0 f fs Q = .ok c ∧
      (∀ g, Real.cos (Real.pi * g) ≠ 0 → (make_biquad c).response g = .ok
        ((-warped f fs g ^ 2 : ℝ) / ((1 - warped f fs g ^ 2 : ℝ) + (warped f fs g / Q : ℝ) * Complex.I))) ∧
      (make_biquad c).response (1 / 2) = .ok 1 := by
  have hK := (prewarp_ok h0 h1).2
  refine ⟨_, high_pass_eq h0 h1 hQ, fun g hg => ?_, ?_⟩
  · rw [bilinear_response _ hK (by norm_num) (by simpa using hQ) (by norm_num) g hg]
    show Except.ok (Proto.eval _ (Complex.I * (warped f fs g : ℝ))) = _
    rw [eval_I]
    congr 2
    · simp
    · simp [div_eq_inv_mul]
  · rw [bilinear_nyquist _ hK (by norm_num) (by simpa using hQ) (by norm_num)]
    simp

/-- **C48** Band-pass: the analog band-pass `((i w)/Q) / (1 + (i w)/Q + (i w)^2)`; 0 at the Nyquist
frequency. -/
theorem C48_band_pass {f fs Q : ℝ} (h0 : 0 < f) (h1 : f < fs / 2) (hQ : 0 < Q) :
    ∃ c, biquad_design .band_pass 0 f fs Q = .ok c ∧
      (∀ g, Real.cos (Real.pi * g) ≠ 0 → (make_biquad c).response g = .ok
        ((warped f fs g / Q : ℝ) * Complex.I /
          ((1 - warped f fs g ^ 2 : ℝ) + (warped f fs g / Q : ℝ) * Complex.I))) ∧
      (make_biquad c).response (1 / 2) = .ok 0 := by
  have hK := (prewarp_ok h0 h1).2
  refine ⟨_, band_pass_eq h0 h1 hQ, fun g hg => ?_, ?_⟩
  · rw [bilinear_response _ hK (by norm_num) (by simpa using hQ) (by norm_num) g hg]
    show Except.ok (Proto.eval _ (Complex.I * (warped f fs g : ℝ))) = _
    rw [eval_I]
    congr 2 <;> simp [div_eq_inv_mul]
  · rw [bilinear_nyquist _ hK (by norm_num) (by simpa using hQ) (by norm_num)]
    simp

/-- **C48** Band-stop: the analog notch `(1 + (i w)^2) / (1 + (i w)/Q + (i w)^2)`; 1 at the Nyquist
frequency. -/
theorem C48_band_stop {f fs Q : ℝ} (h0 : 0 < f) (h1 : f < fs / 2) (hQ : 0 < Q) :
    ∃ c, biquad_design .band_stop 0 f fs Q = .ok c ∧
      (∀ g, Real.cos (Real.pi * g) ≠ 0 → (make_biquad c).response g = .ok
        ((1 - warped f fs g ^ 2 : ℝ) /
          ((1 - warped f fs g ^ 2 : ℝ) + (warped f fs g / Q : ℝ) * Complex.I))) ∧
      (make_biquad c).response (1 / 2) = .ok 1 := by
  have hK := (prewarp_ok h0 h1).2
  refine ⟨_, band_stop_eq h0 h1 hQ, fun g hg => ?_, ?_⟩
  · rw [bilinear_response _ hK (by norm_num) (by simpa using hQ) (by norm_num) g hg]
    show Except.ok (Proto.eval _ (Complex.I * (warped f fs g : ℝ))) = _
    rw [eval_I]
    congr 2 <;> simp [div_eq_inv_mul]
  · rw [bilinear_nyquist _ hK (by norm_num) (by simpa using hQ) (by norm_num)]
    simp

/-- **C48** The nominal gains at DC and at the nominal frequency. -/
theorem C48_gains {f fs Q : ℝ} (h0 : 0 < f) (h1 : f < fs / 2) (hQ : 0 < Q) :
    ∃ lp hp bp bs, biquad_design .low_pass 0 f fs Q = .ok lp ∧
      biquad_design .high_pass 0 f fs Q = .ok hp ∧ biquad_design .band_pass 0 f fs Q = .ok bp ∧
      biquad_design .band_stop 0 f fs Q = .ok bs ∧
      ((make_biquad lp).response 0 = .ok 1 ∧ (make_biquad hp).response 0 = .ok 0 ∧
        (make_biquad bp).response 0 = .ok 0 ∧ (make_biquad bs).response 0 = .ok 1) ∧
      (make_biquad lp).response (f / fs) = .ok (-Q * Complex.I) ∧
      (make_biquad hp).response (f / fs) = .ok (Q * Complex.I) ∧
      (make_biquad bp).response (f / fs) = .ok 1 ∧ (make_biquad bs).response (f / fs) = .ok 0 := by
  obtain ⟨lp, e1, l1, -⟩ := C48_low_pass h0 h1 hQ
  obtain ⟨hp, e2, l2, -⟩ := C48_high_pass h0 h1 hQ
  obtain ⟨bp, e3, l3, -⟩ := C48_band_pass h0 h1 hQ
  obtain ⟨bs, e4, l4, -⟩ := C48_band_stop h0 h1 hQ
  have hc0 : Real.cos (Real.pi * 0) ≠ 0 := by simp
  have hc1 := cos_nominal h0 h1
  have hQc : (Q : ℂ) ≠ 0 := by exact_mod_cast hQ.ne'
  have hI : Complex.I * Complex.I = -1 := Complex.I_mul_I
  refine ⟨lp, hp, bp, bs, e1, e2, e3, e4, ⟨?_, ?_, ?_, ?_⟩, ?_, ?_, ?_, ?_⟩
  · rw [l1 0 hc0, warped_zero]; simp
  · rw [l2 0 hc0, warped_zero]; simp
  · rw [l3 0 hc0, warped_zero]; simp
  · rw [l4 0 hc0, warped_zero]; simp
  · rw [l1 _ hc1, warped_nominal h0 h1]
    congr 1
    have : ((1 / Q : ℝ) : ℂ) * Complex.I ≠ 0 := by simp [hQc]
    simp only [one_pow, sub_self, Complex.ofReal_zero, zero_add]
    rw [div_eq_iff this]
    push_cast
    field_simp
    linear_combination hI
  · rw [l2 _ hc1, warped_nominal h0 h1]
    congr 1
    have : ((1 / Q : ℝ) : ℂ) * Complex.I ≠ 0 := by simp [hQc]
    simp only [one_pow, sub_self, Complex.ofReal_zero, zero_add]
    rw [div_eq_iff this]
    push_cast
    field_simp
    linear_combination -hI
  · rw [l3 _ hc1, warped_nominal h0 h1]
    congr 1
    have : ((1 / Q : ℝ) : ℂ) * Complex.I ≠ 0 := by simp [hQc]
    simp only [one_pow, sub_self, Complex.ofReal_zero, zero_add]
    exact div_self this
  · rw [l4 _ hc1, warped_nominal h0 h1]
    simp

/-- **C48** With `Q = 1/sqrt 2` the low-pass is the Butterworth filter: `|H|^2 = 1 / (1 + w^4)`, which is
1/2 (-3 dB) at the nominal frequency. -/
theorem C48_butterworth {f fs : ℝ} (h0 : 0 < f) (h1 : f < fs / 2) :
    ∃ c, biquad_design .low_pass 0 f fs (1 / √2) = .ok c ∧
      ∀ g, Real.cos (Real.pi * g) ≠ 0 → ∃ H, (make_biquad c).response g = .ok H ∧
        ‖H‖ ^ 2 = 1 / (1 + warped f fs g ^ 4) := by
  obtain ⟨c, e, l, -⟩ := C48_low_pass (Q := 1 / √2) h0 h1 (by positivity)
  refine ⟨c, e, fun g hg => ⟨_, l g hg, ?_⟩⟩
  rw [norm_div, norm_one, div_pow, one_pow, ← Complex.normSq_eq_norm_sq, Complex.normSq_add_mul_I]
  have : √2 ^ 2 = (2 : ℝ) := Real.sq_sqrt (by norm_num)
  rw [show (1 - warped f fs g ^ 2) ^ 2 + (warped f fs g / (1 / √2)) ^ 2 = 1 + warped f fs g ^ 4 by
    field_simp
    rw [this]
    ring]

/-- **C48** `Lpf` and `Hpf` are these filters. -/
theorem C48_lpf_hpf {f fs Q : ℝ} (h0 : 0 < f) (h1 : f < fs / 2) (hQ : 0 < Q) :
    (∃ q, Lpf f fs Q = .ok q ∧ q.response 0 = .ok 1 ∧ q.response (1 / 2) = .ok 0) ∧
    (∃ q, Hpf f fs Q = .ok q ∧ q.response 0 = .ok 0 ∧ q.response (1 / 2) = .ok 1) := by
  obtain ⟨lp, hp, -, -, e1, e2, -, -, ⟨g1, g2, -, -⟩, -⟩ := C48_gains h0 h1 hQ
  obtain ⟨lp', e1', -, n1⟩ := C48_low_pass h0 h1 hQ
  obtain ⟨hp', e2', -, n2⟩ := C48_high_pass h0 h1 hQ
  obtain rfl := Except.ok.inj (e1.symm.trans e1')
  obtain rfl := Except.ok.inj (e2.symm.trans e2')
  refine ⟨⟨make_biquad lp, ?_, g1, n1⟩, ⟨make_biquad hp, ?_, g2, n2⟩⟩
  · unfold Lpf
    rw [e1]
    rfl
  · unfold Hpf
    rw [e2]
    rfl

example : (0 : ℝ) < 100 ∧ (100 : ℝ) < 1000 / 2 ∧ (0 : ℝ) < 0.7 ∧
    Real.cos (Real.pi * 0) ≠ 0 := by norm_num

/-! ### C49 stability -/

/-- **C49** Every design succeeds and has both poles strictly inside the unit circle. -/
theorem C49_stable (R : Kind) (dbGain : ℝ) {f fs Q : ℝ} (h0 : 0 < f) (h1 : f < fs / 2) (hQ : 0 < Q) :
    ∃ c p, biquad_design R dbGain f fs Q = .ok c ∧ (make_biquad c).poles = .ok p ∧
      ‖p.s0‖ < 1 ∧ ‖p.s1‖ < 1 := by
  have hK := (prewarp_ok h0 h1).2
  have hV := dbV_factor_pos dbGain
  have hQ1 : 0 < 1 / Q := by positivity
  have hQV : 0 < dbV_factor dbGain / Q := by positivity
  have h2 : (0 : ℝ) < √2 := by positivity
  have h2V : 0 < √(2 * dbV_factor dbGain) := by positivity
  cases R
  · obtain ⟨p, hp⟩ := bilinear_stable ⟨0, 0, 1, 1, 1 / Q, 1⟩ hK one_pos hQ1 one_pos
    exact ⟨_, p, low_pass_eq h0 h1 hQ, hp⟩
  · obtain ⟨p, hp⟩ := bilinear_stable ⟨1, 0, 0, 1, 1 / Q, 1⟩ hK one_pos hQ1 one_pos
    exact ⟨_, p, high_pass_eq h0 h1 hQ, hp⟩
  · obtain ⟨p, hp⟩ := bilinear_stable ⟨0, 1 / Q, 0, 1, 1 / Q, 1⟩ hK one_pos hQ1 one_pos
    exact ⟨_, p, band_pass_eq h0 h1 hQ, hp⟩
  · obtain ⟨p, hp⟩ := bilinear_stable ⟨1, 0, 1, 1, 1 / Q, 1⟩ hK one_pos hQ1 one_pos
    exact ⟨_, p, band_stop_eq h0 h1 hQ, hp⟩
  · refine ⟨bilinear (if 0 ≤ dbGain then ⟨1, √(2 * dbV_factor dbGain), dbV_factor dbGain, 1, √2, 1⟩
        else ⟨1, √2, 1, 1, √(2 * dbV_factor dbGain), dbV_factor dbGain⟩) (Real.tan (Real.pi * f / fs)), ?_⟩
    obtain ⟨p, hp⟩ := bilinear_stable (if 0 ≤ dbGain then
        ⟨1, √(2 * dbV_factor dbGain), dbV_factor dbGain, 1, √2, 1⟩
        else ⟨1, √2, 1, 1, √(2 * dbV_factor dbGain), dbV_factor dbGain⟩) hK
        (by split <;> exact one_pos) (by split <;> assumption) (by split <;> [exact one_pos; exact hV])
    exact ⟨p, low_shelf_eq h0 h1 dbGain, hp⟩
  · refine ⟨bilinear (if 0 ≤ dbGain then ⟨dbV_factor dbGain, √(2 * dbV_factor dbGain), 1, 1, √2, 1⟩
        else ⟨1, √2, 1, dbV_factor dbGain, √(2 * dbV_factor dbGain), 1⟩) (Real.tan (Real.pi * f / fs)), ?_⟩
    obtain ⟨p, hp⟩ := bilinear_stable (if 0 ≤ dbGain then
        ⟨dbV_factor dbGain, √(2 * dbV_factor dbGain), 1, 1, √2, 1⟩
        else ⟨1, √2, 1, dbV_factor dbGain, √(2 * dbV_factor dbGain), 1⟩) hK
        (by split <;> [exact one_pos; exact hV]) (by split <;> assumption) (by split <;> exact one_pos)
    exact ⟨p, high_shelf_eq h0 h1 dbGain, hp⟩
  · refine ⟨bilinear (if 0 ≤ dbGain then ⟨1, dbV_factor dbGain / Q, 1, 1, 1 / Q, 1⟩
        else ⟨1, 1 / Q, 1, 1, dbV_factor dbGain / Q, 1⟩) (Real.tan (Real.pi * f / fs)), ?_⟩
    obtain ⟨p, hp⟩ := bilinear_stable (if 0 ≤ dbGain then ⟨1, dbV_factor dbGain / Q, 1, 1, 1 / Q, 1⟩
        else ⟨1, 1 / Q, 1, 1, dbV_factor dbGain / Q, 1⟩) hK
        (by split <;> exact one_pos) (by split <;> assumption) (by split <;> exact one_pos)
    exact ⟨p, peak_eq h0 h1 hQ dbGain, hp⟩

/-! ### C51 decibels -/

/-- **C51** `dbP_factor` and `dbP` are inverse to each other: for factors of at least 1, and for
non-negative dB values. -/
theorem C51_dbP (vout vin d : ℝ) (hv : 0 < vin) (h : vin ≤ vout) (hd : 0 ≤ d) :
    (∃ e, dbP vout vin = .ok e ∧ dbP_factor e = vout / vin) ∧ dbP (dbP_factor d) 1 = .ok d := by
  have h1 : 1 ≤ vout / vin := by rwa [one_le_div hv]
  constructor
  · refine ⟨10 * Real.logb 10 (vout / vin), ?_, ?_⟩
    · unfold dbP RealFun.log10
      rw [div_ok hv.ne', bind_ok, if_neg (by linarith), bind_ok]
    · unfold dbP_factor RealFun.pow10
      have : 0 ≤ Real.logb 10 (vout / vin) := Real.logb_nonneg (by norm_num) h1
      rw [abs_of_nonneg (by positivity), mul_div_cancel_left₀ _ (by norm_num : (10 : ℝ) ≠ 0),
        Real.rpow_logb (by norm_num) (by norm_num) (by linarith)]
  · have hp : 0 < dbP_factor d := by unfold dbP_factor RealFun.pow10; positivity
    unfold dbP RealFun.log10
    rw [div_ok one_ne_zero, bind_ok, div_one, if_neg (by linarith), bind_ok]
    unfold dbP_factor RealFun.pow10
    rw [abs_of_nonneg hd, Real.logb_rpow (by norm_num) (by norm_num)]
    congr 1
    field_simp

/-- **C51** For attenuations the sign is lost: the factor is the reciprocal. -/
theorem C51_dbP_attenuation (vout vin : ℝ) (hv : 0 < vout) (h : vout ≤ vin) :
    ∃ e, dbP vout vin = .ok e ∧ dbP_factor e = vin / vout := by
  have hi : 0 < vin := by linarith
  have h1 : vout / vin ≤ 1 := by rwa [div_le_one hi]
  have h0 : 0 < vout / vin := by positivity
  refine ⟨10 * Real.logb 10 (vout / vin), ?_, ?_⟩
  · unfold dbP RealFun.log10
    rw [div_ok hi.ne', bind_ok, if_neg (by linarith), bind_ok]
  · unfold dbP_factor RealFun.pow10
    have : Real.logb 10 (vout / vin) ≤ 0 := Real.logb_nonpos (by norm_num) h0.le h1
    rw [abs_of_nonpos (by linarith), show -(10 * Real.logb 10 (vout / vin)) / 10 =
      -Real.logb 10 (vout / vin) by ring, Real.rpow_neg (by norm_num),
      Real.rpow_logb (by norm_num) (by norm_num) h0, inv_div]

/-- **C51** (negation) `dbV( dbV_factor( d ), 1 )` is `2 d - 20 log10( 2 )`, hence `d` only for
`d = 20 log10( 2 )` (about 6.02 dB). -/
theorem C51_dbV_wrong (d : ℝ) (hd : 0 ≤ d) :
    dbV (dbV_factor d) 1 = .ok (2 * d - 20 * Real.logb 10 2) ∧
      (dbV (dbV_factor d) 1 = .ok d ↔ d = 20 * Real.logb 10 2) := by
  have h : dbV (dbV_factor d) 1 = .ok (2 * d - 20 * Real.logb 10 2) := by
    have hp := dbV_factor_pos d
    unfold dbV dbP RealFun.log10
    rw [div_ok one_ne_zero, bind_ok, div_one, if_neg (by linarith), bind_ok, bind_ok]
    unfold dbV_factor dbP_factor RealFun.pow10
    rw [abs_of_nonneg hd, Real.logb_div (by positivity) (by norm_num),
      Real.logb_rpow (by norm_num) (by norm_num)]
    congr 1
    ring
  refine ⟨h, ?_⟩
  rw [h, Except.ok.injEq]
  constructor <;> intro h <;> linarith

/-- **C51** (negation) The factor for `d` dB is `10^(d/20)`; `dbV_factor( d )` is that only for
`d = 20 log10( 2 )`.  In particular it is 1/2, not 1, for 0 dB. -/
theorem C51_dbV_factor_wrong (d : ℝ) (hd : 0 ≤ d) :
    (dbV_factor d = (10 : ℝ) ^ (d / 20) ↔ d = 20 * Real.logb 10 2) ∧ dbV_factor 0 = 1 / 2 := by
  constructor
  · unfold dbV_factor dbP_factor RealFun.pow10
    rw [abs_of_nonneg hd]
    have e : (10 : ℝ) ^ (d / 10) = (10 : ℝ) ^ (d / 20) * (10 : ℝ) ^ (d / 20) := by
      rw [← Real.rpow_add (by norm_num)]
      congr 1
      ring
    have hp : (0 : ℝ) < (10 : ℝ) ^ (d / 20) := by positivity
    rw [e]
    constructor
    · intro h
      have : (10 : ℝ) ^ (d / 20) = 2 := by nlinarith
      rw [← this, Real.logb_rpow (by norm_num) (by norm_num)]
      ring
    · intro h
      have : (10 : ℝ) ^ (d / 20) = 2 := by
        rw [h, mul_div_cancel_left₀ _ (by norm_num : (20 : ℝ) ≠ 0),
          Real.rpow_logb (by norm_num) (by norm_num) (by norm_num)]
      rw [this]
      norm_num
  · unfold dbV_factor dbP_factor RealFun.pow10
    simp

/-- **C51** What holds of `dbV`: it is `20 log10( vout / vin )`. -/
theorem C51_dbV_partial (vout vin : ℝ) (h1 : 0 < vout) (h2 : 0 < vin) :
    dbV vout vin = .ok (20 * Real.logb 10 (vout / vin)) := by
  have : 0 < vout / vin := by positivity
  unfold dbV dbP RealFun.log10
  rw [div_ok h2.ne', bind_ok, if_neg (by linarith), bind_ok, bind_ok]
  congr 1
  ring

/-- **C51** The decibel functions have a value exactly if the voltages are not zero and have the same sign. -/
theorem C51_db_domain (vout vin d : ℝ) :
    (dbP vout vin = .ok d ↔ 0 < vout * vin ∧ d = 10 * Real.logb 10 (vout / vin)) ∧
      (dbV vout vin = .ok d ↔ 0 < vout * vin ∧ d = 20 * Real.logb 10 (vout / vin)) := by
  by_cases h0 : vin = 0
  · have h : ∀ e, dbP vout vin ≠ .ok e := by
      intro e h
      unfold dbP RealFun.div at h
      rw [if_pos h0] at h
      cases h
    constructor
    · exact ⟨fun h' => absurd h' (h d), fun h' => by rw [h0, mul_zero] at h'; exact absurd h'.1 (lt_irrefl _)⟩
    · refine ⟨fun h' => ?_, fun h' => by rw [h0, mul_zero] at h'; exact absurd h'.1 (lt_irrefl _)⟩
      unfold dbV at h'
      obtain ⟨e, he, -⟩ := bind_eq_ok.1 h'
      exact absurd he (h e)
  · have hq : 0 < vout * vin ↔ 0 < vout / vin := by
      rw [div_eq_mul_inv, ← mul_pos_iff_of_pos_right (show 0 < vin⁻¹ ^ 2 by positivity)]
      field_simp
    rw [hq]
    by_cases h1 : 0 < vout / vin
    · have e : dbP vout vin = .ok (10 * Real.logb 10 (vout / vin)) := by
        unfold dbP RealFun.log10
        rw [div_ok h0, bind_ok, if_neg (by linarith), bind_ok]
      have e' : dbV vout vin = .ok (20 * Real.logb 10 (vout / vin)) := by
        unfold dbV
        rw [e, bind_ok]
        congr 1
        ring
      rw [e, e']
      constructor
      · exact ⟨fun h => ⟨h1, (Except.ok.inj h).symm⟩, fun h => by rw [h.2]⟩
      · exact ⟨fun h => ⟨h1, (Except.ok.inj h).symm⟩, fun h => by rw [h.2]⟩
    · have e : dbP vout vin = .error .domain := by
        unfold dbP RealFun.log10
        rw [div_ok h0, bind_ok, if_pos (by linarith)]
        rfl
      have e' : dbV vout vin = .error .domain := by
        unfold dbV
        rw [e]
        rfl
      rw [e, e']
      exact ⟨⟨fun h => (nomatch h), fun h => absurd h.1 h1⟩, ⟨fun h => (nomatch h), fun h => absurd h.1 h1⟩⟩

example : (0 : ℝ) < 1 ∧ (1 : ℝ) ≤ 2 ∧ (0 : ℝ) ≤ 3 ∧ (3 : ℝ) ≤ 4 := by norm_num

/-! ### C50 shelves and peaks

`V` is the factor the code uses: `dbV_factor( dbGain )`; by C51 it is not the requested one. -/

/-- **C50** Low shelf: gain `V` at DC and 1 at the Nyquist frequency if `dbGain >= 0`, otherwise `1/V`
and 1. -/
theorem C50_low_shelf_partial (d : ℝ) {f fs : ℝ} (Q : ℝ) (h0 : 0 < f) (h1 : f < fs / 2) :
    ∃ c, biquad_design .low_shelf d f fs Q = .ok c ∧ (make_biquad c).response 0 =
        .ok ((if 0 ≤ d then dbV_factor d else 1 / dbV_factor d : ℝ) : ℂ) ∧
      (make_biquad c).response (1 / 2) = .ok 1 := by
  have hK := (prewarp_ok h0 h1).2
  have hV := dbV_factor_pos d
  have h2 : (0 : ℝ) < √2 := by positivity
  have h2V : 0 < √(2 * dbV_factor d) := by positivity
  have hc0 : Real.cos (Real.pi * 0) ≠ 0 := by simp
  refine ⟨_, low_shelf_eq h0 h1 d, ?_, ?_⟩
  · split
    · rw [bilinear_response _ hK one_pos h2 one_pos 0 hc0]
      simp [Proto.eval]
    · rw [bilinear_response _ hK one_pos h2V hV 0 hc0]
      simp [Proto.eval]
  · split
    · rw [bilinear_nyquist _ hK one_pos h2 one_pos]
      simp
    · rw [bilinear_nyquist _ hK one_pos h2V hV]
      simp

/-- **C50** High shelf: gain 1 at DC and `V` resp. `1/V` at the Nyquist frequency. -/
theorem C50_high_shelf_partial (d : ℝ) {f fs : ℝ} (Q : ℝ) (h0 : 0 < f) (h1 : f < fs / 2) :
    ∃ c, biquad_design .high_shelf d f fs Q = .ok c ∧ (make_biquad c).response 0 = .ok 1 ∧
      (make_biquad c).response (1 / 2) =
        .ok ((if 0 ≤ d then dbV_factor d else 1 / dbV_factor d : ℝ) : ℂ) := by
  have hK := (prewarp_ok h0 h1).2
  have hV := dbV_factor_pos d
  have h2 : (0 : ℝ) < √2 := by positivity
  have h2V : 0 < √(2 * dbV_factor d) := by positivity
  have hc0 : Real.cos (Real.pi * 0) ≠ 0 := by simp
  refine ⟨_, high_shelf_eq h0 h1 d, ?_, ?_⟩
  · split
    · rw [bilinear_response _ hK one_pos h2 one_pos 0 hc0]
      simp [Proto.eval]
    · rw [bilinear_response _ hK hV h2V one_pos 0 hc0]
      simp [Proto.eval]
  · split
    · rw [bilinear_nyquist _ hK one_pos h2 one_pos]
      simp
    · rw [bilinear_nyquist _ hK hV h2V one_pos]

/-- **C50** Peak: gain 1 at DC and the Nyquist frequency, `V` resp. `1/V` at the nominal frequency. -/
theorem C50_peak_partial (d : ℝ) {f fs Q : ℝ} (h0 : 0 < f) (h1 : f < fs / 2) (hQ : 0 < Q) :
    ∃ c, biquad_design .peak_band_eq d f fs Q = .ok c ∧ (make_biquad c).response 0 = .ok 1 ∧
      (make_biquad c).response (1 / 2) = .ok 1 ∧
      (make_biquad c).response (f / fs) =
        .ok ((if 0 ≤ d then dbV_factor d else 1 / dbV_factor d : ℝ) : ℂ) := by
  have hK := (prewarp_ok h0 h1).2
  have hV := dbV_factor_pos d
  have hQ1 : 0 < 1 / Q := by positivity
  have hQV : 0 < dbV_factor d / Q := by positivity
  have hc0 : Real.cos (Real.pi * 0) ≠ 0 := by simp
  have hc1 := cos_nominal h0 h1
  have hw : Real.tan (Real.pi * (f / fs)) / Real.tan (Real.pi * f / fs) = 1 := warped_nominal h0 h1
  have hQc : (Q : ℂ) ≠ 0 := by exact_mod_cast hQ.ne'
  have hVc : (dbV_factor d : ℂ) ≠ 0 := by exact_mod_cast hV.ne'
  refine ⟨_, peak_eq h0 h1 hQ d, ?_, ?_, ?_⟩
  · split
    · rw [bilinear_response _ hK one_pos hQ1 one_pos 0 hc0]
      simp [Proto.eval]
    · rw [bilinear_response _ hK one_pos hQV one_pos 0 hc0]
      simp [Proto.eval]
  · split
    · rw [bilinear_nyquist _ hK one_pos hQ1 one_pos]
      simp
    · rw [bilinear_nyquist _ hK one_pos hQV one_pos]
      simp
  · split
    · rw [bilinear_response _ hK one_pos hQ1 one_pos _ hc1, hw, eval_I]
      simp
      field_simp
    · rw [bilinear_response _ hK one_pos hQV one_pos _ hc1, hw, eval_I]
      simp
      field_simp

/-- **C50** The complete response of the low shelf below the Nyquist frequency: that of the analog filter
`(s^2 + sqrt( 2 V ) s + V) / (s^2 + sqrt( 2 ) s + 1)`, or its reciprocal, at the warped frequency. -/
theorem C50_low_shelf_transfer (d : ℝ) {f fs : ℝ} (Q : ℝ) (h0 : 0 < f) (h1 : f < fs / 2) :
    ∃ c, biquad_design .low_shelf d f fs Q = .ok c ∧ ∀ g, Real.cos (Real.pi * g) ≠ 0 →
      let s : ℂ := Complex.I * warped f fs g
      let H : ℂ := (s ^ 2 + √(2 * dbV_factor d) * s + dbV_factor d) / (s ^ 2 + √2 * s + 1)
      (make_biquad c).response g = .ok (if 0 ≤ d then H else H⁻¹) := by
  have hK := (prewarp_ok h0 h1).2
  have hV := dbV_factor_pos d
  have h2 : (0 : ℝ) < √2 := by positivity
  have h2V : 0 < √(2 * dbV_factor d) := by positivity
  refine ⟨_, low_shelf_eq h0 h1 d, fun g hg => ?_⟩
  split
  · rw [bilinear_response _ hK one_pos h2 one_pos g hg]
    simp [Proto.eval, warped]
  · rw [bilinear_response _ hK one_pos h2V hV g hg]
    simp [Proto.eval, warped]

/-- **C50** The complete response of the high shelf:
`(V s^2 + sqrt( 2 V ) s + 1) / (s^2 + sqrt( 2 ) s + 1)`, or its reciprocal, at the warped frequency. -/
theorem C50_high_shelf_transfer (d : ℝ) {f fs : ℝ} (Q : ℝ) (h0 : 0 < f) (h1 : f < fs / 2) :
    ∃ c, biquad_design .high_shelf d f fs Q = .ok c ∧ ∀ g, Real.cos (Real.pi * g) ≠ 0 →
      let s : ℂ := Complex.I * warped f fs g
      let H : ℂ := (dbV_factor d * s ^ 2 + √(2 * dbV_factor d) * s + 1) / (s ^ 2 + √2 * s + 1)
      (make_biquad c).response g = .ok (if 0 ≤ d then H else H⁻¹) := by
  have hK := (prewarp_ok h0 h1).2
  have hV := dbV_factor_pos d
  have h2 : (0 : ℝ) < √2 := by positivity
  have h2V : 0 < √(2 * dbV_factor d) := by positivity
  refine ⟨_, high_shelf_eq h0 h1 d, fun g hg => ?_⟩
  split
  · rw [bilinear_response _ hK one_pos h2 one_pos g hg]
    simp [Proto.eval, warped]
  · rw [bilinear_response _ hK hV h2V one_pos g hg]
    simp [Proto.eval, warped]

/-- **C50** The complete response of the peak filter: `(s^2 + V s / Q + 1) / (s^2 + s / Q + 1)`, or its
reciprocal, at the warped frequency. -/
theorem C50_peak_transfer (d : ℝ) {f fs Q : ℝ} (h0 : 0 < f) (h1 : f < fs / 2) (hQ : 0 < Q) :
    ∃ c, biquad_design .peak_band_eq d f fs Q = .ok c ∧ ∀ g, Real.cos (Real.pi * g) ≠ 0 →
      let s : ℂ := Complex.I * warped f fs g
      let H : ℂ := (s ^ 2 + dbV_factor d / Q * s + 1) / (s ^ 2 + 1 / Q * s + 1)
      (make_biquad c).response g = .ok (if 0 ≤ d then H else H⁻¹) := by
  have hK := (prewarp_ok h0 h1).2
  have hV := dbV_factor_pos d
  have hQ1 : 0 < 1 / Q := by positivity
  have hQV : 0 < dbV_factor d / Q := by positivity
  refine ⟨_, peak_eq h0 h1 hQ d, fun g hg => ?_⟩
  split
  · rw [bilinear_response _ hK one_pos hQ1 one_pos g hg]
    simp [Proto.eval, warped]
  · rw [bilinear_response _ hK one_pos hQV one_pos g hg]
    simp [Proto.eval, warped]

example : (0 : ℝ) < 1000 ∧ (1000 : ℝ) < 44100 / 2 ∧ Real.cos (Real.pi * (1 / 4)) ≠ 0 := by
  refine ⟨by norm_num, by norm_num, ?_⟩
  rw [show Real.pi * (1 / 4) = Real.pi / 4 by ring, Real.cos_pi_div_four]
  positivity

/-- **C50** (negation) A 0 dB shelf or peak filter is not transparent: it halves the amplitude at its
nominal frequencies. -/
theorem C50_zero_dB_wrong {f fs Q : ℝ} (h0 : 0 < f) (h1 : f < fs / 2) (hQ : 0 < Q) :
    (∃ c, biquad_design .low_shelf 0 f fs Q = .ok c ∧ (make_biquad c).response 0 = .ok (1 / 2)) ∧
    (∃ c, biquad_design .high_shelf 0 f fs Q = .ok c ∧
      (make_biquad c).response (1 / 2) = .ok (1 / 2)) ∧
    (∃ c, biquad_design .peak_band_eq 0 f fs Q = .ok c ∧
      (make_biquad c).response (f / fs) = .ok (1 / 2)) := by
  have hv := (C51_dbV_factor_wrong 0 le_rfl).2
  obtain ⟨c1, e1, g1, -⟩ := C50_low_shelf_partial 0 Q h0 h1
  obtain ⟨c2, e2, -, g2⟩ := C50_high_shelf_partial 0 Q h0 h1
  obtain ⟨c3, e3, -, -, g3⟩ := C50_peak_partial 0 h0 h1 hQ
  rw [if_pos le_rfl, hv] at g1 g2 g3
  refine ⟨⟨c1, e1, ?_⟩, ⟨c2, e2, ?_⟩, ⟨c3, e3, ?_⟩⟩
  · rw [g1]; norm_num
  · rw [g2]; norm_num
  · rw [g3]; norm_num

/-- **C50** (negation) A low-shelf boost of 20 log10( 2 ) = 6.02 dB is the only one with the requested gain
at DC. -/
theorem C50_boost_wrong (d : ℝ) (hd : 0 ≤ d) {f fs Q : ℝ} (h0 : 0 < f) (h1 : f < fs / 2) :
    ∃ c, biquad_design .low_shelf d f fs Q = .ok c ∧
      ((make_biquad c).response 0 = .ok (((10 : ℝ) ^ (d / 20) : ℝ) : ℂ) ↔ d = 20 * Real.logb 10 2) := by
  obtain ⟨c, e, g, -⟩ := C50_low_shelf_partial d Q h0 h1
  refine ⟨c, e, ?_⟩
  rw [g, if_pos hd, Except.ok.injEq, Complex.ofReal_inj]
  exact (C51_dbV_factor_wrong d hd).1

/-- **C50** (negation) A peak filter asked to boost by less than 10 log10( 2 ) = 3.01 dB attenuates its
nominal frequency. -/
theorem C50_boost_attenuates (d : ℝ) (hd : 0 ≤ d) {f fs Q : ℝ} (h0 : 0 < f) (h1 : f < fs / 2)
    (hQ : 0 < Q) :
    ∃ c H, biquad_design .peak_band_eq d f fs Q = .ok c ∧ (make_biquad c).response (f / fs) = .ok H ∧
      (‖H‖ < 1 ↔ d < 10 * Real.logb 10 2) := by
  obtain ⟨c, e, -, -, g⟩ := C50_peak_partial d h0 h1 hQ
  refine ⟨c, _, e, g, ?_⟩
  have hV := dbV_factor_pos d
  rw [if_pos hd, Complex.norm_real, Real.norm_eq_abs, abs_of_pos hV]
  unfold dbV_factor dbP_factor RealFun.pow10
  rw [abs_of_nonneg hd, div_lt_one (by norm_num)]
  have e2 : (2 : ℝ) = (10 : ℝ) ^ Real.logb 10 2 :=
    (Real.rpow_logb (by norm_num) (by norm_num) (by norm_num)).symm
  conv_lhs => rw [e2]
  rw [Real.rpow_lt_rpow_left_iff (by norm_num)]
  constructor <;> intro h <;> linarith

example : (0 : ℝ) ≤ 1 ∧ (1 : ℝ) < 10 * Real.logb 10 2 := by
  refine ⟨by norm_num, ?_⟩
  have : (1 : ℝ) = Real.logb 10 10 := (Real.logb_self_eq_one (by norm_num)).symm
  have h : (10 : ℝ) * Real.logb 10 2 = Real.logb 10 (2 ^ 10) := by
    rw [Real.logb_pow]; norm_num
  rw [h, this]
  exact Real.logb_lt_logb (by norm_num) (by norm_num) (by norm_num)

end Verif
