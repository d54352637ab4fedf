import Verif.Props.Chebyshev

/-
C67: exactly when an even-order type 1 filter attenuates its stop band as specified.
-/

namespace Verif
open Sig Design Cheb

variable {low : Bool} {fs fpass fstop Apass Astop : ℝ} {n : ℕ} {d : Digital} {c : Cascade ℝ n}

theorem warp_half (low : Bool) (f fs : ℝ) : |halfSin low (f / fs) / halfCos low (f / fs)| = |warp low f fs| := by
  have h : Real.pi * (f / fs) = Real.pi * f / fs := by ring
  cases low <;> simp only [halfSin, halfCos, warp, Bool.false_eq_true, if_false, if_true, h]
  · rw [Real.tan_eq_sin_div_cos, one_div, inv_div, neg_div, abs_neg]
  · rw [Real.tan_eq_sin_div_cos]

/-- **C67** An even-order type 1 filter attenuates all of its stop band by at least `Astop` dB exactly if the square of the
Chebyshev polynomial of its order reaches `1 + estop^2 + estop^4` at the stop-band edge; the order is chosen for
`estop^2 / epass^2` only. -/
theorem C67_even_stop_partial (v : Valid low fs fpass fstop (max Apass 0.01) (max Astop 0.01))
    (hd : chebyshev1_lp_hp low fs fpass fstop Apass Astop = .ok d)
    (hc : make_biquad_cascade n d = .ok c)
    (he : order low fs fpass fstop (max Apass 0.01) (max Astop 0.01) % 2 = 0) :
    (∀ f, InStop low fs fstop f → ∃ H, c.response (f / fs) = .ok H ∧ ‖H‖ ^ 2 ≤ (10 : ℝ) ^ (-max Astop 0.01 / 10)) ↔
      1 + ripple (max Astop 0.01) ^ 2 + ripple (max Astop 0.01) ^ 4 ≤
        T (order low fs fpass fstop (max Apass 0.01) (max Astop 0.01)) (warp low fstop fs / warp low fpass fs) ^ 2 := by
  obtain ⟨h1, hN, hW, ha, h2, h3⟩ := cascade1 v hd hc
  have hAs := v.Apass_pos.trans v.Apass_lt
  have rs := ripple_sq hAs.le
  have rs0 := ripple_pos hAs
  have hWs := warp_pos low v.fstop_pos v.fstop_lt
  have h10 : (10 : ℝ) ^ (max Astop 0.01 / 10) = 1 + ripple (max Astop 0.01) ^ 2 := by linarith
  set N := order low fs fpass fstop (max Apass 0.01) (max Astop 0.01) with hNd
  set e := ripple (max Astop 0.01) with hed
  have key (f : ℝ) (hC : halfCos low (f / fs) ≠ 0) : ∃ H, c.response (f / fs) = .ok H ∧
      ‖H‖ ^ 2 = (1 + e ^ 2) / (T N (|halfSin low (f / fs) / halfCos low (f / fs)| / warp low fpass fs) ^ 2 + e ^ 2) := by
    obtain ⟨H, e1, e2⟩ := C67_magnitude_partial v hd hc (f / fs) (by cases low <;> exact hC)
    refine ⟨H, e1, ?_⟩
    rw [← hNd] at e2
    simp only [if_neg (show ¬ N % 2 = 1 by omega), mul_one] at e2
    rw [e2]
    have e3 : (if low then Real.sin (Real.pi * (f / fs)) / Real.cos (Real.pi * (f / fs))
      else -Real.cos (Real.pi * (f / fs)) / Real.sin (Real.pi * (f / fs))) =
        halfSin low (f / fs) / halfCos low (f / fs) := by
      cases low <;> simp only [halfSin, halfCos, Bool.false_eq_true, if_false, if_true]
    rw [e3, ← T_sq_abs, abs_div _ (warp low fpass fs), abs_of_pos hW]
  have edge : InStop low fs fstop fstop := by
    have := v.fstop_lt
    have := v.fstop_pos
    cases low <;> simp only [InStop, Bool.false_eq_true, if_false, if_true] <;> constructor <;> linarith
  have edgeC : halfCos low (fstop / fs) ≠ 0 := by
    intro h
    have h4 := warp_half low fstop fs
    rw [h, div_zero, abs_zero] at h4
    exact hWs.ne' (abs_eq_zero.1 h4.symm)
  have hT1 : 1 ≤ T N (warp low fstop fs / warp low fpass fs) := Polynomial.Chebyshev.one_le_eval_T_real N v.ratio_W.le
  constructor
  · intro h
    obtain ⟨H, e1, e2⟩ := h fstop edge
    obtain ⟨H', e3, e4⟩ := key fstop edgeC
    obtain rfl : H = H' := Except.ok.inj (e1.symm.trans e3)
    rw [e4, warp_half, abs_of_pos hWs, neg_dB, h10, div_le_div_iff₀ (by positivity) (by positivity)] at e2
    linarith
  · intro h f hf
    by_cases hC : halfCos low (f / fs) = 0
    · obtain ⟨H, e1, e2⟩ := cascade_mag low _ h2 c h1 h3 (f / fs)
      refine ⟨H, e1, ?_⟩
      rw [e2, List.prod_eq_zero]
      · positivity
      · refine List.mem_map.2 ⟨proto1 N (Real.sinh (Real.arsinh e / N) * warp low fpass fs) (warp low fpass fs) 0, ?_, ?_⟩
        · unfold protos
          exact List.mem_append_right _ (List.mem_map.2 ⟨0, List.mem_range.2 (by omega), rfl⟩)
        · unfold Proto.mag Proto.num2 proto1
          rw [hC]
          simp
    · obtain ⟨H, e1, e2⟩ := key f hC
      refine ⟨H, e1, ?_⟩
      have hx : warp low fstop fs / warp low fpass fs ≤ |halfSin low (f / fs) / halfCos low (f / fs)| / warp low fpass fs := by
        refine div_le_div_of_nonneg_right ?_ hW.le
        rw [abs_div, le_div_iff₀ (abs_pos.2 hC)]
        exact stop_edge v.fstop_pos v.fstop_lt hf
      have hm := T_mono N v.ratio_W.le hx
      rw [e2, neg_dB, h10, div_le_div_iff₀ (by positivity) (by positivity)]
      have h5 := pow_le_pow_left₀ (zero_le_one.trans hT1) hm 2
      linarith

/-- The hypotheses hold for the example of `C67_stop_wrong`, of order 2; the inequality does not. -/
example : Valid true 12 3 4 (max (10 * Real.logb 10 2) 0.01) (max (10 * Real.logb 10 26) 0.01) ∧
    order true 12 3 4 (max (10 * Real.logb 10 2) 0.01) (max (10 * Real.logb 10 26) 0.01) % 2 = 0 :=
  ⟨valid_example (by norm_num), by rw [order_two]⟩

end Verif
