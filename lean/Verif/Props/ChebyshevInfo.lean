import Verif.Lemmas.ChebyshevInfo
import Verif.Lemmas.OutputText
import Verif.Props.OutputText

/-
C131: the information reported by the Chebyshev designs, in particular the 3 dB frequency.
-/

namespace Verif
open Sig Design Cheb

variable {low : Bool} {fs fpass fstop Apass Astop : ℝ} {n : ℕ} {d : Digital} {c : Cascade ℝ n}

/-- The squared gain of type 2 at a frequency between 0 and half the sample frequency. -/
theorem ChebyshevInfo.gain2 (v : Valid low fs fpass fstop (max Apass 0.01) (max Astop 0.01))
    (hd : chebyshev2_lp_hp low fs fpass fstop Apass Astop = .ok d) (hc : make_biquad_cascade n d = .ok c) {f : ℝ}
    (h0 : 0 < f) (h1 : f < fs / 2) : ∃ H, c.response (f / fs) = .ok H ∧
      let t := T (order low fs fpass fstop (max Apass 0.01) (max Astop 0.01)) (warp low fstop fs / warp low f fs)
      ‖H‖ ^ 2 = t ^ 2 / (t ^ 2 + ripple (max Astop 0.01) ^ 2) := by
  obtain ⟨r1, -, r2, -⟩ := ratio_warp low h0 h1
  obtain ⟨H, e1, e2⟩ := C66_magnitude v hd hc (f / fs) r1
  refine ⟨H, e1, ?_⟩
  have hA : (0 : ℝ) ≤ max Astop 0.01 := (v.Apass_pos.trans v.Apass_lt).le
  simp only [r2] at e2
  rw [ripple_sq hA]
  have hT (N : ℕ) : T N (warp low fstop fs * ((if low then 1 else -1) * (1 / warp low f fs))) ^ 2 =
      T N (warp low fstop fs / warp low f fs) ^ 2 := by
    cases low
    · simp only [Bool.false_eq_true, if_false]
      rw [← T_sq_abs N (warp false fstop fs / _), ← T_sq_abs, ← abs_neg]
      congr 2
      ring_nf
    · simp only [if_true]
      congr 2
      ring
  simp only [hT] at e2
  exact e2

/-- C131: a type 2 design reports the warped frequencies, the ripple factors, the exact order and its ceiling, and as `f3`
the frequency at which the cascade has half the power. -/
theorem C131_type2 (v : Valid low fs fpass fstop (max Apass 0.01) (max Astop 0.01))
    (hd : chebyshev2_lp_hp low fs fpass fstop Apass Astop = .ok d) (hc : make_biquad_cascade n d = .ok c) :
    ∃ i, chebyshev2_info low fs fpass fstop Apass Astop = .ok i ∧
      i.Wpass = warp low fpass fs ∧ i.Wstop = warp low fstop fs ∧
      1 + i.epass ^ 2 = (10 : ℝ) ^ (max Apass 0.01 / 10) ∧ 1 + i.estop ^ 2 = (10 : ℝ) ^ (max Astop 0.01 / 10) ∧
      i.N = d.N ∧ i.N = ⌈i.Nex⌉ ∧ 0 < i.f3 ∧ i.f3 < fs / 2 ∧
      ∃ H, c.response (i.f3 / fs) = .ok H ∧ ‖H‖ ^ 2 = 1 / 2 := by
  have hN := order_small v (by simp) hd
  obtain ⟨f3, h1, h2, h3, h4⟩ := info2 v (by omega)
  have hA : (0 : ℝ) < max Astop 0.01 := v.Apass_pos.trans v.Apass_lt
  have hr := ripple_pos hA
  have h0 := v.order_pos
  have hq : 0 < Real.arcosh (ripple (max Astop 0.01) / ripple (max Apass 0.01)) /
      Real.arcosh (warp low fstop fs / warp low fpass fs) :=
    div_pos (Real.arcosh_pos v.ratio_e) (Real.arcosh_pos v.ratio_W)
  refine ⟨_, h1, rfl, rfl, ?_, ?_, ?_, Int.natCast_ceil_eq_ceil hq.le, h2, h3, ?_⟩
  · rw [ripple_sq v.Apass_pos.le]; ring
  · rw [ripple_sq hA.le]; ring
  · obtain rfl := Except.ok.inj (hd.symm.trans (chebyshev2_sections v hN))
    rfl
  · obtain ⟨H, e1, e2⟩ := ChebyshevInfo.gain2 v hd hc h2 h3
    refine ⟨H, e1, ?_⟩
    have hp := preimage_pos h0 hr
    have hW := warp_pos low v.fstop_pos v.fstop_lt
    rw [h4, div_div_cancel₀ hW.ne'] at e2
    simp only [T_preimage h0 hr] at e2
    rw [e2]
    field_simp
    norm_num

theorem ChebyshevInfo.T_strict {N : ℕ} (hN : 0 < N) {x y : ℝ} (hy : 1 ≤ y) (h : y < x) : T N y < T N x := by
  have hx : 1 ≤ x := hy.trans h.le
  unfold T
  rw [← Real.cosh_arcosh hx, ← Real.cosh_arcosh hy, Polynomial.Chebyshev.T_real_cosh,
    Polynomial.Chebyshev.T_real_cosh, Real.cosh_lt_cosh]
  have h1 := Real.arcosh_nonneg hx
  have h2 := Real.arcosh_nonneg hy
  have h3 := (Real.arcosh_lt_arcosh (by linarith) (by linarith)).2 h
  rw [abs_of_nonneg (by positivity), abs_of_nonneg (by positivity)]
  have : (0 : ℝ) < N := by exact_mod_cast hN
  push_cast
  nlinarith

/-- Frequencies are ordered like their warped values. -/
theorem ChebyshevInfo.le_of_warp (low : Bool) {f f' fs : ℝ} (h0 : 0 < f') (h1 : f < fs / 2)
    (h : warp low f fs ≤ warp low f' fs) : if low then f ≤ f' else (0 < f → f' < fs / 2 → f' ≤ f) := by
  cases low
  · simp only [Bool.false_eq_true, if_false]
    intro hf hf'
    by_contra hlt
    have h2 := tan_prewarp_lt hf (not_le.1 hlt) hf'
    have h3 := warp_pos true hf h1
    unfold warp at h h3
    simp only [Bool.false_eq_true, if_false, if_true] at h h3
    exact absurd (one_div_lt_one_div_of_lt h3 h2) (not_lt.2 h)
  · simp only [if_true]
    by_contra hlt
    have h2 := tan_prewarp_lt h0 (not_le.1 hlt) h1
    unfold warp at h
    simp only [if_true] at h
    linarith

/-- A concrete design: order 2, reporting its 3 dB frequency. -/
example : ∃ d, ∃ c : Cascade ℝ 1, ∃ i H,
    chebyshev2_lp_hp true 12 3 4 (10 * Real.logb 10 2) (10 * Real.logb 10 26) = .ok d ∧ make_biquad_cascade 1 d = .ok c ∧
    chebyshev2_info true 12 3 4 (10 * Real.logb 10 2) (10 * Real.logb 10 26) = .ok i ∧ i.N = 2 ∧
    c.response (i.f3 / 12) = .ok H ∧ ‖H‖ ^ 2 = 1 / 2 := by
  have v := valid_example (x := 26) (by norm_num)
  obtain ⟨d, hd, h1, h2, h3, -⟩ := C52_count v (by rw [order_two]; norm_num) chebyshev2_lp_hp (by simp)
  have hdN : d.N = 2 := by rw [h1, order_two]; rfl
  obtain ⟨c, hc, -⟩ := (C52_cascade 1 d h3).1 (by omega)
  obtain ⟨i, hi, -, -, -, -, hN, -, -, -, H, e1, e2⟩ := C131_type2 v hd hc
  exact ⟨d, c, i, H, hd, hc, hi, hN.trans hdN, e1, e2⟩

/-- C131: the reported frequency `f3` separates: if the stop band is to be attenuated by at least 3 dB, the cascade has at
least half the power from `f3` towards the pass band and at most half the power from `f3` towards the stop band, and the
pass band ends before `f3` if it is to be attenuated by at most 3 dB; the stop band begins after it. -/
theorem C131_separates (v : Valid low fs fpass fstop (max Apass 0.01) (max Astop 0.01))
    (hd : chebyshev2_lp_hp low fs fpass fstop Apass Astop = .ok d) (hc : make_biquad_cascade n d = .ok c)
    (h3dB : (2 : ℝ) ≤ (10 : ℝ) ^ (max Astop 0.01 / 10)) (i : AlgoInfo)
    (hi : chebyshev2_info low fs fpass fstop Apass Astop = .ok i) :
    (∀ f, InPass low fs i.f3 f → ∃ H, c.response (f / fs) = .ok H ∧ 1 / 2 ≤ ‖H‖ ^ 2) ∧
    (∀ f, InStop low fs i.f3 f → ∃ H, c.response (f / fs) = .ok H ∧ ‖H‖ ^ 2 ≤ 1 / 2) ∧
    (if low then i.f3 ≤ fstop else fstop ≤ i.f3) ∧
    ((10 : ℝ) ^ (max Apass 0.01 / 10) ≤ 2 → if low then fpass ≤ i.f3 else i.f3 ≤ fpass) := by
  have hN := order_small v (by simp) hd
  have hA : (0 : ℝ) < max Astop 0.01 := v.Apass_pos.trans v.Apass_lt
  have hr := ripple_pos hA
  have hr1 : 1 ≤ ripple (max Astop 0.01) := by
    have := ripple_sq hA.le
    nlinarith
  have h0 := v.order_pos
  have hWs := warp_pos low v.fstop_pos v.fstop_lt
  have hWp := warp_pos low v.fpass_pos v.fpass_lt
  obtain ⟨f3, h1, h2, h3, h4⟩ := info2 v (by omega)
  obtain rfl := Except.ok.inj (hi.symm.trans h1)
  have hp := preimage_pos h0 hr
  have hp1 := one_le_preimage (order low fs fpass fstop (max Apass 0.01) (max Astop 0.01)) hr1
  have hT := T_preimage h0 hr
  have hW3 := warp_pos low h2 h3
  have hy : warp low fstop fs / warp low f3 fs =
      preimage (order low fs fpass fstop (max Apass 0.01) (max Astop 0.01)) (ripple (max Astop 0.01)) := by
    rw [h4, div_div_cancel₀ hWs.ne']
  have hfs := v.fs_pos
  generalize preimage (order low fs fpass fstop (max Apass 0.01) (max Astop 0.01)) (ripple (max Astop 0.01)) = y at *
  -- towards the pass band
  have pass {f : ℝ} (hf0 : 0 < f) (hf1 : f < fs / 2) (hf : warp low f fs ≤ warp low f3 fs) :
      ∃ H, c.response (f / fs) = .ok H ∧ 1 / 2 ≤ ‖H‖ ^ 2 := by
    obtain ⟨H, e1, e2⟩ := ChebyshevInfo.gain2 v hd hc hf0 hf1
    refine ⟨H, e1, ?_⟩
    have hwf := warp_pos low hf0 hf1
    have hle : y ≤ warp low fstop fs / warp low f fs := hy ▸ div_le_div_of_nonneg_left hWs.le hwf hf
    have := T_mono (order low fs fpass fstop (max Apass 0.01) (max Astop 0.01)) hp1 hle
    rw [hT] at this
    rw [e2, div_le_div_iff₀ (by norm_num) (by positivity)]
    nlinarith
  have stop {f : ℝ} (hf0 : 0 < f) (hf1 : f < fs / 2) (hf : warp low f3 fs ≤ warp low f fs) :
      ∃ H, c.response (f / fs) = .ok H ∧ ‖H‖ ^ 2 ≤ 1 / 2 := by
    obtain ⟨H, e1, e2⟩ := ChebyshevInfo.gain2 v hd hc hf0 hf1
    refine ⟨H, e1, ?_⟩
    have hwf := warp_pos low hf0 hf1
    have hle : warp low fstop fs / warp low f fs ≤ y := hy ▸ div_le_div_of_nonneg_left hWs.le hW3 hf
    have hb : T (order low fs fpass fstop (max Apass 0.01) (max Astop 0.01)) (warp low fstop fs / warp low f fs) ^ 2 ≤
        ripple (max Astop 0.01) ^ 2 := by
      rcases le_total (warp low fstop fs / warp low f fs) 1 with h | h
      · have := T_sq_le_one (order low fs fpass fstop (max Apass 0.01) (max Astop 0.01))
          (x := warp low fstop fs / warp low f fs) (by rw [abs_of_pos (by positivity)]; exact h)
        nlinarith
      · have := T_mono (order low fs fpass fstop (max Apass 0.01) (max Astop 0.01)) h hle
        have h' := T_mono (order low fs fpass fstop (max Apass 0.01) (max Astop 0.01)) le_rfl h
        have hone : T (order low fs fpass fstop (max Apass 0.01) (max Astop 0.01)) 1 = 1 := by
          unfold T; simp
        rw [hT] at this
        rw [hone] at h'
        nlinarith
    rw [e2, div_le_div_iff₀ (by positivity) (by norm_num)]
    linarith
  have stopEnd {g : ℝ} (hg : if low then Real.sin (Real.pi * g) ≠ 0 ∧ Real.cos (Real.pi * g) = 0
      else Real.cos (Real.pi * g) ≠ 0 ∧ Real.sin (Real.pi * g) = 0) : ∃ H, c.response g = .ok H ∧ ‖H‖ ^ 2 ≤ 1 / 2 := by
    obtain ⟨H, e1, e2⟩ := C66_magnitude v hd hc g (by cases low <;> simp_all)
    refine ⟨H, e1, ?_⟩
    have hx : warp low fstop fs * (if low then Real.cos (Real.pi * g) / Real.sin (Real.pi * g)
        else Real.sin (Real.pi * g) / -Real.cos (Real.pi * g)) = 0 := by
      cases low
      · simp only [Bool.false_eq_true, if_false] at hg ⊢
        rw [hg.2]; simp
      · simp only [if_true] at hg ⊢
        rw [hg.2]; simp
    simp only [hx] at e2
    have := T_sq_le_one (order low fs fpass fstop (max Apass 0.01) (max Astop 0.01)) (x := 0) (by simp)
    rw [e2, div_le_div_iff₀ (by nlinarith [sq_nonneg (T (order low fs fpass fstop (max Apass 0.01) (max Astop 0.01)) 0)])
      (by norm_num)]
    linarith
  have gain := C53_gain v (design := chebyshev2_lp_hp) (by simp) hd hc
  have half : fs / 2 / fs = 1 / 2 := by field_simp
  refine ⟨fun f hf => ?_, fun f hf => ?_, ?_, fun hp2 => ?_⟩
  · cases low
    · obtain ⟨ha, hb⟩ : f3 ≤ f ∧ f ≤ fs / 2 := hf
      rcases hb.eq_or_lt with rfl | hb
      · exact ⟨1, by rw [half]; simpa using gain, by norm_num⟩
      · exact pass (by linarith) hb (by simpa using warp_le false h2 ha hb)
    · obtain ⟨ha, hb⟩ : 0 ≤ f ∧ f ≤ f3 := hf
      rcases ha.eq_or_lt with rfl | ha
      · exact ⟨1, by rw [zero_div]; simpa using gain, by norm_num⟩
      · exact pass ha (by linarith) (by simpa using warp_le true ha hb h3)
  · cases low
    · obtain ⟨ha, hb⟩ : 0 ≤ f ∧ f ≤ f3 := hf
      rcases ha.eq_or_lt with rfl | ha
      · exact stopEnd (by simp)
      · exact stop ha (by linarith) (by simpa using warp_le false ha hb h3)
    · obtain ⟨ha, hb⟩ : f3 ≤ f ∧ f ≤ fs / 2 := hf
      rcases hb.eq_or_lt with rfl | hb
      · refine stopEnd ?_
        rw [half, mul_one_div]
        simp
      · exact stop (by linarith) hb (by simpa using warp_le true h2 ha hb)
  · have hle : warp low f3 fs ≤ warp low fstop fs := by rw [h4]; exact div_le_self hWs.le hp1
    have := ChebyshevInfo.le_of_warp low v.fstop_pos h3 hle
    cases low
    · exact this h2 v.fstop_lt
    · exact this
  · have he : ripple (max Apass 0.01) ≤ 1 := by
      have := ripple_sq v.Apass_pos.le
      nlinarith [ripple_pos v.Apass_pos]
    have hsp := v.order_spec
    have h5 : ripple (max Astop 0.01) ≤ ripple (max Astop 0.01) / ripple (max Apass 0.01) := by
      rw [le_div_iff₀ (ripple_pos v.Apass_pos)]
      nlinarith
    have hge : y ≤ warp low fstop fs / warp low fpass fs := by
      by_contra hlt
      have := ChebyshevInfo.T_strict h0 v.ratio_W.le (not_le.1 hlt)
      rw [hT] at this
      linarith
    have hle : warp low fpass fs ≤ warp low f3 fs := by
      rw [h4, le_div_iff₀ hp]
      rw [le_div_iff₀ hWp] at hge
      linarith
    have := ChebyshevInfo.le_of_warp low h2 v.fpass_lt hle
    cases low
    · exact this v.fpass_pos h3
    · exact this

/-- The same design meets the hypothesis, and its pass band is attenuated by exactly 3 dB. -/
example : (2 : ℝ) ≤ (10 : ℝ) ^ (max (10 * Real.logb 10 26) 0.01 / 10) ∧
    (10 : ℝ) ^ (max (10 * Real.logb 10 2) 0.01 / 10) ≤ 2 := by
  have h2 := dB_two
  have hAs : (0.01 : ℝ) ≤ 10 * Real.logb 10 26 := (dB_two.trans (dB_lt (by norm_num) (by norm_num))).le
  rw [max_eq_left hAs, max_eq_left h2.le, mul_div_cancel_left₀ _ (by norm_num), mul_div_cancel_left₀ _ (by norm_num),
    Real.rpow_logb (by norm_num) (by norm_num) (by norm_num), Real.rpow_logb (by norm_num) (by norm_num) (by norm_num)]
  norm_num

/-- C131: a type 1 design reports the same, but `f3` is not the frequency of half the power: for even order the squared gain
there is this, the section having been designed for `estop` instead of `1 / epass`. -/
theorem C131_type1_partial (v : Valid low fs fpass fstop (max Apass 0.01) (max Astop 0.01))
    (hd : chebyshev1_lp_hp low fs fpass fstop Apass Astop = .ok d) (hc : make_biquad_cascade n d = .ok c) :
    ∃ i, chebyshev1_info low fs fpass fstop Apass Astop = .ok i ∧
      i.Wpass = warp low fpass fs ∧ i.Wstop = warp low fstop fs ∧
      1 + i.epass ^ 2 = (10 : ℝ) ^ (max Apass 0.01 / 10) ∧ 1 + i.estop ^ 2 = (10 : ℝ) ^ (max Astop 0.01 / 10) ∧
      i.N = d.N ∧ i.N = ⌈i.Nex⌉ ∧ 0 < i.f3 ∧ i.f3 < fs / 2 ∧
      (i.N % 2 = 0 → ∃ H, c.response (i.f3 / fs) = .ok H ∧
        ‖H‖ ^ 2 = (1 + i.estop ^ 2) / (1 / i.epass ^ 2 + i.estop ^ 2)) := by
  have hN := order_small v (by simp) hd
  obtain ⟨f3, h1, h2, h3, h4⟩ := info1 v (by omega)
  have hA : (0 : ℝ) < max Astop 0.01 := v.Apass_pos.trans v.Apass_lt
  have hr := ripple_pos hA
  have hrp := ripple_pos v.Apass_pos
  have h0 := v.order_pos
  have hq : 0 < Real.arcosh (ripple (max Astop 0.01) / ripple (max Apass 0.01)) /
      Real.arcosh (warp low fstop fs / warp low fpass fs) :=
    div_pos (Real.arcosh_pos v.ratio_e) (Real.arcosh_pos v.ratio_W)
  refine ⟨_, h1, rfl, rfl, ?_, ?_, ?_, Int.natCast_ceil_eq_ceil hq.le, h2, h3, fun he => ?_⟩
  · rw [ripple_sq v.Apass_pos.le]; ring
  · rw [ripple_sq hA.le]; ring
  · obtain rfl := Except.ok.inj (hd.symm.trans (chebyshev1_sections v hN))
    rfl
  · have he : ¬ order low fs fpass fstop (max Apass 0.01) (max Astop 0.01) % 2 = 1 := by
      have : ((order low fs fpass fstop (max Apass 0.01) (max Astop 0.01) : ℕ) : ℤ) % 2 = 0 := he
      omega
    obtain ⟨-, r1, -, r2⟩ := ratio_warp low h2 h3
    obtain ⟨H, e1, e2⟩ := C67_magnitude_partial v hd hc (f3 / fs) r1
    refine ⟨H, e1, ?_⟩
    have hW := warp_pos low v.fpass_pos v.fpass_lt
    have hT : T (order low fs fpass fstop (max Apass 0.01) (max Astop 0.01))
        ((if low then 1 else -1) * warp low f3 fs / warp low fpass fs) ^ 2 = (1 / ripple (max Apass 0.01)) ^ 2 := by
      have hp := preimage_pos h0 (one_div_pos.2 hrp)
      rw [h4, ← T_sq_abs, ← mul_assoc, mul_comm _ (warp low fpass fs), mul_assoc, mul_div_cancel_left₀ _ hW.ne', abs_mul,
        abs_of_pos hp]
      have : |(if low then 1 else -1 : ℝ)| = 1 := by cases low <;> simp
      rw [this, one_mul, T_preimage h0 (one_div_pos.2 hrp)]
    simp only [r2, hT, if_neg he] at e2
    rw [e2, mul_one]
    simp only [div_pow, one_pow]

/-- C131, the code violates the claim for type 1: a low pass whose pass band (attenuation 3 dB) ends at 3 reports 3 as its
3 dB frequency, but does not attenuate there at all. -/
theorem C131_type1_wrong : ∃ d, ∃ c : Cascade ℝ 1, ∃ i H,
    chebyshev1_lp_hp true 12 3 4 (10 * Real.logb 10 2) (10 * Real.logb 10 26) = .ok d ∧ make_biquad_cascade 1 d = .ok c ∧
    chebyshev1_info true 12 3 4 (10 * Real.logb 10 2) (10 * Real.logb 10 26) = .ok i ∧
    i.f3 = 3 ∧ c.response (i.f3 / 12) = .ok H ∧ ‖H‖ ^ 2 = 1 := by
  have v := valid_example (x := 26) (by norm_num)
  have hb : order true 12 3 4 (max (10 * Real.logb 10 2) 0.01) (max (10 * Real.logb 10 26) 0.01) < 2 ^ 30 := by
    rw [order_two]; norm_num
  obtain ⟨d, hd, h1, h2, h3, -⟩ := C52_count v hb chebyshev1_lp_hp (by simp)
  have hdN : d.N = 2 := by rw [h1, order_two]; rfl
  obtain ⟨c, hc, -⟩ := (C52_cascade 1 d h3).1 (by omega)
  have h02 := dB_two
  obtain ⟨i, hi, -, -, hp, hs, hN, -, -, -, hg⟩ := C131_type1_partial v hd hc
  obtain ⟨H, e1, e2⟩ := hg (by rw [hN, hdN]; rfl)
  obtain ⟨f3, k1, k2, k3, k4⟩ := info1 v (by omega)
  obtain rfl := Except.ok.inj (hi.symm.trans k1)
  refine ⟨d, c, _, H, hd, hc, hi, ?_, e1, ?_⟩
  · have e : ripple (max (10 * Real.logb 10 2) 0.01) = 1 := by
      rw [max_eq_left h02.le, ripple_dB (by norm_num)]; norm_num
    have hw : warp true f3 12 = warp true 3 12 := by
      rw [k4, e]
      unfold preimage
      norm_num
    have a1 := ChebyshevInfo.le_of_warp true (f' := 3) (by norm_num) k3 hw.le
    have a2 := ChebyshevInfo.le_of_warp true (f := 3) k2 (by norm_num) hw.ge
    simp only [if_true] at a1 a2
    exact le_antisymm a1 a2
  · have hp : ripple (max (10 * Real.logb 10 2) 0.01) ^ 2 = 1 := by
      rw [max_eq_left h02.le, ripple_dB (by norm_num)]; norm_num
    have hs := ripple_pos (A := max (10 * Real.logb 10 26) 0.01) (by positivity)
    rw [e2]
    simp only [hp]
    field_simp

theorem ChebyshevInfo.join10 (s a0 a1 a2 a3 a4 a5 a6 a7 a8 a9 : Text) :
    List.intercalate s [a0, a1, a2, a3, a4, a5, a6, a7, a8, a9] = a0 ++ (s ++ (a1 ++ (s ++ (a2 ++ (s ++ (a3 ++ (s ++ (a4 ++
      (s ++ (a5 ++ (s ++ (a6 ++ (s ++ (a7 ++ (s ++ (a8 ++ (s ++ a9))))))))))))))))) := by
  simp [List.intercalate]

/-- C131: the members of the information appear in the output, each with its name. -/
theorem C131_text (elem : ℝ → Text) (he : ∀ v, Word (elem v)) (i : AlgoInfo) :
    table (Output.algoInfo elem i) = [["[I".toList, "Wpass:".toList ++ elem i.Wpass, "Wstop:".toList ++ elem i.Wstop,
      "epass:".toList ++ elem i.epass, "estop:".toList ++ elem i.estop, "Nex:".toList ++ elem i.Nex,
      "N:".toList ++ Output.integer i.N, "f3:".toList ++ elem i.f3, "a:".toList ++ elem i.a, [']']]] ∧
    intValue (Output.integer i.N) = i.N := by
  have hi (n : ℤ) : Word (Output.integer n) ∧ intValue (Output.integer n) = n := by
    obtain ⟨c, r, hc, hd⟩ := Output.dec_succ_cons (Nat.log 10 n.natAbs) n.natAbs
    have hn : Output.natural n.natAbs = c :: r := hc
    have hv := C122_natural n.natAbs
    have hw : Word (Output.natural n.natAbs) :=
      ⟨fun h => (Output.dec_dig _ h).ne (by simp) rfl, fun h => (Output.dec_dig _ h).ne (by simp) rfl⟩
    unfold Output.integer
    split_ifs with h
    · refine ⟨Word.append (by decide) hw, ?_⟩
      rw [List.singleton_append]
      simp only [intValue, hv]
      omega
    · refine ⟨hw, ?_⟩
      rw [List.nil_append, hn]
      rw [hn] at hv
      obtain ⟨k, rfl⟩ := hd
      have : intValue (Char.ofNat ('0'.toNat + k.val) :: r) = natValue (Char.ofNat ('0'.toNat + k.val) :: r) := by
        fin_cases k <;> rfl
      rw [this, hv]
      omega
  refine ⟨?_, (hi _).2⟩
  have b {t u : Text} (hu : Word u) (ht : Word t := by decide) : Word (t ++ u) := ht.append hu
  have e : Output.algoInfo elem i = List.intercalate [' '] ["[I".toList, "Wpass:".toList ++ elem i.Wpass,
      "Wstop:".toList ++ elem i.Wstop, "epass:".toList ++ elem i.epass, "estop:".toList ++ elem i.estop,
      "Nex:".toList ++ elem i.Nex, "N:".toList ++ Output.integer i.N, "f3:".toList ++ elem i.f3,
      "a:".toList ++ elem i.a, [']']] := by
    have s0 : "[I Wpass:".toList = "[I".toList ++ ([' '] ++ "Wpass:".toList) := by decide
    have s1 : " Wstop:".toList = [' '] ++ "Wstop:".toList := by decide
    have s2 : " epass:".toList = [' '] ++ "epass:".toList := by decide
    have s3 : " estop:".toList = [' '] ++ "estop:".toList := by decide
    have s4 : " Nex:".toList = [' '] ++ "Nex:".toList := by decide
    have s5 : " N:".toList = [' '] ++ "N:".toList := by decide
    have s6 : " f3:".toList = [' '] ++ "f3:".toList := by decide
    have s7 : " a:".toList = [' '] ++ "a:".toList := by decide
    have s8 : " ]".toList = [' '] ++ [']'] := by decide
    rw [ChebyshevInfo.join10]
    delta Output.algoInfo
    simp only [s0, s1, s2, s3, s4, s5, s6, s7, s8, List.append_assoc]
  rw [e]
  refine (congrArg table (?_ : _ = joined [_])).trans (table_joined (List.cons_ne_nil _ _) ?_ ?_)
  · simp only [joined, List.map_cons, List.map_nil, List.intercalate, List.intersperse, List.flatten_cons,
      List.flatten_nil, List.append_nil]
  · simp
  · simp only [List.forall_mem_cons, List.not_mem_nil, false_imp_iff, implies_true, and_true]
    exact ⟨by decide, b (he _), b (he _), b (he _), b (he _), b (he _), b (hi _).1, b (he _), b (he _), by decide⟩

end Verif
