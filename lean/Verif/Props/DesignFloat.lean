import Mathlib.Analysis.SpecialFunctions.Trigonometric.Bounds
import Mathlib.Analysis.Real.Pi.Bounds
import Mathlib.Topology.Order.IntermediateValue
import Verif.Lemmas.DesignFloat
import Verif.Lemmas.BiquadAnalysis
import Verif.Lemmas.Filter
import Verif.Lemmas.KalmanFloat
import Verif.Props.Design

/-
C129, C130: the filter designs with rounding.
-/

namespace Verif
open DesignFloat

/-- C129: for real numbers the designs for any numeric type are those analysed before (C48-C51). -/
theorem C129_real (R : Design.Kind) (dbGain f fs Q : ℝ) :
    biquad_design realMath R dbGain f fs Q = (Design.biquad_design R dbGain f fs Q).map fun c => ⟨c.b, c.a⟩ := by
  have hadd (a b : ℝ) : (CNum.add a b : Res ℝ) = .ok (a + b) := rfl
  have hsub (a b : ℝ) : (CNum.sub a b : Res ℝ) = .ok (a - b) := rfl
  have hmul (a b : ℝ) : (CNum.mul a b : Res ℝ) = .ok (a * b) := rfl
  have hneg (a : ℝ) : (CNum.neg a : Res ℝ) = .ok (-a) := rfl
  have hdiv (a b : ℝ) : (CNum.div a b : Res ℝ) = RealFun.div a b := rfl
  have hone : (CNum.one : ℝ) = 1 := rfl
  have hzero : (CNum.zero : ℝ) = 0 := rfl
  have h2 : (CLit.lit 2 : Res ℝ) = .ok 2 := rfl
  have h2' : (CLit.lit (-2) : Res ℝ) = .ok (-2) := congrArg Except.ok (by norm_num)
  have h10 : (CLit.lit 10 : Res ℝ) = .ok 10 := rfl
  have hsqrt (x : ℝ) : realMath.sqrt x = RealFun.sqrt x := rfl
  have hnn : realMath.nonneg dbGain = decide (0 ≤ dbGain) := rfl
  have hV : dbV_factor realMath dbGain = .ok (Design.dbV_factor dbGain) := by
    change (do CNum.div (← (do Except.ok (RealFun.pow10 (← CNum.div |dbGain| (← CLit.lit 10))) : Res ℝ)) (← CLit.lit 2)) = _
    rw [h10, bind_ok, hdiv, RealFun.div, if_neg (by norm_num), bind_ok, bind_ok, h2, bind_ok, hdiv, RealFun.div,
      if_neg (by norm_num)]
    rfl
  have hK : prewarp realMath f fs = Design.prewarp f fs := rfl
  have r2 : RealFun.sqrt 2 = .ok √2 := if_neg (by norm_num)
  have r2V : RealFun.sqrt (2 * Design.dbV_factor dbGain) = .ok √(2 * Design.dbV_factor dbGain) :=
    if_neg (by have := dbV_factor_pos dbGain; linarith)
  cases R <;> simp only [biquad_design, Design.biquad_design, low_pass, Design.low_pass, high_pass, Design.high_pass,
    band_pass, Design.band_pass, band_stop, Design.band_stop, low_shelf, Design.low_shelf, high_shelf, Design.high_shelf,
    peak_band_eq, Design.peak_band_eq, hK, hV, plus, minus, twice, hadd, hsub, hmul, hneg, hdiv, hone, hzero, h2, h2', hsqrt,
    hnn, r2, r2V, bind_ok, ge_iff_le, decide_eq_true_eq]
  case low_pass | high_pass | band_pass | band_stop =>
    cases Design.prewarp f fs with
    | error e => rfl
    | ok K =>
      simp only [bind_ok]
      cases RealFun.div K Q with
      | error e => rfl
      | ok d =>
        simp only [bind_ok]
        cases RealFun.div 1 (1 + d + K * K) <;> rfl
  case low_shelf | high_shelf =>
    cases Design.prewarp f fs with
    | error e => rfl
    | ok K =>
      simp only [bind_ok]
      split
      · cases RealFun.div 1 (1 + √2 * K + K * K) <;> rfl
      · first
        | cases RealFun.div 1 (1 + √(2 * Design.dbV_factor dbGain) * K + Design.dbV_factor dbGain * K * K) <;> rfl
        | cases RealFun.div 1 (Design.dbV_factor dbGain + √(2 * Design.dbV_factor dbGain) * K + K * K) <;> rfl
  case peak_band_eq =>
    cases Design.prewarp f fs with
    | error e => rfl
    | ok K =>
      simp only [bind_ok]
      cases RealFun.div 1 Q with
      | error e => rfl
      | ok q =>
        simp only [bind_ok]
        cases RealFun.div (Design.dbV_factor dbGain) Q with
        | error e => rfl
        | ok qV =>
          simp only [bind_ok]
          split
          · cases RealFun.div 1 (1 + q * K + K * K) <;> rfl
          · cases RealFun.div 1 (1 + qV * K + K * K) <;> rfl

variable {F : Ieee.Format}

/-- C129: whatever the functions of `<cmath>` deliver, a design in floating point whose three terms of the denominator
are not lost against each other has its poles inside the unit circle. -/
theorem C129_stable (hF : Usual F) (M : Math (Flt F)) (R : Design.Kind) (dbGain f fs Q K v d s : Flt F)
    (c : Coeff (Flt F)) (h : biquad_design M R dbGain f fs Q = .ok c) (hK : prewarp M f fs = .ok K)
    (ht : terms M R dbGain K Q = .ok (v, d, s)) (hw : Well F v.val d.val s.val) :
    InTriangle c.a.a1.val c.a.a2.val := by
  have fin {w n a1 y a2 : Flt F} (hw' : plus v d s = .ok w) (hn : CNum.div CNum.one w = .ok n)
    (h1 : twice s v n = .ok a1) (hy : minus v d s = .ok y) (h2 : CNum.mul y n = .ok a2) : InTriangle a1.val a2.val := by
    have hp := mul_pos (unit_pos (f := F)) hw.1
    exact (denominator hF hw' hn h1 hy h2 (by linarith [hw.2.2.1]) (by linarith [hw.2.2.2.1]) (by linarith [hw.2.2.2.2])
      hw.1 hw.2.1).2.2 hw
  cases hb : M.nonneg dbGain <;> cases R <;>
    simp only [biquad_design, low_pass, high_pass, band_pass, band_stop, low_shelf, high_shelf, peak_band_eq, bind_eq_ok, hK,
      Except.ok.injEq, exists_eq_left', Prod.mk.injEq, terms, hb, if_true, if_false, Bool.false_eq_true] at h ht
  case false.low_pass | true.low_pass | false.high_pass | true.high_pass =>
    obtain ⟨d', hd, s', hs, rfl, rfl, rfl⟩ := ht
    simp only [hd, hs, Except.ok.injEq, exists_eq_left'] at h
    obtain ⟨w, hw', n, hn, b0, -, two, -, b1, -, a1, h1, y, hy, a2, h2, rfl⟩ := h
    exact fin hw' hn h1 hy h2
  case false.band_pass | true.band_pass =>
    obtain ⟨d', hd, s', hs, rfl, rfl, rfl⟩ := ht
    simp only [hd, hs, Except.ok.injEq, exists_eq_left'] at h
    obtain ⟨w, hw', n, hn, b0, -, b2, -, a1, h1, y, hy, a2, h2, rfl⟩ := h
    exact fin hw' hn h1 hy h2
  case false.band_stop | true.band_stop =>
    obtain ⟨d', hd, s', hs, rfl, rfl, rfl⟩ := ht
    simp only [hd, hs, Except.ok.injEq, exists_eq_left'] at h
    obtain ⟨w, hw', n, hn, x, -, b0, -, a1, h1, y, hy, a2, h2, rfl⟩ := h
    exact fin hw' hn h1 hy h2
  case false.low_shelf =>
    obtain ⟨V, hV, two, h2, V2, hV2, r, hr, d', hd, VK, hVK, s', hs, rfl, rfl, rfl⟩ := ht
    simp only [hV, h2, hV2, hr, hd, hVK, hs, Except.ok.injEq, exists_eq_left'] at h
    obtain ⟨r2, -, d', -, s', -, w, hw', n, hn, x, -, b0, -, b1, -, z, -, b2, -, a1, h1, y, hy, a2, h2, rfl⟩ := h
    exact fin hw' hn h1 hy h2
  case true.low_shelf =>
    obtain ⟨two, h2, r, hr, d', hd, s', hs, rfl, rfl, rfl⟩ := ht
    simp only [h2, hr, hd, hs, Except.ok.injEq, exists_eq_left'] at h
    obtain ⟨V, -, V2, -, rV, -, dV, -, VK, -, sV, -, w, hw', n, hn, x, -, b0, -, b1, -, z, -, b2, -, a1, h1, y, hy, a2, h2, rfl⟩ := h
    exact fin hw' hn h1 hy h2
  case false.high_shelf =>
    obtain ⟨V, hV, two, h2, V2, hV2, r, hr, d', hd, s', hs, rfl, rfl, rfl⟩ := ht
    simp only [hV, h2, hV2, hr, hd, hs, Except.ok.injEq, exists_eq_left'] at h
    obtain ⟨r2, -, d', -, w, hw', n, hn, x, -, b0, -, b1, -, z, -, b2, -, a1, h1, y, hy, a2, h2, rfl⟩ := h
    exact fin hw' hn h1 hy h2
  case true.high_shelf =>
    obtain ⟨two, h2, r, hr, d', hd, s', hs, rfl, rfl, rfl⟩ := ht
    simp only [h2, hr, hd, hs, Except.ok.injEq, exists_eq_left'] at h
    obtain ⟨V, -, V2, -, rV, -, dV, -, w, hw', n, hn, x, -, b0, -, b1, -, z, -, b2, -, a1, h1, y, hy, a2, h2, rfl⟩ := h
    exact fin hw' hn h1 hy h2
  case false.peak_band_eq =>
    obtain ⟨V, hV, q, hq, d', hd, s', hs, rfl, rfl, rfl⟩ := ht
    simp only [hV, hq, hd, hs, Except.ok.injEq, exists_eq_left'] at h
    obtain ⟨q1, -, d1, -, w, hw', n, hn, x, -, b0, -, a1, h1, z, -, b2, -, y, hy, a2, h2, rfl⟩ := h
    exact fin hw' hn h1 hy h2
  case true.peak_band_eq =>
    obtain ⟨q, hq, d', hd, s', hs, rfl, rfl, rfl⟩ := ht
    simp only [hq, hd, hs, Except.ok.injEq, exists_eq_left'] at h
    obtain ⟨V, -, qV, -, dV, -, w, hw', n, hn, x, -, b0, -, a1, h1, z, -, b2, -, y, hy, a2, h2, rfl⟩ := h
    exact fin hw' hn h1 hy h2

theorem poles_inside {a1 a2 : ℚ} (h : InTriangle a1 a2) (z : ℂ) (hz : z ^ 2 + a1 * z + a2 = 0) : ‖z‖ < 1 := by
  have h1 : |((a2 : ℚ) : ℝ)| < 1 := by exact_mod_cast h.1
  have h2 : |((a1 : ℚ) : ℝ)| < 1 + (a2 : ℝ) := by exact_mod_cast h.2
  refine ((triangle_lt (s0 := z) (s1 := -a1 - z) (a1 := a1) (a2 := a2) ?_ ?_).2 ⟨h1, h2⟩).1
  · push_cast; ring
  · push_cast; linear_combination -hz

/-- C129: a low-pass, high-pass, band-pass or band-stop section designed in floating point, for a prewarped frequency
and a quality such that no term is lost: the design completes, all coefficients are within 24 roundoffs of the exact
ones, and the poles lie inside the unit circle. -/
theorem C129_design (hF : Usual F) (M : Math (Flt F)) (R : Design.Kind) (dbGain f fs Q K : Flt F) (x : BqB ℚ × BqA ℚ)
    (hK : prewarp M f fs = .ok K) (h : Apart F K.val Q.val) (hx : DesignFloat.exact R K.val Q.val = some x) :
    ∃ c, biquad_design M R dbGain f fs Q = .ok c ∧ Near (24 * unit F) c x ∧
      ∀ z : ℂ, z ^ 2 + (c.a.a1.val : ℂ) * z + (c.a.a2.val : ℂ) = 0 → ‖z‖ < 1 := by
  obtain ⟨c, h1, h2, h3⟩ := base hF M R dbGain f fs Q K x hK h hx
  exact ⟨c, h1, h3, poles_inside h2⟩

/-- `float` and `double`. -/
theorem usual32 : Usual Ieee.binary32 := by unfold Usual Ieee.binary32; norm_num
theorem usual64 : Usual Ieee.binary64 := by unfold Usual Ieee.binary64; norm_num

/-- Functions that deliver the same everywhere, for the examples. -/
def constMath {f : Ieee.Format} (K e : Flt f) : Math (Flt f) where
  pi := CNum.one
  exp _ := .ok e
  tan _ := .ok K
  sqrt _ := CLit.lit 1
  pow10 _ := CLit.lit 1
  abs x := Flt.ofRat f |x.val|
  nonneg x := decide (0 ≤ x.val)

theorem prewarp_const {f : Ieee.Format} (K e : Flt f) : prewarp (constMath K e) CNum.one CNum.one = .ok K := by
  have h1 : CNum.mul (CNum.one : Flt f) CNum.one = .ok CNum.one := by
    change Flt.ofRat f (1 * (CNum.one : Flt f).val) = _
    rw [one_mul, Flt.ofRat_val]
  have h2 : CNum.div (CNum.one : Flt f) CNum.one = .ok CNum.one := by
    change (if (1 : ℚ) = 0 then _ else Flt.ofRat f ((CNum.one : Flt f).val / 1)) = _
    rw [if_neg (by norm_num), div_one, Flt.ofRat_val]
  change (do (constMath K e).tan (← CNum.div (← CNum.mul (CNum.one : Flt f) CNum.one) CNum.one)) = _
  rw [h1, bind_ok, h2, bind_ok]
  rfl

example : ∃ K Q f : Flt Ieee.binary32, Apart Ieee.binary32 K.val Q.val ∧ prewarp (constMath K K) f f = .ok K ∧
    ∃ x, DesignFloat.exact .low_pass K.val Q.val = some x := by
  obtain ⟨K, hK, vK⟩ := Res.of_yields (r := Flt.ofRat Ieee.binary32 (1 / 1024)) (q := fun a => a.val == 1 / 1024)
    (by decide +kernel)
  obtain ⟨Q, hQ, vQ⟩ := Res.of_yields (r := Flt.ofRat Ieee.binary32 (1 / 2)) (q := fun a => a.val == 1 / 2)
    (by decide +kernel)
  have vK := eq_of_beq vK
  have vQ := eq_of_beq vQ
  refine ⟨K, Q, CNum.one, ?_, prewarp_const K K, ⟨_, rfl⟩⟩
  rw [vK, vQ]
  unfold Apart unit Ieee.binary32
  norm_num

/-- A high shelf with negative gain: `V = 1/2`, `K = 1/2`. -/
example : ∃ (M : Math (Flt Ieee.binary32)) (g f K v d s : Flt Ieee.binary32) (c : Coeff (Flt Ieee.binary32)),
    biquad_design M .high_shelf g f f f = .ok c ∧ prewarp M f f = .ok K ∧ terms M .high_shelf g K f = .ok (v, d, s) ∧
    Well Ieee.binary32 v.val d.val s.val ∧ g.val < 0 := by
  obtain ⟨K, -, h⟩ := Res.of_yields (r := Flt.ofRat Ieee.binary32 (1 / 2)) (q := fun K =>
    Res.yields (CNum.neg (CNum.one : Flt Ieee.binary32)) fun g => decide (g.val < 0) &&
    (Res.yields (biquad_design (constMath K K) .high_shelf g CNum.one CNum.one CNum.one) fun _ => true) &&
    Res.yields (terms (constMath K K) .high_shelf g K CNum.one) fun t =>
      t.1.val == 1 / 2 && t.2.1.val == 1 / 2 && t.2.2.val == 1 / 4)
    (by decide +kernel)
  obtain ⟨g, -, h⟩ := Res.of_yields h
  simp only [Bool.and_eq_true, decide_eq_true_eq] at h
  obtain ⟨⟨hg, h1⟩, h2⟩ := h
  obtain ⟨c, hc, -⟩ := Res.of_yields h1
  obtain ⟨⟨v, d, s⟩, ht, h2⟩ := Res.of_yields h2
  simp only [Bool.and_eq_true, beq_iff_eq] at h2
  refine ⟨constMath K K, g, CNum.one, K, v, d, s, c, hc, prewarp_const K K, ht, ?_, hg⟩
  unfold Well unit Ieee.binary32
  rw [h2.1.1, h2.1.2, h2.2]
  norm_num

/-! ### Too low a frequency -/

private theorem tan_near : |(4895433 / 2 ^ 35 : ℝ) - Real.tan (Real.pi * 2 / 44100)| < 1 / 2 ^ 37 := by
  have p1 := Real.pi_gt_d20
  have p2 := Real.pi_lt_d20
  set x := Real.pi * 2 / 44100 with hx
  have x1 : 1424757 / 10000000000 < x := by rw [hx]; norm_num at p1 ⊢; linarith
  have x1' : 3.14159265358979323846 * 2 / 44100 < x := by rw [hx]; linarith
  have x2' : x < 3.14159265358979323847 * 2 / 44100 := by rw [hx]; linarith
  have x0 : 0 < x := by linarith
  have t1 : x < Real.tan x := Real.lt_tan x0 (by linarith)
  have c1 := Real.one_sub_sq_div_two_le_cos (x := x)
  have s1 := Real.sin_lt x0
  have hc : 0 < 1 - x ^ 2 / 2 := by nlinarith
  have t2 : Real.tan x < x / (1 - x ^ 2 / 2) := by
    rw [Real.tan_eq_sin_div_cos, div_lt_div_iff₀ (by linarith) hc]
    nlinarith
  have t3 : x / (1 - x ^ 2 / 2) ≤ 489543324 / 100 / 2 ^ 35 := by
    rw [div_le_iff₀ hc]
    have : x ^ 2 ≤ (3.14159265358979323847 * 2 / 44100) ^ 2 := pow_le_pow_left₀ x0.le x2'.le 2
    norm_num at this x2' ⊢
    nlinarith
  rw [abs_lt]
  constructor
  · norm_num at t2 t3 ⊢; linarith
  · norm_num at t1 x1' ⊢; linarith

/-- C129: without the condition the claim is wrong.  For a low-pass at 2 Hz with quality 1/2 at the sampling frequency
44.1 kHz, designed in `float` with the correctly rounded prewarped frequency, the filter has a pole at a real number
greater than 1: it grows without bound. -/
theorem C129_low_frequency_wrong : ∃ K Q : Flt Ieee.binary32, Nearest (Real.tan (Real.pi * 2 / 44100)) K ∧ Q.val = 1 / 2 ∧
    ∀ (M : Math (Flt Ieee.binary32)) (dbGain f fs : Flt Ieee.binary32), prewarp M f fs = .ok K →
      ∃ c, biquad_design M .low_pass dbGain f fs Q = .ok c ∧
        ∃ z : ℝ, 1 < z ∧ z ^ 2 + (c.a.a1.val : ℝ) * z + (c.a.a2.val : ℝ) = 0 := by
  obtain ⟨K, hK, vK⟩ := Res.of_yields (r := Flt.ofRat Ieee.binary32 (4895433 / 2 ^ 35))
    (q := fun K => K.val == 4895433 / 2 ^ 35 && Res.yields (Flt.ofRat Ieee.binary32 (1 / 2)) fun Q =>
      Q.val == 1 / 2 && Res.yields (low_pass (constMath K K) CNum.one CNum.one Q) fun c =>
        decide (1 + c.a.a1.val + c.a.a2.val < 0) && decide (0 < 4 + 2 * c.a.a1.val + c.a.a2.val))
    (by decide +kernel)
  rw [Bool.and_eq_true] at vK
  obtain ⟨vK, h⟩ := vK
  obtain ⟨Q, hQ, vQ⟩ := Res.of_yields h
  rw [Bool.and_eq_true] at vQ
  obtain ⟨vQ, h⟩ := vQ
  obtain ⟨c, hc, h⟩ := Res.of_yields h
  rw [Bool.and_eq_true, decide_eq_true_eq, decide_eq_true_eq] at h
  have vK := eq_of_beq vK
  have vQ := eq_of_beq vQ
  refine ⟨K, Q, ?_, vQ, fun M dbGain f fs hM => ⟨c, ?_, ?_⟩⟩
  · intro z
    by_cases hz : z.val = K.val
    · rw [hz]
    have ht := tan_near
    have gap : 1 / 2 ^ 36 ≤ |z.val - K.val| := by
      by_contra hlt
      push Not at hlt
      rw [vK, abs_lt] at hlt
      obtain ⟨⟨n, e, hn, he, hv⟩, -⟩ := z.rep
      have hz1 : (1 / 2 ^ 13 : ℚ) < z.val := by norm_num at hlt ⊢; linarith [hlt.1]
      have he1 : -36 ≤ e := by
        by_contra hlt'
        push Not at hlt'
        have h1 : (2 : ℚ) ^ e ≤ 2 ^ (-37 : ℤ) := zpow_le_zpow_right₀ (by norm_num) (by omega)
        have h2 : ((|n| : ℤ) : ℚ) ≤ 2 ^ 24 := by exact_mod_cast hn.le
        have h3 : z.val ≤ 2 ^ 24 * 2 ^ (-37 : ℤ) := by
          rw [hv]
          refine (mul_le_mul_of_nonneg_right ?_ (zpow_pos (by norm_num) _).le).trans (mul_le_mul_of_nonneg_left h1 (by norm_num))
          exact le_trans (by exact_mod_cast le_abs_self n) h2
        norm_num at h3 hz1
        linarith
      obtain ⟨k, hk⟩ := Int.eq_ofNat_of_zero_le (show 0 ≤ e + 36 by omega)
      have hv' : z.val = ((n * 2 ^ k : ℤ) : ℚ) / 2 ^ 36 := by
        rw [hv, show e = k + (-36) by omega, zpow_add₀ (by norm_num), zpow_natCast]
        push_cast
        norm_num
        ring
      rw [hv'] at hlt hz
      have i1 : (9790865 : ℚ) < ((n * 2 ^ k : ℤ) : ℚ) := by
        have := hlt.1
        norm_num at this ⊢
        linarith
      have i2 : ((n * 2 ^ k : ℤ) : ℚ) < 9790867 := by
        have := hlt.2
        norm_num at this ⊢
        linarith
      have j1 : (9790865 : ℤ) < n * 2 ^ k := by exact_mod_cast i1
      have j2 : n * 2 ^ k < (9790867 : ℤ) := by exact_mod_cast i2
      have j3 : n * 2 ^ k = 9790866 := by omega
      rw [j3, vK] at hz
      norm_num at hz
    have gap' : (1 / 2 ^ 36 : ℝ) ≤ |(z.val : ℝ) - (K.val : ℝ)| := by
      have : ((1 / 2 ^ 36 : ℚ) : ℝ) ≤ ((|z.val - K.val| : ℚ) : ℝ) := by exact_mod_cast gap
      push_cast at this
      exact this
    have vK' : (K.val : ℝ) = 4895433 / 2 ^ 35 := by rw [vK]; push_cast; norm_num
    rw [← vK'] at ht
    have tri := abs_sub_le (z.val : ℝ) (Real.tan (Real.pi * 2 / 44100)) (K.val : ℝ)
    rw [abs_sub_comm (Real.tan _)] at tri
    norm_num at gap' ht tri ⊢
    linarith
  · change low_pass M f fs Q = _
    unfold low_pass at hc ⊢
    rw [prewarp_const, bind_ok] at hc
    rw [hM, bind_ok]
    exact hc
  · have h1 : (1 : ℝ) + (c.a.a1.val : ℝ) + (c.a.a2.val : ℝ) < 0 := by exact_mod_cast h.1
    have h2 : (0 : ℝ) < 4 + 2 * (c.a.a1.val : ℝ) + (c.a.a2.val : ℝ) := by exact_mod_cast h.2
    obtain ⟨z, hz, hz0⟩ := intermediate_value_Ioo (a := (1 : ℝ)) (b := 2) (by norm_num)
      (f := fun z => z ^ 2 + (c.a.a1.val : ℝ) * z + (c.a.a2.val : ℝ)) (by fun_prop)
      (show (0 : ℝ) ∈ Set.Ioo _ _ from ⟨by norm_num; linarith, by norm_num; linarith⟩)
    exact ⟨z, hz.1, hz0⟩

/-! ### One-pole filters -/

/-- The exponent of a number from one half up. -/
theorem half_exponent {f : Ieee.Format} {n k : ℤ} (hn : |n| < 2 ^ f.p) (h : (1 / 2 : ℚ) ≤ n * 2 ^ k) : -(f.p : ℤ) ≤ k := by
  by_contra hlt
  push Not at hlt
  have hp0 : (0 : ℚ) < 2 ^ f.p := by positivity
  have i1 : (2 : ℚ) ^ k ≤ 2 ^ (-(f.p : ℤ) - 1) := zpow_le_zpow_right₀ (by norm_num) (by omega)
  have i2 : (n : ℚ) < 2 ^ f.p := by
    have : n < 2 ^ f.p := (le_abs_self n).trans_lt hn
    exact_mod_cast this
  have i3 : (n : ℚ) * 2 ^ k < 2 ^ f.p * 2 ^ (-(f.p : ℤ) - 1) :=
    (mul_lt_mul_of_pos_right i2 (zpow_pos (by norm_num) _)).trans_le (mul_le_mul_of_nonneg_left i1 hp0.le)
  have i4 : (2 : ℚ) ^ f.p * 2 ^ (-(f.p : ℤ) - 1) = 1 / 2 := by
    rw [← zpow_natCast, ← zpow_add₀ (by norm_num), show (f.p : ℤ) + (-(f.p : ℤ) - 1) = -1 by ring]
    norm_num
  linarith

theorem near_one {f : Ieee.Format} {e : Flt f} (h1 : 1 - 1 / 2 ^ f.p < e.val) (h2 : e.val ≤ 1) : e.val = 1 := by
  obtain ⟨⟨n, k, hn, -, hv⟩, -⟩ := e.rep
  have hp : (2 : ℚ) ^ 2 ≤ 2 ^ f.p := pow_le_pow_right₀ (by norm_num) f.two_le
  have hp0 : (0 : ℚ) < 2 ^ f.p := by positivity
  have hp1 : (1 : ℚ) / 2 ^ f.p ≤ 1 / 4 := one_div_le_one_div_of_le (by norm_num) (by linarith)
  have hk : -(f.p : ℤ) ≤ k := half_exponent hn (by rw [← hv]; linarith)
  obtain ⟨j, hj⟩ := Int.eq_ofNat_of_zero_le (show 0 ≤ k + f.p by omega)
  have hv' : e.val * 2 ^ f.p = ((n * 2 ^ j : ℤ) : ℚ) := by
    rw [hv, show k = j - (f.p : ℤ) by omega, zpow_sub₀ (by norm_num), zpow_natCast, zpow_natCast]
    push_cast
    field_simp
  have a1 : ((2 ^ f.p - 1 : ℤ) : ℚ) < ((n * 2 ^ j : ℤ) : ℚ) := by
    rw [← hv']
    have := mul_lt_mul_of_pos_right h1 hp0
    rw [sub_mul, one_mul, one_div, inv_mul_cancel₀ hp0.ne'] at this
    push_cast
    exact this
  have a2 : ((n * 2 ^ j : ℤ) : ℚ) ≤ ((2 ^ f.p : ℤ) : ℚ) := by
    rw [← hv']
    have := mul_le_mul_of_nonneg_right h2 hp0.le
    rw [one_mul] at this
    push_cast
    exact this
  have a3 : (2 ^ f.p - 1 : ℤ) < n * 2 ^ j := by exact_mod_cast a1
  have a4 : n * 2 ^ j ≤ (2 ^ f.p : ℤ) := by exact_mod_cast a2
  have a5 : n * 2 ^ j = (2 ^ f.p : ℤ) := by omega
  rw [a5] at hv'
  push_cast at hv'
  have : e.val * 2 ^ f.p = 1 * 2 ^ f.p := by rw [hv', one_mul]
  exact mul_right_cancel₀ hp0.ne' this

/-- The coefficient `1 - e`: exactly, or within half a unit of the last digit. -/
theorem one_sub {f : Ieee.Format} {e b : Flt f} (h : CNum.sub CNum.one e = .ok b) (h0 : 0 ≤ e.val) (h1 : e.val ≤ 1) :
    0 ≤ b.val ∧ b.val ≤ 1 ∧ |b.val - (1 - e.val)| ≤ unit f * (1 - e.val) ∧ (1 / 2 ≤ e.val → b.val = 1 - e.val) := by
  have hb := Flt.ofRat_eq (show Flt.ofRat f (1 - e.val) = .ok b from h)
  have hs := sub_err h
  rw [show (CNum.one : Flt f).val = 1 from rfl, abs_of_nonneg (by linarith : 0 ≤ 1 - e.val)] at hs
  refine ⟨hb ▸ Ieee.rnd_nonneg f (by linarith), ?_, hs, fun h2 => ?_⟩
  · rw [hb]
    refine Ieee.rnd_le_one f ?_
    have : (0 : ℚ) ≤ 1 / 2 ^ f.p := by positivity
    linarith
  · obtain ⟨⟨n, k, hn, hq, hv⟩, -⟩ := e.rep
    have hk : -(f.p : ℤ) ≤ k := half_exponent hn (by rw [← hv]; exact h2)
    rw [hb]
    refine Ieee.rnd_rep f ⟨?_, ?_⟩
    · rcases le_or_gt k 0 with hk0 | hk0
      · obtain ⟨j, hj⟩ := Int.eq_ofNat_of_zero_le (show 0 ≤ -k by omega)
        obtain rfl : k = -(j : ℤ) := by omega
        have hp0 : (0 : ℚ) < 2 ^ j := by positivity
        have e1 : 1 - e.val = ((2 ^ j - n : ℤ) : ℚ) * 2 ^ (-(j : ℤ)) := by
          rw [hv, zpow_neg, zpow_natCast]
          push_cast
          field_simp
        refine ⟨2 ^ j - n, -(j : ℤ), ?_, hq, e1⟩
        have b1 : (0 : ℚ) ≤ ((2 ^ j - n : ℤ) : ℚ) := by
          have : 0 ≤ (1 - e.val) * 2 ^ j := mul_nonneg (by linarith) hp0.le
          rw [e1, zpow_neg, zpow_natCast, mul_assoc, inv_mul_cancel₀ hp0.ne', mul_one] at this
          exact this
        have b2 : (0 : ℤ) ≤ 2 ^ j - n := by exact_mod_cast b1
        have b3 : (0 : ℚ) < ((n : ℤ) : ℚ) := by
          have : 0 < e.val * 2 ^ j := mul_pos (by linarith) hp0
          rw [hv, zpow_neg, zpow_natCast, mul_assoc, inv_mul_cancel₀ hp0.ne', mul_one] at this
          exact this
        have b4 : 0 < n := by exact_mod_cast b3
        have b5 : (2 : ℤ) ^ j ≤ 2 ^ f.p := pow_le_pow_right₀ (by norm_num) (by omega)
        rw [abs_of_nonneg b2]
        omega
      · have c1 : (2 : ℚ) ^ (1 : ℤ) ≤ 2 ^ k := zpow_le_zpow_right₀ (by norm_num) (by omega)
        have c2 : (0 : ℚ) < n := by
          by_contra hneg
          have : (n : ℚ) * 2 ^ k ≤ 0 := mul_nonpos_of_nonpos_of_nonneg (not_lt.1 hneg) (zpow_pos (by norm_num) _).le
          linarith
        have c3 : (0 : ℤ) < n := by exact_mod_cast c2
        have c4 : (1 : ℚ) ≤ n := by exact_mod_cast (show (1 : ℤ) ≤ n by omega)
        have c5 : (1 : ℚ) * 2 ^ (1 : ℤ) ≤ n * 2 ^ k := mul_le_mul c4 c1 (by norm_num) c2.le
        norm_num at c5
        linarith
    · rw [abs_of_nonneg (by linarith)]
      have := Flt.one_le_max f
      linarith


theorem neg_val {a b : Flt F} (h : CNum.neg a = .ok b) : b.val = -a.val := by
  obtain rfl := Except.ok.inj (show Except.ok a.neg = Except.ok b from h)
  rfl

/-- `-T{1} * pi` is exact. -/
theorem minus_pi {M : Math (Flt F)} {m p : Flt F} (hm : CNum.neg (CNum.one : Flt F) = .ok m) (hp : CNum.mul m M.pi = .ok p) :
    p.val = -M.pi.val := by
  rw [Flt.ofRat_eq (show Flt.ofRat F (m.val * M.pi.val) = .ok p from hp), neg_val hm,
    show (CNum.one : Flt F).val = 1 from rfl, neg_one_mul, Ieee.rnd_neg, Ieee.rnd_rep F M.pi.rep]

theorem abs_sub_ok {M : Math (Flt F)} (hM : Fair M) {a y b : Flt F} (hy : M.abs a = .ok y)
    (hb : CNum.sub CNum.one y = .ok b) (h1 : |a.val| ≤ 1) :
    0 ≤ b.val ∧ b.val ≤ 1 ∧ |b.val - (1 - |a.val|)| ≤ unit F * (1 - |a.val|) ∧ (1 / 2 ≤ |a.val| → b.val = 1 - |a.val|) := by
  obtain ⟨y', hy', e⟩ := hM.abs a
  obtain rfl := Except.ok.inj (hy.symm.trans hy')
  rw [← e] at h1 ⊢
  exact one_sub hb (by rw [e]; exact abs_nonneg _) h1

/-- C130: the low-pass designed in floating point: the pole lies between 0 and 1 (both may be reached), the gain for
constant signals `b0 / (1 + a1)` is 1 exactly if the pole is at least 1/2, and within one roundoff of 1 otherwise. -/
theorem C130_lowpass (M : Math (Flt F)) (hM : Fair M) (f fs b0 a1 : Flt F) (hf : 0 ≤ f.val) (hfs : 0 < fs.val)
    (h : onepoleLowPass M f fs = .ok (b0, a1)) :
    -1 ≤ a1.val ∧ a1.val ≤ 0 ∧ 0 ≤ b0.val ∧ b0.val ≤ 1 ∧ |b0.val - (1 + a1.val)| ≤ unit F * (1 + a1.val) ∧
      (a1.val ≤ -(1 / 2) → b0.val = 1 + a1.val) := by
  simp only [onepoleLowPass, bind_eq_ok, Except.ok.injEq, Prod.mk.injEq] at h
  obtain ⟨m, hm, p, hp, pf, hpf, z, hz, e, he, a, ha, y, hy, b, hb, rfl, rfl⟩ := h
  have p1 := minus_pi hm hp
  have pf0 : pf.val ≤ 0 := by
    rw [Flt.ofRat_eq (show Flt.ofRat F (p.val * f.val) = .ok pf from hpf), p1, neg_mul, Ieee.rnd_neg]
    exact neg_nonpos.2 (Ieee.rnd_nonneg F (mul_nonneg hM.pi.le hf))
  have z0 : z.val ≤ 0 := by
    have hz : (if fs.val = 0 then .error .divByZero else Flt.ofRat F (pf.val / fs.val)) = .ok z := hz
    rw [if_neg hfs.ne'] at hz
    rw [Flt.ofRat_eq hz, ← neg_neg (pf.val / fs.val), Ieee.rnd_neg]
    exact neg_nonpos.2 (Ieee.rnd_nonneg F (by rw [← neg_div]; exact div_nonneg (by linarith) hfs.le))
  obtain ⟨e0, e1⟩ := hM.exp z e z0 he
  have av := neg_val ha
  have ab : |a.val| = e.val := by rw [av, abs_neg, abs_of_nonneg e0]
  obtain ⟨b0, b1, b2, b3⟩ := abs_sub_ok hM hy hb (by rw [ab]; exact e1)
  rw [ab] at b2 b3
  rw [show 1 + a.val = 1 - e.val by rw [av]; ring]
  exact ⟨by linarith, by linarith, b0, b1, b2, fun h => b3 (by linarith)⟩

/-- C130: the high-pass up to half the sampling frequency: the same for the gain at half the sampling frequency,
`b0 / (1 - a1)`. -/
theorem C130_highpass (M : Math (Flt F)) (hM : Fair M) (half f fs b0 a1 : Flt F) (hh : half.val = 1 / 2)
    (hfs : 0 < fs.val) (hf : f.val / fs.val ≤ 1 / 2)
    (h : onepoleHighPass M half f fs = .ok (b0, a1)) :
    0 ≤ a1.val ∧ a1.val ≤ 1 ∧ 0 ≤ b0.val ∧ b0.val ≤ 1 ∧ |b0.val - (1 - a1.val)| ≤ unit F * (1 - a1.val) ∧
      (1 / 2 ≤ a1.val → b0.val = 1 - a1.val) := by
  simp only [onepoleHighPass, bind_eq_ok, Except.ok.injEq, Prod.mk.injEq] at h
  obtain ⟨m, hm, p, hp, g, hg, k, hk, z, hz, a, ha, y, hy, b, hb, rfl, rfl⟩ := h
  have p1 := minus_pi hm hp
  have g0 : g.val ≤ 1 / 2 := by
    have hg : (if fs.val = 0 then .error .divByZero else Flt.ofRat F (f.val / fs.val)) = .ok g := hg
    rw [if_neg hfs.ne'] at hg
    rw [Flt.ofRat_eq hg, ← hh, ← Ieee.rnd_rep F half.rep]
    exact Ieee.rnd_mono F (by rw [hh]; exact hf)
  have k0 : 0 ≤ k.val := by
    rw [Flt.ofRat_eq (show Flt.ofRat F (half.val - g.val) = .ok k from hk)]
    exact Ieee.rnd_nonneg F (by linarith)
  have z0 : z.val ≤ 0 := by
    rw [Flt.ofRat_eq (show Flt.ofRat F (p.val * k.val) = .ok z from hz), p1, neg_mul, Ieee.rnd_neg]
    exact neg_nonpos.2 (Ieee.rnd_nonneg F (mul_nonneg hM.pi.le k0))
  obtain ⟨e0, e1⟩ := hM.exp z a z0 ha
  have ab : |a.val| = a.val := abs_of_nonneg e0
  obtain ⟨b0, b1, b2, b3⟩ := abs_sub_ok hM hy hb (by rw [ab]; exact e1)
  rw [ab] at b2 b3
  exact ⟨e0, e1, b0, b1, b2, b3⟩

/-- C130: for a frequency far below the sampling frequency the low-pass is dead: although `exp` is correctly rounded,
the coefficients are 0 and -1 and every output is zero, whatever the input. -/
theorem C130_dead (hF : Usual F) (M : Math (Flt F)) (hM : Fair M)
    (hexp : ∀ x e : Flt F, M.exp x = .ok e → Nearest (Real.exp x.val) e) (f fs b0 a1 : Flt F) (hf : 0 ≤ f.val)
    (hfs : 1 ≤ fs.val) (hlow : M.pi.val * f.val ≤ unit F / 4 * fs.val) (h : onepoleLowPass M f fs = .ok (b0, a1))
    (x : ℕ → Flt F) : b0.val = 0 ∧ a1.val = -1 ∧ Sig.Runs OnePole.step (OnePole.ofBA b0 a1) x fun _ => CNum.zero := by
  have u0 := unit_pos (f := F)
  have u1 := unit_le hF.1
  have t0 := tiny_nonneg (f := F)
  have t1 := tiny_le hF.2.1
  have main : b0.val = 0 ∧ a1.val = -1 := by
    have C := C130_lowpass M hM f fs b0 a1 hf (by linarith) h
    simp only [onepoleLowPass, bind_eq_ok, Except.ok.injEq, Prod.mk.injEq] at h
    obtain ⟨m, hm, p, hp, pf, hpf, z, hz, e, he, a, ha, y, hy, b, hb, rfl, rfl⟩ := h
    have p1 := minus_pi hm hp
    have av := neg_val ha
    have pe := mul_err hpf
    have ze := (div_err hz).2
    have w0 : 0 ≤ M.pi.val * f.val := mul_nonneg hM.pi.le hf
    rw [p1, neg_mul, abs_neg, abs_of_nonneg w0] at pe
    have pu : 1 / 2 ^ F.p * (M.pi.val * f.val) = unit F * (M.pi.val * f.val) := rfl
    have pz : 1 / 2 ^ F.p * |pf.val / fs.val| = unit F * |pf.val / fs.val| := rfl
    have fs0 : 0 < fs.val := by linarith
    have tiny : (2 : ℚ) ^ F.q / 2 ≤ 1 / 4096 * unit F := by
      have i1 : unit F * unit F ≤ 1 / 64 * (1 / 64) := mul_le_mul u1 u1 u0.le (by norm_num)
      have i2 : unit F * unit F * unit F ≤ 1 / 64 * (1 / 64) * unit F := mul_le_mul_of_nonneg_right i1 u0.le
      have i3 : unit F ^ 3 = unit F * unit F * unit F := by ring
      linarith
    have i1 : |pf.val| ≤ 65 / 64 * (M.pi.val * f.val) + 1 / 4096 * unit F := by
      have := mul_le_mul_of_nonneg_right u1 w0
      obtain ⟨l1, l2⟩ := abs_le.1 pe
      exact abs_le.2 ⟨by linarith, by linarith⟩
    have i2 : |pf.val / fs.val| ≤ 28 / 100 * unit F := by
      rw [abs_div, abs_of_pos fs0, div_le_iff₀ fs0]
      have : unit F ≤ unit F * fs.val := le_mul_of_one_le_right u0.le hfs
      linarith
    have i3 : |z.val| < unit F / 2 := by
      have j1 := mul_le_mul_of_nonneg_right u1 (abs_nonneg (pf.val / fs.val))
      have j2 := abs_sub_abs_le_abs_sub z.val (pf.val / fs.val)
      linarith
    have i4 := hexp z e he CNum.one
    have i5 : ((CNum.one : Flt F).val : ℝ) = 1 := by
      rw [show (CNum.one : Flt F).val = 1 from rfl]; norm_num
    have i6 : (|z.val| : ℝ) < ((unit F / 2 : ℚ) : ℝ) := by exact_mod_cast i3
    have i7 := Real.add_one_le_exp (z.val : ℝ)
    have i8 := neg_abs_le (z.val : ℝ)
    have zle : z.val ≤ 0 := by
      have pf0 : pf.val ≤ 0 := by
        rw [Flt.ofRat_eq (show Flt.ofRat F (p.val * f.val) = .ok pf from hpf), p1, neg_mul, Ieee.rnd_neg]
        exact neg_nonpos.2 (Ieee.rnd_nonneg F w0)
      have hz : (if fs.val = 0 then .error .divByZero else Flt.ofRat F (pf.val / fs.val)) = .ok z := hz
      rw [if_neg fs0.ne'] at hz
      rw [Flt.ofRat_eq hz, ← neg_neg (pf.val / fs.val), Ieee.rnd_neg]
      exact neg_nonpos.2 (Ieee.rnd_nonneg F (by rw [← neg_div]; exact div_nonneg (by linarith) fs0.le))
    have zle' : (z.val : ℝ) ≤ 0 := by exact_mod_cast zle
    have i9 : Real.exp (z.val : ℝ) ≤ 1 := Real.exp_le_one_iff.2 zle'
    rw [i5, abs_of_nonneg (by linarith : 0 ≤ 1 - Real.exp (z.val : ℝ))] at i4
    obtain ⟨k1, k2⟩ := abs_le.1 i4
    have k3 : ((1 - unit F : ℚ) : ℝ) < (e.val : ℝ) := by push_cast at i6 ⊢; linarith
    have k4 : 1 - unit F < e.val := by exact_mod_cast k3
    have k5 : e.val = 1 := near_one k4 (by linarith [C.1])
    have k6 : a.val = -1 := by rw [av, k5]
    exact ⟨by rw [C.2.2.2.2.2 (by rw [k6]; norm_num), k6]; norm_num, k6⟩
  refine ⟨main.1, main.2, ?_⟩
  obtain rfl : b0 = CNum.zero := by
    obtain ⟨v, hv⟩ := b0
    obtain rfl : v = 0 := main.1
    rfl
  refine (Sig.runs_of_states (fun _ => OnePole.ofBA CNum.zero a1) rfl fun n => ?_).1
  change (do
    let y ← CNum.sub (← CNum.mul (x n) CNum.zero) (← CNum.mul CNum.zero a1)
    Except.ok (y, { OnePole.ofBA CNum.zero a1 with v1 := y }) : Res (Flt F × OnePole (Flt F))) = _
  rw [Flt.mul_zero', bind_ok, Flt.zero_mul', bind_ok, Flt.sub_zero', bind_ok]
  rfl

/-- A function `exp` for small arguments. -/
def smallExp {f : Ieee.Format} (x : Flt f) : Res (Flt f) :=
  if -(1 / 2 ^ (f.p + 2)) ≤ x.val ∧ x.val ≤ 0 then .ok CNum.one else .error .overflow

theorem smallExp_nearest {f : Ieee.Format} (x e : Flt f) (h : smallExp x = .ok e) : Nearest (Real.exp x.val) e := by
  unfold smallExp at h
  split_ifs at h with hx
  obtain rfl := Except.ok.inj h
  intro z
  have i5 : ((CNum.one : Flt f).val : ℝ) = 1 := by
    rw [show (CNum.one : Flt f).val = 1 from rfl]; norm_num
  have i7 := Real.add_one_le_exp (x.val : ℝ)
  have x0 : (x.val : ℝ) ≤ 0 := by exact_mod_cast hx.2
  have x1 : ((-(1 / 2 ^ (f.p + 2)) : ℚ) : ℝ) ≤ (x.val : ℝ) := by exact_mod_cast hx.1
  have i9 : Real.exp (x.val : ℝ) ≤ 1 := Real.exp_le_one_iff.2 x0
  have e2 : (1 / 2 ^ (f.p + 2) : ℚ) = unit f / 4 := by unfold unit; rw [pow_add]; field_simp; norm_num
  rw [e2] at x1
  have u0 : (0 : ℝ) < ((unit f : ℚ) : ℝ) := by exact_mod_cast unit_pos (f := f)
  push_cast at x1
  rw [i5, abs_of_nonneg (by linarith)]
  rcases le_or_gt 1 z.val with h1 | h1
  · have : (1 : ℝ) ≤ (z.val : ℝ) := by exact_mod_cast h1
    rw [abs_of_nonneg (by linarith)]
    linarith
  · have : z.val ≤ 1 - unit f := by
      by_contra hlt
      push Not at hlt
      exact absurd (near_one hlt h1.le) h1.ne
    have : (z.val : ℝ) ≤ 1 - ((unit f : ℚ) : ℝ) := by exact_mod_cast this
    rw [abs_of_nonpos (by linarith)]
    linarith

theorem abs_exact {f : Ieee.Format} (x : Flt f) : ∃ y, Flt.ofRat f |x.val| = .ok y ∧ y.val = |x.val| := by
  rcases abs_cases x.val with ⟨h, -⟩ | ⟨h, -⟩ <;> rw [h]
  · exact ⟨x, Flt.ofRat_val x, rfl⟩
  · exact ⟨x.neg, Flt.ofRat_val x.neg, rfl⟩

/-- The hypotheses can be met, with a frequency greater than 0. -/
example : ∃ (M : Math (Flt Ieee.binary32)) (f fs b0 a1 : Flt Ieee.binary32), Fair M ∧
    (∀ x e : Flt Ieee.binary32, M.exp x = .ok e → Nearest (Real.exp x.val) e) ∧ 0 < f.val ∧ 1 ≤ fs.val ∧
    M.pi.val * f.val ≤ unit Ieee.binary32 / 4 * fs.val ∧ onepoleLowPass M f fs = .ok (b0, a1) := by
  have key (f fs pi : Flt Ieee.binary32) (h : (decide (0 < f.val) && decide (1 ≤ fs.val) && decide (0 < pi.val) &&
      decide (pi.val * f.val ≤ 1 / 2 ^ 24 / 4 * fs.val) &&
      Res.yields (onepoleLowPass { constMath pi pi with exp := smallExp, pi := pi } f fs) fun _ => true) = true) :
      ∃ (M : Math (Flt Ieee.binary32)) (f fs b0 a1 : Flt Ieee.binary32), Fair M ∧
        (∀ x e : Flt Ieee.binary32, M.exp x = .ok e → Nearest (Real.exp x.val) e) ∧ 0 < f.val ∧ 1 ≤ fs.val ∧
        M.pi.val * f.val ≤ unit Ieee.binary32 / 4 * fs.val ∧ onepoleLowPass M f fs = .ok (b0, a1) := by
    simp only [Bool.and_eq_true, decide_eq_true_eq] at h
    obtain ⟨⟨⟨⟨h1, h2⟩, h3⟩, h4⟩, h5⟩ := h
    obtain ⟨⟨b0, a1⟩, h6, -⟩ := Res.of_yields h5
    refine ⟨_, f, fs, b0, a1, ⟨h3, fun x e _ he => ?_, abs_exact⟩, smallExp_nearest, h1, h2, h4, h6⟩
    have he : smallExp x = .ok e := he
    unfold smallExp at he
    split_ifs at he
    obtain rfl := Except.ok.inj he
    exact ⟨zero_le_one, le_refl _⟩
  obtain ⟨f, -, hf⟩ := Res.of_yields (r := Flt.ofRat Ieee.binary32 (1 / 1000)) (q := fun f =>
    Res.yields (Flt.ofRat Ieee.binary32 1000000) fun fs => Res.yields (Flt.ofRat Ieee.binary32 (355 / 113)) fun pi =>
      decide (0 < f.val) && decide (1 ≤ fs.val) && decide (0 < pi.val) &&
      decide (pi.val * f.val ≤ 1 / 2 ^ 24 / 4 * fs.val) &&
      Res.yields (onepoleLowPass { constMath pi pi with exp := smallExp, pi := pi } f fs) fun _ => true)
    (by decide +kernel)
  obtain ⟨fs, -, hf⟩ := Res.of_yields hf
  obtain ⟨pi, -, hf⟩ := Res.of_yields hf
  exact key f fs pi hf

/-- With `e = 3 / 4`. -/
example : ∃ (M : Math (Flt Ieee.binary32)) (half f fs : Flt Ieee.binary32), Fair M ∧ half.val = 1 / 2 ∧ 0 ≤ f.val ∧
    0 < fs.val ∧ f.val / fs.val ≤ 1 / 2 ∧
    (∃ c, onepoleLowPass M f fs = .ok c ∧ c.1.val = 1 / 4 ∧ c.2.val = -3 / 4) ∧
    ∃ c, onepoleHighPass M half f fs = .ok c ∧ c.1.val = 1 / 4 ∧ c.2.val = 3 / 4 := by
  obtain ⟨e, -, he⟩ := Res.of_yields (r := Flt.ofRat Ieee.binary32 (3 / 4)) (q := fun e => e.val == 3 / 4 &&
    Res.yields (Flt.ofRat Ieee.binary32 (1 / 2)) fun half => half.val == 1 / 2 &&
    (Res.yields (Flt.ofRat Ieee.binary32 8) fun fs => fs.val == 8 &&
      (Res.yields (onepoleLowPass (constMath e e) CNum.one fs) fun c => c.1.val == 1 / 4 && c.2.val == -3 / 4) &&
      Res.yields (onepoleHighPass (constMath e e) half CNum.one fs) fun c => c.1.val == 1 / 4 && c.2.val == 3 / 4))
    (by decide +kernel)
  simp only [Bool.and_eq_true, beq_iff_eq] at he
  obtain ⟨ev, he⟩ := he
  obtain ⟨half, -, he⟩ := Res.of_yields he
  simp only [Bool.and_eq_true, beq_iff_eq] at he
  obtain ⟨hv, he⟩ := he
  obtain ⟨fs, -, he⟩ := Res.of_yields he
  simp only [Bool.and_eq_true, beq_iff_eq] at he
  obtain ⟨⟨fv, h1⟩, h2⟩ := he
  obtain ⟨c, hc, h1⟩ := Res.of_yields h1
  obtain ⟨c', hc', h2⟩ := Res.of_yields h2
  simp only [Bool.and_eq_true, beq_iff_eq] at h1 h2
  refine ⟨constMath e e, half, CNum.one, fs, ⟨zero_lt_one, fun x e' _ h => ?_, abs_exact⟩, hv, zero_le_one, by
    rw [fv]; norm_num, ?_, ⟨c, hc, h1⟩, ⟨c', hc', h2⟩⟩
  · obtain rfl := Except.ok.inj h
    rw [ev]
    norm_num
  · rw [fv, show (CNum.one : Flt Ieee.binary32).val = 1 from rfl]
    norm_num

/-- C130: the source calls `abs` without `std::`.  If the compiler takes the one for integers, as it may with the headers
included, `b0` is 1 and the gain for constant signals is not 1 but greater. -/
theorem C130_integer_abs_wrong (M : Math (Flt F)) (habs : ∀ x : Flt F, |x.val| < 1 → M.abs x = .ok CNum.zero)
    (f fs b0 a1 : Flt F) (h : onepoleLowPass M f fs = .ok (b0, a1)) (h1 : -1 < a1.val) (h0 : a1.val < 0) :
    b0.val = 1 ∧ 1 < b0.val / (1 + a1.val) := by
  simp only [onepoleLowPass, bind_eq_ok, Except.ok.injEq, Prod.mk.injEq] at h
  obtain ⟨m, hm, p, hp, pf, hpf, z, hz, e, he, a, ha, y, hy, b, hb, rfl, rfl⟩ := h
  rw [habs a (abs_lt.2 ⟨h1, by linarith⟩)] at hy
  obtain rfl := Except.ok.inj hy
  have hb1 : b.val = 1 := by
    have hb : CNum.sub CNum.one (CNum.zero : Flt F) = .ok b := hb
    rw [Flt.sub_zero'] at hb
    obtain rfl := Except.ok.inj hb
    rfl
  refine ⟨hb1, ?_⟩
  rw [hb1, one_div, one_lt_inv₀ (by linarith)]
  linarith

example : ∃ (M : Math (Flt Ieee.binary32)) (f : Flt Ieee.binary32),
    (∀ x : Flt Ieee.binary32, |x.val| < 1 → M.abs x = .ok CNum.zero) ∧
    ∃ c, onepoleLowPass M f f = .ok c ∧ -1 < c.2.val ∧ c.2.val < 0 := by
  obtain ⟨e, -, he⟩ := Res.of_yields (r := Flt.ofRat Ieee.binary32 (3 / 4)) (q := fun e =>
    Res.yields (onepoleLowPass { constMath e e with abs := fun x => Flt.ofRat Ieee.binary32 ⌊|x.val|⌋ } CNum.one CNum.one)
      fun c => decide (-1 < c.2.val) && decide (c.2.val < 0)) (by decide +kernel)
  obtain ⟨c, hc, h⟩ := Res.of_yields he
  simp only [Bool.and_eq_true, decide_eq_true_eq] at h
  refine ⟨{ constMath e e with abs := fun x => Flt.ofRat Ieee.binary32 ⌊|x.val|⌋ }, CNum.one, fun x hx => ?_, c, hc, h.1, h.2⟩
  have : ⌊|x.val|⌋ = 0 := Int.floor_eq_zero_iff.2 ⟨abs_nonneg _, hx⟩
  change Flt.ofRat Ieee.binary32 ((⌊|x.val|⌋ : ℤ) : ℚ) = _
  rw [this]
  exact Flt.ofRat_val CNum.zero

end Verif
