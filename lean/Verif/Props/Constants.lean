import Mathlib.Analysis.Real.Pi.Bounds
import Verif.Model.Constants
import Verif.Model.DesignFloat
import Verif.Model.FixedFloat
import Verif.Spec.Constants
import Verif.Lemmas.DesignFloat
import Verif.Lemmas.KalmanFloat
import Verif.Props.FixedFloat

/-
C160, C161, C162: the constant pi, the frequency warped with it, and the angle of a frequency.
-/

namespace Verif
open DesignFloat Constants Ieee

/-- A number to which the ends of an interval are rounded is nearest to everything in it. -/
private theorem nearest_of {f : Format} {x : ℝ} {lo hi : ℚ} {d : Flt f} (h1 : (lo : ℝ) ≤ x) (h2 : x ≤ hi)
    (l : rnd f lo = d.val) (h : rnd f hi = d.val) : Nearest x d := by
  intro z
  have nlo := rnd_nearest f lo z.val z.rep.1
  have nhi := rnd_nearest f hi z.val z.rep.1
  rw [l] at nlo
  rw [h] at nhi
  have nlo' : |(d.val : ℝ) - lo| ≤ |(z.val : ℝ) - lo| := by exact_mod_cast nlo
  have nhi' : |(d.val : ℝ) - hi| ≤ |(z.val : ℝ) - hi| := by exact_mod_cast nhi
  by_cases a : z.val ≤ lo
  · have a' : (z.val : ℝ) ≤ lo := by exact_mod_cast a
    rw [abs_of_nonpos (by linarith : (z.val : ℝ) - lo ≤ 0)] at nlo'
    rw [abs_of_nonpos (by linarith : (z.val : ℝ) - x ≤ 0)]
    have := abs_sub_le (d.val : ℝ) lo x
    rw [abs_of_nonpos (by linarith : (lo : ℝ) - x ≤ 0)] at this
    linarith
  by_cases b : hi ≤ z.val
  · have b' : (hi : ℝ) ≤ z.val := by exact_mod_cast b
    rw [abs_of_nonneg (by linarith : 0 ≤ (z.val : ℝ) - hi)] at nhi'
    rw [abs_of_nonneg (by linarith : 0 ≤ (z.val : ℝ) - x)]
    have := abs_sub_le (d.val : ℝ) hi x
    rw [abs_of_nonneg (by linarith : 0 ≤ (hi : ℝ) - x)] at this
    linarith
  have e1 := rnd_mono f (not_le.1 a).le
  have e2 := rnd_mono f (not_le.1 b).le
  rw [rnd_rep f z.rep, l] at e1
  rw [rnd_rep f z.rep, h] at e2
  rw [le_antisymm e1 e2]

private def lo : ℚ := 314159265358979323846 / 10 ^ 20
private def hi : ℚ := 314159265358979323847 / 10 ^ 20

private theorem lo_le : (lo : ℝ) ≤ Real.pi := by
  have := Real.pi_gt_d20
  have e : (lo : ℝ) = 3.14159265358979323846 := by unfold lo; norm_num
  linarith

private theorem le_hi : Real.pi ≤ hi := by
  have := Real.pi_lt_d20
  have e : (hi : ℝ) = 3.14159265358979323847 := by unfold hi; norm_num
  linarith

private theorem pi_eq {d f : Format} (h : PiFormats d f) : ∃ p, Constants.pi d f = .ok p ∧
    (f = binary64 ∧ p.val = 884279719003555 / 2 ^ 48 ∨ f = binary32 ∧ p.val = 13176795 / 2 ^ 22) ∧
    rnd f lo = p.val ∧ rnd f hi = p.val := by
  rcases h with ⟨rfl, rfl⟩ | ⟨rfl, rfl⟩ | ⟨rfl, rfl⟩
  · obtain ⟨p, hp, h⟩ := Res.of_yields (r := Constants.pi binary64 binary64) (q := fun p =>
      decide (p.val = 884279719003555 / 2 ^ 48) && decide (rnd binary64 lo = p.val) && decide (rnd binary64 hi = p.val))
      (by decide +kernel)
    simp only [Bool.and_eq_true, decide_eq_true_eq] at h
    exact ⟨p, hp, .inl ⟨rfl, h.1.1⟩, h.1.2, h.2⟩
  · obtain ⟨p, hp, h⟩ := Res.of_yields (r := Constants.pi binary64 binary32) (q := fun p =>
      decide (p.val = 13176795 / 2 ^ 22) && decide (rnd binary32 lo = p.val) && decide (rnd binary32 hi = p.val))
      (by decide +kernel)
    simp only [Bool.and_eq_true, decide_eq_true_eq] at h
    exact ⟨p, hp, .inr ⟨rfl, h.1.1⟩, h.1.2, h.2⟩
  · obtain ⟨p, hp, h⟩ := Res.of_yields (r := Constants.pi binary32 binary32) (q := fun p =>
      decide (p.val = 13176795 / 2 ^ 22) && decide (rnd binary32 lo = p.val) && decide (rnd binary32 hi = p.val))
      (by decide +kernel)
    simp only [Bool.and_eq_true, decide_eq_true_eq] at h
    exact ⟨p, hp, .inr ⟨rfl, h.1.1⟩, h.1.2, h.2⟩

/-- C160: `num::pi<T>` is the number of the type `T` nearest to pi, although for `float` it is rounded twice. -/
theorem C160_nearest (d f : Format) (h : PiFormats d f) : ∃ p, Constants.pi d f = .ok p ∧ Nearest Real.pi p := by
  obtain ⟨p, hp, -, l, r⟩ := pi_eq h
  exact ⟨p, hp, nearest_of lo_le le_hi l r⟩

/-- C160: in `double` the constant is below pi, in `float` above; the errors are below `2^-52` and `2^-23`. -/
theorem C160_error (d f : Format) (h : PiFormats d f) : ∃ p, Constants.pi d f = .ok p ∧
    (f = binary64 → 0 < Real.pi - p.val ∧ Real.pi - p.val < 1 / 2 ^ 52) ∧
    (f = binary32 → 0 < p.val - Real.pi ∧ p.val - Real.pi < 1 / 2 ^ 23) := by
  obtain ⟨p, hp, v, -, -⟩ := pi_eq h
  have h1 := lo_le
  have h2 := le_hi
  unfold lo at h1
  unfold hi at h2
  refine ⟨p, hp, fun hf => ?_, fun hf => ?_⟩
  · rcases v with ⟨-, v⟩ | ⟨v, -⟩
    · rw [v]
      push_cast at h1 h2 ⊢
      constructor <;> linarith
    · rw [hf] at v
      exact absurd (congrArg Format.p v) (by decide)
  · rcases v with ⟨v, -⟩ | ⟨-, v⟩
    · rw [hf] at v
      exact absurd (congrArg Format.p v) (by decide)
    · rw [v]
      push_cast at h1 h2 ⊢
      constructor <;> linarith

/-- C160: `num::pi<fixed_point>` is within a little more than half a unit of pi in every format that can hold it. -/
theorem C160_fixed (w : Width) (F : Nat) (hF : F ≤ 62) (hw : (22 / 7 : ℚ) ≤ (Fx.max w F).val) :
    ∃ p x, Constants.pi binary64 binary64 = .ok p ∧ Fx.ofFlt w F p = .ok x ∧
      |(x.val : ℝ) - Real.pi| ≤ (1 / 2 + 1 / 2 ^ 20) * (Fx.ulp F : ℝ) + 1 / 2 ^ 52 := by
  obtain ⟨p, hp, e, -⟩ := C160_error binary64 binary64 (.inl ⟨rfl, rfl⟩)
  obtain ⟨e1, e2⟩ := e rfl
  obtain ⟨q, hq, v, -, -⟩ := pi_eq (d := binary64) (f := binary64) (.inl ⟨rfl, rfl⟩)
  obtain rfl : p = q := Except.ok.inj (hp.symm.trans hq)
  have v : p.val = 884279719003555 / 2 ^ 48 := by
    rcases v with ⟨-, v⟩ | ⟨v, -⟩
    · exact v
    · exact absurd (congrArg Format.p v) (by decide)
  have m : (Fx.min w F).val ≤ 0 := by
    rw [Fx.min_val]
    have := Fx.half_pos w
    exact div_nonpos_of_nonpos_of_nonneg (by exact_mod_cast (by omega : -Fx.half w ≤ 0)) (by positivity)
  obtain ⟨x, hx, b⟩ := C119_of_float (w := w) (F := F) (f := binary64) (.inl rfl) hF p
    (m.trans (by rw [v]; norm_num)) (le_trans (by rw [v]; norm_num) hw)
  have b' : |x.val - p.val| ≤ (1 / 2 + 1 / 2 ^ 20) * Fx.ulp F := by
    refine b.trans (mul_le_mul_of_nonneg_right ?_ (by unfold Fx.ulp; positivity))
    cases w <;> norm_num [Width.bits, binary64]
  have b2 : |(x.val : ℝ) - p.val| ≤ (1 / 2 + 1 / 2 ^ 20) * (Fx.ulp F : ℝ) := by
    have := (Rat.cast_le (K := ℝ)).2 b'
    push_cast at this
    exact this
  refine ⟨p, x, hp, hx, ?_⟩
  have := abs_sub_le (x.val : ℝ) p.val Real.pi
  rw [abs_of_neg (by linarith : (p.val : ℝ) - Real.pi < 0)] at this
  linarith

example : PiFormats binary64 binary32 ∧ (22 / 7 : ℚ) ≤ (Fx.max .w16 8).val := by
  refine ⟨.inr (.inl ⟨rfl, rfl⟩), ?_⟩
  decide +kernel

/-- C161: for frequencies up to half the sampling frequency, less a millionth part of it, the argument of the tangent
lies before the pole, so the warped frequency is not negative. The full claim, for `f ≤ fs / 2`, is false
(`C161_nyquist_wrong`, `C161_nyquist_double_wrong`); in `double` it holds for `f < fs / 2`
(`C161_below_nyquist_double`). -/
theorem C161_prewarp_partial (d : Format) {F : Format} (h : PiFormats d F) (M : Math (Flt F)) (hM : Constants.pi d F = .ok M.pi)
    (htan : SignRight M.tan) (f fs K : Flt F) (hf : 0 ≤ f.val) (hfs : 1 ≤ fs.val)
    (hle : f.val ≤ 1 / 2 * (1 - 1 / 2 ^ 20) * fs.val) (hK : prewarp M f fs = .ok K) : 0 ≤ K.val := by
  obtain ⟨p, hp, v, -, -⟩ := pi_eq h
  obtain rfl : p = M.pi := Except.ok.inj (hp.symm.trans hM)
  have hU : unit F ≤ 1 / 2 ^ 24 ∧ Usual F := by
    rcases v with ⟨rfl, -⟩ | ⟨rfl, -⟩ <;> refine ⟨?_, ?_⟩
    · norm_num [unit, binary64]
    · unfold Usual; decide
    · norm_num [unit, binary32]
    · unfold Usual; decide
  obtain ⟨u1, hF⟩ := hU
  have u0 := unit_pos (f := F)
  have t0 := tiny_nonneg (f := F)
  have t1 : (2 : ℚ) ^ F.q / 2 ≤ 1 / 2 ^ 72 := (tiny_le hF.2.1).trans
    ((pow_le_pow_left₀ u0.le u1 3).trans (by norm_num))
  have p0 : 0 ≤ M.pi.val ∧ M.pi.val ≤ 31415927411 / 10 ^ 10 := by
    rcases v with ⟨-, v⟩ | ⟨-, v⟩ <;> rw [v] <;> norm_num
  simp only [prewarp, bind_eq_ok] at hK
  obtain ⟨a, ha, y, hy, hK⟩ := hK
  have fs0 : 0 < fs.val := by linarith
  have a0 : 0 ≤ a.val := by
    rw [Flt.ofRat_eq (show Flt.ofRat F (M.pi.val * f.val) = .ok a from ha)]
    exact rnd_nonneg F (mul_nonneg p0.1 hf)
  have ea := mul_err ha
  have ey := (div_err hy).2
  rw [abs_of_nonneg (mul_nonneg p0.1 hf)] at ea
  rw [abs_of_nonneg (div_nonneg a0 fs0.le)] at ey
  have ea := (abs_le.1 ea).2
  have ey' := (abs_le.1 ey).2
  have y0 : 0 ≤ y.val := by
    have h := hy
    change (if fs.val = 0 then .error .divByZero else Flt.ofRat F (a.val / fs.val)) = .ok y at h
    rw [if_neg fs0.ne'] at h
    rw [Flt.ofRat_eq h]
    exact rnd_nonneg F (div_nonneg a0 fs0.le)
  have w : M.pi.val * f.val ≤ 31415927411 / 10 ^ 10 * (1 / 2 * (1 - 1 / 2 ^ 20)) * fs.val := by
    calc M.pi.val * f.val ≤ 31415927411 / 10 ^ 10 * f.val := mul_le_mul_of_nonneg_right p0.2 hf
      _ ≤ 31415927411 / 10 ^ 10 * (1 / 2 * (1 - 1 / 2 ^ 20) * fs.val) := by linarith
      _ = _ := by ring
  have i1 : 1 / 2 ^ F.p * (M.pi.val * f.val) ≤ 1 / 2 ^ 24 * (M.pi.val * f.val) :=
    mul_le_mul_of_nonneg_right u1 (mul_nonneg p0.1 hf)
  have i2 : a.val / fs.val ≤ 31415927411 / 10 ^ 10 * (1 / 2 * (1 - 1 / 2 ^ 20)) * (1 + 1 / 2 ^ 24) + 1 / 2 ^ 72 := by
    rw [div_le_iff₀ fs0]
    linarith
  have i3 : 1 / 2 ^ F.p * (a.val / fs.val) ≤ 1 / 2 ^ 24 * (a.val / fs.val) :=
    mul_le_mul_of_nonneg_right u1 (div_nonneg a0 fs0.le)
  have i4 : y.val ≤ 314159265 / (2 * 10 ^ 8) := by
    norm_num at i2 i3 ey' t1 ⊢
    linarith
  refine (htan y K hK).1 (Real.tan_nonneg_of_nonneg_of_le_pi_div_two (by exact_mod_cast y0) ?_)
  have i5 : (y.val : ℝ) ≤ 314159265 / (2 * 10 ^ 8) := by
    have := (Rat.cast_le (K := ℝ)).2 i4
    push_cast at this
    exact this
  have := Real.pi_gt_d20
  linarith

/-- Two numbers of `p` digits differ by at least one part in `2^p`. -/
private theorem gap {p : ℕ} {n m e k : ℤ} (hn : |n| < 2 ^ p) (hm : |m| < 2 ^ p) (h0 : 0 ≤ (m : ℚ) * 2 ^ k)
    (h : (n : ℚ) * 2 ^ e < m * 2 ^ k) : (n : ℚ) * 2 ^ e ≤ (m * 2 ^ k) * (1 - 1 / 2 ^ p) := by
  have he : (0 : ℚ) < 2 ^ e := zpow_pos (by norm_num) _
  have hk : (0 : ℚ) < 2 ^ k := zpow_pos (by norm_num) _
  have hp : (1 : ℚ) ≤ 2 ^ p := one_le_pow₀ (by norm_num)
  have hp' : (1 : ℚ) / 2 ^ p ≤ 1 := by rw [div_le_one (by linarith)]; exact hp
  have n1 : (n : ℚ) + 1 ≤ 2 ^ p := by
    have : n + 1 ≤ 2 ^ p := by have := (abs_lt.1 hn).2; omega
    exact_mod_cast this
  have m1 : (m : ℚ) < 2 ^ p := by exact_mod_cast (abs_lt.1 hm).2
  set g : ℚ := m * 2 ^ k with hg
  by_cases c : 2 ^ p * 2 ^ e ≤ g
  · have : (n : ℚ) * 2 ^ e ≤ (2 ^ p - 1) * 2 ^ e := mul_le_mul_of_nonneg_right (by linarith) he.le
    have e1 : ((2 : ℚ) ^ p - 1) * 2 ^ e = 2 ^ p * 2 ^ e * (1 - 1 / 2 ^ p) := by field_simp
    have := mul_le_mul_of_nonneg_right c (by linarith : (0 : ℚ) ≤ 1 - 1 / 2 ^ p)
    linarith
  have c := not_le.1 c
  have u : g / 2 ^ p < 2 ^ e := by rw [div_lt_iff₀ (by linarith)]; linarith
  have u' : g / 2 ^ p < 2 ^ k := by
    rw [div_lt_iff₀ (by linarith), hg, mul_comm]
    exact mul_lt_mul_of_pos_left m1 hk
  have goal : g * (1 - 1 / 2 ^ p) = g - g / 2 ^ p := by ring
  rw [goal]
  rcases le_total e k with l | l
  · obtain ⟨j, rfl⟩ := Int.le.dest l
    have e1 : g = ((m * 2 ^ j : ℤ) : ℚ) * 2 ^ e := by
      rw [hg, zpow_add₀ (by norm_num), zpow_natCast]; push_cast; ring
    rw [e1] at h
    have : n < m * 2 ^ j := by exact_mod_cast lt_of_mul_lt_mul_right h he.le
    have : (n : ℚ) + 1 ≤ ((m * 2 ^ j : ℤ) : ℚ) := by exact_mod_cast this
    have := mul_le_mul_of_nonneg_right this he.le
    rw [← e1] at this
    linarith
  · obtain ⟨j, rfl⟩ := Int.le.dest l
    have e1 : (n : ℚ) * 2 ^ (k + j : ℤ) = ((n * 2 ^ j : ℤ) : ℚ) * 2 ^ k := by
      rw [zpow_add₀ (by norm_num), zpow_natCast]; push_cast; ring
    rw [e1] at h ⊢
    have : n * 2 ^ j < m := by exact_mod_cast lt_of_mul_lt_mul_right h hk.le
    have : ((n * 2 ^ j : ℤ) : ℚ) + 1 ≤ m := by exact_mod_cast this
    have := mul_le_mul_of_nonneg_right this hk.le
    linarith

/-- C161: in `double` the warped frequency is not negative for any frequency below half the sampling frequency, as the
Chebyshev designs require. -/
theorem C161_below_nyquist_double (M : Math (Flt binary64)) (hM : Constants.pi binary64 binary64 = .ok M.pi)
    (htan : SignRight M.tan) (f fs K : Flt binary64) (hf : 0 ≤ f.val) (hfs : 1 ≤ fs.val) (hlt : f.val < fs.val / 2)
    (hK : prewarp M f fs = .ok K) : 0 ≤ K.val := by
  by_cases small : f.val ≤ 1 / 4
  · refine C161_prewarp_partial binary64 (.inl ⟨rfl, rfl⟩) M hM htan f fs K hf hfs ?_ hK
    norm_num
    linarith
  have small := not_le.1 small
  obtain ⟨p, hp, v, -, -⟩ := pi_eq (d := binary64) (f := binary64) (.inl ⟨rfl, rfl⟩)
  obtain rfl : p = M.pi := Except.ok.inj (hp.symm.trans hM)
  have v : M.pi.val = 884279719003555 / 2 ^ 48 := by
    rcases v with ⟨-, v⟩ | ⟨v, -⟩
    · exact v
    · exact absurd (congrArg Format.p v) (by decide)
  simp only [prewarp, bind_eq_ok] at hK
  obtain ⟨a, ha, y, hy, hK⟩ := hK
  have fs0 : 0 < fs.val := by linarith
  have g : f.val ≤ fs.val / 2 * (1 - 1 / 2 ^ 53) := by
    obtain ⟨n, e, hn, -, en⟩ := f.rep.1
    obtain ⟨m, k, hm, -, em⟩ := fs.rep.1
    have half : fs.val / 2 = m * 2 ^ (k - 1) := by rw [em, zpow_sub₀ (by norm_num), zpow_one]; ring
    have := gap (p := 53) (e := e) (k := k - 1) hn hm (by rw [← half]; linarith) (by rw [← half, ← en]; exact hlt)
    rwa [← half, ← en] at this
  have w0 : 3 / 4 ≤ M.pi.val * f.val := by
    rw [v]
    norm_num
    linarith
  have ea : a.val ≤ M.pi.val * f.val * (1 + 1 / 2 ^ 53) := by
    rw [Flt.ofRat_eq (show Flt.ofRat binary64 (M.pi.val * f.val) = .ok a from ha)]
    have t : (2 : ℚ) ^ binary64.q / 2 ≤ unit binary64 ^ 3 := tiny_le (by decide)
    have t' : unit binary64 ^ 3 ≤ 1 / 2 ^ 53 * (3 / 4) := by norm_num [unit, binary64]
    have := mul_le_mul_of_nonneg_left w0 (by norm_num : (0 : ℚ) ≤ 1 / 2 ^ 53)
    rcases rnd_cases binary64 (M.pi.val * f.val) with ⟨-, h⟩ | h
    · have := (abs_le.1 h).2
      linarith
    · rw [abs_of_nonneg (by linarith : 0 ≤ M.pi.val * f.val)] at h
      have h := (abs_le.1 h).2
      rw [show binary64.p = 53 from rfl] at h
      linarith
  have a0 : 0 ≤ a.val := by
    rw [Flt.ofRat_eq (show Flt.ofRat binary64 (M.pi.val * f.val) = .ok a from ha)]
    exact rnd_nonneg _ (by linarith)
  have q : a.val / fs.val ≤ M.pi.val / 2 := by
    rw [div_le_iff₀ fs0]
    rw [v] at ea ⊢
    norm_num at ea g ⊢
    linarith
  have h := hy
  change (if fs.val = 0 then .error .divByZero else Flt.ofRat binary64 (a.val / fs.val)) = .ok y at h
  rw [if_neg fs0.ne'] at h
  have y0 : 0 ≤ y.val := by
    rw [Flt.ofRat_eq h]
    exact rnd_nonneg _ (div_nonneg a0 fs0.le)
  have y1 : y.val ≤ 884279719003555 / 2 ^ 49 := by
    rw [Flt.ofRat_eq h]
    refine (rnd_mono _ q).trans (le_of_eq ?_)
    rw [v]
    decide +kernel
  refine (htan y K hK).1 (Real.tan_nonneg_of_nonneg_of_le_pi_div_two (by exact_mod_cast y0) ?_)
  have i5 : (y.val : ℝ) ≤ 884279719003555 / 2 ^ 49 := by
    have := (Rat.cast_le (K := ℝ)).2 y1
    push_cast at this
    exact this
  have := Real.pi_gt_d20
  linarith

/-- The tangent just after the pole. -/
private theorem tan_after {x : ℝ} (h1 : Real.pi / 2 < x) (h2 : x < Real.pi * 3 / 4) : Real.tan x ≤ -1 := by
  rw [← Real.tan_periodic.sub_eq x]
  have : Real.tan (x - Real.pi) < Real.tan (-(Real.pi / 4)) :=
    Real.tan_lt_tan_of_lt_of_lt_pi_div_two (by linarith) (by linarith [Real.pi_pos]) (by linarith)
  rw [Real.tan_neg, Real.tan_pi_div_four] at this
  exact this.le

private theorem nyquist {d F : Format} {f fs p y : Flt F} (hp : Constants.pi d F = .ok p)
    (hy : (do CNum.div (← CNum.mul p f) fs) = .ok y) (h1 : hi / 2 < y.val) (h2 : y.val < 2)
    (M : Math (Flt F)) (hM : Constants.pi d F = .ok M.pi) (htan : SignRight M.tan) (K : Flt F)
    (hK : prewarp M f fs = .ok K) : K.val < 0 := by
  obtain rfl : p = M.pi := Except.ok.inj (hp.symm.trans hM)
  unfold prewarp at hK
  have hK : ((do CNum.div (← CNum.mul M.pi f) fs) >>= M.tan) = .ok K := by
    simpa only [bind_assoc] using hK
  rw [hy] at hK
  refine (htan y K hK).2 (tan_after ?_ ?_)
  · have : ((hi / 2 : ℚ) : ℝ) < y.val := by exact_mod_cast h1
    have := le_hi
    push_cast at *
    linarith
  · have : (y.val : ℝ) < 2 := by exact_mod_cast h2
    linarith [Real.pi_gt_three]

/-- C161: in `float`, at half the sampling frequency of 48000, the argument of the tangent lies behind the pole and the
warped frequency is negative, whatever the accuracy of the tangent. -/
theorem C161_nyquist_wrong : ∃ f fs : Flt binary32, f.val = 24000 ∧ fs.val = 48000 ∧ ∀ M : Math (Flt binary32),
    Constants.pi binary64 binary32 = .ok M.pi → SignRight M.tan → ∀ K, prewarp M f fs = .ok K → K.val < 0 := by
  obtain ⟨f, -, h⟩ := Res.of_yields (r := Flt.ofRat binary32 24000) (q := fun f =>
    decide (f.val = 24000) && Res.yields (Flt.ofRat binary32 48000) fun fs => decide (fs.val = 48000) &&
    Res.yields (Constants.pi binary64 binary32) fun p => Res.yields (do CNum.div (← CNum.mul p f) fs) fun y =>
      decide (hi / 2 < y.val) && decide (y.val < 2)) (by decide +kernel)
  rw [Bool.and_eq_true, decide_eq_true_eq] at h
  obtain ⟨fs, -, g⟩ := Res.of_yields h.2
  rw [Bool.and_eq_true, decide_eq_true_eq] at g
  obtain ⟨p, hp, g'⟩ := Res.of_yields g.2
  obtain ⟨y, hy, g''⟩ := Res.of_yields g'
  rw [Bool.and_eq_true, decide_eq_true_eq, decide_eq_true_eq] at g''
  exact ⟨f, fs, h.1, g.1, nyquist hp hy g''.1 g''.2⟩

/-- C161: so it is in `double`, for instance for the sampling frequency 22500. -/
theorem C161_nyquist_double_wrong : ∃ f fs : Flt binary64, f.val = 11250 ∧ fs.val = 22500 ∧ ∀ M : Math (Flt binary64),
    Constants.pi binary64 binary64 = .ok M.pi → SignRight M.tan → ∀ K, prewarp M f fs = .ok K → K.val < 0 := by
  obtain ⟨f, -, h⟩ := Res.of_yields (r := Flt.ofRat binary64 11250) (q := fun f =>
    decide (f.val = 11250) && Res.yields (Flt.ofRat binary64 22500) fun fs => decide (fs.val = 22500) &&
    Res.yields (Constants.pi binary64 binary64) fun p => Res.yields (do CNum.div (← CNum.mul p f) fs) fun y =>
      decide (hi / 2 < y.val) && decide (y.val < 2)) (by decide +kernel)
  rw [Bool.and_eq_true, decide_eq_true_eq] at h
  obtain ⟨fs, -, g⟩ := Res.of_yields h.2
  rw [Bool.and_eq_true, decide_eq_true_eq] at g
  obtain ⟨p, hp, g'⟩ := Res.of_yields g.2
  obtain ⟨y, hy, g''⟩ := Res.of_yields g'
  rw [Bool.and_eq_true, decide_eq_true_eq, decide_eq_true_eq] at g''
  exact ⟨f, fs, h.1, g.1, nyquist hp hy g''.1 g''.2⟩

/-- C161: in `float` the warped frequency may be negative even for a frequency below half the sampling frequency, as the
Chebyshev designs require it: the number before 10500 with the sampling frequency 21000. -/
theorem C161_below_nyquist_wrong : ∃ f fs : Flt binary32, f.val = 10751999 / 1024 ∧ fs.val = 21000 ∧ f.val < fs.val / 2 ∧
    ∀ M : Math (Flt binary32),
    Constants.pi binary64 binary32 = .ok M.pi → SignRight M.tan → ∀ K, prewarp M f fs = .ok K → K.val < 0 := by
  obtain ⟨f, -, h⟩ := Res.of_yields (r := Flt.ofRat binary32 (10751999 / 1024)) (q := fun f =>
    decide (f.val = 10751999 / 1024) && Res.yields (Flt.ofRat binary32 21000) fun fs => decide (fs.val = 21000) &&
    Res.yields (Constants.pi binary64 binary32) fun p => Res.yields (do CNum.div (← CNum.mul p f) fs) fun y =>
      decide (hi / 2 < y.val) && decide (y.val < 2)) (by decide +kernel)
  rw [Bool.and_eq_true, decide_eq_true_eq] at h
  obtain ⟨fs, -, g⟩ := Res.of_yields h.2
  rw [Bool.and_eq_true, decide_eq_true_eq] at g
  obtain ⟨p, hp, g'⟩ := Res.of_yields g.2
  obtain ⟨y, hy, g''⟩ := Res.of_yields g'
  rw [Bool.and_eq_true, decide_eq_true_eq, decide_eq_true_eq] at g''
  exact ⟨f, fs, h.1, g.1, by rw [h.1, g.1]; norm_num, nyquist hp hy g''.1 g''.2⟩

open Classical in
/-- A tangent of which only the sign is right. -/
private noncomputable def signTan {f : Format} (x : Flt f) : Res (Flt f) :=
  if 0 ≤ Real.tan x.val then .ok CNum.one else CNum.neg CNum.one

example : SignRight (signTan (f := binary32)) := by
  intro x y h
  unfold signTan at h
  split_ifs at h with c
  · cases h
    exact ⟨fun _ => zero_le_one, fun h => by linarith⟩
  · refine ⟨fun h => absurd h c, fun _ => ?_⟩
    obtain rfl := Except.ok.inj (show Except.ok (CNum.one : Flt binary32).neg = Except.ok y from h)
    show -(1 : ℚ) < 0
    norm_num

/-- The hypotheses on the frequencies, for 1000 Hz at 48000 Hz. -/
example : ∃ f fs p y : Flt binary32, 0 ≤ f.val ∧ 1 ≤ fs.val ∧ f.val ≤ 1 / 2 * (1 - 1 / 2 ^ 20) * fs.val ∧
    Constants.pi binary64 binary32 = .ok p ∧ (do CNum.div (← CNum.mul p f) fs) = .ok y := by
  obtain ⟨f, -, h⟩ := Res.of_yields (r := Flt.ofRat binary32 1000) (q := fun f =>
    decide (0 ≤ f.val) && Res.yields (Flt.ofRat binary32 48000) fun fs => decide (1 ≤ fs.val) &&
    decide (f.val ≤ 1 / 2 * (1 - 1 / 2 ^ 20) * fs.val) &&
    Res.yields (Constants.pi binary64 binary32) fun p => Res.yields (do CNum.div (← CNum.mul p f) fs) fun _ => true)
    (by decide +kernel)
  rw [Bool.and_eq_true, decide_eq_true_eq] at h
  obtain ⟨fs, -, g⟩ := Res.of_yields h.2
  rw [Bool.and_eq_true, Bool.and_eq_true, decide_eq_true_eq, decide_eq_true_eq] at g
  obtain ⟨p, hp, g'⟩ := Res.of_yields g.2
  obtain ⟨y, hy, -⟩ := Res.of_yields g'
  exact ⟨f, fs, p, y, h.1, g.1.1, g.1.2, hp, hy⟩

/-- The hypotheses of `C161_below_nyquist_double`, for the number before half the sampling frequency of 48000. -/
example : ∃ f fs p y : Flt binary64, 0 ≤ f.val ∧ 1 ≤ fs.val ∧ f.val = 24000 - 1 / 2 ^ 38 ∧ f.val < fs.val / 2 ∧
    Constants.pi binary64 binary64 = .ok p ∧ (do CNum.div (← CNum.mul p f) fs) = .ok y := by
  obtain ⟨f, -, h⟩ := Res.of_yields (r := Flt.ofRat binary64 (24000 - 1 / 2 ^ 38)) (q := fun f =>
    decide (0 ≤ f.val) && Res.yields (Flt.ofRat binary64 48000) fun fs => decide (1 ≤ fs.val) &&
    decide (f.val = 24000 - 1 / 2 ^ 38) && decide (f.val < fs.val / 2) &&
    Res.yields (Constants.pi binary64 binary64) fun p => Res.yields (do CNum.div (← CNum.mul p f) fs) fun _ => true)
    (by decide +kernel)
  rw [Bool.and_eq_true, decide_eq_true_eq] at h
  obtain ⟨fs, -, g⟩ := Res.of_yields h.2
  rw [Bool.and_eq_true, Bool.and_eq_true, Bool.and_eq_true, decide_eq_true_eq, decide_eq_true_eq, decide_eq_true_eq] at g
  obtain ⟨p, hp, g'⟩ := Res.of_yields g.2
  obtain ⟨y, hy, -⟩ := Res.of_yields g'
  exact ⟨f, fs, p, y, h.1, g.1.1.1, g.1.1.2, g.1.2, hp, hy⟩

/-! ### The angle of a frequency -/

private theorem two_pi {d f : Format} (h : PiFormats d f) {p : Flt f} (hp : Constants.pi d f = .ok p) :
    ∃ t, (do CNum.mul (← Flt.ofRat f 2) p) = .ok t ∧ t.val = 2 * p.val := by
  have key (r : Res (Flt f)) (h : Res.yields r (fun p =>
      Res.yields (do CNum.mul (← Flt.ofRat f 2) p) fun t => decide (t.val = 2 * p.val)) = true) (hr : r = .ok p) :
      ∃ t, (do CNum.mul (← Flt.ofRat f 2) p) = .ok t ∧ t.val = 2 * p.val := by
    obtain ⟨q, hq, g⟩ := Res.of_yields h
    obtain rfl : q = p := Except.ok.inj (hq.symm.trans hr)
    obtain ⟨t, ht, e⟩ := Res.of_yields g
    exact ⟨t, ht, of_decide_eq_true e⟩
  refine key _ ?_ hp
  rcases h with ⟨rfl, rfl⟩ | ⟨rfl, rfl⟩ | ⟨rfl, rfl⟩ <;> decide +kernel

private theorem angle_eq {d f : Format} (h : PiFormats d f) {p : Flt f} (hp : Constants.pi d f = .ok p) (x : Flt f) :
    angle p x = Flt.ofRat f (2 * p.val * x.val) := by
  obtain ⟨t, ht, e⟩ := two_pi h hp
  have : angle p x = ((do CNum.mul (← Flt.ofRat f 2) p) >>= fun t => CNum.mul t x) := by
    simp only [angle, bind_assoc]
  rw [this, ht, ← e]
  rfl

/-- C162: the angle of every frequency up to half the sampling frequency is defined, and at most `num::pi<T>`, which it
is at half the sampling frequency. -/
theorem C162_range (d : Format) {f : Format} (h : PiFormats d f) (p : Flt f) (hp : Constants.pi d f = .ok p) (x : Flt f)
    (h0 : 0 ≤ x.val) (h1 : x.val ≤ 1 / 2) :
    ∃ w, angle p x = .ok w ∧ 0 ≤ w.val ∧ w.val ≤ p.val ∧ (x.val = 1 / 2 → w = p) := by
  have p0 : 0 ≤ p.val := by
    obtain ⟨q, hq, v, -, -⟩ := pi_eq h
    obtain rfl : q = p := Except.ok.inj (hq.symm.trans hp)
    rcases v with ⟨-, v⟩ | ⟨-, v⟩ <;> rw [v] <;> norm_num
  have a0 : 0 ≤ 2 * p.val * x.val := mul_nonneg (by linarith) h0
  have a1 : 2 * p.val * x.val ≤ p.val := by
    have := mul_le_mul_of_nonneg_left h1 (by linarith : 0 ≤ 2 * p.val)
    linarith
  have m := p.rep.2
  rw [abs_of_nonneg p0] at m
  obtain ⟨w, hw, e⟩ := Flt.ofRat_ok (f := f) (x := 2 * p.val * x.val) (by rw [abs_of_nonneg a0]; linarith)
  refine ⟨w, (angle_eq h hp x).trans hw, ?_, ?_, fun hx => ?_⟩
  · rw [e]
    exact rnd_nonneg f a0
  · rw [e]
    exact (rnd_mono f a1).trans (rnd_rep f p.rep).le
  · rw [hx, show 2 * p.val * (1 / 2) = p.val by ring, Flt.ofRat_val] at hw
    exact (Except.ok.inj hw).symm

/-- C162: the angle is within two roundoffs of the true one, 2 pi times the frequency, for frequencies of either sign and
any size; to this comes the error in the range of underflow. -/
theorem C162_accuracy (d : Format) {f : Format} (h : PiFormats d f) (p : Flt f) (hp : Constants.pi d f = .ok p) (x w : Flt f)
    (hw : angle p x = .ok w) :
    |(w.val : ℝ) - 2 * Real.pi * x.val| ≤ 2 / 2 ^ f.p * |2 * Real.pi * (x.val : ℝ)| + 2 ^ f.q / 2 := by
  rw [angle_eq h hp x] at hw
  have e := rnd_err (f := f) (2 * p.val * x.val)
  rw [← Flt.ofRat_eq hw] at e
  have e' : |(w.val : ℝ) - 2 * p.val * x.val| ≤ 1 / 2 ^ f.p * |2 * (p.val : ℝ) * x.val| + 2 ^ f.q / 2 := by
    have := (Rat.cast_le (K := ℝ)).2 e
    push_cast at this
    exact this
  obtain ⟨q, hq, v, -, -⟩ := pi_eq h
  obtain rfl : q = p := Except.ok.inj (hq.symm.trans hp)
  have l1 := Real.pi_gt_d20
  have l2 := Real.pi_lt_d20
  have key : |(q.val : ℝ) - Real.pi| + 1 / 2 ^ f.p * |(q.val : ℝ)| ≤ 2 / 2 ^ f.p * Real.pi := by
    rcases v with ⟨rfl, v⟩ | ⟨rfl, v⟩
    · rw [show binary64.p = 53 from rfl, v]
      push_cast
      rw [abs_of_nonpos (by norm_num at l1 ⊢; linarith), abs_of_nonneg (by norm_num)]
      norm_num at l1 l2 ⊢
      linarith
    · rw [show binary32.p = 24 from rfl, v]
      push_cast
      rw [abs_of_nonneg (by norm_num at l2 ⊢; linarith), abs_of_nonneg (by norm_num)]
      norm_num at l1 l2 ⊢
      linarith
  have tri := abs_sub_le (w.val : ℝ) (2 * q.val * x.val) (2 * Real.pi * x.val)
  have a1 : |2 * (q.val : ℝ) * x.val - 2 * Real.pi * x.val| = |(q.val : ℝ) - Real.pi| * (2 * |(x.val : ℝ)|) := by
    rw [show 2 * (q.val : ℝ) * x.val - 2 * Real.pi * x.val = (q.val - Real.pi) * (2 * x.val) by ring, abs_mul, abs_mul,
      abs_two]
  have a2 : |2 * (q.val : ℝ) * x.val| = |(q.val : ℝ)| * (2 * |(x.val : ℝ)|) := by
    rw [mul_comm 2 (q.val : ℝ), mul_assoc, abs_mul, abs_mul, abs_two]
  have a3 : |2 * Real.pi * (x.val : ℝ)| = Real.pi * (2 * |(x.val : ℝ)|) := by
    rw [mul_comm 2 Real.pi, mul_assoc, abs_mul, abs_mul, abs_two, abs_of_pos Real.pi_pos]
  have := mul_le_mul_of_nonneg_right key (by positivity : 0 ≤ 2 * |(x.val : ℝ)|)
  rw [a3]
  rw [a1] at tri
  rw [a2] at e'
  linarith

/-- C162: a higher frequency has no lower angle, and the opposite frequency the opposite angle. -/
theorem C162_monotone (d : Format) {f : Format} (h : PiFormats d f) (p : Flt f) (hp : Constants.pi d f = .ok p)
    (x y v w : Flt f) (hv : angle p x = .ok v) (hw : angle p y = .ok w) :
    (x.val ≤ y.val → v.val ≤ w.val) ∧ (x.val = -y.val → v.val = -w.val) := by
  have p0 : 0 ≤ p.val := by
    obtain ⟨q, hq, v, -, -⟩ := pi_eq h
    obtain rfl : q = p := Except.ok.inj (hq.symm.trans hp)
    rcases v with ⟨-, v⟩ | ⟨-, v⟩ <;> rw [v] <;> norm_num
  rw [angle_eq h hp] at hv hw
  rw [Flt.ofRat_eq hv, Flt.ofRat_eq hw]
  refine ⟨fun l => rnd_mono f (mul_le_mul_of_nonneg_left l (by linarith)), fun e => ?_⟩
  rw [e, mul_neg, rnd_neg]

/-- The angle of a fifth of the sampling frequency. -/
example : ∃ p x w : Flt binary32, Constants.pi binary64 binary32 = .ok p ∧ 0 ≤ x.val ∧ x.val ≤ 1 / 2 ∧ angle p x = .ok w ∧
    w.val ≠ 2 * p.val * x.val := by
  obtain ⟨p, hp, h⟩ := Res.of_yields (r := Constants.pi binary64 binary32) (q := fun p =>
    Res.yields (Flt.ofRat binary32 (1 / 5)) fun x => decide (0 ≤ x.val) && decide (x.val ≤ 1 / 2) &&
    Res.yields (angle p x) fun w => decide (w.val ≠ 2 * p.val * x.val)) (by decide +kernel)
  obtain ⟨x, -, g⟩ := Res.of_yields h
  rw [Bool.and_eq_true, Bool.and_eq_true, decide_eq_true_eq, decide_eq_true_eq] at g
  obtain ⟨w, hw, g'⟩ := Res.of_yields g.2
  exact ⟨p, x, w, hp, g.1.1, g.1.2, hw, of_decide_eq_true g'⟩

end Verif
