import Mathlib.Data.Rat.Cast.Order
import Mathlib.Tactic.Ring
import Mathlib.Tactic.Push
import Verif.Spec.Rounding
import Verif.Spec.Ieee

/- IEEE arithmetic is correctly rounded, and meets the standard model of rounding. -/

namespace Verif
namespace Ieee
variable (f : Format)

theorem grid_pos (x : ℚ) : (0 : ℚ) < 2 ^ lastDigit f x := zpow_pos (by norm_num) _

/-- `rnd` is nearest among the multiples of the last digit. -/
theorem rnd_grid (x : ℚ) (n : ℤ) : |rnd f x - x| ≤ |n * 2 ^ lastDigit f x - x| := by
  set g : ℚ := 2 ^ lastDigit f x with hg
  have hg0 : 0 < g := grid_pos f x
  have key : |(roundEven (x / g) : ℚ) - x / g| ≤ |(n : ℚ) - x / g| := by
    by_cases h : n = roundEven (x / g)
    · rw [h]
    · have h1 := roundEven_near (x / g)
      have h2 : (1 : ℚ) ≤ |(n : ℚ) - roundEven (x / g)| := by
        have : (1 : ℤ) ≤ |n - roundEven (x / g)| := Int.one_le_abs (sub_ne_zero.2 h)
        exact_mod_cast this
      have h3 : |(n : ℚ) - roundEven (x / g)| ≤ |(n : ℚ) - x / g| + |(roundEven (x / g) : ℚ) - x / g| := by
        rw [abs_sub_comm (roundEven (x / g) : ℚ)]
        exact abs_sub_le _ _ _
      linarith
  have e : ∀ k : ℤ, (k : ℚ) * g - x = ((k : ℚ) - x / g) * g := fun k => by
    rw [sub_mul, div_mul_cancel₀ _ hg0.ne']
  unfold rnd
  rw [← hg, e, e, abs_mul, abs_mul]
  exact mul_le_mul_of_nonneg_right key (abs_nonneg _)

theorem rnd_of_grid {x : ℚ} (n : ℤ) (h : x = n * 2 ^ lastDigit f x) : rnd f x = x := by
  have := rnd_grid f x n
  rw [← h, sub_self, abs_zero] at this
  exact sub_eq_zero.1 (abs_nonpos_iff.1 this)

/-- Either the last digit is the least one, or `x` has all its digits. -/
theorem lastDigit_cases {x : ℚ} (hx : x ≠ 0) : lastDigit f x = f.q ∨
    (f.q < lastDigit f x ∧ (2 : ℚ) ^ (lastDigit f x + f.p - 1) ≤ |x|) := by
  rcases le_or_gt (Int.log 2 |x| + 1 - f.p) f.q with h | h
  · exact .inl (max_eq_right h)
  · right
    have e : lastDigit f x = Int.log 2 |x| + 1 - f.p := max_eq_left h.le
    refine ⟨e ▸ h, ?_⟩
    rw [e, show Int.log 2 |x| + 1 - (f.p : ℤ) + f.p - 1 = Int.log 2 |x| by ring]
    exact_mod_cast Int.zpow_log_le_self (b := 2) (by norm_num) (abs_pos.2 hx)

theorem rnd_zero : rnd f 0 = 0 := rnd_of_grid f 0 (by simp)

/-- A power of two between a number with few digits and `x`. -/
theorem rnd_nearest (x z : ℚ) (hz : ∃ n e : ℤ, |n| < 2 ^ f.p ∧ f.q ≤ e ∧ z = n * 2 ^ e) :
    |rnd f x - x| ≤ |z - x| := by
  by_cases hx : x = 0
  · rw [hx, rnd_zero]; simp
  obtain ⟨n, e, hn, he, rfl⟩ := hz
  rcases le_or_gt (lastDigit f x) e with h | h
  · obtain ⟨k, hk⟩ := Int.eq_ofNat_of_zero_le (sub_nonneg.2 h)
    have : (n : ℚ) * 2 ^ e = ((n * 2 ^ k : ℤ) : ℚ) * 2 ^ lastDigit f x := by
      rw [show e = k + lastDigit f x by omega, zpow_add₀ (by norm_num), zpow_natCast]
      push_cast
      ring
    rw [this]
    exact rnd_grid f x _
  · rcases lastDigit_cases f hx with h1 | ⟨-, h1⟩
    · omega
    obtain ⟨p, hp⟩ : ∃ p, f.p = p + 1 := ⟨f.p - 1, by have := f.two_le; omega⟩
    set w : ℚ := 2 ^ (lastDigit f x + f.p - 1) with hw
    have ew : w = ((2 ^ p : ℤ) : ℚ) * 2 ^ lastDigit f x := by
      rw [hw, hp, show lastDigit f x + ((p + 1 : ℕ) : ℤ) - 1 = p + lastDigit f x by push_cast; ring,
        zpow_add₀ (by norm_num)]
      push_cast
      rw [zpow_natCast]
    have hzw : |(n : ℚ) * 2 ^ e| ≤ w := by
      rw [abs_mul, abs_of_pos (zpow_pos (by norm_num : (0 : ℚ) < 2) e)]
      have : (|n| : ℚ) ≤ 2 ^ f.p := by exact_mod_cast hn.le
      calc |(n : ℚ)| * 2 ^ e ≤ 2 ^ f.p * 2 ^ e := mul_le_mul_of_nonneg_right this (zpow_nonneg (by norm_num) _)
        _ = 2 ^ ((f.p : ℤ) + e) := by rw [← zpow_natCast, ← zpow_add₀ (by norm_num)]
        _ ≤ w := zpow_le_zpow_right₀ (by norm_num) (by omega)
    rcases le_total 0 x with h0 | h0
    · refine (rnd_grid f x (2 ^ p)).trans ?_
      rw [← ew]
      rw [abs_of_nonneg h0] at h1
      rw [abs_le] at hzw
      rw [abs_of_nonpos (by linarith), abs_of_nonpos (by linarith)]
      linarith
    · refine (rnd_grid f x (-2 ^ p)).trans ?_
      have : ((-2 ^ p : ℤ) : ℚ) * 2 ^ lastDigit f x = -w := by rw [ew]; push_cast; ring
      rw [this]
      rw [abs_of_nonpos h0] at h1
      rw [abs_le] at hzw
      rw [abs_of_nonneg (by linarith), abs_of_nonneg (by linarith)]
      linarith

theorem rnd_rep {x : ℚ} (h : Rep f x) : rnd f x = x := by
  have := rnd_nearest f x x h.1
  rw [sub_self, abs_zero] at this
  exact sub_eq_zero.1 (abs_nonpos_iff.1 this)

theorem max_rep : Rep f f.max := by
  refine ⟨⟨2 ^ f.p - 1, f.top, ?_, by have := f.two_le; have := f.q_le; have := f.top_nonneg; omega, ?_⟩, ?_⟩
  · have : (1 : ℤ) ≤ 2 ^ f.p := one_le_pow₀ (by norm_num)
    rw [abs_of_nonneg (by linarith)]
    linarith
  · unfold Format.max; push_cast; ring
  · exact (abs_of_nonneg (zero_le_one.trans (Flt.one_le_max f))).le

theorem rnd_le_max {x : ℚ} (h : |x| ≤ f.max) : |rnd f x| ≤ f.max := by
  have h1 := rnd_nearest f x f.max (max_rep f).1
  have h2 := rnd_nearest f x (-f.max) (Flt.neg ⟨_, max_rep f⟩).rep.1
  rw [abs_le] at h
  rw [abs_of_nonneg (show 0 ≤ f.max - x by linarith), abs_le] at h1
  rw [abs_of_nonpos (show -f.max - x ≤ 0 by linarith), abs_le] at h2
  rw [abs_le]
  constructor <;> linarith

/-- The error of a rounding: half a unit of the last digit. -/
theorem rnd_error (x : ℚ) : |rnd f x - x| ≤ 2 ^ lastDigit f x / 2 := by
  have hg0 := grid_pos f x
  have h := roundEven_near (x / 2 ^ lastDigit f x)
  have e : rnd f x - x = (roundEven (x / 2 ^ lastDigit f x) - x / 2 ^ lastDigit f x) * 2 ^ lastDigit f x := by
    unfold rnd
    rw [sub_mul, div_mul_cancel₀ _ hg0.ne']
  rw [e, abs_mul, abs_of_pos hg0]
  linarith [mul_le_mul_of_nonneg_right h hg0.le]

theorem rnd_cases (x : ℚ) : (lastDigit f x = f.q ∧ |rnd f x - x| ≤ 2 ^ f.q / 2) ∨
    |rnd f x - x| ≤ 1 / 2 ^ f.p * |x| := by
  by_cases hx : x = 0
  · rw [hx, rnd_zero]; simp
  have h := rnd_error f x
  rcases lastDigit_cases f hx with h1 | ⟨-, h1⟩
  · exact .inl ⟨h1, h1 ▸ h⟩
  · right
    have h2 : (2 : ℚ) ^ lastDigit f x / 2 = 1 / 2 ^ f.p * 2 ^ (lastDigit f x + f.p - 1) := by
      rw [zpow_sub₀ (by norm_num), zpow_add₀ (by norm_num), zpow_natCast, zpow_one]
      field_simp
    rw [h2] at h
    exact h.trans (mul_le_mul_of_nonneg_left h1 (by positivity))

/-- Multiples of the least positive number, as sums are, have a relative error only. -/
theorem rnd_multiple {x : ℚ} (n : ℤ) (h : x = n * 2 ^ f.q) : |rnd f x - x| ≤ 1 / 2 ^ f.p * |x| := by
  rcases rnd_cases f x with ⟨h1, -⟩ | h1
  · rw [rnd_of_grid f n (by rw [h1]; exact h), sub_self, abs_zero]
    positivity
  · exact h1

theorem rep_multiple {x : ℚ} (h : Rep f x) : ∃ n : ℤ, x = n * 2 ^ f.q := by
  obtain ⟨⟨n, e, -, he, rfl⟩, -⟩ := h
  obtain ⟨k, hk⟩ := Int.eq_ofNat_of_zero_le (sub_nonneg.2 he)
  refine ⟨n * 2 ^ k, ?_⟩
  rw [show e = k + f.q by omega, zpow_add₀ (by norm_num), zpow_natCast]
  push_cast
  ring

/-- Rounding keeps the order. -/
theorem rnd_mono {x y : ℚ} (h : x ≤ y) : rnd f x ≤ rnd f y := by
  by_contra hlt
  push Not at hlt
  have h1 := rnd_nearest f x (rnd f y) (rnd_digits f y)
  have h2 := rnd_nearest f y (rnd f x) (rnd_digits f x)
  have : x = y := by
    rcases abs_cases (rnd f x - x) with ⟨e1, c1⟩ | ⟨e1, c1⟩ <;>
    rcases abs_cases (rnd f y - x) with ⟨e2, c2⟩ | ⟨e2, c2⟩ <;>
    rcases abs_cases (rnd f y - y) with ⟨e3, c3⟩ | ⟨e3, c3⟩ <;>
    rcases abs_cases (rnd f x - y) with ⟨e4, c4⟩ | ⟨e4, c4⟩ <;>
    rw [e1, e2] at h1 <;> rw [e3, e4] at h2 <;> linarith
  rw [this] at hlt
  exact lt_irrefl _ hlt

/-- Half a unit above a number is rounded down if the last digit is even, and less always. -/
theorem roundEven_half {n : ℤ} {d : ℚ} (h0 : 0 ≤ d) (h1 : d < 1 / 2 ∨ d = 1 / 2 ∧ n % 2 = 0) :
    roundEven (n + d) = n := by
  have hf : ⌊(n : ℚ) + d⌋ = n := by
    rw [Int.floor_eq_iff]
    rcases h1 with h | ⟨h, -⟩ <;> constructor <;> linarith
  unfold roundEven
  rw [hf, add_sub_cancel_left]
  rcases h1 with h | ⟨rfl, h⟩
  · rw [if_pos h]
  · rw [if_neg (lt_irrefl _), if_neg (lt_irrefl _), if_pos h]

theorem lastDigit_eq {x : ℚ} (k : ℤ) (hk : f.q ≤ k) (h1 : 2 ^ (k + f.p - 1) ≤ x) (h2 : x < 2 ^ (k + f.p)) :
    lastDigit f x = k := by
  have h0 : (0 : ℚ) < 2 ^ (k + f.p - 1) := zpow_pos (by norm_num) _
  have hx : 0 < x := h0.trans_le h1
  have e : Int.log 2 x = k + f.p - 1 := by
    apply le_antisymm
    · have := (Int.lt_zpow_iff_log_lt (b := 2) (by norm_num) hx (x := k + f.p)).1 (by exact_mod_cast h2)
      omega
    · exact (Int.zpow_le_iff_le_log (b := 2) (by norm_num) hx).1 (by exact_mod_cast h1)
  unfold lastDigit
  rw [abs_of_pos hx, e, show k + (f.p : ℤ) - 1 + 1 - f.p = k by ring]
  exact max_eq_left hk

/-- `n 2^k` plus at most half a unit. -/
theorem rnd_add_small {n k : ℤ} {d : ℚ} (hk : f.q ≤ k) (hn1 : 2 ^ (f.p - 1) ≤ n) (hn2 : n < 2 ^ f.p)
    (h0 : 0 ≤ d) (h1 : d < 2 ^ k / 2 ∨ d = 2 ^ k / 2 ∧ n % 2 = 0) :
    rnd f (n * 2 ^ k + d) = n * 2 ^ k := by
  have hg : (0 : ℚ) < 2 ^ k := zpow_pos (by norm_num) _
  have hd : d < 2 ^ k := by rcases h1 with h | ⟨h, -⟩ <;> linarith
  have hn1' : ((2 : ℚ) ^ (f.p - 1)) ≤ n := by exact_mod_cast hn1
  have hn2' : ((n : ℚ) + 1) ≤ 2 ^ f.p := by exact_mod_cast hn2
  have e : lastDigit f (n * 2 ^ k + d) = k := by
    apply lastDigit_eq f k hk
    · have : (2 : ℚ) ^ (k + f.p - 1) = 2 ^ (f.p - 1) * 2 ^ k := by
        rw [← zpow_natCast, ← zpow_add₀ (by norm_num)]
        congr 1
        have := f.two_le
        omega
      rw [this]
      have := mul_le_mul_of_nonneg_right hn1' hg.le
      linarith
    · have : (2 : ℚ) ^ (k + f.p) = 2 ^ f.p * 2 ^ k := by
        rw [← zpow_natCast, ← zpow_add₀ (by norm_num), add_comm]
      rw [this]
      have := mul_le_mul_of_nonneg_right hn2' hg.le
      linarith
  unfold rnd
  rw [e, add_div, mul_div_cancel_right₀ _ hg.ne', roundEven_half (div_nonneg h0 hg.le)]
  rcases h1 with h | ⟨h, h'⟩
  · left
    rw [div_lt_iff₀ hg]
    linarith
  · right
    refine ⟨?_, h'⟩
    rw [h]
    field_simp

/-- Numbers up to half a unit above 1 are rounded to at most 1. -/
theorem rnd_le_one {x : ℚ} (h : x ≤ 1 + 1 / 2 ^ f.p) : rnd f x ≤ 1 := by
  refine (rnd_mono f h).trans (le_of_eq ?_)
  have h2 := f.two_le
  have hq := f.q_le
  obtain ⟨p, hp⟩ : ∃ p, f.p = p + 2 := ⟨f.p - 2, by omega⟩
  have e1 : (1 : ℚ) = ((2 ^ (f.p - 1) : ℤ) : ℚ) * 2 ^ (1 - (f.p : ℤ)) := by
    push_cast
    rw [← zpow_natCast, ← zpow_add₀ (by norm_num), show ((f.p - 1 : ℕ) : ℤ) + (1 - f.p) = 0 by omega, zpow_zero]
  have e2 : (1 : ℚ) / 2 ^ f.p = 2 ^ (1 - (f.p : ℤ)) / 2 := by
    rw [zpow_sub₀ (by norm_num), zpow_natCast, zpow_one]
    field_simp
  rw [e2]
  nth_rw 1 [e1]
  rw [rnd_add_small f (by omega) le_rfl (pow_lt_pow_right₀ (by norm_num) (by omega))
    (div_pos (zpow_pos (by norm_num) _) (by norm_num)).le, ← e1]
  right
  refine ⟨rfl, ?_⟩
  rw [hp, show p + 2 - 1 = p + 1 by omega, pow_succ]
  omega

theorem rnd_nonneg {x : ℚ} (h : 0 ≤ x) : 0 ≤ rnd f x := by
  have := rnd_mono f h
  rwa [rnd_zero] at this

theorem roundEven_tie {y : ℚ} (h : |(roundEven y : ℚ) - y| = 1 / 2) : roundEven y % 2 = 0 := by
  have h1 := Int.floor_le y
  have h2 := Int.lt_floor_add_one y
  unfold roundEven at h ⊢
  split_ifs at h ⊢ with c1 c2 c3
  · rw [abs_of_nonpos (by linarith)] at h; linarith
  · push_cast at h
    rw [abs_of_nonneg (by linarith)] at h; linarith
  · exact c3
  · omega

/-- If another number is as near, the last digit is even. -/
theorem rnd_tie (x d : ℚ) (hd : ∃ n e : ℤ, |n| < 2 ^ f.p ∧ f.q ≤ e ∧ d = n * 2 ^ e) (hne : d ≠ rnd f x)
    (h : |d - x| = |rnd f x - x|) : ∃ n e : ℤ, rnd f x = 2 * n * 2 ^ e ∧ |d - rnd f x| = 2 ^ e := by
  have hx : x ≠ 0 := by
    rintro rfl
    rw [rnd_zero] at h hne
    simp at h
    exact hne h
  have hg := grid_pos f x
  set g : ℚ := 2 ^ lastDigit f x with hgd
  -- `d` is a multiple of the last digit
  obtain ⟨m, hm⟩ : ∃ m : ℤ, d = m * g := by
    obtain ⟨n, e, hn, he, rfl⟩ := hd
    rcases le_or_gt (lastDigit f x) e with h' | h'
    · obtain ⟨k, hk⟩ := Int.eq_ofNat_of_zero_le (sub_nonneg.2 h')
      refine ⟨n * 2 ^ k, ?_⟩
      rw [show e = k + lastDigit f x by omega, zpow_add₀ (by norm_num), zpow_natCast, hgd]
      push_cast
      ring
    · exfalso
      rcases lastDigit_cases f hx with h1 | ⟨-, h1⟩
      · omega
      obtain ⟨p, hp⟩ : ∃ p, f.p = p + 1 := ⟨f.p - 1, by have := f.two_le; omega⟩
      set w : ℚ := 2 ^ (lastDigit f x + f.p - 1) with hw
      have ew : w = ((2 ^ p : ℤ) : ℚ) * g := by
        rw [hw, hp, show lastDigit f x + ((p + 1 : ℕ) : ℤ) - 1 = p + lastDigit f x by push_cast; ring,
          zpow_add₀ (by norm_num)]
        push_cast
        rw [zpow_natCast]
      have hzw : |(n : ℚ) * 2 ^ e| < w := by
        rw [abs_mul, abs_of_pos (zpow_pos (by norm_num : (0 : ℚ) < 2) e)]
        have : (|n| : ℚ) < 2 ^ f.p := by exact_mod_cast hn
        calc |(n : ℚ)| * 2 ^ e < 2 ^ f.p * 2 ^ e := mul_lt_mul_of_pos_right this (zpow_pos (by norm_num) _)
          _ = 2 ^ ((f.p : ℤ) + e) := by rw [← zpow_natCast, ← zpow_add₀ (by norm_num)]
          _ ≤ w := zpow_le_zpow_right₀ (by norm_num) (by omega)
      rw [abs_lt] at hzw
      rcases le_total 0 x with h0 | h0
      · have := rnd_grid f x (2 ^ p)
        rw [← hgd, ← ew, ← h] at this
        rw [abs_of_nonneg h0] at h1
        rw [abs_of_nonpos (by linarith), abs_of_nonpos (by linarith)] at this
        linarith
      · have := rnd_grid f x (-2 ^ p)
        rw [← hgd, show ((-2 ^ p : ℤ) : ℚ) * g = -w by rw [ew]; push_cast; ring, ← h] at this
        rw [abs_of_nonpos h0] at h1
        rw [abs_of_nonneg (by linarith), abs_of_nonneg (by linarith)] at this
        linarith
  set r := roundEven (x / g) with hr
  have er : rnd f x = r * g := rfl
  have hmr : m ≠ r := by
    rintro rfl
    exact hne (by rw [hm, er])
  have e : ∀ k : ℤ, (k : ℚ) * g - x = ((k : ℚ) - x / g) * g := fun k => by
    rw [sub_mul, div_mul_cancel₀ _ hg.ne']
  have h1 : |(m : ℚ) - x / g| = |(r : ℚ) - x / g| := by
    rw [hm, er, e, e, abs_mul, abs_mul] at h
    exact mul_right_cancel₀ (abs_pos.2 hg.ne').ne' h
  have h2 : |(r : ℚ) - x / g| ≤ 1 / 2 := roundEven_near _
  have h3 : |(m : ℚ) - r| ≤ 1 := by
    have := abs_sub_le (m : ℚ) (x / g) r
    rw [abs_sub_comm (x / g)] at this
    linarith
  have h4 : (1 : ℚ) ≤ |(m : ℚ) - r| := by
    have : (1 : ℤ) ≤ |m - r| := Int.one_le_abs (sub_ne_zero.2 hmr)
    exact_mod_cast this
  have h5 : |(r : ℚ) - x / g| = 1 / 2 := by
    have := abs_sub_le (m : ℚ) (x / g) r
    rw [abs_sub_comm (x / g)] at this
    linarith
  have h6 := roundEven_tie h5
  refine ⟨r / 2, lastDigit f x, ?_, ?_⟩
  · rw [er, ← hgd]
    have : r = 2 * (r / 2) := by omega
    nth_rw 1 [this]
    push_cast
    ring
  · rw [hm, er, ← sub_mul, abs_mul, le_antisymm h3 h4, one_mul, abs_of_pos hg]

theorem roundEven_neg (y : ℚ) : roundEven (-y) = -roundEven y := by
  by_contra hne
  have h1 := roundEven_near (-y)
  have h2 := roundEven_near y
  have h3 : (1 : ℚ) ≤ |(roundEven (-y) : ℚ) + roundEven y| := by
    have : (1 : ℤ) ≤ |roundEven (-y) + roundEven y| := Int.one_le_abs fun h => hne (by omega)
    exact_mod_cast this
  have h4 := abs_add_le ((roundEven (-y) : ℚ) - -y) (roundEven y - y)
  rw [show (roundEven (-y) : ℚ) - -y + (roundEven y - y) = roundEven (-y) + roundEven y by ring] at h4
  have e1 := roundEven_tie (show |(roundEven (-y) : ℚ) - -y| = 1 / 2 by linarith)
  have e2 := roundEven_tie (show |(roundEven y : ℚ) - y| = 1 / 2 by linarith)
  have h5 : |(roundEven (-y) : ℚ) + roundEven y| ≤ 1 := by linarith
  have h6 : |roundEven (-y) + roundEven y| ≤ 1 := by exact_mod_cast h5
  have h7 : (1 : ℤ) ≤ |roundEven (-y) + roundEven y| := by exact_mod_cast h3
  rcases abs_cases (roundEven (-y) + roundEven y) with ⟨e, -⟩ | ⟨e, -⟩ <;> omega

theorem rnd_neg (x : ℚ) : rnd f (-x) = -rnd f x := by
  unfold rnd lastDigit
  rw [abs_neg, neg_div, roundEven_neg]
  push_cast
  ring

theorem max_eq : f.max = ((2 ^ f.p - 1 : ℤ) : ℚ) * 2 ^ f.top := by unfold Format.max; push_cast; ring

theorem rnd_finite (x : ℚ) (h : |x| < f.max + 2 ^ f.top / 2) : |rnd f x| ≤ f.max := by
  have h2 := f.two_le
  have hq := f.q_le
  have ht := f.top_nonneg
  have key : ∀ d : ℚ, 0 ≤ d → d < 2 ^ f.top / 2 → rnd f (f.max + d) = f.max := by
    intro d h0 h1
    rw [max_eq]
    apply rnd_add_small f (by omega) _ (by omega) h0 (.inl h1)
    obtain ⟨p, hp⟩ : ∃ p, f.p = p + 1 := ⟨f.p - 1, by omega⟩
    have : (1 : ℤ) ≤ 2 ^ p := one_le_pow₀ (by norm_num)
    rw [hp, Nat.add_sub_cancel, pow_succ]
    omega
  have up : ∀ y : ℚ, y < f.max + 2 ^ f.top / 2 → rnd f y ≤ f.max := by
    intro y hy
    rcases le_or_gt y f.max with h' | h'
    · have := rnd_mono f h'
      rwa [rnd_rep f (max_rep f)] at this
    · have := key (y - f.max) (by linarith) (by linarith)
      rw [add_sub_cancel] at this
      exact this.le
  rw [abs_lt] at h
  have h1 := up (-x) (by linarith)
  rw [rnd_neg] at h1
  rw [abs_le]
  exact ⟨by linarith, up x h.2⟩

theorem rnd_infinite (x : ℚ) (h : f.max + 2 ^ f.top / 2 ≤ |x|) : f.max < |rnd f x| := by
  have h2 := f.two_le
  have hq := f.q_le
  have ht := f.top_nonneg
  have hg : (0 : ℚ) < 2 ^ f.top := zpow_pos (by norm_num) _
  obtain ⟨p, hp⟩ : ∃ p, f.p = p + 1 := ⟨f.p - 1, by omega⟩
  have h1 : (1 : ℤ) ≤ 2 ^ p := one_le_pow₀ (by norm_num)
  have hn : (2 : ℤ) ^ f.p = 2 * 2 ^ p := by rw [hp, pow_succ]; ring
  have hn' : (2 : ℚ) ^ f.p = 2 * 2 ^ p := by exact_mod_cast hn
  have h1' : (1 : ℚ) ≤ 2 ^ p := by exact_mod_cast h1
  have key : rnd f (f.max + 2 ^ f.top / 2) = 2 ^ f.p * 2 ^ f.top := by
    have e : lastDigit f (f.max + 2 ^ f.top / 2) = f.top := by
      apply lastDigit_eq f _ (by omega)
      · have : (2 : ℚ) ^ (f.top + f.p - 1) = 2 ^ p * 2 ^ f.top := by
          rw [← zpow_natCast, ← zpow_add₀ (by norm_num)]
          congr 1
          omega
        rw [this]
        unfold Format.max
        nlinarith
      · have : (2 : ℚ) ^ (f.top + f.p) = 2 ^ f.p * 2 ^ f.top := by
          rw [← zpow_natCast, ← zpow_add₀ (by norm_num), add_comm]
        rw [this]
        unfold Format.max
        nlinarith
    have e2 : (f.max + 2 ^ f.top / 2) / 2 ^ f.top = ((2 ^ f.p - 1 : ℤ) : ℚ) + 1 / 2 := by
      rw [max_eq]
      field_simp
    have e3 : roundEven (((2 ^ f.p - 1 : ℤ) : ℚ) + 1 / 2) = 2 ^ f.p := by
      have hf : ⌊((2 ^ f.p - 1 : ℤ) : ℚ) + 1 / 2⌋ = 2 ^ f.p - 1 := by
        rw [Int.floor_eq_iff]
        constructor <;> linarith
      unfold roundEven
      rw [hf, add_sub_cancel_left, if_neg (lt_irrefl _), if_neg (lt_irrefl _), if_neg (by omega)]
      ring
    unfold rnd
    rw [e, e2, e3]
    push_cast
    rfl
  have hlt : f.max < 2 ^ f.p * 2 ^ f.top := by
    unfold Format.max
    nlinarith
  rw [← key] at hlt
  rcases le_total 0 x with h0 | h0
  · rw [abs_of_nonneg h0] at h
    exact (hlt.trans_le (rnd_mono f h)).trans_le (le_abs_self _)
  · rw [abs_of_nonpos h0] at h
    have := rnd_mono f h
    rw [rnd_neg] at this
    exact (hlt.trans_le this).trans_le (neg_le_abs _)

end Ieee

namespace Flt
variable {f : Ieee.Format}
open Ieee

/-- The number `n 2^e`. -/
def lit (f : Format) (n e : ℤ) (h : |n| < 2 ^ f.p ∧ f.q ≤ e ∧ |(n : ℚ) * 2 ^ e| ≤ f.max) : Flt f :=
  ⟨n * 2 ^ e, ⟨n, e, h.1, h.2.1, rfl⟩, h.2.2⟩

theorem ofRat_ok {x : ℚ} (h : |x| ≤ f.max) : ∃ c, ofRat f x = .ok c ∧ c.val = rnd f x :=
  ⟨_, dif_pos (rnd_le_max f h), rfl⟩

/-- The arithmetic is that of IEEE 754. -/
theorem ofRat_correct (x : ℚ) : Correct f x (ofRat f x) := by
  constructor
  · intro h
    refine ⟨_, dif_pos (rnd_finite f x h), fun d => rnd_nearest f x _ d.rep.1, fun d h1 h2 => ?_⟩
    exact rnd_tie f x d.val d.rep.1 h1 h2
  · intro h
    exact dif_neg (not_le.2 (rnd_infinite f x h))

theorem ofRat_eq {x : ℚ} {c : Flt f} (h : ofRat f x = .ok c) : c.val = rnd f x := by
  unfold ofRat at h
  split_ifs at h
  cases h
  rfl

theorem ofRat_val (a : Flt f) : ofRat f a.val = .ok a := by
  unfold ofRat
  have := rnd_rep f a.rep
  rw [dif_pos (by rw [this]; exact a.rep.2)]
  congr 1
  cases a
  congr

/-- IEEE arithmetic meets the standard model, without reservations about underflow. -/
theorem rounding (f : Format) :
    Rounding (Flt f) (fun x => (x.val : ℝ)) (1 / 2 ^ f.p) (2 ^ f.q / 2) (f.max : ℚ) := by
  refine ⟨by positivity, (div_pos (zpow_pos (by norm_num) _) (by norm_num)).le, by simp [CNum.zero, zero], ?_, ?_, ?_⟩
  · intro a b h
    have h' : |a.val + b.val| ≤ f.max := by exact_mod_cast h
    obtain ⟨c, e, hc⟩ := ofRat_ok h'
    refine ⟨c, e, ?_⟩
    obtain ⟨m, hm⟩ := rep_multiple f a.rep
    obtain ⟨n, hn⟩ := rep_multiple f b.rep
    have := rnd_multiple f (x := a.val + b.val) (m + n) (by rw [hm, hn]; push_cast; ring)
    rw [← hc] at this
    have h2 : (((|c.val - (a.val + b.val)| : ℚ)) : ℝ) ≤ ((1 / 2 ^ f.p * |a.val + b.val| : ℚ) : ℝ) := by
      exact_mod_cast this
    push_cast at h2
    exact h2
  · intro a b h
    have h' : |a.val - b.val| ≤ f.max := by exact_mod_cast h
    obtain ⟨c, e, hc⟩ := ofRat_ok h'
    refine ⟨c, e, ?_⟩
    obtain ⟨m, hm⟩ := rep_multiple f a.rep
    obtain ⟨n, hn⟩ := rep_multiple f b.rep
    have := rnd_multiple f (x := a.val - b.val) (m - n) (by rw [hm, hn]; push_cast; ring)
    rw [← hc] at this
    have h2 : (((|c.val - (a.val - b.val)| : ℚ)) : ℝ) ≤ ((1 / 2 ^ f.p * |a.val - b.val| : ℚ) : ℝ) := by
      exact_mod_cast this
    push_cast at h2
    exact h2
  · intro a b h
    have h' : |a.val * b.val| ≤ f.max := by exact_mod_cast h
    obtain ⟨c, e, hc⟩ := ofRat_ok h'
    refine ⟨c, e, ?_⟩
    have : |rnd f (a.val * b.val) - a.val * b.val| ≤ 1 / 2 ^ f.p * |a.val * b.val| + 2 ^ f.q / 2 := by
      have h1 : (0 : ℚ) ≤ 1 / 2 ^ f.p * |a.val * b.val| := by positivity
      have h2 : (0 : ℚ) ≤ 2 ^ f.q / 2 := (div_pos (zpow_pos (by norm_num) _) (by norm_num)).le
      rcases rnd_cases f (a.val * b.val) with ⟨-, h⟩ | h <;> linarith
    rw [← hc] at this
    have h2 : (((|c.val - a.val * b.val| : ℚ)) : ℝ) ≤
        ((1 / 2 ^ f.p * |a.val * b.val| + 2 ^ f.q / 2 : ℚ) : ℝ) := by
      exact_mod_cast this
    push_cast at h2
    exact h2

end Flt
end Verif
