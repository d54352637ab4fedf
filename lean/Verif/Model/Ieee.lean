import Mathlib.Data.Int.Log
import Mathlib.Algebra.Order.Round
import Mathlib.Data.Rat.Floor
import Mathlib.Algebra.Order.Archimedean.Basic
import Mathlib.Tactic.FieldSimp
import Mathlib.Tactic.Positivity
import Mathlib.Tactic.Linarith
import Mathlib.Tactic.NormNum
import Verif.Model.Cpp

/-
The floating point types of C++ as IEEE 754 binary formats, rounding to nearest, ties to even.  (Not from
the sources: semantics of `double` and `float`; on AVR `double` is binary32.)

Simplifications: infinities and NaNs do not exist, operations that deliver one are errors (`overflow`,
`divByZero`); the two zeros are one.
-/

namespace Verif
namespace Ieee

/-- A binary format: `p` digits, least positive number `2^q`, largest finite number `(2^p - 1) 2^top`. -/
structure Format where
  p : ℕ
  q : ℤ
  top : ℤ
  two_le : 2 ≤ p
  q_le : q + p ≤ 1
  top_nonneg : 0 ≤ top

/-- `float`; `double` on AVR. -/
def binary32 : Format := ⟨24, -149, 104, by decide, by decide, by decide⟩
/-- `double` on desktop. -/
def binary64 : Format := ⟨53, -1074, 971, by decide, by decide, by decide⟩

variable (f : Format)

/-- The largest finite number. -/
def Format.max : ℚ := (2 ^ f.p - 1) * 2 ^ f.top

/-- The finite numbers of the format. -/
def Rep (x : ℚ) : Prop := (∃ n e : ℤ, |n| < 2 ^ f.p ∧ f.q ≤ e ∧ x = n * 2 ^ e) ∧ |x| ≤ f.max

/-- The exponent of the last digit of `x`. -/
def lastDigit (x : ℚ) : ℤ := Max.max (Int.log 2 |x| + 1 - f.p) f.q

/-- The nearest integer, the even one if there are two. -/
def roundEven (y : ℚ) : ℤ :=
  if y - ⌊y⌋ < 1 / 2 then ⌊y⌋
  else if 1 / 2 < y - ⌊y⌋ then ⌊y⌋ + 1
  else if ⌊y⌋ % 2 = 0 then ⌊y⌋ else ⌊y⌋ + 1

/-- `x` rounded to the digits of the format, if the exponent had no upper bound. -/
def rnd (x : ℚ) : ℚ := roundEven (x / 2 ^ lastDigit f x) * 2 ^ lastDigit f x

/-! ### Rounding delivers numbers of the format -/

theorem roundEven_near (y : ℚ) : |(roundEven y : ℚ) - y| ≤ 1 / 2 := by
  have h1 := Int.floor_le y
  have h2 := Int.lt_floor_add_one y
  unfold roundEven
  split_ifs <;> push_cast <;> rw [abs_le] <;> constructor <;> linarith

theorem roundEven_int (n : ℤ) : roundEven n = n := by
  simp [roundEven]

theorem abs_lt_grid {x : ℚ} : |x| < 2 ^ f.p * 2 ^ lastDigit f x := by
  have h := Int.lt_zpow_succ_log_self (b := 2) (by norm_num) |x|
  have h' : |x| < (2 : ℚ) ^ (Int.log 2 |x| + 1) := by exact_mod_cast h
  refine h'.trans_le ?_
  rw [← zpow_natCast, ← zpow_add₀ (by norm_num)]
  apply zpow_le_zpow_right₀ (by norm_num)
  have := le_max_left (Int.log 2 |x| + 1 - (f.p : ℤ)) f.q
  unfold lastDigit
  omega

theorem roundEven_abs_le {y : ℚ} {k : ℤ} (h : |y| < k) : |roundEven y| ≤ k := by
  have h1 := roundEven_near y
  rw [abs_le] at h1 ⊢
  rw [abs_lt] at h
  constructor
  · have : -(k : ℚ) - 1 < roundEven y := by linarith
    have : -k - 1 < roundEven y := by exact_mod_cast this
    omega
  · have : (roundEven y : ℚ) < k + 1 := by linarith
    have : roundEven y < k + 1 := by exact_mod_cast this
    omega

theorem rnd_digits (x : ℚ) : ∃ n e : ℤ, |n| < 2 ^ f.p ∧ f.q ≤ e ∧ rnd f x = n * 2 ^ e := by
  set e := lastDigit f x with he
  have hg : (0 : ℚ) < 2 ^ e := zpow_pos (by norm_num) _
  have hq : f.q ≤ e := le_max_right _ _
  have h1 : |x / 2 ^ e| < ((2 ^ f.p : ℤ) : ℚ) := by
    rw [abs_div, abs_of_pos hg, div_lt_iff₀ hg]
    push_cast
    exact abs_lt_grid f
  have h2 := roundEven_abs_le h1
  rcases h2.lt_or_eq with h | h
  · exact ⟨_, e, h, hq, rfl⟩
  · obtain ⟨p, hp⟩ : ∃ p, f.p = p + 1 := ⟨f.p - 1, by have := f.two_le; omega⟩
    have hd : (2 : ℤ) ∣ roundEven (x / 2 ^ e) := by
      rw [← dvd_abs, h, hp, pow_succ]
      exact Dvd.intro_left _ rfl
    obtain ⟨n, hn⟩ := hd
    refine ⟨n, e + 1, ?_, by omega, ?_⟩
    · rw [hn, abs_mul, abs_two] at h
      have : (0 : ℤ) < 2 ^ f.p := by positivity
      omega
    · unfold rnd
      rw [← he, hn, zpow_add₀ (by norm_num), zpow_one]
      push_cast
      ring

end Ieee

/-- A finite number of format `f`. -/
structure Flt (f : Ieee.Format) where
  val : ℚ
  rep : Ieee.Rep f val

namespace Flt
variable {f : Ieee.Format}

instance : DecidableEq (Flt f) := fun a b =>
  decidable_of_iff (a.val = b.val) ⟨fun h => by cases a; cases b; cases h; rfl, fun h => by rw [h]⟩

/-- The result of an operation whose exact result is `x`; also the value of a literal. -/
def ofRat (f : Ieee.Format) (x : ℚ) : Res (Flt f) :=
  if h : |Ieee.rnd f x| ≤ f.max then .ok ⟨Ieee.rnd f x, Ieee.rnd_digits f x, h⟩ else .error .overflow

theorem one_le_max (f : Ieee.Format) : 1 ≤ f.max := by
  unfold Ieee.Format.max
  have h1 : (2 : ℚ) ≤ 2 ^ f.p := by
    calc (2 : ℚ) = 2 ^ 1 := by norm_num
      _ ≤ 2 ^ f.p := pow_le_pow_right₀ (by norm_num) (by have := f.two_le; omega)
  have h2 : (1 : ℚ) ≤ 2 ^ f.top := one_le_zpow₀ (by norm_num) f.top_nonneg
  nlinarith

/-- 0 -/
def zero : Flt f := ⟨0, ⟨0, f.q, by simp, le_rfl, by simp⟩, by
  rw [abs_zero]; exact zero_le_one.trans (one_le_max f)⟩
/-- 1 -/
def one : Flt f := ⟨1, ⟨1, 0, by
  rw [abs_one]; exact one_lt_pow₀ (by norm_num) (by have := f.two_le; omega), by
  have := f.two_le; have := f.q_le; omega, by simp⟩, by
  rw [abs_one]; exact one_le_max f⟩
/-- Change of sign is exact. -/
def neg (a : Flt f) : Flt f := ⟨-a.val, by
  obtain ⟨⟨n, e, h1, h2, h3⟩, h4⟩ := a.rep
  exact ⟨⟨-n, e, by rwa [abs_neg], h2, by rw [h3]; push_cast; ring⟩, by rwa [abs_neg]⟩⟩

/-- The arithmetic: exact results, rounded. -/
instance cnum : CNum (Flt f) where
  zero := zero
  one := one
  add a b := ofRat f (a.val + b.val)
  sub a b := ofRat f (a.val - b.val)
  mul a b := ofRat f (a.val * b.val)
  div a b := if b.val = 0 then .error .divByZero else ofRat f (a.val / b.val)
  neg a := .ok a.neg
  isNonZero a := decide (a.val ≠ 0)

end Flt
end Verif
