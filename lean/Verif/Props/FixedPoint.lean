import Verif.Lemmas.FixedPoint

/-
Properties C24-C31: include/num/fixed-point.hpp.

`Fx w F` is `fixed_point<T,I,F>` with `T` of width `w`; `x.val` is the rational number `x` stands
for; `Platform` fixes the width of `int` and the meaning of a left shift of negative numbers.
-/

namespace Verif
open Fx
variable {w : Width} {F : Nat}

/-- Desktop: 32-bit `int`, multiplying shift. -/
def desktop : Platform := ⟨32, false, .inr rfl⟩
/-- AVR: 16-bit `int`, multiplying shift. -/
def avr : Platform := ⟨16, false, .inl rfl⟩

/-! ### C24 addition, subtraction -/

/-- **C24** `a + b` is exact whenever the exact sum is representable. -/
theorem C24_add_exact (p : Platform) (a b : Fx w F) (h : (Fx.min w F).val ≤ a.val + b.val)
    (h' : a.val + b.val ≤ (Fx.max w F).val) :
    ∃ c, add p a b = .ok c ∧ c.val = a.val + b.val := by
  rw [add_val_eq] at *
  exact narrow_checked_ok (arith_ge p _) h h'

example : ∃ c, add desktop (narrow .w16 8 384) (narrow .w16 8 (-64)) = .ok c ∧ c.val = 5 / 4 :=
  ⟨narrow .w16 8 320, rfl, by
    rw [val_narrow (by decide) (by decide)]; norm_num⟩

/-- **C24** `a - b` is exact whenever the exact difference is representable. -/
theorem C24_sub_exact (p : Platform) (a b : Fx w F) (h : (Fx.min w F).val ≤ a.val - b.val)
    (h' : a.val - b.val ≤ (Fx.max w F).val) :
    ∃ c, sub p a b = .ok c ∧ c.val = a.val - b.val := by
  rw [sub_val_eq] at *
  exact narrow_checked_ok (arith_ge p _) h h'

example : (Fx.min .w8 4).val ≤ (narrow .w8 4 24).val - (narrow .w8 4 40).val ∧
    (narrow .w8 4 24).val - (narrow .w8 4 40).val ≤ (Fx.max .w8 4).val := by
  rw [sub_val_eq]
  exact (inRange_iff _).2 (by decide)

/-- **C24** A sum above the range is short by exactly the length of the range, if the representation
is narrower than `int` … -/
theorem C24_add_wraps_above (p : Platform) (hp : w.bits < p.intBits) (a b : Fx w F)
    (h : (Fx.max w F).val < a.val + b.val) :
    ∃ c, add p a b = .ok c ∧ c.val = a.val + b.val - Fx.range w F := by
  rw [add_val_eq] at *
  exact narrow_checked_above (lt_of_lt_of_le hp (le_max_right _ _))
    (by have := rep_lt a; have := rep_lt b; omega) h

/-- … and a sum below the range is in excess by it. -/
theorem C24_add_wraps_below (p : Platform) (hp : w.bits < p.intBits) (a b : Fx w F)
    (h : a.val + b.val < (Fx.min w F).val) :
    ∃ c, add p a b = .ok c ∧ c.val = a.val + b.val + Fx.range w F := by
  rw [add_val_eq] at *
  exact narrow_checked_below (lt_of_lt_of_le hp (le_max_right _ _))
    (by have := rep_ge a; have := rep_ge b; omega) h

/-- **C24** Likewise for differences. -/
theorem C24_sub_wraps_above (p : Platform) (hp : w.bits < p.intBits) (a b : Fx w F)
    (h : (Fx.max w F).val < a.val - b.val) :
    ∃ c, sub p a b = .ok c ∧ c.val = a.val - b.val - Fx.range w F := by
  rw [sub_val_eq] at *
  exact narrow_checked_above (lt_of_lt_of_le hp (le_max_right _ _))
    (by have := rep_lt a; have := rep_ge b; omega) h

theorem C24_sub_wraps_below (p : Platform) (hp : w.bits < p.intBits) (a b : Fx w F)
    (h : a.val - b.val < (Fx.min w F).val) :
    ∃ c, sub p a b = .ok c ∧ c.val = a.val - b.val + Fx.range w F := by
  rw [sub_val_eq] at *
  exact narrow_checked_below (lt_of_lt_of_le hp (le_max_right _ _))
    (by have := rep_ge a; have := rep_lt b; omega) h

example : Width.w16.bits < desktop.intBits ∧
    (Fx.max .w16 8).val < (narrow .w16 8 32767).val + (narrow .w16 8 1).val := by
  refine ⟨by decide, ?_⟩
  rw [max_val, val_narrow (by decide) (by decide), val_narrow (by decide) (by decide)]
  norm_num [half]

/-- **C24** If the representation is not narrower than `int` (32 bits; 16 bits on AVR), a sum out of
range is undefined. -/
theorem C24_add_undefined (p : Platform) (hp : p.intBits ≤ w.bits) (a b : Fx w F)
    (h : a.val + b.val < (Fx.min w F).val ∨ (Fx.max w F).val < a.val + b.val) :
    add p a b = .error .overflow := by
  rw [add_val_eq] at h
  exact narrow_checked_err (max_eq_left hp) h

/-- **C24** … and so is a difference out of range. -/
theorem C24_sub_undefined (p : Platform) (hp : p.intBits ≤ w.bits) (a b : Fx w F)
    (h : a.val - b.val < (Fx.min w F).val ∨ (Fx.max w F).val < a.val - b.val) :
    sub p a b = .error .overflow := by
  rw [sub_val_eq] at h
  exact narrow_checked_err (max_eq_left hp) h

example : avr.intBits ≤ Width.w16.bits ∧
    add avr (narrow .w16 8 32767) (narrow .w16 8 1) = .error .overflow := ⟨by decide, rfl⟩

/-! ### C25 multiplication -/

/-- **C25** Multiplication is always defined, on every platform, for all `F` up to the number of
digits of the promoted type; the result is the exact product rounded down to a multiple of `2^-F`,
up to a multiple of the range. -/
theorem C25_mul_total (p : Platform) (hF : F < w.promote) (a b : Fx w F) :
    ∃ c, mul p a b = .ok c ∧ ∃ k : Int,
      c.val + k * Fx.range w F ≤ a.val * b.val ∧
      a.val * b.val < c.val + k * Fx.range w F + ulp F := by
  obtain ⟨c, hc, hr⟩ := mul_rep p hF a b
  obtain ⟨k, hk⟩ := narrow_mod (w := w) (F := F) (a.storage.toInt * b.storage.toInt / 2 ^ F)
  refine ⟨c, hc, -k, ?_⟩
  have : c.val + ((-k : Int) : ℚ) * Fx.range w F =
      ((a.storage.toInt * b.storage.toInt / 2 ^ F : Int) : ℚ) / 2 ^ F := by
    rw [range_eq, hr, val, hk, ← add_div]
    push_cast
    congr 1
    ring
  rw [this]
  exact floor_bounds a b

/-- **C25** Whenever the exact product is in range, the result is the product rounded down to a
multiple of `2^-F`: the error is in `[0, 2^-F)`. -/
theorem C25_mul_rounds_down (p : Platform) (hF : F < w.promote) (a b : Fx w F)
    (h : (Fx.min w F).val ≤ a.val * b.val) (h' : a.val * b.val < (Fx.max w F).val + ulp F) :
    ∃ c, mul p a b = .ok c ∧ c.val ≤ a.val * b.val ∧ a.val * b.val < c.val + ulp F := by
  obtain ⟨c, hc, hr⟩ := mul_rep p hF a b
  refine ⟨c, hc, ?_⟩
  obtain ⟨f1, f2⟩ := floor_bounds a b
  set q := a.storage.toInt * b.storage.toInt / 2 ^ F
  have hq : -half w ≤ q ∧ q < half w := by
    rw [min_val] at h
    rw [max_val] at h'
    unfold ulp at h' f2
    have h1 := lt_of_le_of_lt h f2
    have h2 := lt_of_le_of_lt f1 h'
    rw [← add_div, div_lt_div_iff_of_pos_right (by positivity)] at h1 h2
    have h1' : -half w < q + 1 := by exact_mod_cast h1
    have h2' : q < half w - 1 + 1 := by exact_mod_cast h2
    omega
  rw [hr, val_narrow hq.1 hq.2]
  exact ⟨f1, f2⟩

/-- **C25** In particular, a representable product is exact. -/
theorem C25_mul_exact (p : Platform) (hF : F < w.promote) (a b c : Fx w F)
    (h : c.val = a.val * b.val) : mul p a b = .ok c := by
  have hu : 0 < ulp F := by unfold ulp; positivity
  obtain ⟨b1, b2⟩ := val_bounds c
  obtain ⟨d, hd, h1, h2⟩ := C25_mul_rounds_down p hF a b (h ▸ b1) (by rw [← h]; linarith)
  rw [hd]
  congr 1
  rw [← h] at h1 h2
  unfold ulp at h2
  unfold val at h1 h2
  rw [← add_div, div_lt_div_iff_of_pos_right (by positivity)] at h2
  rw [div_le_div_iff_of_pos_right (by positivity)] at h1
  have h1' : d.storage.toInt ≤ c.storage.toInt := by exact_mod_cast h1
  have h2' : c.storage.toInt < d.storage.toInt + 1 := by exact_mod_cast h2
  ext1
  exact BitVec.toInt_inj.1 (by omega)

/-- The rounding is really down, not toward zero: `-2^-8 * 0.5` is `-2^-8`. -/
example : mul desktop (narrow .w16 8 (-1)) (narrow .w16 8 128) = .ok (narrow .w16 8 (-1)) := rfl

example : (8 : Nat) < Width.w16.promote ∧
    (Fx.min .w16 8).val ≤ (narrow .w16 8 (-1)).val * (narrow .w16 8 128).val ∧
    (narrow .w16 8 (-1)).val * (narrow .w16 8 128).val < (Fx.max .w16 8).val + ulp 8 := by
  rw [min_val, max_val, val_narrow (by decide) (by decide), val_narrow (by decide) (by decide)]
  norm_num [half, ulp]

/-! ### C26 division -/

/-- **C26** With a non-zero divisor, `F` within the digits of the representation, and a shift that is
defined, division is defined; the result is the exact quotient truncated toward zero to a multiple
of `2^-F`, up to a multiple of the range. -/
theorem C26_div_total (p : Platform) (hF : F < w.bits) (a b : Fx w F) (hb : b.val ≠ 0)
    (hs : p.strictShift = false ∨ 0 ≤ a.val) :
    ∃ c, div p a b = .ok c ∧ ∃ k : Int,
      let q := c.val + k * Fx.range w F
      |q| ≤ |a.val / b.val| ∧ |a.val / b.val| < |q| + ulp F ∧ 0 ≤ q * (a.val / b.val) := by
  obtain ⟨c, hc, hr⟩ := div_rep p hF a b (rep_ne_zero hb) (hs.imp_right rep_nonneg)
  obtain ⟨k, hk⟩ := narrow_mod (w := w) (F := F) ((a.storage.toInt * 2 ^ F).tdiv b.storage.toInt)
  refine ⟨c, hc, -k, ?_⟩
  have : c.val + ((-k : Int) : ℚ) * Fx.range w F =
      (((a.storage.toInt * 2 ^ F).tdiv b.storage.toInt : Int) : ℚ) / 2 ^ F := by
    rw [range_eq, hr, val, hk, ← add_div]
    push_cast
    congr 1
    ring
  rw [this]
  exact trunc_bounds a b (rep_ne_zero hb)

/-- **C26** Whenever the exact quotient is in range (or exceeds it by less than `2^-F`), the result
is the quotient truncated toward zero to a multiple of `2^-F`. -/
theorem C26_div_truncates (p : Platform) (hF : F < w.bits) (a b : Fx w F) (hb : b.val ≠ 0)
    (hs : p.strictShift = false ∨ 0 ≤ a.val)
    (h : (Fx.min w F).val - ulp F < a.val / b.val) (h' : a.val / b.val < (Fx.max w F).val + ulp F) :
    ∃ c, div p a b = .ok c ∧
      |c.val| ≤ |a.val / b.val| ∧ |a.val / b.val| < |c.val| + ulp F ∧ 0 ≤ c.val * (a.val / b.val) := by
  obtain ⟨c, hc, hr⟩ := div_rep p hF a b (rep_ne_zero hb) (hs.imp_right rep_nonneg)
  refine ⟨c, hc, ?_⟩
  obtain ⟨f1, f2, f3⟩ := trunc_bounds a b (rep_ne_zero hb)
  set q := (a.storage.toInt * 2 ^ F).tdiv b.storage.toInt
  have hq : -half w ≤ q ∧ q < half w := by
    have hp : (0 : ℚ) < 2 ^ F := by positivity
    rw [min_val] at h
    rw [max_val] at h'
    have hlo : (q : ℚ) / 2 ^ F < ((half w - 1 : Int) : ℚ) / 2 ^ F + ulp F := by
      by_cases hx : 0 ≤ a.val / b.val
      · rw [abs_of_nonneg hx] at f1
        exact lt_of_le_of_lt (le_trans (le_abs_self _) f1) h'
      · have : (q : ℚ) / 2 ^ F ≤ 0 := by
          by_contra hc
          have := mul_neg_of_pos_of_neg (lt_of_not_ge hc) (lt_of_not_ge hx)
          linarith
        have h0 : (0 : ℚ) < ((half w - 1 : Int) : ℚ) / 2 ^ F + ulp F := by
          unfold ulp
          rw [← add_div]
          apply div_pos _ hp
          have := half_pos w
          push_cast
          have : (0 : ℚ) < half w := by exact_mod_cast this
          linarith
        linarith
    have hhi : ((-half w : Int) : ℚ) / 2 ^ F - ulp F < (q : ℚ) / 2 ^ F := by
      by_cases hx : a.val / b.val ≤ 0
      · rw [abs_of_nonpos hx] at f1
        have := neg_abs_le ((q : ℚ) / 2 ^ F)
        linarith
      · have : 0 ≤ (q : ℚ) / 2 ^ F := by
          by_contra hc
          have := mul_neg_of_neg_of_pos (lt_of_not_ge hc) (lt_of_not_ge hx)
          linarith
        have h0 : ((-half w : Int) : ℚ) / 2 ^ F - ulp F < 0 := by
          unfold ulp
          rw [← sub_div]
          apply div_neg_of_neg_of_pos _ hp
          have := half_pos w
          push_cast
          have : (0 : ℚ) < half w := by exact_mod_cast this
          linarith
        linarith
    unfold ulp at hlo hhi
    rw [← add_div, div_lt_div_iff_of_pos_right hp] at hlo
    rw [← sub_div, div_lt_div_iff_of_pos_right hp] at hhi
    have h1 : q < half w - 1 + 1 := by exact_mod_cast hlo
    have h2 : -half w - 1 < q := by exact_mod_cast hhi
    omega
  rw [hr, val_narrow hq.1 hq.2]
  exact ⟨f1, f2, f3⟩

/-- The rounding is really toward zero: `-2^-8 / 2` is `0`. -/
example : div desktop (narrow .w16 8 (-1)) (narrow .w16 8 512) = .ok (narrow .w16 8 0) := rfl

example : (narrow .w16 8 512).val ≠ 0 ∧
    (Fx.min .w16 8).val - ulp 8 < (narrow .w16 8 (-1)).val / (narrow .w16 8 512).val ∧
    (narrow .w16 8 (-1)).val / (narrow .w16 8 512).val < (Fx.max .w16 8).val + ulp 8 := by
  rw [min_val, max_val, val_narrow (by decide) (by decide), val_narrow (by decide) (by decide)]
  norm_num [half, ulp]

/-- **C26** Division by zero is undefined. -/
theorem C26_div_by_zero (p : Platform) (hF : F < w.bits) (a b : Fx w F) (hb : b.val = 0)
    (hs : p.strictShift = false ∨ 0 ≤ a.val) : div p a b = .error .divByZero := by
  have hr : b.storage.toInt = 0 := by
    unfold val at hb
    rw [div_eq_zero_iff] at hb
    rcases hb with h | h
    · exact_mod_cast h
    · exact absurd h (by positivity)
  unfold div
  simp only [shl_ok p hF a (hs.imp_right rep_nonneg), bind_ok, hr]
  rfl

example : div desktop (narrow .w16 8 512) (narrow .w16 8 0) = .error .divByZero := rfl

/-- **C26** By the letter of C++17, dividing a negative number is undefined. -/
theorem C26_div_negative_strict (p : Platform) (hs : p.strictShift = true) (a b : Fx w F)
    (ha : a.val < 0) : div p a b = .error .badShift := by
  have hr : a.storage.toInt < 0 := by
    by_contra hc
    have : 0 ≤ a.val := by
      unfold val
      apply div_nonneg _ (by positivity)
      exact_mod_cast not_lt.1 hc
    linarith
  unfold div Platform.shl
  by_cases hn : p.arith w.promote ≤ F
  · simp only [hn, if_true]; rfl
  · simp only [hn, if_false, hs, hr, and_self, if_true]; rfl

example : div ⟨32, true, .inr rfl⟩ (narrow .w16 8 (-512)) (narrow .w16 8 256) = .error .badShift :=
  rfl

/-! ### C27 comparison -/

/-- **C27** `==` is equality of the represented numbers. -/
theorem C27_eq (a b : Fx w F) : eq a b = true ↔ a.val = b.val := by
  have hp : (2 : ℚ) ^ F ≠ 0 := by positivity
  unfold eq val
  rw [beq_iff_eq, div_left_inj' hp, Int.cast_inj]

/-- **C27** `!=` is its negation. -/
theorem C27_ne (a b : Fx w F) : ne a b = true ↔ a.val ≠ b.val := by
  unfold ne
  rw [Bool.not_eq_true', ← Bool.not_eq_true, C27_eq]

/-- **C27** `<` is the order of the represented numbers. -/
theorem C27_lt (a b : Fx w F) : lt a b = true ↔ a.val < b.val := by
  unfold lt val
  rw [decide_eq_true_iff, div_lt_div_iff_of_pos_right (by positivity), Int.cast_lt]

/-- **C27** `<=`. -/
theorem C27_le (a b : Fx w F) : le a b = true ↔ a.val ≤ b.val := by
  unfold le
  rw [Bool.not_eq_true', ← Bool.not_eq_true, C27_lt, not_lt]

/-- **C27** `>`. -/
theorem C27_gt (a b : Fx w F) : gt a b = true ↔ b.val < a.val := C27_lt b a

/-- **C27** `>=`. -/
theorem C27_ge (a b : Fx w F) : ge a b = true ↔ b.val ≤ a.val := by
  unfold ge
  rw [Bool.not_eq_true', ← Bool.not_eq_true, C27_lt, not_lt]

/-- **C27** Different objects represent different numbers: the order is total and `==` is the
identity. -/
theorem C27_total_order (a b c : Fx w F) :
    (eq a b = true ↔ a = b) ∧ (le a b = true ∨ le b a = true) ∧
      (le a b = true → le b a = true → a = b) ∧ (le a b = true → le b c = true → le a c = true) := by
  simp only [C27_eq, C27_le]
  exact ⟨⟨val_inj, fun h => by rw [h]⟩, le_total _ _, fun h h' => val_inj (le_antisymm h h'),
    fun h h' => le_trans h h'⟩

example : lt (narrow .w16 8 (-300)) (narrow .w16 8 2) = true ∧ gt (narrow .w8 3 (-128)) (narrow .w8 3 127) = false ∧
    eq (narrow .w8 3 256) (narrow .w8 3 0) = true := by decide

/-! ### C28 integers -/

/-- **C28** An integer in range is represented exactly. -/
theorem C28_ofInt_exact (hF : F < w.bits) (n : Int) (h : (Fx.min w F).val ≤ n)
    (h' : (n : ℚ) ≤ (Fx.max w F).val) : ∃ x, ofInt w F n = .ok x ∧ x.val = n := by
  have hp : (2 : ℚ) ^ F ≠ 0 := by positivity
  have e : (n : ℚ) = ((2 ^ F * n : Int) : ℚ) / 2 ^ F := by push_cast; field_simp
  rw [e] at h h'
  obtain ⟨h1, h2⟩ := (inRange_iff _).1 ⟨h, h'⟩
  refine ⟨narrow w F (2 ^ F * n), ?_, ?_⟩
  · unfold ofInt
    rw [power2_ok (by cases w <;> simp only [Width.bits] at hF <;> omega), bind_ok,
      checked_wide (n := w.bits) (by cases w <;> decide) h1 h2]
    rfl
  · rw [val_narrow h1 h2, e]

/-- **C28** … in particular every integer that fits in the `I` integral bits (plus sign), where
`I + F` is the number of digits of the representation. -/
theorem C28_ofInt_fits (I : Nat) (hI : I + F = w.bits - 1) (n : Int) (h : -2 ^ I ≤ n) (h' : n < 2 ^ I) :
    ∃ x, ofInt w F n = .ok x ∧ x.val = n := by
  have hb := w.bits_pos
  have e : half w = 2 ^ I * 2 ^ F := by unfold half; rw [← hI, pow_add]
  have hF0 : (0 : Int) < 2 ^ F := by positivity
  have h2 : -half w ≤ 2 ^ F * n ∧ 2 ^ F * n < half w := by rw [e]; constructor <;> nlinarith
  have := (inRange_iff (w := w) (F := F) (2 ^ F * n)).2 h2
  have hp : (2 : ℚ) ^ F ≠ 0 := by positivity
  have e : (n : ℚ) = ((2 ^ F * n : Int) : ℚ) / 2 ^ F := by push_cast; field_simp
  rw [← e] at this
  exact C28_ofInt_exact (by omega) n this.1 this.2

/-- **C28** `as<U>()`, for a `U` at least as wide as the representation (at most 64 bits), is the
represented number truncated toward zero. -/
theorem C28_asInt_truncates (n : Nat) (hn : w.bits ≤ n) (hF : F < w.bits) (x : Fx w F) :
    ∃ i : Int, asInt n x = .ok i ∧ |(i : ℚ)| ≤ |x.val| ∧ |x.val| < |(i : ℚ)| + 1 ∧ 0 ≤ i * x.val := by
  have hx := rep_ge x
  have hx' := rep_lt x
  have hb := w.bits_pos
  have hw : (2 : Int) ^ (w.bits - 1) ≤ 2 ^ (n - 1) := pow_mono (by omega)
  have e : (BitVec.ofInt n x.storage.toInt).toInt = x.storage.toInt :=
    BitVec.toInt_ofInt_eq_self (by omega) (by unfold half at hx; omega) (by unfold half at hx'; omega)
  have hp0 : (2 : Int) ^ F ≠ 0 := by positivity
  obtain ⟨t1, t2, t3⟩ := tdiv_bounds x.storage.toInt (2 ^ F) hp0
  refine ⟨x.storage.toInt.tdiv (2 ^ F), ?_, ?_⟩
  · unfold asInt
    rw [power2_ok (by cases w <;> simp only [Width.bits] at hF <;> omega), bind_ok]
    unfold underlying_value divInt
    rw [if_neg hp0, e]
    have habs : |x.storage.toInt.tdiv (2 ^ F)| ≤ |x.storage.toInt| := by
      rw [← Int.natCast_natAbs, ← Int.natCast_natAbs, Int.natAbs_tdiv]
      exact_mod_cast Nat.div_le_self _ _
    have h1 := abs_le.2 ⟨hx, hx'.le⟩
    have h2 := abs_le.1 (le_trans habs h1)
    have h3 : half w ≤ 2 ^ 62 := pow_mono (by cases w <;> decide)
    apply checked_ok
    · norm_num at h3 ⊢; omega
    · norm_num at h3 ⊢; omega
  · have : x.val = (x.storage.toInt : ℚ) / ((2 ^ F : Int) : ℚ) := by unfold val; push_cast; rfl
    rw [this]
    exact ⟨t1, t2, t3⟩

/-- **C28** Round trip: an integer in range, stored and read back, is unchanged. -/
theorem C28_int_roundtrip (k : Nat) (hk : w.bits ≤ k) (hF : F < w.bits) (n : Int)
    (h : (Fx.min w F).val ≤ n) (h' : (n : ℚ) ≤ (Fx.max w F).val) :
    (ofInt w F n).bind (asInt k) = .ok n := by
  obtain ⟨x, hx, hv⟩ := C28_ofInt_exact hF n h h'
  obtain ⟨i, hi, b1, b2, b3⟩ := C28_asInt_truncates k hk hF x
  rw [hx]
  show asInt k x = _
  rw [hi]
  congr 1
  rw [hv] at b1 b2 b3
  have b1' : |i| ≤ |n| := by exact_mod_cast b1
  have b2' : |n| < |i| + 1 := by exact_mod_cast b2
  have b3' : 0 ≤ i * n := by exact_mod_cast b3
  have he : |i| = |n| := by omega
  rcases abs_eq_abs.1 he with h | h
  · exact h
  · subst h
    have : n * n ≤ 0 := by linarith
    have : n = 0 := by nlinarith
    omega

example : (ofInt .w16 8 (-5)).bind (asInt 32) = .ok (-5) ∧ asInt 32 (narrow .w16 8 (-384)) = .ok (-1) :=
  ⟨by decide, by decide⟩

/-- **C28** An integer out of range (with a product that fits `int64_t`) is silently reduced modulo
the range. -/
theorem C28_ofInt_wraps (hF : F < w.bits) (n : Int) (h : -2 ^ 63 ≤ 2 ^ F * n) (h' : 2 ^ F * n < 2 ^ 63) :
    ∃ x, ofInt w F n = .ok x ∧ ∃ k : Int, x.val = n + k * Fx.range w F := by
  refine ⟨narrow w F (2 ^ F * n), ?_, ?_⟩
  · unfold ofInt
    rw [power2_ok (by cases w <;> simp only [Width.bits] at hF <;> omega), bind_ok, checked_ok h h']
    rfl
  · obtain ⟨k, hk⟩ := narrow_mod (w := w) (F := F) (2 ^ F * n)
    refine ⟨k, ?_⟩
    have hp : (2 : ℚ) ^ F ≠ 0 := by positivity
    rw [range_eq, val, hk]
    push_cast
    field_simp

/-- **C28** If the product with `2^F` does not even fit `int64_t`, construction is undefined. -/
theorem C28_ofInt_undefined (hF : F < w.bits) (n : Int)
    (h : 2 ^ F * n < -2 ^ 63 ∨ 2 ^ 63 ≤ 2 ^ F * n) : ofInt w F n = .error .overflow := by
  unfold ofInt
  rw [power2_ok (by cases w <;> simp only [Width.bits] at hF <;> omega), bind_ok, checked_err h]
  rfl

/-- Concrete: `2^60` does not fit Q7.8, and the product overflows. -/
example : ofInt .w16 8 (2 ^ 60) = .error .overflow :=
  C28_ofInt_undefined (by decide) _ (.inr (by norm_num))

/-- Concrete: 200 in Q7.8 becomes -56. -/
example : ∃ x, ofInt .w16 8 200 = .ok x ∧ x.val = -56 :=
  ⟨narrow .w16 8 (-14336), by decide, by rw [val_narrow (by decide) (by decide)]; norm_num⟩

/-- **C28** The literals `0` and `1` of the generic code are exact if the range has the number 1, and
testing for non-zero is exact. -/
theorem C28_literals (p : Platform) (hF : F < w.bits - 1) :
    (cnum p w F).zero.val = 0 ∧ (cnum p w F).one.val = 1 ∧
    (∀ x, (cnum p w F).isNonZero x = true ↔ x.val ≠ 0) ∧
    ofInt w F 0 = .ok (cnum p w F).zero ∧ ofInt w F 1 = .ok (cnum p w F).one := by
  have hb := w.bits_pos
  have h1 : (2 : Int) ^ F < half w := by
    unfold half
    exact_mod_cast Nat.pow_lt_pow_right (by norm_num) hF
  have h0 : (0 : Int) < 2 ^ F := by positivity
  have hz : (narrow w F 0).val = 0 := by
    rw [val_narrow (by omega) (by omega)]; simp
  have hp : (2 : ℚ) ^ F ≠ 0 := by positivity
  refine ⟨hz, ?_, fun x => ?_, ?_, ?_⟩
  · show (narrow w F (2 ^ F)).val = 1
    rw [val_narrow (by omega) h1]
    push_cast
    exact div_self hp
  · show ne x (narrow w F 0) = true ↔ _
    have : (narrow w F 0).storage.toInt = 0 := by
      have h := hz
      unfold val at h
      rw [div_eq_zero_iff] at h
      exact_mod_cast h.resolve_right hp
    unfold ne eq val
    rw [this]
    simp
  · unfold ofInt
    rw [power2_ok (by cases w <;> simp only [Width.bits] at hF <;> omega), bind_ok, mul_zero]
    rfl
  · unfold ofInt
    rw [power2_ok (by cases w <;> simp only [Width.bits] at hF <;> omega), bind_ok, mul_one,
      checked_wide (n := w.bits) (by cases w <;> decide) (by unfold half at h1; omega) h1]
    rfl

example : (cnum desktop .w16 8).one = narrow .w16 8 256 ∧ (cnum desktop .w16 8).isNonZero (narrow .w16 8 1) = true :=
  ⟨by decide, by decide⟩

/-- **C28** Without integral bits there is no number 1: the literal `1` becomes -1. -/
theorem C28_one_wrong (p : Platform) : (cnum p w (w.bits - 1)).one.val = -1 := by
  show (narrow w (w.bits - 1) (2 ^ (w.bits - 1))).val = -1
  have e : (narrow w (w.bits - 1) (2 ^ (w.bits - 1))).storage.toInt = -2 ^ (w.bits - 1) := by
    cases w <;> rfl
  have hp : (2 : ℚ) ^ (w.bits - 1) ≠ 0 := by positivity
  unfold val
  rw [e]
  push_cast
  rw [neg_div, div_self hp]

/-- **C28** `as<U>()` for a `U` narrower than the representation reduces the representation to `U`
before dividing: e.g. 1.5 in Q7.8, as `int8_t`, is 0 instead of 1. -/
theorem C28_asInt_narrow_wrong :
    ∃ x : Fx .w16 8, x.val = 3 / 2 ∧ asInt 8 x = .ok 0 ∧ asInt 16 x = .ok 1 :=
  ⟨narrow .w16 8 384, by rw [val_narrow (by decide) (by decide)]; norm_num, by decide, by decide⟩

/-! ### C29 reals -/

/-- **C29** A real number in range (to within less than half a unit beyond its ends) is converted to
a nearest representable number: the error is at most half a unit.  Numbers half-way are rounded away
from zero. -/
theorem C29_ofReal_nearest (hF : F < w.bits) (v : ℝ)
    (h : ((Fx.min w F).val : ℝ) - (ulp F : ℝ) / 2 < v) (h' : v < (Fx.max w F).val + (ulp F : ℝ) / 2) :
    ∃ x, ofReal w F v = .ok x ∧ |(x.val : ℝ) - v| ≤ (ulp F : ℝ) / 2 ∧
      (|(x.val : ℝ) - v| = (ulp F : ℝ) / 2 → |v| < |(x.val : ℝ)|) := by
  have hp : (0 : ℝ) < 2 ^ F := by positivity
  have hpa : |(2 : ℝ) ^ F| = 2 ^ F := abs_of_pos hp
  obtain ⟨r, r1, r2, r3, r4, r5⟩ := round_spec (2 ^ F * v) v (by
    constructor <;> intro h
    · positivity
    · exact nonneg_of_mul_nonneg_right h hp)
  rw [min_val] at h
  rw [max_val] at h'
  unfold ulp at *
  push_cast at h h' ⊢
  have e1 : -(half w : ℝ) - 1 / 2 < 2 ^ F * v := by
    have := mul_lt_mul_of_pos_left h hp
    calc _ = 2 ^ F * (-(half w : ℝ) / 2 ^ F - 1 / 2 ^ F / 2) := by field_simp
      _ < _ := this
  have e2 : 2 ^ F * v < (half w : ℝ) - 1 / 2 := by
    have := mul_lt_mul_of_pos_left h' hp
    calc _ < _ := this
      _ = _ := by field_simp; ring
  have hh := half_pos w
  have g1 : r < half w := ((r4 (half w)).resolve_right (by omega)).1 e2
  have g2 : -half w ≤ r := ((r5 (half w)).resolve_right (by omega)).1 e1
  refine ⟨narrow w F r, ?_, ?_⟩
  · unfold ofReal
    rw [power2_ok (by cases w <;> simp only [Width.bits] at hF <;> omega), bind_ok]
    push_cast
    rw [r1, checked_ok g2 g1]
    rfl
  · rw [val_narrow g2 g1]
    push_cast
    have e3 : (r : ℝ) / 2 ^ F - v = (r - 2 ^ F * v) / 2 ^ F := by field_simp
    have e4 : v = 2 ^ F * v / 2 ^ F := by field_simp
    rw [e3, abs_div, abs_div, hpa, div_right_comm 1 _ (2 : ℝ), div_le_div_iff_of_pos_right hp,
      div_left_inj' hp.ne']
    refine ⟨r2, fun h => ?_⟩
    have := r3 h
    rw [abs_mul, hpa] at this
    rw [lt_div_iff₀ hp]
    linarith

/-- **C29** Exactly representable numbers convert without error. -/
theorem C29_ofReal_exact (hF : F < w.bits) (x : Fx w F) : ofReal w F x.val = .ok x := by
  have hu : (0 : ℚ) < ulp F := by unfold ulp; positivity
  have hu' : (0 : ℝ) < (ulp F : ℝ) := by exact_mod_cast hu
  obtain ⟨b1, b2⟩ := val_bounds x
  have b1' : ((Fx.min w F).val : ℝ) ≤ x.val := by exact_mod_cast b1
  have b2' : (x.val : ℝ) ≤ (Fx.max w F).val := by exact_mod_cast b2
  obtain ⟨y, hy, h, -⟩ := C29_ofReal_nearest hF (x.val : ℝ) (by linarith) (by linarith)
  rw [hy]
  congr 1
  have h1 : |y.val - x.val| ≤ ulp F / 2 := by exact_mod_cast h
  have hp : (0 : ℚ) < 2 ^ F := by positivity
  have e : y.val - x.val = ((y.storage.toInt - x.storage.toInt : Int) : ℚ) / 2 ^ F := by
    unfold val; push_cast; ring
  rw [e, abs_div, abs_of_pos hp, ulp, div_right_comm, div_le_div_iff_of_pos_right hp] at h1
  have h2 : |y.storage.toInt - x.storage.toInt| < 1 := by
    have : ((|y.storage.toInt - x.storage.toInt| : Int) : ℚ) < 1 := by
      push_cast at h1 ⊢
      linarith
    exact_mod_cast this
  ext1
  apply BitVec.toInt_inj.1
  have := abs_lt.1 h2
  omega

/-- **C29** Real numbers out of range are undefined. -/
theorem C29_ofReal_undefined (hF : F < w.bits) (v : ℝ)
    (h : v ≤ ((Fx.min w F).val : ℝ) - (ulp F : ℝ) / 2 ∨ (Fx.max w F).val + (ulp F : ℝ) / 2 ≤ v) :
    ofReal w F v = .error .overflow := by
  have hp : (0 : ℝ) < 2 ^ F := by positivity
  obtain ⟨r, r1, r2, r3, r4, r5⟩ := round_spec (2 ^ F * v) v (by
    constructor <;> intro h
    · positivity
    · exact nonneg_of_mul_nonneg_right h hp)
  have hh := half_pos w
  have g : r < -half w ∨ half w ≤ r := by
    rw [min_val, max_val] at h
    unfold ulp at h
    push_cast at h
    rcases h with h | h
    · left
      rw [← not_le, ← (r5 (half w)).resolve_right (by omega), not_lt]
      have := mul_le_mul_of_nonneg_left h hp.le
      calc _ ≤ _ := this
        _ = _ := by field_simp
    · right
      rw [← not_lt, ← (r4 (half w)).resolve_right (by omega), not_lt]
      have := mul_le_mul_of_nonneg_left h hp.le
      calc _ = _ := by field_simp; ring
        _ ≤ _ := this
  unfold ofReal
  rw [power2_ok (by cases w <;> simp only [Width.bits] at hF <;> omega), bind_ok]
  push_cast
  rw [r1, checked_err g]
  rfl

/-- 0.3 in Q7.8 is 77/256. -/
example : (8 : Nat) < Width.w16.bits ∧ ((Fx.min .w16 8).val : ℝ) - (ulp 8 : ℝ) / 2 < 0.3 ∧
    (0.3 : ℝ) < (Fx.max .w16 8).val + (ulp 8 : ℝ) / 2 := by
  rw [min_val, max_val]
  norm_num [half, ulp]

/-! ### C30 representation -/

/-- **C30** `to_rep` and `from_rep` are inverse to each other; `from_value` keeps the
representation. -/
theorem C30_rep_roundtrip (n : BitVec w.bits) (x : Fx w F) :
    to_rep (from_rep F n) = n ∧ from_rep F (to_rep x) = x ∧ to_rep (from_value F n) = n := ⟨rfl, rfl, rfl⟩

/-- **C30** The number represented by `from_rep( n )`, read as a real number, is `n * 2^-F`. -/
theorem C30_asReal (hF : F ≤ 62) (n : BitVec w.bits) :
    asReal (from_rep F n) = .ok ((n.toInt : ℝ) / 2 ^ F) := by
  unfold asReal
  rw [power2_ok hF, bind_ok]
  push_cast
  rfl

/-- **C30** Reading any object as a real number and converting back restores it. -/
theorem C30_real_roundtrip (hF : F < w.bits) (x : Fx w F) :
    (asReal x).bind (ofReal w F) = .ok x := by
  have h : asReal x = .ok (x.val : ℝ) := by
    unfold asReal
    rw [power2_ok (by cases w <;> simp only [Width.bits] at hF <;> omega), bind_ok]
    unfold val underlying_value
    push_cast
    rfl
  rw [h]
  exact C29_ofReal_exact hF x

example : to_rep (from_rep 8 (w := .w16) (-1#16)) = -1#16 ∧
    asReal (from_rep 8 (w := .w16) (-1#16)) = .ok (-1 / 256) := by
  refine ⟨rfl, ?_⟩
  rw [C30_asReal (by norm_num)]
  have : (-1#16).toInt = -1 := by decide
  rw [this]
  norm_num

/-! ### C31 negation, minimum and maximum -/

/-- **C31** Every value lies between `min()` and `max()`. -/
theorem C31_min_max (x : Fx w F) : (Fx.min w F).val ≤ x.val ∧ x.val ≤ (Fx.max w F).val := val_bounds x

/-- **C31** … which are `-2^(bits-1-F)` and `2^(bits-1-F) - 2^-F`. -/
theorem C31_min_max_val : (Fx.min w F).val = -2 ^ (w.bits - 1) * ulp F ∧
    (Fx.max w F).val = (2 ^ (w.bits - 1) - 1) * ulp F := by
  rw [min_val, max_val]
  unfold half ulp
  push_cast
  constructor <;> ring

/-- **C31** `-x` represents the negated number, and negating twice restores `x`, unless `x` is
`min()`. -/
theorem C31_neg (p : Platform) (x : Fx w F) (hx : x ≠ Fx.min w F) :
    ∃ y, neg p x = .ok y ∧ y.val = -x.val ∧ neg p y = .ok x := by
  have hlt : (Fx.min w F).val < x.val := lt_of_le_of_ne (val_bounds x).1 fun h => hx (val_inj h.symm)
  have h1 : -half w < x.storage.toInt := by
    rw [min_val, val, div_lt_div_iff_of_pos_right (by positivity), Int.cast_lt] at hlt
    exact hlt
  have h2 := rep_lt x
  have hn : ∀ (z : Fx w F), -half w < z.storage.toInt → z.storage.toInt < half w →
      neg p z = .ok (narrow w F (-z.storage.toInt)) := by
    intro z z1 z2
    unfold neg
    rw [checked_wide (arith_ge p w.bits) (by unfold half at z2; omega) (by unfold half at z1; omega)]
    rfl
  have e := narrow_rep (w := w) (F := F) (v := -x.storage.toInt) (by omega) (by omega)
  refine ⟨narrow w F (-x.storage.toInt), hn x h1 h2, ?_, ?_⟩
  · rw [neg_val_eq, val_narrow (by omega) (by omega)]
  · rw [hn _ (by omega) (by omega), e, neg_neg]
    congr 1
    ext1
    apply BitVec.toInt_inj.1
    exact narrow_rep h1.le h2

/-- **C31** `-min()` is `min()` if the representation is narrower than `int` … -/
theorem C31_neg_min_wraps (p : Platform) (hp : w.bits < p.intBits) :
    neg p (Fx.min w F) = .ok (Fx.min w F) := by
  have e : (Fx.min w F).storage.toInt = -half w :=
    BitVec.toInt_ofInt_eq_self w.bits_pos (le_refl _)
      (by have := half_pos w; unfold half at this; omega)
  have hh := half_pos w
  have h2 := wide_half (lt_of_lt_of_le hp (le_max_right w.bits p.intBits))
  unfold neg
  rw [e, neg_neg, checked_ok (by unfold Platform.arith; omega) (by unfold Platform.arith; omega), bind_ok]
  congr 1
  ext1
  apply BitVec.toInt_inj.1
  rw [narrow_above (le_refl _) (by omega), e]
  omega

/-- **C31** … and undefined otherwise. -/
theorem C31_neg_min_undefined (p : Platform) (hp : p.intBits ≤ w.bits) :
    neg p (Fx.min w F) = .error .overflow := by
  have e : (Fx.min w F).storage.toInt = -half w :=
    BitVec.toInt_ofInt_eq_self w.bits_pos (le_refl _)
      (by have := half_pos w; unfold half at this; omega)
  unfold neg
  rw [e, neg_neg, checked_err]
  · rfl
  · right
    unfold Platform.arith half
    rw [max_eq_left hp]

example : neg desktop (Fx.min .w16 8) = .ok (Fx.min .w16 8) ∧
    neg avr (Fx.min .w16 8) = .error .overflow ∧ neg desktop (Fx.min .w32 16) = .error .overflow ∧
    narrow .w16 8 (-3) ≠ Fx.min .w16 8 := by decide

end Verif
