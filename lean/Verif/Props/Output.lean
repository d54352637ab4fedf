import Verif.Lemmas.Output

/-
Property C118: the text of a number (used by all of include/**/*-io.hpp).
-/

namespace Verif
open Output Ieee

/-! ## C118 Numbers are printed with six significant digits -/

private theorem nearest_abs {x : ℚ} (hx : x ≠ 0) {w : ℚ} (hw : SixDigits w) :
    |(rounded x : ℚ) * unit x - abs x| ≤ |w - abs x| := by
  have hu := unit_pos (x := x)
  have key (k : ℤ) : |(rounded x : ℚ) * unit x - abs x| ≤ |(k : ℚ) * unit x - abs x| := by
    have h := roundEven_nearest (|x| / unit x) k
    have e (a : ℚ) : |a * unit x - abs x| = |a - |x| / unit x| * unit x := by
      rw [← abs_of_pos hu, ← abs_mul, abs_of_pos hu, sub_mul, div_mul_cancel₀ _ hu.ne']
    rw [e, e]
    exact mul_le_mul_of_nonneg_right h hu.le
  obtain ⟨n, e, hn, rfl⟩ := hw
  by_cases he : Int.log 10 |x| - 5 ≤ e
  · obtain ⟨j, hj⟩ := Int.eq_ofNat_of_zero_le (sub_nonneg.2 he)
    have := key (n * 10 ^ j)
    rw [show (((n * 10 ^ j : ℤ)) : ℚ) * unit x = n * 10 ^ e by
      unfold unit
      rw [show e = (j : ℤ) + (Int.log 10 |x| - 5) by omega, zpow_add₀ (by norm_num), zpow_natCast]
      push_cast; ring] at this
    exact this
  · refine (key (10 ^ 5)).trans ?_
    obtain ⟨h1, -⟩ := log_bounds hx
    push_cast
    rw [abs_of_nonpos (by linarith)]
    have h2 : (n : ℚ) * 10 ^ e ≤ 10 ^ 5 * unit x := by
      have h3 : (n : ℚ) ≤ 10 ^ 6 := by
        have := (abs_lt.1 hn).2
        exact_mod_cast this.le
      calc (n : ℚ) * 10 ^ e ≤ 10 ^ 6 * 10 ^ e := by
            apply mul_le_mul_of_nonneg_right h3; positivity
        _ = 10 ^ 5 * 10 ^ (e + 1) := by rw [zpow_add_one₀ (by norm_num)]; ring
        _ ≤ 10 ^ 5 * unit x := by
            apply mul_le_mul_of_nonneg_left _ (by norm_num)
            exact zpow_le_zpow_right₀ (by norm_num) (by omega)
    have := neg_abs_le ((n : ℚ) * 10 ^ e - |x|)
    linarith

private theorem sign_abs {x : ℚ} : (if x < 0 then -1 else 1 : ℚ) * |x| = x ∧
    |(if x < 0 then -1 else 1 : ℚ)| = 1 := by
  split
  · rename_i h; rw [abs_of_neg h]; simp
  · rename_i h; rw [abs_of_nonneg (not_lt.1 h)]; simp

private theorem SixDigits.sign {w : ℚ} (hw : SixDigits w) (x : ℚ) :
    SixDigits ((if x < 0 then -1 else 1) * w) := by
  obtain ⟨n, e, hn, rfl⟩ := hw
  split
  · exact ⟨-n, e, by rwa [abs_neg], by push_cast; ring⟩
  · exact ⟨n, e, hn, by ring⟩

private theorem sign_error {x w : ℚ} :
    |(if x < 0 then -1 else 1) * w - x| = |w - abs x| := by
  obtain ⟨h1, h2⟩ := sign_abs (x := x)
  generalize (if x < 0 then -1 else 1 : ℚ) = s at *
  rw [← one_mul (abs (w - abs x)), ← h2, ← abs_mul, mul_sub, h1]

/-- C118: read as a decimal number, the text printed for a number has at most six significant digits,
and no number with at most six significant digits is nearer. -/
theorem C118_nearest (x : ℚ) : SixDigits (readNumber (number x)) ∧
    ∀ w, SixDigits w → |readNumber (number x) - x| ≤ |w - x| := by
  rw [read_number]
  unfold printed
  split
  · rename_i h
    subst h
    exact ⟨⟨0, 0, by norm_num, by norm_num⟩, fun w _ => by simp⟩
  · rename_i hx
    obtain ⟨-, h2, h3⟩ := significant_eq hx
    refine ⟨?_, fun w hw => ?_⟩
    · rw [← h3]
      refine SixDigits.sign ⟨(significant x).1, (significant x).2 - 5, ?_, by push_cast; rfl⟩ x
      rw [abs_of_nonneg (by positivity)]
      exact_mod_cast h2
    · rw [sign_error]
      have h := nearest_abs hx (hw.sign x)
      rcases lt_or_ge x 0 with hneg | hpos
      · rw [if_pos hneg] at h
        rw [abs_of_neg hneg] at h ⊢
        rwa [show -1 * w - -x = -(w - x) by ring, abs_neg] at h
      · rw [if_neg (not_lt.2 hpos), one_mul] at h
        rwa [abs_of_nonneg hpos] at h ⊢

/-- C118: so a number with at most six significant digits is printed exactly. -/
theorem C118_exact (x : ℚ) (h : SixDigits x) : readNumber (number x) = x := by
  have := (C118_nearest x).2 x h
  rw [sub_self, abs_zero] at this
  exact sub_eq_zero.1 (abs_nonpos_iff.1 this)

example : SixDigits (-0.000999001) := ⟨-999001, -9, by norm_num, by norm_num⟩

/-- C118: the relative error of the text is at most five millionths. -/
theorem C118_relative_error (x : ℚ) : |readNumber (number x) - x| ≤ 5 / 10 ^ 6 * |x| := by
  rw [read_number]
  unfold printed
  split
  · rename_i h; subst h; simp
  · rename_i hx
    rw [sign_error]
    have hu := unit_pos (x := x)
    have h1 := roundEven_near (|x| / unit x)
    have h2 := (log_bounds hx).1
    have e : |(rounded x : ℚ) * unit x - abs x| = |(rounded x : ℚ) - |x| / unit x| * unit x := by
      rw [← abs_of_pos hu, ← abs_mul, abs_of_pos hu, sub_mul, div_mul_cancel₀ _ hu.ne']
    rw [e]
    have h3 : |(rounded x : ℚ) - |x| / unit x| * unit x ≤ 1 / 2 * unit x :=
      mul_le_mul_of_nonneg_right h1 hu.le
    linarith

/-- C118: a larger number never has a smaller text. -/
theorem C118_monotone (x y : ℚ) (h : x ≤ y) : readNumber (number x) ≤ readNumber (number y) := by
  rcases h.eq_or_lt with rfl | h
  · exact le_rfl
  by_contra hlt
  push Not at hlt
  have h1 := (C118_nearest x).2 _ (C118_nearest y).1
  have h2 := (C118_nearest y).2 _ (C118_nearest x).1
  generalize readNumber (number x) = a at *
  generalize readNumber (number y) = b at *
  rcases abs_cases (b - x) with ⟨h5, _⟩ | ⟨h5, _⟩ <;>
    rcases abs_cases (a - y) with ⟨h6, _⟩ | ⟨h6, _⟩ <;>
    rcases abs_cases (a - x) with ⟨h7, _⟩ | ⟨h7, _⟩ <;>
    rcases abs_cases (b - y) with ⟨h8, _⟩ | ⟨h8, _⟩ <;> linarith

example : readNumber (number (1 / 3)) = 333333 / 10 ^ 6 := by decide +kernel

/-- C118: of two texts equally near, the one with even last digit is printed. -/
theorem C118_ties (k : Nat) (j : Int) (h1 : 10 ^ 5 ≤ k) (h2 : k < 10 ^ 6) :
    readNumber (number ((k + 1 / 2) * 10 ^ j)) = (if k % 2 = 0 then k else k + 1) * 10 ^ j := by
  have hk1 : (10 : ℚ) ^ 5 ≤ k := by exact_mod_cast h1
  have hk2 : (k : ℚ) + 1 ≤ 10 ^ 6 := by exact_mod_cast h2
  have hpos : (0 : ℚ) < (k + 1 / 2) * 10 ^ j := by positivity
  have hlog : Int.log 10 ((k + 1 / 2) * 10 ^ j : ℚ) = j + 5 := by
    apply le_antisymm
    · apply Int.lt_add_one_iff.1
      rw [← Int.lt_zpow_iff_log_lt (by norm_num) hpos]
      push_cast
      rw [show j + 5 + 1 = (6 : ℕ) + j by push_cast; ring, zpow_add₀ (by norm_num), zpow_natCast]
      apply mul_lt_mul_of_pos_right _ (by positivity)
      linarith
    · rw [← Int.zpow_le_iff_le_log (by norm_num) hpos]
      push_cast
      rw [show j + 5 = (5 : ℕ) + j by push_cast; ring, zpow_add₀ (by norm_num), zpow_natCast]
      apply mul_le_mul_of_nonneg_right _ (by positivity)
      linarith
  have hunit : unit ((k + 1 / 2) * 10 ^ j : ℚ) = 10 ^ j := by
    unfold unit
    rw [abs_of_pos hpos, hlog, add_sub_cancel_right]
  rw [read_number]
  unfold printed rounded
  rw [if_neg hpos.ne', if_neg (not_lt.2 hpos.le), one_mul, hunit, abs_of_pos hpos,
    mul_div_cancel_right₀ _ (by positivity)]
  congr 1
  have hf : ⌊(k + 1 / 2 : ℚ)⌋ = k := by
    rw [Int.floor_eq_iff]
    constructor <;> push_cast <;> linarith
  unfold roundEven
  rw [hf]
  push_cast
  rw [if_neg (by linarith), if_neg (by linarith)]
  by_cases hp : k % 2 = 0
  · rw [if_pos hp, if_pos (by omega)]
  · rw [if_neg hp, if_neg (by omega)]

example : readNumber (number ((123456 + 1 / 2) * 10 ^ (-2 : ℤ))) = 123456 * 10 ^ (-2 : ℤ) :=
  C118_ties 123456 (-2) (by norm_num) (by norm_num)

/-- C118: the text consists of digits, signs, point and `e`. -/
theorem C118_characters (x : ℚ) : ∀ c ∈ number x, c ∈ "0123456789.e+-".toList := by
  have hd : ∀ k : Fin 10, Char.ofNat ('0'.toNat + k.val) ∈ "0123456789.e+-".toList := by decide
  have hdec {a n : Nat} : ∀ c ∈ dec a n, c ∈ "0123456789.e+-".toList := by
    intro c h
    obtain ⟨k, rfl⟩ := dec_dig c h
    exact hd k
  have hfrac {t : Text} (ht : ∀ c ∈ t, c ∈ "0123456789.e+-".toList) :
      ∀ c ∈ fraction t, c ∈ "0123456789.e+-".toList := by
    intro c h
    rcases fraction_mem h with rfl | h
    · decide
    · exact ht c h
  have app {s t : Text} (hs : ∀ c ∈ s, c ∈ "0123456789.e+-".toList)
      (ht : ∀ c ∈ t, c ∈ "0123456789.e+-".toList) :
      ∀ c ∈ s ++ t, c ∈ "0123456789.e+-".toList := by
    intro c h
    rcases List.mem_append.1 h with h | h
    · exact hs c h
    · exact ht c h
  have hz (k : Nat) : ∀ c ∈ List.replicate k '0', c ∈ "0123456789.e+-".toList := by
    intro c h
    rw [List.eq_of_mem_replicate h]
    decide
  unfold number
  split
  · decide
  · apply app
    · split <;> decide
    · split
      · apply app (app hdec (hfrac hdec))
        unfold exponent
        intro c h
        rcases List.mem_cons.1 h with rfl | h
        · decide
        rcases List.mem_cons.1 h with rfl | h
        · split <;> decide
        · exact hdec c h
      · split
        · exact app hdec (hfrac hdec)
        · intro c h
          rcases List.mem_cons.1 h with rfl | h
          · decide
          · exact hfrac (app (hz _) hdec) c h

/-- C118: an exponent is printed exactly for numbers that round below 0.0001 or to 1000000 and more. -/
theorem C118_exponent (x : ℚ) : 'e' ∈ number x ↔ x ≠ 0 ∧
    (|readNumber (number x)| < 1 / 10 ^ 4 ∨ 10 ^ 6 ≤ |readNumber (number x)|) := by
  by_cases hx : x = 0
  · subst hx
    simp [number]
  have hv : |readNumber (number x)| = (significant x).1 * 10 ^ ((significant x).2 - 5) := by
    rw [read_number]
    unfold printed
    rw [if_neg hx, abs_mul, sign_abs.2, one_mul, ← (significant_eq hx).2.2]
    exact abs_of_nonneg (by positivity)
  obtain ⟨h1, h2, -⟩ := significant_eq hx
  rw [hv]
  have hno {a m : Nat} : 'e' ∉ dec a m := fun h => (dec_dig _ h).ne (by simp) rfl
  have hnf {t : Text} (ht : 'e' ∉ t) : 'e' ∉ fraction t := by
    intro h
    rcases fraction_mem h with h | h
    · exact absurd h (by decide)
    · exact ht h
  have hs : 'e' ∉ (if x < 0 then ['-'] else []) := by split <;> decide
  unfold number
  rw [if_neg hx]
  generalize (significant x).1 = n at *
  generalize (significant x).2 = e at *
  have hn1 : (10 : ℚ) ^ 5 ≤ n := by exact_mod_cast h1
  have hn2 : (n : ℚ) < 10 ^ 6 := by exact_mod_cast h2
  have hp : (0 : ℚ) < 10 ^ (e - 5) := by positivity
  have lo : (10 : ℚ) ^ e ≤ n * 10 ^ (e - 5) := by
    have : (10 : ℚ) ^ e = 10 ^ 5 * 10 ^ (e - 5) := by
      rw [← zpow_natCast, ← zpow_add₀ (by norm_num)]
      congr 1; push_cast; ring
    rw [this]
    exact mul_le_mul_of_nonneg_right hn1 hp.le
  have hi : n * 10 ^ (e - 5) < (10 : ℚ) ^ (e + 1) := by
    rw [show e + 1 = (6 : ℕ) + (e - 5) by push_cast; ring, zpow_add₀ (by norm_num), zpow_natCast]
    exact mul_lt_mul_of_pos_right hn2 hp
  dsimp only
  by_cases he : e < -4 ∨ 6 ≤ e
  · rw [if_pos he]
    refine iff_of_true (by simp [exponent]) ⟨hx, ?_⟩
    rcases he with he | he
    · refine .inl (hi.trans_le ?_)
      calc (10 : ℚ) ^ (e + 1) ≤ 10 ^ (-4 : ℤ) := zpow_le_zpow_right₀ (by norm_num) (by omega)
        _ = 1 / 10 ^ 4 := by norm_num
    · refine .inr (le_trans ?_ lo)
      calc (10 : ℚ) ^ 6 = 10 ^ (6 : ℤ) := by norm_num
        _ ≤ 10 ^ e := zpow_le_zpow_right₀ (by norm_num) he
  · rw [if_neg he]
    simp only [not_or, not_lt, not_le] at he
    refine iff_of_false ?_ ?_
    · intro h
      rcases List.mem_append.1 h with h | h
      · exact hs h
      split at h
      · rcases List.mem_append.1 h with h | h
        · exact hno h
        · exact hnf hno h
      · rcases List.mem_cons.1 h with h | h
        · exact absurd h (by decide)
        · refine hnf ?_ h
          intro h
          rcases List.mem_append.1 h with h | h
          · exact absurd (List.eq_of_mem_replicate h) (by decide)
          · exact hno h
    · rintro ⟨-, h | h⟩
      · have : (1 : ℚ) / 10 ^ 4 ≤ 10 ^ e := by
          calc (1 : ℚ) / 10 ^ 4 = 10 ^ (-4 : ℤ) := by norm_num
            _ ≤ 10 ^ e := zpow_le_zpow_right₀ (by norm_num) he.1
        linarith
      · have : (10 : ℚ) ^ (e + 1) ≤ 10 ^ 6 := by
          calc (10 : ℚ) ^ (e + 1) ≤ 10 ^ (6 : ℤ) := zpow_le_zpow_right₀ (by norm_num) (by omega)
            _ = 10 ^ 6 := by norm_num
        linarith

/-- C118: the digits after the decimal point do not end in zero, and there is at least one. -/
theorem C118_no_trailing_zero (x : ℚ) (h : '.' ∈ number x) :
    ∃ s d r, number x = s ++ d :: r ∧ '.' ∈ s ∧ d ≠ '.' ∧ d ≠ '0' ∧ (r = [] ∨ r.head? = some 'e') := by
  have hno {a m : Nat} : '.' ∉ dec a m := fun h => (dec_dig _ h).ne (by simp) rfl
  have hexp (e : Int) : '.' ∉ exponent e := by
    intro h
    unfold exponent at h
    rcases List.mem_cons.1 h with h | h
    · exact absurd h (by decide)
    rcases List.mem_cons.1 h with h | h
    · revert h; split <;> decide
    · exact hno h
  have hs : '.' ∉ (if x < 0 then ['-'] else []) := by split <;> decide
  have key {t : Text} (ht : ∀ c ∈ t, Dig c) (h : '.' ∈ fraction t) :
      ∃ s d, fraction t = '.' :: s ++ [d] ∧ d ≠ '.' ∧ d ≠ '0' := by
    unfold fraction at h ⊢
    split at h
    · simp at h
    · rename_i hne
      refine ⟨(t.rdropWhile (· == '0')).dropLast, (t.rdropWhile (· == '0')).getLast hne, ?_, ?_, ?_⟩
      · rw [List.cons_append, List.dropLast_append_getLast]
      · exact (ht _ (strip_mem (List.getLast_mem hne))).ne (by simp)
      · have := List.rdropWhile_last_not _ _ hne
        simpa using this
  unfold number at h ⊢
  split at h
  · simp at h
  rename_i hx
  rw [if_neg hx]
  dsimp only at h ⊢
  generalize (significant x).1 = n at *
  generalize (significant x).2 = e at *
  generalize (if x < 0 then ['-'] else []) = sg at *
  by_cases he : e < -4 ∨ 6 ≤ e
  · rw [if_pos he] at h ⊢
    have hf : '.' ∈ fraction (dec 5 (n % 10 ^ 5)) := by
      simp only [List.mem_append] at h
      rcases h with h | (h | h) | h
      · exact absurd h hs
      · exact absurd h hno
      · exact h
      · exact absurd h (hexp e)
    obtain ⟨s, d, e1, e2, e3⟩ := key dec_dig hf
    refine ⟨sg ++ dec 1 (n / 10 ^ 5) ++ '.' :: s, d, exponent e, ?_, by simp, e2, e3, .inr rfl⟩
    rw [e1]; simp
  · rw [if_neg he] at h ⊢
    by_cases h0 : 0 ≤ e
    · rw [if_pos h0] at h ⊢
      have hf : '.' ∈ fraction (dec (5 - e.toNat) (n % 10 ^ (5 - e.toNat))) := by
        simp only [List.mem_append] at h
        rcases h with h | h | h
        · exact absurd h hs
        · exact absurd h hno
        · exact h
      obtain ⟨s, d, e1, e2, e3⟩ := key dec_dig hf
      refine ⟨sg ++ dec (e.toNat + 1) (n / 10 ^ (5 - e.toNat)) ++ '.' :: s, d, [], ?_, by simp, e2, e3,
        .inl rfl⟩
      rw [e1]; simp
    · rw [if_neg h0] at h ⊢
      have hf : '.' ∈ fraction (List.replicate (-e - 1).toNat '0' ++ dec 6 n) := by
        simp only [List.mem_append, List.mem_cons] at h
        rcases h with h | h | h
        · exact absurd h hs
        · exact absurd h (by decide)
        · exact h
      obtain ⟨s, d, e1, e2, e3⟩ := key (by
        intro c hc
        rcases List.mem_append.1 hc with hc | hc
        · rw [List.eq_of_mem_replicate hc]; exact zero_dig
        · exact dec_dig _ hc) hf
      refine ⟨sg ++ '0' :: '.' :: s, d, [], ?_, by simp, e2, e3, .inl rfl⟩
      rw [e1]; simp

example : '.' ∈ number (1 / 2) ∧ 'e' ∈ number (-2 / 30000000) ∧
    number (-2 / 30000000) = "-6.66667e-08".toList := by decide +kernel

theorem Output.dec_cons (w n : Nat) : dec (w + 1) n = digit (n / 10 ^ w) :: dec w n := by
  induction w generalizing n with
  | zero => simp [dec]
  | succ w ih =>
    rw [dec, ih, dec, List.cons_append, Nat.div_div_eq_div_mul, pow_succ, Nat.mul_comm]

theorem Output.digit_ne_zero {k : Nat} (h0 : 1 ≤ k) (h : k < 10) : digit k ≠ '0' := by
  intro e
  have := digit_value k
  rw [e, Nat.mod_eq_of_lt h] at this
  simp at this
  omega

/-- C118: in the notation with exponent there is one digit before the point, which is not 0, and the exponent has a sign
and at least two digits, of three or more the first not 0. -/
theorem C118_scientific (x : ℚ) (h : 'e' ∈ number x) :
    ∃ d frac s k r, number x = (if x < 0 then ['-'] else []) ++ d :: frac ++ 'e' :: s :: k :: r ∧ d ≠ '0' ∧ Dig d ∧
      (∀ c ∈ frac, c = '.' ∨ Dig c) ∧ (frac = [] ∨ frac.head? = some '.') ∧ (s = '+' ∨ s = '-') ∧ Dig k ∧ (∀ c ∈ r, Dig c) ∧
      1 ≤ r.length ∧ (2 ≤ r.length → k ≠ '0') := by
  have hno {a m : Nat} : 'e' ∉ dec a m := fun h => (dec_dig _ h).ne (by simp) rfl
  have hs : 'e' ∉ (if x < 0 then ['-'] else []) := by split <;> decide
  have hf {t : Text} (ht : ∀ c ∈ t, Dig c) : ∀ c ∈ fraction t, c = '.' ∨ Dig c :=
    fun c hc => (fraction_mem hc).imp_right (ht c)
  have hfe {t : Text} (ht : ∀ c ∈ t, Dig c) : 'e' ∉ fraction t := fun hc => by
    rcases hf ht _ hc with hc | hc
    · exact absurd hc (by decide)
    · exact hc.ne (by simp) rfl
  unfold number at h ⊢
  split at h
  · simp at h
  rename_i hx
  rw [if_neg hx]
  obtain ⟨g1, g2, -⟩ := significant_eq hx
  dsimp only at h ⊢
  generalize (significant x).1 = n at *
  generalize (significant x).2 = e at *
  generalize (if x < 0 then ['-'] else []) = sg at *
  by_cases he : e < -4 ∨ 6 ≤ e
  · rw [if_pos he] at h ⊢
    have hd : (dec (max 2 (Nat.log 10 e.natAbs + 1)) e.natAbs).length = max 2 (Nat.log 10 e.natAbs + 1) := dec_length _ _
    obtain ⟨w, hw⟩ : ∃ w, max 2 (Nat.log 10 e.natAbs + 1) = w + 1 := ⟨max 2 (Nat.log 10 e.natAbs + 1) - 1, by omega⟩
    refine ⟨digit (n / 10 ^ 5), fraction (dec 5 (n % 10 ^ 5)), if e < 0 then '-' else '+', digit (e.natAbs / 10 ^ w),
      dec w e.natAbs, ?_, digit_ne_zero ?_ ?_, digit_dig _, hf dec_dig, ?_, ?_, digit_dig _, dec_dig, ?_, ?_⟩
    · rw [exponent, hw, dec_cons w]
      simp [dec]
    · exact (Nat.le_div_iff_mul_le (by norm_num)).2 (by omega)
    · exact Nat.div_lt_of_lt_mul (by omega)
    · unfold fraction
      split
      · exact .inl rfl
      · exact .inr rfl
    · split
      · exact .inr rfl
      · exact .inl rfl
    · rw [dec_length]; omega
    · rw [dec_length]
      intro h2
      have hl : w = Nat.log 10 e.natAbs := by omega
      have h0 : e.natAbs ≠ 0 := by omega
      rw [hl]
      refine digit_ne_zero ((Nat.le_div_iff_mul_le (by positivity)).2 ?_) (Nat.div_lt_of_lt_mul ?_)
      · rw [one_mul]; exact Nat.pow_log_le_self 10 h0
      · rw [← pow_succ]; exact Nat.lt_pow_succ_log_self (by norm_num) _
  · exfalso
    rw [if_neg he] at h
    split at h
    · simp only [List.mem_append] at h
      rcases h with h | h | h
      · exact hs h
      · exact hno h
      · exact hfe dec_dig h
    · simp only [List.mem_append, List.mem_cons] at h
      rcases h with h | h | h
      · exact hs h
      · exact absurd h (by decide)
      · refine hfe (fun c hc => ?_) h
        rcases List.mem_append.1 hc with hc | hc
        · rw [List.eq_of_mem_replicate hc]; exact zero_dig
        · exact dec_dig _ hc

/-- C118: without exponent the digits before the point are `0` or do not begin with 0. -/
theorem C118_plain (x : ℚ) (h : 'e' ∉ number x) :
    ∃ d r frac, number x = (if x < 0 then ['-'] else []) ++ d :: r ++ frac ∧ (∀ c ∈ d :: r, Dig c) ∧ (d = '0' → r = []) ∧
      (∀ c ∈ frac, c = '.' ∨ Dig c) ∧ (frac = [] ∨ frac.head? = some '.') := by
  have hf {t : Text} (ht : ∀ c ∈ t, Dig c) : ∀ c ∈ fraction t, c = '.' ∨ Dig c :=
    fun c hc => (fraction_mem hc).imp_right (ht c)
  have hh (t : Text) : fraction t = [] ∨ (fraction t).head? = some '.' := by
    unfold fraction
    split
    · exact .inl rfl
    · exact .inr rfl
  unfold number at h ⊢
  split at h
  · rename_i hx
    subst hx
    exact ⟨'0', [], [], by simp, by simp [zero_dig], fun _ => rfl, by simp, .inl rfl⟩
  rename_i hx
  rw [if_neg hx]
  obtain ⟨g1, g2, -⟩ := significant_eq hx
  dsimp only at h ⊢
  generalize (significant x).1 = n at *
  generalize (significant x).2 = e at *
  by_cases he : e < -4 ∨ 6 ≤ e
  · rw [if_pos he] at h
    exact absurd (by simp [exponent]) h
  · rw [if_neg he] at h ⊢
    by_cases h0 : 0 ≤ e
    · rw [if_pos h0]
      refine ⟨digit (n / 10 ^ (5 - e.toNat) / 10 ^ e.toNat), dec e.toNat (n / 10 ^ (5 - e.toNat)),
        fraction (dec (5 - e.toNat) (n % 10 ^ (5 - e.toNat))), ?_, ?_, ?_, hf dec_dig, hh _⟩
      · rw [dec_cons]; simp
      · intro c hc
        rcases List.mem_cons.1 hc with rfl | hc
        · exact digit_dig _
        · exact dec_dig _ hc
      · intro hd
        have e5 : 10 ^ (5 - e.toNat) * 10 ^ e.toNat = 10 ^ 5 := by rw [← pow_add]; congr 1; omega
        rw [Nat.div_div_eq_div_mul, e5] at hd
        exact absurd hd (digit_ne_zero ((Nat.le_div_iff_mul_le (by norm_num)).2 (by omega)) (Nat.div_lt_of_lt_mul (by omega)))
    · rw [if_neg h0]
      refine ⟨'0', [], fraction (List.replicate (-e - 1).toNat '0' ++ dec 6 n), by simp, by simp [zero_dig], fun _ => rfl,
        hf fun c hc => ?_, hh _⟩
      rcases List.mem_append.1 hc with hc | hc
      · rw [List.eq_of_mem_replicate hc]; exact zero_dig
      · exact dec_dig _ hc

example : number (10 ^ 100) = "1e+100".toList ∧ number 1000000 = "1e+06".toList ∧ number 120 = "120".toList := by
  decide +kernel

end Verif
