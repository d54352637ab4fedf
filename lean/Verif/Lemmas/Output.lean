import Verif.Spec.Output
import Verif.Model.Output

/- Reading the printed text of a number. -/

namespace Verif
namespace Output
open Ieee

/-- Decimal digits. -/
def Dig (c : Char) : Prop := ∃ k : Fin 10, c = Char.ofNat ('0'.toNat + k.val)

theorem digit_dig (n : Nat) : Dig (digit n) := ⟨⟨n % 10, Nat.mod_lt _ (by norm_num)⟩, rfl⟩

theorem dig_value : ∀ k : Fin 10, (Char.ofNat ('0'.toNat + k.val)).toNat - '0'.toNat = k.val := by
  decide

theorem dig_ne : ∀ k : Fin 10, ∀ c ∈ ['.', 'e', '-', '+', ' ', '\n', ',', '[', ']', '(', ')'],
    Char.ofNat ('0'.toNat + k.val) ≠ c := by
  decide

theorem Dig.ne {c d : Char} (h : Dig c)
    (hd : d ∈ ['.', 'e', '-', '+', ' ', '\n', ',', '[', ']', '(', ')']) : c ≠ d := by
  obtain ⟨k, rfl⟩ := h
  exact dig_ne k d hd

theorem digit_value (n : Nat) : (digit n).toNat - '0'.toNat = n % 10 :=
  dig_value ⟨n % 10, Nat.mod_lt _ (by norm_num)⟩

theorem zero_dig : Dig '0' := ⟨0, rfl⟩

theorem dec_dig {w n : Nat} : ∀ c ∈ dec w n, Dig c := by
  induction w generalizing n with
  | zero => intro c h; simp [dec] at h
  | succ w ih =>
    intro c h
    rw [dec, List.mem_append, List.mem_singleton] at h
    rcases h with h | rfl
    · exact ih c h
    · exact digit_dig n

theorem dec_length (w n : Nat) : (dec w n).length = w := by
  induction w generalizing n with
  | zero => rfl
  | succ w ih => simp [dec, ih]

theorem natValue_concat (t : Text) (c : Char) :
    natValue (t ++ [c]) = 10 * natValue t + (c.toNat - '0'.toNat) := by
  simp [natValue, List.foldl_append]

theorem natValue_dec (w n : Nat) : natValue (dec w n) = n % 10 ^ w := by
  induction w generalizing n with
  | zero => simp [dec, natValue, Nat.mod_one]
  | succ w ih =>
    rw [dec, natValue_concat, ih, digit_value, pow_succ', Nat.mod_mul]
    omega

theorem natValue_append (s t : Text) :
    natValue (s ++ t) = natValue s * 10 ^ t.length + natValue t := by
  induction t using List.reverseRecOn generalizing s with
  | nil => simp [natValue]
  | append_singleton t c ih =>
    rw [← List.append_assoc, natValue_concat, natValue_concat, ih, List.length_append,
      List.length_singleton, pow_succ]
    ring

theorem natValue_zeros (k : Nat) : natValue (List.replicate k '0') = 0 := by
  induction k with
  | zero => rfl
  | succ k ih =>
    rw [List.replicate_succ', natValue_concat, ih]
    decide

theorem takeWhile_stop {t r : Text} {c : Char} (h : c ∉ t) :
    (t ++ c :: r).takeWhile (· != c) = t ∧ ((t ++ c :: r).dropWhile (· != c)).drop 1 = r := by
  induction t with
  | nil => simp
  | cons x t ih =>
    simp only [List.mem_cons, not_or] at h
    have hx : (x != c) = true := by simpa using fun e => h.1 e.symm
    obtain ⟨h1, h2⟩ := ih h.2
    simp [hx, h1, h2]

theorem takeWhile_all {t : Text} {c : Char} (h : c ∉ t) :
    t.takeWhile (· != c) = t ∧ (t.dropWhile (· != c)).drop 1 = [] := by
  induction t with
  | nil => simp
  | cons x t ih =>
    simp only [List.mem_cons, not_or] at h
    have hx : (x != c) = true := by simpa using fun e => h.1 e.symm
    obtain ⟨h1, h2⟩ := ih h.2
    simp [hx, h1, h2]

/-- Only zeros are dropped. -/
theorem strip_eq (t : Text) :
    ∃ j, t = t.rdropWhile (· == '0') ++ List.replicate j '0' := by
  induction t using List.reverseRecOn with
  | nil => exact ⟨0, by simp⟩
  | append_singleton t c ih =>
    by_cases hc : c = '0'
    · obtain ⟨j, hj⟩ := ih
      refine ⟨j + 1, ?_⟩
      rw [List.rdropWhile_concat_pos _ _ _ (by simp [hc]), hc, List.replicate_succ', ← List.append_assoc,
        ← hj]
    · exact ⟨0, by rw [List.rdropWhile_concat_neg _ _ _ (by simp [hc])]; simp⟩

theorem strip_mem {t : Text} {c : Char} (h : c ∈ t.rdropWhile (· == '0')) : c ∈ t :=
  (List.rdropWhile_prefix _ _).subset h

theorem fraction_mem {t : Text} {c : Char} (h : c ∈ fraction t) : c = '.' ∨ c ∈ t := by
  unfold fraction at h
  split at h
  · simp at h
  · rcases List.mem_cons.1 h with h | h
    · exact .inl h
    · exact .inr (strip_mem h)

/-- Digits, point and digits. -/
theorem pointValue_fraction {s t : Text} (hs : ∀ c ∈ s, Dig c) :
    pointValue (s ++ fraction t) = natValue (s ++ t) / 10 ^ t.length := by
  have hp : '.' ∉ s := fun h => (hs _ h).ne (by simp) rfl
  obtain ⟨j, hj⟩ := strip_eq t
  have key : ∀ r : Text, t = r ++ List.replicate j '0' →
      (natValue (s ++ r) : ℚ) / 10 ^ r.length = natValue (s ++ t) / 10 ^ t.length := by
    intro r hr
    rw [hr, ← List.append_assoc, natValue_append (s ++ r), natValue_zeros, List.length_replicate,
      List.length_append, List.length_replicate, pow_add]
    push_cast
    field_simp
    ring
  unfold fraction
  split
  · rename_i h
    rw [h] at hj
    obtain ⟨h1, h2⟩ := takeWhile_all hp
    rw [List.append_nil]
    unfold pointValue
    rw [h1, h2]
    exact key [] hj
  · rename_i h _
    obtain ⟨h1, h2⟩ := takeWhile_stop (r := t.rdropWhile (· == '0')) hp
    unfold pointValue
    rw [h1, h2]
    exact key _ hj

theorem scaled_plain {t : Text} (h : 'e' ∉ t) : readNumber.scaled t = pointValue t := by
  obtain ⟨h1, h2⟩ := takeWhile_all h
  unfold readNumber.scaled
  rw [h1, h2]
  simp [intValue, natValue]

theorem intValue_exponent (e : Int) : intValue ((exponent e).drop 1) = e := by
  have h : natValue (dec (max 2 (Nat.log 10 e.natAbs + 1)) e.natAbs) = e.natAbs := by
    rw [natValue_dec, Nat.mod_eq_of_lt]
    refine (Nat.lt_pow_succ_log_self (b := 10) (by norm_num) _).trans_le ?_
    exact Nat.pow_le_pow_right (by norm_num) (le_max_right _ _)
  unfold exponent
  split
  · simp only [List.drop_one, List.tail_cons, intValue, h]
    omega
  · simp only [List.drop_one, List.tail_cons, intValue, h]
    omega

theorem scaled_exponent {t : Text} (h : 'e' ∉ t) (e : Int) :
    readNumber.scaled (t ++ exponent e) = pointValue t * 10 ^ e := by
  obtain ⟨h1, h2⟩ := takeWhile_stop (r := (exponent e).drop 1) h
  have he : exponent e = 'e' :: (exponent e).drop 1 := rfl
  unfold readNumber.scaled
  rw [he, h1, h2, intValue_exponent]

theorem readNumber_plain {c : Char} {t : Text} (h : Dig c) :
    readNumber (c :: t) = readNumber.scaled (c :: t) := by
  have := h.ne (d := '-') (by simp)
  unfold readNumber
  split
  · rename_i heq
    exact absurd (List.cons.inj heq).1 this
  · rfl

/-- A signed text. -/
theorem readNumber_sign {t : Text} (x : ℚ) (h : ∃ c r, t = c :: r ∧ Dig c) :
    readNumber ((if x < 0 then ['-'] else []) ++ t) =
      (if x < 0 then -1 else 1) * readNumber.scaled t := by
  obtain ⟨c, r, rfl, hc⟩ := h
  split
  · rw [neg_one_mul]; rfl
  · rw [one_mul]; exact readNumber_plain hc

theorem natValue_split {a b n : Nat} (h : n < 10 ^ (a + b)) :
    natValue (dec a (n / 10 ^ b) ++ dec b (n % 10 ^ b)) = n := by
  rw [natValue_append, natValue_dec, natValue_dec, dec_length, Nat.mod_mod,
    Nat.mod_eq_of_lt (Nat.div_lt_of_lt_mul (by rwa [← pow_add, Nat.add_comm])), Nat.mul_comm]
  exact Nat.div_add_mod n _

theorem dec_succ_cons (w n : Nat) : ∃ c r, dec (w + 1) n = c :: r ∧ Dig c := by
  cases h : dec (w + 1) n with
  | nil => simp [dec] at h
  | cons c r => exact ⟨c, r, rfl, dec_dig c (by rw [h]; simp)⟩

/-! ### The digits -/

theorem roundEven_nearest (y : ℚ) (k : ℤ) : |(roundEven y : ℚ) - y| ≤ |(k : ℚ) - y| := by
  have h1 := roundEven_near y
  by_cases h : k = roundEven y
  · rw [h]
  · have h2 : (1 : ℚ) ≤ |(k : ℚ) - roundEven y| := by
      rw [← Int.cast_sub, ← Int.cast_abs]
      exact_mod_cast Int.one_le_abs (sub_ne_zero.2 h)
    have h3 := abs_sub_le (k : ℚ) y (roundEven y)
    rw [abs_sub_comm y] at h3
    linarith

variable {x : ℚ}

/-- Position of the last printed digit. -/
def unit (x : ℚ) : ℚ := 10 ^ (Int.log 10 |x| - 5)

theorem unit_pos : 0 < unit x := by unfold unit; positivity

theorem log_bounds (hx : x ≠ 0) : 10 ^ 5 * unit x ≤ |x| ∧ |x| < 10 ^ 6 * unit x := by
  have h := Int.zpow_log_le_self (b := 10) (R := ℚ) (by norm_num) (abs_pos.2 hx)
  have h' := Int.lt_zpow_succ_log_self (b := 10) (R := ℚ) (by norm_num) |x|
  push_cast at h h'
  unfold unit
  constructor
  · rw [← zpow_natCast, ← zpow_add₀ (by norm_num),
      show ((5 : ℕ) : ℤ) + (Int.log 10 |x| - 5) = Int.log 10 |x| by omega]
    exact h
  · rw [← zpow_natCast, ← zpow_add₀ (by norm_num),
      show ((6 : ℕ) : ℤ) + (Int.log 10 |x| - 5) = Int.log 10 |x| + 1 by omega]
    exact h'

/-- The rounded multiple of the unit. -/
def rounded (x : ℚ) : ℤ := roundEven (|x| / unit x)

theorem rounded_bounds (hx : x ≠ 0) : 10 ^ 5 ≤ rounded x ∧ rounded x ≤ 10 ^ 6 := by
  obtain ⟨h1, h2⟩ := log_bounds hx
  have h3 := roundEven_near (|x| / unit x)
  have h4 : (10 : ℚ) ^ 5 ≤ |x| / unit x := (le_div_iff₀ unit_pos).2 h1
  have h5 : |x| / unit x < (10 : ℚ) ^ 6 := (div_lt_iff₀ unit_pos).2 h2
  rw [abs_le] at h3
  unfold rounded
  constructor
  · have : ((10 ^ 5 - 1 : ℤ) : ℚ) < roundEven (|x| / unit x) := by push_cast; linarith
    have := Int.cast_lt.1 this
    omega
  · have : (roundEven (|x| / unit x) : ℚ) < ((10 ^ 6 + 1 : ℤ) : ℚ) := by push_cast; linarith
    have := Int.cast_lt.1 this
    omega

theorem significant_eq (hx : x ≠ 0) : 10 ^ 5 ≤ (significant x).1 ∧ (significant x).1 < 10 ^ 6 ∧
    ((significant x).1 : ℚ) * 10 ^ ((significant x).2 - 5) = rounded x * unit x := by
  obtain ⟨h1, h2⟩ := rounded_bounds hx
  have hr : ((rounded x).toNat : ℤ) = rounded x := Int.toNat_of_nonneg (by omega)
  have hq : ((rounded x).toNat : ℚ) = rounded x := by exact_mod_cast hr
  unfold significant
  show 10 ^ 5 ≤ (if (rounded x).toNat = 10 ^ 6 then _ else ((rounded x).toNat, _)).1 ∧ 
    (if (rounded x).toNat = 10 ^ 6 then _ else ((rounded x).toNat, _)).1 < 10 ^ 6 ∧ 
    (((if (rounded x).toNat = 10 ^ 6 then _ else ((rounded x).toNat, _)).1 : ℕ) : ℚ) *
      10 ^ ((if (rounded x).toNat = 10 ^ 6 then _ else ((rounded x).toNat, _)).2 - 5) = _
  split
  · rename_i h
    refine ⟨le_rfl, by norm_num, ?_⟩
    rw [← hq, h]
    unfold unit
    simp only
    rw [show Int.log 10 |x| + 1 - 5 = (Int.log 10 |x| - 5) + 1 by ring, zpow_add_one₀ (by norm_num)]
    push_cast
    ring
  · rename_i h
    simp only
    refine ⟨by omega, by omega, ?_⟩
    rw [hq]
    rfl

/-- What the printed text stands for. -/
def printed (x : ℚ) : ℚ := if x = 0 then 0 else (if x < 0 then -1 else 1) * (rounded x * unit x)

theorem read_number (x : ℚ) : readNumber (number x) = printed x := by
  unfold number printed
  split
  · decide +kernel
  rename_i hx
  obtain ⟨h1, h2, h3⟩ := significant_eq hx
  rw [← h3]
  generalize (significant x).1 = n at *
  generalize (significant x).2 = e at *
  have hne (a b : Nat) : 'e' ∉ dec a (n / 10 ^ b) ++ fraction (dec b (n % 10 ^ b)) := by
    intro h
    rcases List.mem_append.1 h with h | h
    · exact (dec_dig _ h).ne (by simp) rfl
    · rcases fraction_mem h with h | h
      · exact absurd h (by decide)
      · exact (dec_dig _ h).ne (by simp) rfl
  dsimp only
  by_cases he : e < -4 ∨ 6 ≤ e
  · rw [if_pos he, readNumber_sign]
    · rw [scaled_exponent (hne 1 5), pointValue_fraction dec_dig, natValue_split h2, dec_length]
      congr 1
      rw [zpow_sub₀ (by norm_num), zpow_ofNat]
      ring
    · obtain ⟨c, r, h, hc⟩ := dec_succ_cons 0 (n / 10 ^ 5)
      exact ⟨c, _, by rw [h]; rfl, hc⟩
  · rw [if_neg he]
    simp only [not_or, not_lt, not_le] at he
    by_cases h0 : 0 ≤ e
    · rw [if_pos h0]
      obtain ⟨k, rfl⟩ := Int.eq_ofNat_of_zero_le h0
      simp only [Int.toNat_natCast]
      rw [readNumber_sign]
      · rw [scaled_plain (hne (k + 1) (5 - k)), pointValue_fraction dec_dig, natValue_split (by
          rwa [show k + 1 + (5 - k) = 6 by omega]), dec_length, div_eq_mul_inv, ← zpow_natCast,
          ← zpow_neg]
        congr 3
        omega
      · obtain ⟨c, r, h, hc⟩ := dec_succ_cons k (n / 10 ^ (5 - k))
        exact ⟨c, _, by rw [h]; rfl, hc⟩
    · rw [if_neg h0]
      obtain ⟨k, hk⟩ := Int.eq_ofNat_of_zero_le (a := -e - 1) (by omega)
      have hz : ∀ c ∈ List.replicate k '0' ++ dec 6 n, Dig c := by
        intro c h
        rcases List.mem_append.1 h with h | h
        · rw [List.eq_of_mem_replicate h]; exact zero_dig
        · exact dec_dig _ h
      rw [hk, Int.toNat_natCast, readNumber_sign _ ⟨_, _, rfl, zero_dig⟩, scaled_plain, ]
      · rw [show ('0' :: fraction (List.replicate k '0' ++ dec 6 n)) =
          ['0'] ++ fraction (List.replicate k '0' ++ dec 6 n) from rfl, pointValue_fraction (by
            intro c h; rw [List.mem_singleton.1 h]; exact zero_dig)]
        have : natValue (['0'] ++ (List.replicate k '0' ++ dec 6 n)) = n := by
          rw [natValue_append, natValue_append, natValue_zeros, natValue_dec,
            Nat.mod_eq_of_lt h2]
          simp [natValue]
        rw [this, List.length_append, List.length_replicate, dec_length, div_eq_mul_inv,
          ← zpow_natCast, ← zpow_neg]
        congr 3
        push_cast
        omega
      · intro h
        rcases List.mem_cons.1 h with h | h
        · exact absurd h (by decide)
        · rcases fraction_mem h with h | h
          · exact absurd h (by decide)
          · exact (hz _ h).ne (by simp) rfl

end Output
end Verif
