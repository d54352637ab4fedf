import Verif.Spec.IeeeEncoding
import Verif.Model.Ieee

/-
C101: the numbers of the formats are those of IEEE 754.
-/

namespace Verif
open Ieee

/-- A format whose parameters are those of an interchange format. -/
private theorem rep_iff {f : Format} {w t : ℕ} {b : ℤ} (hw : 2 ≤ w) (hb : (2 ^ (w - 1) - 1 : ℤ) = b) (hp : f.p = t + 1)
    (hq : f.q = 1 - b - t) (ht : f.top = b - t) (x : ℚ) : Rep f x ↔ Encoded w t x := by
  have h2 : (0 : ℚ) < 2 := by norm_num
  have hb1 : 1 ≤ b := by
    obtain ⟨v, rfl⟩ : ∃ v, w = v + 2 := ⟨w - 2, by omega⟩
    have := one_le_pow₀ (n := v) (by norm_num : (1 : ℤ) ≤ 2)
    rw [show v + 2 - 1 = v + 1 by omega, pow_succ] at hb
    omega
  have hw2 : (2 : ℕ) ^ w - 1 = (2 * b + 1).toNat := by
    obtain ⟨v, rfl⟩ : ∃ v, w = v + 1 := ⟨w - 1, by omega⟩
    rw [show v + 1 - 1 = v by omega] at hb
    have : ((2 ^ (v + 1) : ℕ) : ℤ) = 2 * b + 2 := by rw [← hb]; push_cast; ring
    omega
  have hmax : f.max < 2 ^ (b + 1) := by
    rw [Format.max, hp, ht, sub_mul, ← zpow_natCast, ← zpow_add₀ h2.ne']
    have : (0 : ℚ) < 2 ^ (b - t) := zpow_pos h2 _
    rw [show ((t + 1 : ℕ) : ℤ) + (b - t) = b + 1 by push_cast; ring]
    linarith
  constructor
  · rintro ⟨⟨n, e, hn, he, hx⟩, hm⟩
    rw [hp] at hn
    rw [hq] at he
    obtain ⟨s, hs⟩ : ∃ s : Bool, x = (if s then -1 else 1) * |x| := by
      rcases le_total 0 x with h | h
      · exact ⟨false, by rw [abs_of_nonneg h]; simp⟩
      · exact ⟨true, by rw [abs_of_nonpos h]; simp⟩
    have hax : |x| = n.natAbs * 2 ^ e := by
      rw [hx, abs_mul, abs_of_pos (zpow_pos h2 e), ← Int.cast_abs, Nat.cast_natAbs]
    have hn' : n.natAbs < 2 ^ (t + 1) := by
      have : ((n.natAbs : ℕ) : ℤ) < ((2 ^ (t + 1) : ℕ) : ℤ) := by rw [Int.natCast_natAbs]; push_cast; exact hn
      exact_mod_cast this
    generalize n.natAbs = k at hax hn'
    rw [hax] at hm
    by_cases hsub : |x| < 2 ^ (1 - b)
    · have hk : k * 2 ^ (e - (1 - b - t)).toNat < 2 ^ t := by
        rw [hax] at hsub
        have h1 : (k : ℚ) * 2 ^ (e - (1 - b - t)) < 2 ^ (t : ℤ) := by
          have e1 : (2 : ℚ) ^ e = 2 ^ (e - (1 - b - t)) * 2 ^ (1 - b - t) := by rw [← zpow_add₀ h2.ne']; congr 1; ring
          have e2 : (2 : ℚ) ^ (1 - b) = 2 ^ (t : ℤ) * 2 ^ (1 - b - t) := by rw [← zpow_add₀ h2.ne']; congr 1; ring
          rw [e1, e2, ← mul_assoc] at hsub
          exact lt_of_mul_lt_mul_right hsub (zpow_pos h2 _).le
        rw [← Int.toNat_of_nonneg (by omega : 0 ≤ e - (1 - b - t)), zpow_natCast, zpow_natCast] at h1
        exact_mod_cast h1
      refine ⟨s, 0, _, by omega, hk, ?_⟩
      rw [field, if_pos rfl, hb]
      refine hs.trans (congrArg _ ?_)
      have e1 : (2 : ℚ) ^ e = 2 ^ (e - (1 - b - t)).toNat / 2 ^ t * 2 ^ (1 - b) := by
        rw [← zpow_natCast, Int.toNat_of_nonneg (by omega), ← zpow_natCast, ← zpow_sub₀ h2.ne', ← zpow_add₀ h2.ne']
        congr 1; ring
      rw [hax, e1]
      push_cast
      ring
    · rw [not_lt] at hsub
      have hx0 : 0 < |x| := (zpow_pos h2 _).trans_le hsub
      obtain ⟨L, hL1, hL2⟩ := exists_mem_Ico_zpow hx0 (by norm_num : (1 : ℚ) < 2)
      have hbL : 1 - b ≤ L := by
        by_contra h
        have := zpow_le_zpow_right₀ (by norm_num : (1 : ℚ) ≤ 2) (by omega : L + 1 ≤ 1 - b)
        linarith
      have hLb : L ≤ b := by
        by_contra h
        have := zpow_le_zpow_right₀ (by norm_num : (1 : ℚ) ≤ 2) (by omega : b + 1 ≤ L)
        rw [← hax] at hm
        linarith
      have heL : L - t ≤ e := by
        by_contra h
        have h1 : (2 : ℚ) ^ (t + 1) * 2 ^ e ≤ 2 ^ L := by
          rw [← zpow_natCast, ← zpow_add₀ h2.ne']
          exact zpow_le_zpow_right₀ (by norm_num) (by push_cast; omega)
        have h3 : (k : ℚ) < 2 ^ (t + 1) := by exact_mod_cast hn'
        have h4 := mul_lt_mul_of_pos_right h3 (zpow_pos h2 e)
        linarith
      have hxk : |x| = (k * 2 ^ (e - (L - t)).toNat : ℕ) * 2 ^ (L - t) := by
        rw [hax]
        push_cast
        rw [← zpow_natCast, Int.toNat_of_nonneg (by omega), mul_assoc, ← zpow_add₀ h2.ne']
        congr 2; ring
      generalize k * 2 ^ (e - (L - t)).toNat = j at hxk
      have hg : (0 : ℚ) < 2 ^ (L - t) := zpow_pos h2 _
      have hj1 : 2 ^ t ≤ j := by
        have : (2 : ℚ) ^ (t : ℤ) * 2 ^ (L - t) ≤ j * 2 ^ (L - t) := by
          rw [← hxk, ← zpow_add₀ h2.ne']
          exact (le_of_eq (by congr 1; ring)).trans hL1
        have := le_of_mul_le_mul_right this hg
        rw [zpow_natCast] at this
        exact_mod_cast this
      have hj2 : j < 2 ^ (t + 1) := by
        have : (j : ℚ) * 2 ^ (L - t) < 2 ^ ((t + 1 : ℕ) : ℤ) * 2 ^ (L - t) := by
          rw [← hxk, ← zpow_add₀ h2.ne']
          refine hL2.trans_le (le_of_eq (by congr 1; push_cast; ring))
        have := lt_of_mul_lt_mul_right this hg.le
        rw [zpow_natCast] at this
        exact_mod_cast this
      rw [pow_succ] at hj2
      refine ⟨s, (L + b).toNat, j - 2 ^ t, by omega, by omega, ?_⟩
      rw [field, if_neg (show ¬ (L + b).toNat = 0 by omega), hb]
      refine hs.trans (congrArg _ ?_)
      have e1 : (((L + b).toNat : ℕ) : ℤ) - b = L := by rw [Int.toNat_of_nonneg (by omega)]; ring
      have e2 : (2 : ℚ) ^ L = 2 ^ t * 2 ^ (L - t) := by
        rw [← zpow_natCast, ← zpow_add₀ h2.ne']; congr 1; ring
      rw [e1, hxk, e2, Nat.cast_sub hj1]
      push_cast
      field_simp
      ring
  · rintro ⟨s, E, m, hE, hm, rfl⟩
    have hs : |(if s then -1 else 1 : ℚ)| = 1 := by cases s <;> simp
    have hm' : (m : ℚ) + 1 ≤ 2 ^ t := by exact_mod_cast hm
    have hmax' : f.max = (2 ^ (t + 1) - 1) * 2 ^ (b - t) := by rw [Format.max, hp, ht]
    have key (j : ℕ) (e : ℤ) (hj : j < 2 ^ (t + 1)) (h1 : 1 - b - t ≤ e) (h2' : e ≤ b - t) :
        Rep f ((if s then -1 else 1) * (j * 2 ^ e)) := by
      refine ⟨⟨(if s then -1 else 1) * j, e, ?_, by rw [hq]; exact h1, ?_⟩, ?_⟩
      · rw [hp]
        have : |(if s then -1 else 1 : ℤ) * j| = j := by cases s <;> simp
        rw [this]
        exact_mod_cast hj
      · cases s <;> simp
      · rw [abs_mul, hs, one_mul, abs_of_nonneg (mul_nonneg (Nat.cast_nonneg _) (zpow_pos h2 _).le), hmax']
        have h3 : (j : ℚ) ≤ 2 ^ (t + 1) - 1 := by
          have : (j : ℚ) + 1 ≤ 2 ^ (t + 1) := by exact_mod_cast hj
          linarith
        have h4 := zpow_le_zpow_right₀ (by norm_num : (1 : ℚ) ≤ 2) h2'
        have h5 : (0 : ℚ) < 2 ^ e := zpow_pos h2 _
        have h6 : (0 : ℚ) ≤ 2 ^ (t + 1) - 1 := by
          have := one_le_pow₀ (n := t + 1) (by norm_num : (1 : ℚ) ≤ 2)
          linarith
        exact mul_le_mul h3 h4 h5.le h6
    rw [field, hb]
    by_cases hE0 : E = 0
    · rw [if_pos hE0]
      have := key m (1 - b - t) (by rw [pow_succ]; omega) le_rfl (by omega)
      rw [zpow_sub₀ h2.ne', zpow_natCast] at this
      rw [div_mul_eq_mul_div]
      rwa [mul_div_assoc'] at this
    · rw [if_neg hE0]
      have := key (2 ^ t + m) (E - b - t) (by rw [pow_succ]; omega) (by omega) (by omega)
      rw [zpow_sub₀ h2.ne', zpow_natCast] at this
      have e : ((2 ^ t + m : ℕ) : ℚ) * (2 ^ ((E : ℤ) - b) / 2 ^ t) = (1 + m / 2 ^ t) * 2 ^ ((E : ℤ) - b) := by
        push_cast
        field_simp
      rwa [e] at this

/-- C101: the numbers of `float` are the finite numbers of the 32-bit format of IEEE 754. -/
theorem C101_binary32 (x : ℚ) : (∃ a : Flt binary32, a.val = x) ↔ Encoded 8 23 x := by
  rw [← rep_iff (f := binary32) (w := 8) (t := 23) (b := 127) (by norm_num) (by norm_num) rfl rfl rfl]
  exact ⟨fun ⟨a, h⟩ => h ▸ a.rep, fun h => ⟨⟨x, h⟩, rfl⟩⟩

/-- C101: the numbers of `double` are the finite numbers of the 64-bit format of IEEE 754. -/
theorem C101_binary64 (x : ℚ) : (∃ a : Flt binary64, a.val = x) ↔ Encoded 11 52 x := by
  rw [← rep_iff (f := binary64) (w := 11) (t := 52) (b := 1023) (by norm_num) (by norm_num) rfl rfl rfl]
  exact ⟨fun ⟨a, h⟩ => h ▸ a.rep, fun h => ⟨⟨x, h⟩, rfl⟩⟩

/-- The encoding of 1.5 in `float` is 0x3FC00000. -/
example : field 8 23 false 127 4194304 = 3 / 2 := by norm_num [field]

end Verif
