import Verif.Spec.Accurate
import Verif.Props.FixedPoint

/-
C149: the accuracy of fixed point.
-/

namespace Verif
open Fx
variable {w : Width} {F : Nat}

/-- C149: with `F` fractional bits and at least `n ≤ F` integral ones besides the sign and one more, fixed point has accuracy 2^-n
on platforms whose left shift multiplies negative numbers. -/
theorem C149_fixed (p : Platform) (hs : p.strictShift = false) (n : Nat) (hn : n ≤ F) (hw : n + F + 1 < w.bits) :
    @Accurate (Fx w F) (cnum p w F) (fun x => (x.val : ℝ)) (1 / 2 ^ n) := by
  let _ := cnum p w F
  have hF : F < w.bits := by omega
  have hF' : F < w.promote := by cases w <;> (simp only [Width.bits, Width.promote] at *; omega)
  have hu : ulp F ≤ 1 / 2 ^ n := one_div_le_one_div_of_le (by positivity) (pow_le_pow_right₀ (by norm_num) hn)
  have hu' : 0 < ulp F := by unfold ulp; positivity
  have hh : (2 : ℚ) ^ n * 2 ^ F + 1 ≤ (half w : ℤ) := by
    have h1 : (2 : ℤ) ^ (n + F) * 2 ≤ half w := by
      rw [← pow_succ]; exact pow_mono (by omega)
    have h2 : (0 : ℤ) < 2 ^ (n + F) := by positivity
    have h3 : (2 : ℤ) ^ (n + F) + 1 ≤ half w := by omega
    rw [← pow_add]
    exact_mod_cast h3
  have hmax : (2 : ℚ) ^ n ≤ (Fx.max w F).val := by
    rw [max_val, le_div_iff₀ (by positivity)]
    push_cast
    linarith
  have hmin : (Fx.min w F).val ≤ -(2 : ℚ) ^ n := by
    rw [min_val, div_le_iff₀ (by positivity)]
    push_cast
    linarith
  have range {x : ℚ} (h : |(x : ℝ)| ≤ 1 / (1 / 2 ^ n)) : (Fx.min w F).val ≤ x ∧ x ≤ (Fx.max w F).val := by
    rw [one_div_one_div] at h
    have h' : |x| ≤ 2 ^ n := by exact_mod_cast h
    obtain ⟨h1, h2⟩ := abs_le.1 h'
    exact ⟨hmin.trans h1, h2.trans hmax⟩
  have close {c : Fx w F} {x : ℚ} (h : |c.val - x| ≤ ulp F) : |(c.val : ℝ) - x| ≤ 1 / 2 ^ n * (|(x : ℝ)| + 1) := by
    have h1 : |c.val - x| ≤ 1 / 2 ^ n * (|x| + 1) :=
      h.trans (hu.trans (le_mul_of_one_le_right (by positivity) (by linarith [abs_nonneg x])))
    have h2 : ((|c.val - x| : ℚ) : ℝ) ≤ ((1 / 2 ^ n * (|x| + 1) : ℚ) : ℝ) := Rat.cast_le.2 h1
    push_cast at h2
    exact h2
  have exact' {c : Fx w F} {x : ℚ} (h : c.val = x) : |(c.val : ℝ) - x| ≤ 1 / 2 ^ n * (|(x : ℝ)| + 1) :=
    close (by rw [h, sub_self, abs_zero]; exact hu'.le)
  refine ⟨?_, ?_, fun a b h => ?_, fun a b h => ?_, fun a b h => ?_, fun a b hb h => ?_, fun a h => ?_, fun a ha => ?_⟩
  · show ((narrow w F 0).val : ℝ) = 0
    rw [val_narrow (by linarith [half_pos w]) (half_pos w)]; simp
  · show ((narrow w F (2 ^ F)).val : ℝ) = 1
    have h1 : (2 : ℤ) ^ F < half w := pow_lt_pow_right₀ (by norm_num) (by omega)
    rw [val_narrow (by linarith [half_pos w, show (0 : ℤ) < 2 ^ F by positivity]) h1]
    push_cast
    rw [div_self (by positivity)]
  · obtain ⟨h1, h2⟩ := range (x := a.val + b.val) (by push_cast; exact h)
    obtain ⟨c, e, hc⟩ := C24_add_exact p a b h1 h2
    exact ⟨c, e, by have := exact' hc; push_cast at this; exact this⟩
  · obtain ⟨h1, h2⟩ := range (x := a.val - b.val) (by push_cast; exact h)
    obtain ⟨c, e, hc⟩ := C24_sub_exact p a b h1 h2
    exact ⟨c, e, by have := exact' hc; push_cast at this; exact this⟩
  · obtain ⟨h1, h2⟩ := range (x := a.val * b.val) (by push_cast; exact h)
    obtain ⟨c, e, hc1, hc2⟩ := C25_mul_rounds_down p hF' a b h1 (by linarith)
    exact ⟨c, e, by
      have := close (c := c) (x := a.val * b.val) (abs_le.2 ⟨by linarith, by linarith⟩)
      push_cast at this; exact this⟩
  · have hb' : b.val ≠ 0 := by exact_mod_cast hb
    obtain ⟨h1, h2⟩ := range (x := a.val / b.val) (by push_cast; exact h)
    obtain ⟨c, e, hc1, hc2, hc3⟩ := C26_div_truncates p hF a b hb' (.inl hs) (by linarith) (by linarith)
    refine ⟨c, e, ?_⟩
    have := close (c := c) (x := a.val / b.val) (by
      rcases le_or_gt 0 (a.val / b.val) with h0 | h0
      · rcases le_or_gt 0 c.val with h3 | h3
        · rw [abs_of_nonneg h0, abs_of_nonneg h3] at hc1 hc2
          exact abs_le.2 ⟨by linarith, by linarith⟩
        · have : a.val / b.val = 0 := by nlinarith
          rw [this, abs_zero] at hc1
          exact absurd (abs_nonpos_iff.1 hc1) h3.ne
      · rcases le_or_gt c.val 0 with h3 | h3
        · rw [abs_of_neg h0, abs_of_nonpos h3] at hc1 hc2
          exact abs_le.2 ⟨by linarith, by linarith⟩
        · nlinarith)
    push_cast at this
    exact this
  · obtain ⟨h1, h2⟩ := range (x := -a.val) (by push_cast; rwa [abs_neg])
    have hne : a ≠ Fx.min w F := fun e => by
      have h3 : -(Fx.min w F).val ≤ (Fx.max w F).val := by rw [← e]; exact h2
      rw [min_val, max_val, ← neg_div, div_le_div_iff_of_pos_right (by positivity)] at h3
      push_cast at h3
      linarith
    obtain ⟨c, e, hc, -⟩ := C31_neg p a hne
    exact ⟨c, e, by have := exact' hc; push_cast at this; rwa [abs_neg] at this⟩
  · exact (C27_ne _ _).2 fun h => ha (by
      rw [h, val_narrow (by linarith [half_pos w]) (half_pos w)]; simp)

/-- `fixed_point<int32_t,16,15>` has accuracy 2^-15, the type of the simulation, `fixed_point<int32_t,15,16>`, 2^-14. -/
example (p : Platform) (hs : p.strictShift = false) :
    @Accurate (Fx .w32 15) (cnum p _ _) (fun x => (x.val : ℝ)) (1 / 2 ^ 15) ∧
    @Accurate (Fx .w32 16) (cnum p _ _) (fun x => (x.val : ℝ)) (1 / 2 ^ 14) :=
  ⟨C149_fixed p hs 15 (by norm_num) (by decide), C149_fixed p hs 14 (by norm_num) (by decide)⟩

end Verif
