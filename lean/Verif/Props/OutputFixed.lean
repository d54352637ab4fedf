import Verif.Props.FixedFloat
import Verif.Props.Output

/-
Property C120: the text of a fixed-point number (include/num/fixed-point-io.hpp).
-/

namespace Verif
open Ieee Fx Output

variable {w : Width} {F : Nat}

/-! ## C120 Fixed-point numbers as text -/

/-- C120: what is printed is the decimal text of the number represented. -/
theorem C120_print (hF : F ≤ 62) (x : Fx w F) : x.print = .ok (number x.val) := by
  obtain ⟨d, hd, hd'⟩ := C119_as_double hF x
  unfold Fx.print
  rw [hd, bind_ok]
  unfold float
  rw [hd']

private theorem print_error (x : Fx w F) (hx : |x.storage.toInt| < 10 ^ 5) :
    |readNumber (number x.val) - x.val| < ulp F / 2 := by
  have hp : (0 : ℚ) < 2 ^ F := by positivity
  refine (C118_relative_error x.val).trans_lt ?_
  have h : |(x.storage.toInt : ℚ)| < 10 ^ 5 := by exact_mod_cast hx
  unfold val ulp
  rw [abs_div, abs_of_pos hp, div_right_comm, ← mul_div_assoc]
  exact div_lt_div_of_pos_right (by linarith) hp

/-- C120: reading the text back gives the number printed, if its representation is below 100000. -/
theorem C120_roundtrip (hF : F < w.bits) (x : Fx w F) (hx : |x.storage.toInt| < 10 ^ 5) :
    ∃ t, x.print = .ok t ∧ ofReal w F (readNumber t : ℚ) = .ok x := by
  have hF' : F ≤ 62 := by cases w <;> simp only [Width.bits] at hF <;> omega
  refine ⟨_, C120_print hF' x, ?_⟩
  set v := readNumber (number x.val)
  have he : |v - x.val| < ulp F / 2 := print_error x hx
  have he1 : |(v : ℝ) - x.val| < (ulp F : ℝ) / 2 := by exact_mod_cast he
  have he2 := abs_lt.1 he1
  obtain ⟨b1, b2⟩ := val_bounds x
  have b1' : ((Fx.min w F).val : ℝ) ≤ x.val := by exact_mod_cast b1
  have b2' : (x.val : ℝ) ≤ (Fx.max w F).val := by exact_mod_cast b2
  obtain ⟨y, hy, h, -⟩ := C29_ofReal_nearest hF (v : ℝ) (by linarith) (by linarith)
  rw [hy]
  congr 1
  have h' : |y.val - v| ≤ ulp F / 2 := by exact_mod_cast h
  have h1 : |y.val - x.val| < ulp F := by
    have e : y.val - x.val = (y.val - v) + (v - x.val) := by ring
    rw [e]
    exact (abs_add_le _ _).trans_lt (by linarith)
  have hp : (0 : ℚ) < 2 ^ F := by positivity
  have e : y.val - x.val = ((y.storage.toInt - x.storage.toInt : Int) : ℚ) / 2 ^ F := by
    unfold val; push_cast; ring
  rw [e, abs_div, abs_of_pos hp, ulp, div_lt_div_iff_of_pos_right hp] at h1
  have h2 : |y.storage.toInt - x.storage.toInt| < 1 := by exact_mod_cast h1
  ext1
  apply BitVec.toInt_inj.1
  have := abs_lt.1 h2
  omega

/-- C120: all numbers of 8 and 16 bits survive printing and reading. -/
theorem C120_roundtrip_small (hw : w ≠ .w32) (hF : F < w.bits) (x : Fx w F) :
    ∃ t, x.print = .ok t ∧ ofReal w F (readNumber t : ℚ) = .ok x := by
  refine C120_roundtrip hF x ?_
  have h1 := rep_ge x
  have h2 := rep_lt x
  have h3 : half w ≤ 32768 := by cases w <;> first | decide | exact absurd rfl hw
  exact abs_lt.2 ⟨by omega, by omega⟩

/-- C120: different numbers of 8 or 16 bits have different texts. -/
theorem C120_injective (hw : w ≠ .w32) (hF : F < w.bits) (x y : Fx w F) (h : x.print = y.print) : x = y := by
  obtain ⟨t, h1, h2⟩ := C120_roundtrip_small hw hF x
  obtain ⟨u, h3, h4⟩ := C120_roundtrip_small hw hF y
  rw [h1, h3, Except.ok.injEq] at h
  subst h
  rw [h2, Except.ok.injEq] at h4
  exact h4

/-- C120: the order of the texts' values is that of the numbers. -/
theorem C120_monotone (hF : F ≤ 62) (x y : Fx w F) (h : x.val ≤ y.val) :
    ∃ s t, x.print = .ok s ∧ y.print = .ok t ∧ readNumber s ≤ readNumber t :=
  ⟨_, _, C120_print hF x, C120_print hF y, C118_monotone _ _ h⟩

/-- C120: with 32 bits different numbers may have the same text. -/
theorem C120_injective_wrong : ∃ x y : Fx .w32 15, x ≠ y ∧ x.print = y.print ∧ x.print = .ok "10".toList := by
  refine ⟨narrow _ _ 327680, narrow _ _ 327681, by decide, ?_⟩
  have e1 : (narrow .w32 15 327680).print = .ok "10".toList := by
    rw [C120_print (by omega), val_narrow (by decide) (by decide)]
    decide +kernel
  have e2 : (narrow .w32 15 327681).print = .ok "10".toList := by
    rw [C120_print (by omega), val_narrow (by decide) (by decide)]
    decide +kernel
  exact ⟨e1.trans e2.symm, e1⟩

example : (8 : Nat) < Width.w16.bits ∧ |(narrow .w16 8 (-77)).storage.toInt| < 10 ^ 5 ∧
    (narrow .w16 8 (-77)).print = .ok "-0.300781".toList := by
  refine ⟨by decide, by decide, ?_⟩
  rw [C120_print (by omega), val_narrow (by decide) (by decide)]
  decide +kernel

end Verif
