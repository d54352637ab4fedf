import Mathlib.Data.List.Induction
import Verif.Spec.AtmegaEnums
import Verif.Lemmas.AtmegaDrivers

/- Lemmas about enumerators and codes. -/

namespace Verif
open Mcu Mcu.Atmega Mcu.Datasheet Mcu.Datasheet.Bit

/-- The number in bits that hold the digits of a number. -/
theorem numeral_eq (m : Nat → Byte) (bs : List Bit) (v : Nat)
    (h : ∀ k b, bs[k]? = some b → ∃ a i, pos b = some (a, i) ∧ (m a).getLsbD i = v.testBit (bs.length - 1 - k)) :
    numeral m bs = v % 2 ^ bs.length := by
  induction bs using List.reverseRecOn generalizing v with
  | nil => simp [numeral, Nat.mod_one]
  | append_singleton bs b ih =>
    obtain ⟨a, i, h1, h2⟩ := h bs.length b (by simp)
    have h3 := ih (v / 2) fun k c hk => by
      have hlt : k < bs.length := (List.getElem?_eq_some_iff.1 hk).1
      obtain ⟨a, i, h1, h2⟩ := h k c (by rw [List.getElem?_append_left hlt, hk])
      refine ⟨a, i, h1, ?_⟩
      rw [h2, Nat.testBit_div_two]
      congr 1
      simp only [List.length_append, List.length_singleton]
      omega
    rw [numeral, List.foldl_append, List.foldl_cons, List.foldl_nil, ← numeral, h3, h1]
    have h4 : bs.length + 1 - 1 - bs.length = 0 := by omega
    simp only [List.length_append, List.length_singleton, h4] at h2
    simp only [h2, List.length_append, List.length_singleton, Nat.testBit_zero]
    rw [pow_succ, mul_comm (2 ^ bs.length) 2, Nat.mod_mul]
    rcases Nat.mod_two_eq_zero_or_one v with h5 | h5 <;> simp [h5, add_comm]

/-- The tables: values of enumerators, codes of the datasheet, meaning of names. -/
theorem enumerated_ok : ∀ p ∈ enumerated, (p.1, p.2.1) ∈ settingBits ∧ p.1.setter.w = .w8 ∧
    ∀ e ∈ enum.values 0 p.2.2.1, e.2 < 2 ^ p.2.1.length ∧ e.2 < 256 ∧ (p.2.2.2.2 e.1).isSome ∧
      p.2.2.2.1 e.2 = p.2.2.2.2 e.1 := by decide +kernel

theorem getElem_ofNat8 (n j : Nat) (hj : j < 8) : (BitVec.ofNat 8 n)[j] = n.testBit j := by
  rw [← BitVec.getLsbD_eq_getElem, BitVec.getLsbD_ofNat, decide_eq_true hj, Bool.true_and]

end Verif
