import Verif.Lemmas.AtmegaEnums
import Verif.Props.AtmegaRegs
import Verif.Props.Atmega

/-
Property C93: the enumerators of the ATmega328 drivers select what their names say.
-/

namespace Verif
open Mcu Mcu.Atmega Mcu.Datasheet Mcu.Datasheet.Bit

/-- After `set( x );` with an enumerator `x`, the bits of the field select what the name of the enumerator says. -/
theorem C93_set : ∀ p ∈ enumerated, ∀ e ∈ enum.values 0 p.2.2.1, ∀ s : Chip,
    ∃ s' x, p.2.2.2.2 e.1 = some x ∧ p.1.set (chip w1c) (BitVec.ofNat _ e.2) s = .ok ((), s') ∧
      p.2.2.2.1 (numeral s'.mem p.2.1) = some x := by
  intro p hp e he s
  obtain ⟨h1, hw, h2⟩ := enumerated_ok p hp
  obtain ⟨h3, h4, h5, h6⟩ := h2 e he
  obtain ⟨x, hx⟩ := Option.isSome_iff_exists.1 h5
  have hv : (BitVec.ofNat p.1.setter.w.bits e.2).toNat = e.2 := by
    rw [BitVec.toNat_ofNat, Nat.mod_eq_of_lt]
    rw [hw]
    exact h4
  obtain ⟨s', h7, h8, -⟩ := C90_set _ h1 (BitVec.ofNat _ e.2) (by rw [hv]; exact h3) s
  refine ⟨s', x, hx, h7, ?_⟩
  rw [numeral_eq s'.mem p.2.1 e.2, Nat.mod_eq_of_lt h3, h6, hx]
  intro k b hk
  obtain ⟨-, hlen, hb⟩ := (setting_ok _ h1).1
  have h9 := hb (b, k) (List.mk_mem_zipIdx_iff_getElem?.2 hk)
  refine ⟨_, _, h9, ?_⟩
  have h10 := h8 k b _ _ hk h9
  rw [h10, ← BitVec.testBit_toNat, hv]

/-- Example: `set( tc1::input::clock::x256 );` makes timer 1 count every 256th clock. -/
example (s : Chip) : ∃ s', tc1_clock.set (chip w1c) 4#8 s = .ok ((), s') ∧
    cs (numeral s'.mem [CS12, CS11, CS10]) = some (.divided 256) := by
  obtain ⟨s', x, h1, h2, h3⟩ := C93_set
    (tc1_clock, [CS12, CS11, CS10], enum.tc1_clock, cs, saysClock)
    (by simp [enumerated]) (.x256, 4) (by decide) s
  cases h1
  exact ⟨s', h2, h3⟩

/-- Every code that the datasheet defines for a field has an enumerator. -/
theorem C93_complete : ∀ p ∈ enumerated, ∀ n ∈ List.range (2 ^ p.2.1.length),
    ∃ e ∈ enum.values 0 p.2.2.1, e.2 = n := by decide +kernel

/-- After `set( w );` with a waveform of timer 0, the bits WGM02:0 select the waveform and top value that its name
says. -/
theorem C93_tc0_waveform : ∀ e ∈ enum.values 0 enum.tc0_waveform, ∀ s : Chip,
    ∃ s', (tc0.set_waveform ram (BitVec.ofNat 8 e.2) >>= fun p => p.destroy ram) s = .ok ((), s') ∧
      wgm0 (numeral s'.mem [WGM02, WGM01, WGM00]) = says0 e.1 := by
  intro e he s
  obtain ⟨s', h1, h2, h3, -⟩ := C61_tc0_set (BitVec.ofNat 8 e.2) s
  refine ⟨s', h1, ?_⟩
  have hn : ∀ e ∈ enum.values 0 enum.tc0_waveform, e.2 < 8 ∧ wgm0 e.2 = says0 e.1 := by decide +kernel
  obtain ⟨h4, h5⟩ := hn e he
  rw [← h5, numeral_eq s'.mem _ e.2, Nat.mod_eq_of_lt (show e.2 < 2 ^ [WGM02, WGM01, WGM00].length from h4)]
  intro k b hk
  have hk3 : k < 3 := (List.getElem?_eq_some_iff.1 hk).1
  interval_cases k <;> cases hk
  · refine ⟨0x45, 3, rfl, ?_⟩
    rw [h3]; simp
    exact getElem_ofNat8 _ _ (by norm_num)
  · refine ⟨0x44, 1, rfl, ?_⟩
    rw [h2]; simp
    exact getElem_ofNat8 _ _ (by norm_num)
  · refine ⟨0x44, 0, rfl, ?_⟩
    rw [h2]; simp
    exact (getElem_ofNat8 _ 0 (by norm_num)).trans (Nat.testBit_zero _)

/-- The same for timer 1 and the bits WGM13:0. -/
theorem C93_tc1_waveform : ∀ e ∈ enum.values 0 enum.tc1_waveform, ∀ s : Chip,
    ∃ s', (tc1.set_waveform ram (BitVec.ofNat 8 e.2) >>= fun p => p.destroy ram) s = .ok ((), s') ∧
      wgm1 (numeral s'.mem [WGM13, WGM12, WGM11, WGM10]) = says1 e.1 := by
  intro e he s
  obtain ⟨s', h1, h2, h3, -⟩ := C61_tc1_set (BitVec.ofNat 8 e.2) s
  refine ⟨s', h1, ?_⟩
  have hn : ∀ e ∈ enum.values 0 enum.tc1_waveform, e.2 < 16 ∧ wgm1 e.2 = says1 e.1 := by decide +kernel
  obtain ⟨h4, h5⟩ := hn e he
  rw [← h5, numeral_eq s'.mem _ e.2,
    Nat.mod_eq_of_lt (show e.2 < 2 ^ [WGM13, WGM12, WGM11, WGM10].length from h4)]
  intro k b hk
  have hk3 : k < 4 := (List.getElem?_eq_some_iff.1 hk).1
  interval_cases k <;> cases hk
  · refine ⟨0x81, 4, rfl, ?_⟩
    rw [h3]; simp
    exact getElem_ofNat8 _ _ (by norm_num)
  · refine ⟨0x81, 3, rfl, ?_⟩
    rw [h3]; simp
    exact getElem_ofNat8 _ _ (by norm_num)
  · refine ⟨0x80, 1, rfl, ?_⟩
    rw [h2]; simp
    exact getElem_ofNat8 _ _ (by norm_num)
  · refine ⟨0x80, 0, rfl, ?_⟩
    rw [h2]; simp
    exact (getElem_ofNat8 _ 0 (by norm_num)).trans (Nat.testBit_zero _)

/-- Example: `ctc_icr1`, although reading it back delivers another value (C61). -/
example (s : Chip) : ∃ s', (tc1.set_waveform ram 12#8 >>= fun p => p.destroy ram) s = .ok ((), s') ∧
    wgm1 (numeral s'.mem [WGM13, WGM12, WGM11, WGM10]) = some (.ctc, .icr) :=
  C93_tc1_waveform (.ctc_icr1, 12) (by decide) s

/-- Every usable waveform has an enumerator. -/
theorem C93_waveforms_complete :
    (∀ n < 8, wgm0 n ≠ none → ∃ e ∈ enum.values 0 enum.tc0_waveform, e.2 = n) ∧
    ∀ n < 16, wgm1 n ≠ none → ∃ e ∈ enum.values 0 enum.tc1_waveform, e.2 = n := by decide +kernel

/-- The status read is that of an enumerator if and only if the status register shows the state that the enumerator
names, whatever the prescaler. -/
theorem C93_status : ∀ e ∈ enum.values 0 enum.twi_status, ∀ s : Chip,
    ∃ v : Byte, Mcu.Atmega.twi_status (chip w1c) s = .ok (v, s) ∧
      (v.toNat = e.2 ↔ twsr ((s.mem 0xb9).toNat / 8 * 8) = saysBus e.1) := by
  intro e he s
  obtain ⟨-, -, -, ⟨v, h1, h2⟩, -⟩ := C92_results s
  refine ⟨v, h1, ?_⟩
  have hn : ∀ e ∈ enum.values 0 enum.twi_status, ∀ n < 32, n = e.2 ↔ twsr (n * 8) = saysBus e.1 := by decide +kernel
  rw [h2]
  refine hn e he _ ?_
  have := (s.mem 0xb9).isLt
  omega

/-- Example: TWSR = 0x1b, prescaler 64: the address has been acknowledged. -/
example (s : Chip) (h : s.mem 0xb9 = 0x1b#8) : ∃ v : Byte, Mcu.Atmega.twi_status (chip w1c) s = .ok (v, s) ∧
    v.toNat = 3 := by
  obtain ⟨v, h1, h2⟩ := C93_status (.SLAW_transmitted_ACK, 3) (by decide) s
  exact ⟨v, h1, h2.2 (by rw [h]; rfl)⟩

end Verif
