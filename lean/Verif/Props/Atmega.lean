import Verif.Lemmas.Atmega
import Verif.Props.Register

/-
Properties C61, C62, C70 to C74: drivers of the ATmega328.
-/

namespace Verif
open Mcu Mcu.Atmega

/-! ### C61: timer waveform -/

/-- `set( waveform );` of timer 0 puts the mode into WGM01:00 (TCCR0A, bits 1:0) and WGM02 (TCCR0B, bit 3), and changes
nothing else. -/
theorem C61_tc0_set (w : Byte) (s : Chip) :
    ∃ s2, (tc0.set_waveform ram w >>= fun p => p.destroy ram) s = .ok ((), s2) ∧
      s2.mem 0x44 = (s.mem 0x44 &&& 0xfc#8) ||| (w &&& 0x03#8) ∧
      s2.mem 0x45 = (s.mem 0x45 &&& 0xf7#8) ||| ((w <<< 1) &&& 0x08#8) ∧
      ∀ b, b ≠ 0x44 → b ≠ 0x45 → s2.mem b = s.mem b := by
  have e1 : bitmask .w8 [1, 0] = .ok 0x03#8 := rfl
  have e2 : rngmask .w8 1 0 = .ok 0x03#8 := rfl
  have e3 : rngmask .w8 3 3 = .ok 0x08#8 := rfl
  rw [tc0.set_waveform, M_bind, M_bind, e1, pureRes_ok, bind_okM, M_bind,
      write_ram (io := .rw) (a := 0x44) e2 (by norm_num) (by norm_num) (by norm_num), bind_okM, M_bind,
      shr8 w (by norm_num), pureRes_ok, bind_okM,
      write_lazy_eq (io := .rw) (a := 0x45) e3 (by norm_num), pureRes_ok, bind_okM, destroy_ram]
  refine ⟨_, rfl, ?_, ?_, fun b hb hb' => ?_⟩
  · rw [upd_other _ _ (by norm_num), upd_same]
    refine BitVec.eq_of_getLsbD_eq fun i hi => ?_
    interval_cases i <;> simp
  · rw [upd_same, upd_other _ _ (by norm_num)]
    refine BitVec.eq_of_getLsbD_eq fun i hi => ?_
    interval_cases i <;> simp
  · rw [upd_other _ _ hb', upd_other _ _ hb]

/-- `set( waveform );` of timer 1 puts the mode into WGM11:10 (TCCR1A, bits 1:0) and WGM13:12 (TCCR1B, bits 4:3), and
changes nothing else. -/
theorem C61_tc1_set (w : Byte) (s : Chip) :
    ∃ s2, (tc1.set_waveform ram w >>= fun p => p.destroy ram) s = .ok ((), s2) ∧
      s2.mem 0x80 = (s.mem 0x80 &&& 0xfc#8) ||| (w &&& 0x03#8) ∧
      s2.mem 0x81 = (s.mem 0x81 &&& 0xe7#8) ||| ((w <<< 1) &&& 0x18#8) ∧
      ∀ b, b ≠ 0x80 → b ≠ 0x81 → s2.mem b = s.mem b := by
  have e1 : bitmask .w8 [1, 0] = .ok 0x03#8 := rfl
  have e2 : rngmask .w8 1 0 = .ok 0x03#8 := rfl
  have e3 : rngmask .w8 4 3 = .ok 0x18#8 := rfl
  rw [tc1.set_waveform, M_bind, M_bind, e1, pureRes_ok, bind_okM, M_bind,
      write_ram (io := .rw) (a := 0x80) e2 (by norm_num) (by norm_num) (by norm_num), bind_okM, M_bind,
      shr8 w (by norm_num), pureRes_ok, bind_okM,
      write_lazy_eq (io := .rw) (a := 0x81) e3 (by norm_num), pureRes_ok, bind_okM, destroy_ram]
  refine ⟨_, rfl, ?_, ?_, fun b hb hb' => ?_⟩
  · rw [upd_other _ _ (by norm_num), upd_same]
    refine BitVec.eq_of_getLsbD_eq fun i hi => ?_
    interval_cases i <;> simp
  · rw [upd_same, upd_other _ _ (by norm_num)]
    refine BitVec.eq_of_getLsbD_eq fun i hi => ?_
    interval_cases i <;> simp
  · rw [upd_other _ _ hb', upd_other _ _ hb]

/-- `current( waveform )` of timer 0 shifts WGM02 by 3 instead of 2. -/
theorem C61_tc0_current (s : Chip) :
    tc0.current_waveform ram s
      = .ok ((if s.mem 0x45 &&& 0x08#8 ≠ 0 then 8#8 else 0#8) + (s.mem 0x44 &&& 0x03#8), s) := by
  have e1 : bitmask .w8 [3] = .ok 0x08#8 := rfl
  have e2 : rngmask .w8 1 0 = .ok 0x03#8 := rfl
  rw [tc0.current_waveform, M_bind, readBit_ram (io := .rw) (a := 0x45) e1, bind_okM, M_bind,
    shl8 _ (by norm_num), pureRes_ok, bind_okM, M_bind,
    read_ram (io := .rw) (a := 0x44) e2 (by norm_num) (by norm_num) (by norm_num), bind_okM, M_pure,
    BitVec.ushiftRight_zero]
  by_cases h : s.mem 0x45 &&& 0x08#8 ≠ 0
  · simp only [if_pos h]; rfl
  · simp only [if_neg h]; rfl

/-- `current( waveform )` of timer 1 shifts WGM13:12 by 3 instead of 2. -/
theorem C61_tc1_current (s : Chip) :
    tc1.current_waveform ram s
      = .ok ((s.mem 0x81 &&& 0x18#8) + (s.mem 0x80 &&& 0x03#8), s) := by
  have e1 : rngmask .w8 4 3 = .ok 0x18#8 := rfl
  have e2 : rngmask .w8 1 0 = .ok 0x03#8 := rfl
  rw [tc1.current_waveform, M_bind,
    read_ram (io := .rw) (a := 0x81) e1 (by norm_num) (by norm_num) (by norm_num), bind_okM, M_bind,
    shl8 _ (by norm_num), pureRes_ok, bind_okM, M_bind,
    read_ram (io := .rw) (a := 0x80) e2 (by norm_num) (by norm_num) (by norm_num), bind_okM, M_pure,
    BitVec.ushiftRight_zero]
  have : ((s.mem 0x81 &&& 0x18#8) >>> 3) <<< 3 = s.mem 0x81 &&& 0x18#8 := by
    refine BitVec.eq_of_getLsbD_eq fun i hi => ?_
    interval_cases i <;> simp
  rw [this]

/-- Set, then current, for timer 0: the value read back has WGM02 at weight 8 instead of 4.  The round trip claimed
holds for the modes below 4 only. -/
theorem C61_tc0_round_trip_partial (w : Byte) (hw : w.toNat < 8) (s : Chip) :
    ∃ s2 r, (tc0.set_waveform ram w >>= fun p => p.destroy ram) s = .ok ((), s2) ∧
      tc0.current_waveform ram s2 = .ok (r, s2) ∧
      r.toNat = 8 * (w.toNat / 4) + w.toNat % 4 ∧ (r = w ↔ w.toNat < 4) := by
  obtain ⟨s2, h1, h2, h3, -⟩ := C61_tc0_set w s
  have e1 : s2.mem 0x44 &&& 0x03#8 = w &&& 0x03#8 := by
    rw [h2]
    refine BitVec.eq_of_getLsbD_eq fun i hi => ?_
    interval_cases i <;> simp
  have e2 : s2.mem 0x45 &&& 0x08#8 = (w <<< 1) &&& 0x08#8 := by
    rw [h3]
    refine BitVec.eq_of_getLsbD_eq fun i hi => ?_
    interval_cases i <;> simp
  refine ⟨s2, _, h1, C61_tc0_current s2, ?_⟩
  rw [e1, e2]
  obtain ⟨k, hk, rfl⟩ : ∃ k : Nat, k < 8 ∧ w = BitVec.ofNat 8 k := ⟨w.toNat, hw, by simp⟩
  clear h1 h2 h3 e1 e2 hw
  interval_cases k <;> simp

/-- Set, then current, for timer 1. -/
theorem C61_tc1_round_trip_partial (w : Byte) (hw : w.toNat < 16) (s : Chip) :
    ∃ s2 r, (tc1.set_waveform ram w >>= fun p => p.destroy ram) s = .ok ((), s2) ∧
      tc1.current_waveform ram s2 = .ok (r, s2) ∧
      r.toNat = 8 * (w.toNat / 4) + w.toNat % 4 ∧ (r = w ↔ w.toNat < 4) := by
  obtain ⟨s2, h1, h2, h3, -⟩ := C61_tc1_set w s
  have e1 : s2.mem 0x80 &&& 0x03#8 = w &&& 0x03#8 := by
    rw [h2]
    refine BitVec.eq_of_getLsbD_eq fun i hi => ?_
    interval_cases i <;> simp
  have e2 : s2.mem 0x81 &&& 0x18#8 = (w <<< 1) &&& 0x18#8 := by
    rw [h3]
    refine BitVec.eq_of_getLsbD_eq fun i hi => ?_
    interval_cases i <;> simp
  refine ⟨s2, _, h1, C61_tc1_current s2, ?_⟩
  rw [e1, e2]
  obtain ⟨k, hk, rfl⟩ : ∃ k : Nat, k < 16 ∧ w = BitVec.ofNat 8 k := ⟨w.toNat, hw, by simp⟩
  clear h1 h2 h3 e1 e2 hw
  interval_cases k <;> simp

/-- The round trip fails: mode 7 (fast PWM) of timer 0 is read back as 11, mode 4 of timer 1 as 8. -/
theorem C61_round_trip_wrong (s : Chip) :
    (∃ s2, (tc0.set_waveform ram 7 >>= fun p => p.destroy ram) s = .ok ((), s2) ∧
      tc0.current_waveform ram s2 = .ok (11, s2)) ∧
    ∃ s2, (tc1.set_waveform ram 4 >>= fun p => p.destroy ram) s = .ok ((), s2) ∧
      tc1.current_waveform ram s2 = .ok (8, s2) := by
  constructor
  · obtain ⟨s2, r, h1, h2, h3, -⟩ := C61_tc0_round_trip_partial 7#8 (by decide) s
    have : r = 11#8 := BitVec.eq_of_toNat_eq h3
    subst this
    exact ⟨s2, h1, h2⟩
  · obtain ⟨s2, r, h1, h2, h3, -⟩ := C61_tc1_round_trip_partial 4#8 (by decide) s
    have : r = 8#8 := BitVec.eq_of_toNat_eq h3
    subst this
    exact ⟨s2, h1, h2⟩

/-! ### C70: PWM on timer 1 -/

/-- `tc1_pwm_on_a_pb1::init()` makes PB1 an output (DDRB, bit 1), selects non-inverting output A (COM1A = 2), mode 7
(fast PWM, 10 bits) and clock x1, and changes no other bit. -/
theorem C70_pwm_init (s : Chip) :
    ∃ s2, tc1_pwm_init ram s = .ok ((), s2) ∧
      s2.mem 0x24 = s.mem 0x24 ||| 0x02#8 ∧
      s2.mem 0x80 = (s.mem 0x80 &&& 0x3c#8) ||| 0x83#8 ∧
      s2.mem 0x81 = (s.mem 0x81 &&& 0xe0#8) ||| 0x09#8 ∧
      ∀ b, b ≠ 0x24 → b ≠ 0x80 → b ≠ 0x81 → s2.mem b = s.mem b := by
  have e1 : bitmask .w8 [1, 0] = .ok 0x03#8 := rfl
  have e2 : rngmask .w8 1 0 = .ok 0x03#8 := rfl
  have e3 : rngmask .w8 4 3 = .ok 0x18#8 := rfl
  have e4 : bitmask .w8 [1] = .ok 0x02#8 := rfl
  have e5 : rngmask .w8 7 6 = .ok 0xc0#8 := rfl
  have e6 : rngmask .w8 2 0 = .ok 0x07#8 := rfl
  rw [tc1_pwm_init, M_bind, set_ram (io := .rw) (a := ddr_addr 0) e4, bind_okM, M_bind,
    write_lazy_eq (io := .rw) (a := 0x80) e5 (by norm_num), pureRes_ok, bind_okM, M_bind, destroy_ram, bind_okM,
    M_bind, tc1.set_waveform, M_bind, e1, pureRes_ok, bind_okM, M_bind,
    write_ram (io := .rw) (a := 0x80) e2 (by norm_num) (by norm_num) (by norm_num), bind_okM, M_bind,
    shr8 _ (by norm_num), pureRes_ok, bind_okM,
    write_lazy_eq (io := .rw) (a := 0x81) e3 (by norm_num), pureRes_ok, bind_okM, M_bind,
    write_lazy_eq (io := .rw) (a := 0x81) e6 (by norm_num), pureRes_ok, bind_okM,
    Proxy.statement_eq]
  rw [show ddr_addr 0 = 0x24 from rfl]
  refine ⟨_, destroy_ram _ _ _, ?_, ?_, ?_, fun b h1 h2 h3 => ?_⟩
  · rw [upd_other _ _ (by norm_num), upd_other _ _ (by norm_num), upd_other _ _ (by norm_num), upd_same]
  · rw [upd_other _ _ (by norm_num), upd_same, upd_same, upd_other _ _ (by norm_num)]
    refine BitVec.eq_of_getLsbD_eq fun i hi => ?_
    interval_cases i <;> simp <;> rfl
  · rw [upd_same, upd_other _ _ (by norm_num), upd_other _ _ (by norm_num), upd_other _ _ (by norm_num)]
    refine BitVec.eq_of_getLsbD_eq fun i hi => ?_
    interval_cases i <;> simp
  · rw [upd_other _ _ h3, upd_other _ _ h2, upd_other _ _ h2, upd_other _ _ h1]

/-! ### C71: force compare -/

/-- Forcing a compare match of timer 0 sets FOC0A (bit 7) or FOC0B (bit 6) of TCCR0B (0x45) and nothing else. -/
theorem C71_tc0_force (s : Chip) :
    (∃ s2, tc0.force_a ram s = .ok ((), s2) ∧ s2.mem 0x45 = s.mem 0x45 ||| 0x80#8 ∧
      ∀ b, b ≠ 0x45 → s2.mem b = s.mem b) ∧
    ∃ s2, tc0.force_b ram s = .ok ((), s2) ∧ s2.mem 0x45 = s.mem 0x45 ||| 0x40#8 ∧
      ∀ b, b ≠ 0x45 → s2.mem b = s.mem b :=
  ⟨⟨_, set_ram (io := .rw) (a := 0x45) (b := 7) (m := 0x80#8) rfl s, upd_same _ _ _,
      fun _ hb => upd_other _ _ hb⟩,
    ⟨_, set_ram (io := .rw) (a := 0x45) (b := 6) (m := 0x40#8) rfl s, upd_same _ _ _,
      fun _ hb => upd_other _ _ hb⟩⟩

/-- Forcing a compare match of timer 1 does not touch TCCR1C (0x82), where FOC1A and FOC1B are, but sets COM1A1 or COM1A0
in TCCR1A (0x80), that is, changes the output mode. -/
theorem C71_tc1_force_wrong (s : Chip) :
    (∃ s2, tc1.force_a ram s = .ok ((), s2) ∧ s2.mem 0x80 = s.mem 0x80 ||| 0x80#8 ∧
      ∀ b, b ≠ 0x80 → s2.mem b = s.mem b) ∧
    ∃ s2, tc1.force_b ram s = .ok ((), s2) ∧ s2.mem 0x80 = s.mem 0x80 ||| 0x40#8 ∧
      ∀ b, b ≠ 0x80 → s2.mem b = s.mem b :=
  ⟨⟨_, set_ram (io := .rw) (a := 0x80) (b := 7) (m := 0x80#8) rfl s, upd_same _ _ _, fun _ h => upd_other _ _ h⟩,
    ⟨_, set_ram (io := .rw) (a := 0x80) (b := 6) (m := 0x40#8) rfl s, upd_same _ _ _, fun _ h => upd_other _ _ h⟩⟩

/-! ### C72: status register in interrupt routines -/

/-- A scope guarded by `scoped_sreg` leaves the status register as it was, whatever the body does, and leaves all other
memory as the body leaves it. -/
theorem C72_scoped_sreg {α : Type} (body : M Chip α) (s : Chip) {r : α} {s1 : Chip}
    (hbody : body s = .ok (r, s1)) :
    ∃ s2, scoped_sreg ram body s = .ok (r, s2) ∧ s2.mem 0x5f = s.mem 0x5f ∧
      ∀ b, b ≠ 0x5f → s2.mem b = s1.mem b := by
  refine ⟨upd s1 0x5f (s.mem 0x5f), ?_, upd_same _ _ _, fun b hb => upd_other _ _ hb⟩
  have hr : Field.read ram sreg s = .ok (s.mem 0x5f, s) := rfl
  rw [scoped_sreg, M_bind, hr, bind_okM, M_bind, hbody, bind_okM, M_bind]
  have hwr : ∀ v : Byte, Field.write ram sreg v s1 = .ok ((), upd s1 0x5f v) := fun v => wr_ram 0x5f v s1
  rw [hwr, bind_okM, M_pure]

/-- The hypothesis is met by a body that changes the status register and another byte. -/
example (s : Chip) : ∃ s2, scoped_sreg ram (do wr ram 0x5f 0xff; wr ram 0x30 1) s = .ok ((), s2) ∧
    s2.mem 0x5f = s.mem 0x5f ∧ s2.mem 0x30 = 1 := by
  obtain ⟨s2, h1, h2, h3⟩ := C72_scoped_sreg (do wr ram 0x5f 0xff; wr ram 0x30 1) s
    (s1 := upd (upd s 0x5f 0xff) 0x30 1) (r := ()) (by rw [M_bind, wr_ram, bind_okM, wr_ram])
  exact ⟨s2, h1, h2, by rw [h3 _ (by norm_num), upd_same]⟩

/-! ### C73: pin-change flags -/

/-- Clearing a pin-change flag (PCIFR, 0x3b, flags cleared by writing 1) leaves that flag pending, and clears the other
pending flags. -/
theorem C73_pcifr_wrong {i : Nat} (hi : i < 3) (s : Chip) :
    ∃ s2, clear_pin_change_int_flag (chip fun a => if a = 0x3b then 0x07#8 else 0) i s = .ok ((), s2) ∧
      ∀ j < 3, bitAt s2.mem 0x3b j = if j = i then bitAt s.mem 0x3b j else false := by
  obtain ⟨s2, h1, h2, -⟩ := C68_rw_clear (f := pcifr i) (w1c := fun a => if a = 0x3b then 0x07#8 else 0)
    (show i < 8 by omega) rfl s
  refine ⟨s2, h1, fun j hj => (h2 j (show j < 8 by omega)).trans ?_⟩
  have : bitAt (fun a => if a = 0x3b then 0x07#8 else 0) 0x3b j = true := by
    interval_cases j <;> rfl
  exact if_pos this

/-- Clearing an external interrupt flag (EIFR, 0x3c) clears both flags. -/
theorem C73_eifr_wrong {i : Nat} (hi : i < 2) (s : Chip) :
    ∃ s2, clear_external_int_flag (chip fun a => if a = 0x3c then 0x03#8 else 0) i s = .ok ((), s2) ∧
      ∀ j < 2, bitAt s2.mem 0x3c j = false := by
  obtain ⟨s2, h1, h2, -⟩ := C60_clear_partial (f := eifr i) (w1c := fun a => if a = 0x3c then 0x03#8 else 0)
    (show i < 8 by omega) rfl s
  refine ⟨s2, h1, fun j hj => (h2 j (show j < 8 by omega)).trans ?_⟩
  have : bitAt (fun a => if a = 0x3c then 0x03#8 else 0) 0x3c j = true := by
    interval_cases j <;> rfl
  exact if_pos this

/-! ### C62: two-wire write -/

/-- What `write( address, byte )` does, for every reaction of the bus: a start condition, then the address, then the
address once more (in place of the data byte), then a stop condition; it ends with an error at the first status that is
not the expected one, and then sends no stop condition.  The claimed order needs `byte` in the third place. -/
theorem C62_write_partial (address byte : Byte) {fuel n1 n2 n3 : Nat} {r1 r2 r3 : Byte}
    {rs : List (Nat × Byte)} (h1 : n1 < fuel) (h2 : n2 < fuel) (h3 : n3 < fuel) (s : Twi)
    (hr : s.replies = (n1, r1) :: (n2, r2) :: (n3, r3) :: rs) :
    ∃ s2 err, twi.write twiHw fuel address byte s = .ok (err, s2) ∧
      (err = false ↔ r1 &&& 0xf8#8 = 0x08#8 ∧ r2 &&& 0xf8#8 = 0x18#8 ∧ r3 &&& 0xf8#8 = 0x28#8) ∧
      s2.events = s.events ++
        (if r1 &&& 0xf8#8 ≠ 0x08#8 then [.start]
        else if r2 &&& 0xf8#8 ≠ 0x18#8 then [.start, .byte address]
        else if r3 &&& 0xf8#8 ≠ 0x28#8 then [.start, .byte address, .byte address]
        else [.start, .byte address, .byte address, .stop]) := by
  obtain ⟨d, ev, bz, st, rp⟩ := s
  simp only at hr
  subst hr
  rw [twi.write]
  simp only [M_bind, twi_start, bind_okM, twi_expect h1]
  by_cases c1 : r1 &&& 0xf8#8 = 0x08#8
  · have b1 : (r1 &&& 0xf8#8 != 0x08) = false := by simp [c1]
    simp only [b1, M_bind, twi_data, bind_okM, twi_expect h2, Bool.false_eq_true, if_false]
    by_cases c2 : r2 &&& 0xf8#8 = 0x18#8
    · have b2 : (r2 &&& 0xf8#8 != 0x18) = false := by simp [c2]
      simp only [b2, M_bind, twi_data, bind_okM, twi_expect h3, Bool.false_eq_true, if_false]
      by_cases c3 : r3 &&& 0xf8#8 = 0x28#8
      · have b3 : (r3 &&& 0xf8#8 != 0x28) = false := by simp [c3]
        simp only [b3, M_bind, Bool.false_eq_true, if_false]
        refine ⟨_, false, rfl, by simp [c1, c2, c3], ?_⟩
        simp only [c1, c2, c3, ne_eq, not_true_eq_false, if_false]
        cases rs <;> simp [twiHw, Twi.act]
      · have b3 : (r3 &&& 0xf8#8 != 0x28) = true := by simp [c3]
        simp only [b3, if_true, M_pure]
        exact ⟨_, true, rfl, by simp [c3], by simp [c1, c2, c3]⟩
    · have b2 : (r2 &&& 0xf8#8 != 0x18) = true := by simp [c2]
      simp only [b2, if_true, M_pure]
      exact ⟨_, true, rfl, by simp [c2], by simp [c1, c2]⟩
  · have b1 : (r1 &&& 0xf8#8 != 0x08) = true := by simp [c1]
    simp only [b1, if_true, M_pure]
    exact ⟨_, true, rfl, by simp [c1], by simp [c1]⟩

/-- The data byte is never used: on any hardware, writing any two bytes has the same effect. -/
theorem C62_byte_ignored {σ : Type} (hw : Hw σ) (fuel : Nat) (address b b' : Byte) :
    twi.write hw fuel address b = twi.write hw fuel address b' := rfl

/-- Consequently a write of a byte other than the address, to a device that acknowledges everything, reports success but
does not put the byte on the bus. -/
theorem C62_write_wrong {address byte : Byte} (h : byte ≠ address) :
    ∃ s s2 : Twi, s.events = [] ∧ twi.write twiHw 1 address byte s = .ok (false, s2) ∧
      s2.events ≠ [.start, .byte address, .byte byte, .stop] ∧ TwiEvent.byte byte ∉ s2.events := by
  obtain ⟨s2, err, h1, h2, h3⟩ := C62_write_partial address byte (fuel := 1) (n1 := 0) (n2 := 0) (n3 := 0)
    (r1 := 0x08) (r2 := 0x18) (r3 := 0x28) (rs := []) (by norm_num) (by norm_num) (by norm_num)
    ⟨0, [], 0, 0, [(0, 0x08), (0, 0x18), (0, 0x28)]⟩ rfl
  have he : err = false := h2.2 ⟨rfl, rfl, rfl⟩
  subst he
  have h4 : s2.events = [.start, .byte address, .byte address, .stop] := h3
  refine ⟨_, s2, rfl, h1, ?_, ?_⟩
  · rw [h4]
    simp [Ne.symm h]
  · rw [h4]
    simp [h]

/-- The hypotheses are met: a bus that reacts after 3, 0 and 2 polls. -/
example (address byte : Byte) : ∃ s2, twi.write twiHw 4 address byte
    ⟨0, [], 0, 0, [(3, 0x08), (0, 0x18), (2, 0x28)]⟩ = .ok (false, s2) := by
  obtain ⟨s2, err, h1, h2, -⟩ := C62_write_partial address byte (fuel := 4) (n1 := 3) (n2 := 0) (n3 := 2)
    (r1 := 0x08) (r2 := 0x18) (r3 := 0x28) (rs := []) (by norm_num) (by norm_num) (by norm_num)
    ⟨0, [], 0, 0, [(3, 0x08), (0, 0x18), (2, 0x28)]⟩ rfl
  have he : err = false := h2.2 ⟨rfl, rfl, rfl⟩
  subst he
  exact ⟨s2, h1⟩

/-! ### C74: pull-ups of the two-wire pins -/

/-- `twi::sync::init()` is to enable the pull-ups of PC4 and PC5, but writes PINC, which toggles bits of PORTC: the
pull-up of a pin is toggled once for each of the two accesses at which the pin is high or which is meant for it. -/
theorem C74_pullups (br : Byte) (s : Port) :
    ∃ s2, twi.init portHw br s = .ok ((), s2) ∧ ∀ i < 8,
      s2.latch.getLsbD i = (s.latch.getLsbD i ^^ ((s.level s.time).getLsbD i || decide (i = 4))
        ^^ ((s.level (s.time + 1)).getLsbD i || decide (i = 5))) := by
  refine ⟨_, rfl, fun i hi => ?_⟩
  show (s.latch ^^^ (s.level s.time ||| 0x10#8) ^^^ (s.level (s.time + 1) ||| 0x20#8)).getLsbD i = _
  interval_cases i <;> simp

/-- With both lines high (idle bus) the pull-ups stay off. -/
theorem C74_pullups_wrong (br : Byte) (s : Port) (h : ∀ t, s.level t = 0xff#8) :
    ∃ s2, twi.init portHw br s = .ok ((), s2) ∧ s2.latch = s.latch := by
  obtain ⟨s2, h1, h2⟩ := C74_pullups br s
  refine ⟨s2, h1, BitVec.eq_of_getLsbD_eq fun i hi => ?_⟩
  rw [h2 i hi, h, h]
  interval_cases i <;> simp

/-- `twi::sync::init()` sets the bit rate register, prescaler 1 and enables the interface; besides it touches only PINC. -/
theorem C74_registers (br : Byte) (s : Chip) :
    ∃ s2, twi.init ram br s = .ok ((), s2) ∧ s2.mem 0xb8 = br ∧ s2.mem 0xb9 = 0 ∧ s2.mem 0xbc = 0x04#8 ∧
      ∀ b, b ∉ [0x26, 0xb8, 0xb9, 0xbc] → s2.mem b = s.mem b := by
  have h4 : ∀ t : Chip, (inp 1 4).set ram t = .ok ((), upd t 0x26 (t.mem 0x26 ||| 0x10#8)) := fun t =>
    set_ram (a := 0x26) (b := 4) rfl t
  have h5 : ∀ t : Chip, (inp 1 5).set ram t = .ok ((), upd t 0x26 (t.mem 0x26 ||| 0x20#8)) := fun t =>
    set_ram (a := 0x26) (b := 5) rfl t
  rw [twi.init, M_bind, h4, bind_okM, M_bind, h5, bind_okM, M_bind, wr_ram, bind_okM, M_bind, wr_ram,
    bind_okM, wr_ram]
  refine ⟨_, rfl, ?_, ?_, upd_same _ _ _, fun b hb => ?_⟩
  · rw [upd_other _ _ (by norm_num), upd_same]
  · rw [upd_other _ _ (by norm_num), upd_other _ _ (by norm_num), upd_same]
  · simp only [List.mem_cons, List.not_mem_nil, or_false, not_or] at hb
    rw [upd_other _ _ hb.2.2.2, upd_other _ _ hb.2.1, upd_other _ _ hb.2.2.1, upd_other _ _ hb.1,
      upd_other _ _ hb.1]

/-- The hypothesis is met. -/
example : ∃ s : Port, (∀ t, s.level t = 0xff#8) ∧ s.latch.getLsbD 4 = false := ⟨⟨0, 0, fun _ => 0xff#8⟩, fun _ => rfl, rfl⟩

end Verif
