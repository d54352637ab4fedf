import Verif.Lemmas.Twi

/-
Property C94: the two-wire driver by fields (`detail_x`).
-/

namespace Verif
open Mcu Mcu.Atmega

/-- A state for the examples: enabled, idle, with reactions to come. -/
def exampleBus : Bus := ⟨0x04, 0, 0, [], 0, 0xf8, [(2, 0x08), (3, 0x10), (1, 0x18)]⟩

/-- `init( bitrate, prescale )` sets the bit rate register TWBR, the prescaler bits of TWSR and TWEN, leaving the other
bits of TWSR and TWCR; besides it touches only PINC. -/
theorem C94_init (br ps : Byte) (s : Chip) :
    ∃ s2, twi_x.init ram br ps s = .ok ((), s2) ∧ s2.mem 0xb8 = br ∧
      s2.mem 0xb9 = (s.mem 0xb9 &&& 0xfc#8) ||| (ps &&& 0x03#8) ∧ s2.mem 0xbc = s.mem 0xbc ||| 0x04#8 ∧
      ∀ b, b ∉ [0x26, 0xb8, 0xb9, 0xbc] → s2.mem b = s.mem b := by
  have h4 : ∀ t : Chip, (inp 1 4).set ram t = .ok ((), upd t 0x26 (t.mem 0x26 ||| 0x10#8)) := fun t =>
    set_ram (a := 0x26) (b := 4) rfl t
  have h5 : ∀ t : Chip, (inp 1 5).set ram t = .ok ((), upd t 0x26 (t.mem 0x26 ||| 0x20#8)) := fun t =>
    set_ram (a := 0x26) (b := 5) rfl t
  have e1 : ∀ t : Chip, Setting.set ram twi_rate br t = .ok ((), upd t 0xb8 br) := fun t => store_ram _ _ _
  have e2 : ∀ t : Chip, Setting.set ram twi_prescale ps t
      = .ok ((), upd t 0xb9 ((t.mem 0xb9 &&& ~~~ 0x03#8) ||| ((ps <<< 0) &&& 0x03#8))) := fun t =>
    write_ram (a := 0xb9) (hi := 1) (lo := 0) rfl (by norm_num) (by norm_num) (by norm_num) ps t
  have e3 : ∀ t : Chip, Setting.set ram twi_interface 1#8 t
      = .ok ((), upd t 0xbc ((t.mem 0xbc &&& ~~~ 0x04#8) ||| (0x04#8 &&& 0x04#8))) := fun t =>
    destroy_ram (a := 0xbc) 0x04#8 0x04#8 t
  rw [twi_x.init, M_bind, e1, bind_okM, M_bind, e2, bind_okM, M_bind, e3, bind_okM, M_bind, h4, bind_okM, h5]
  refine ⟨_, rfl, ?_, ?_, ?_, fun b hb => ?_⟩
  · rw [upd_other _ _ (by norm_num), upd_other _ _ (by norm_num), upd_other _ _ (by norm_num),
      upd_other _ _ (by norm_num), upd_same]
  · rw [upd_other _ _ (by norm_num), upd_other _ _ (by norm_num), upd_other _ _ (by norm_num), upd_same,
      upd_other _ _ (by norm_num)]
    refine BitVec.eq_of_getLsbD_eq fun i hi => ?_
    interval_cases i <;> simp
  · rw [upd_other _ _ (by norm_num), upd_other _ _ (by norm_num), upd_same, upd_other _ _ (by norm_num),
      upd_other _ _ (by norm_num)]
    refine BitVec.eq_of_getLsbD_eq fun i hi => ?_
    interval_cases i <;> simp
  · simp only [List.mem_cons, List.not_mem_nil, or_false, not_or] at hb
    obtain ⟨h1, h2, h3, h4⟩ := hb
    rw [upd_other _ _ h1, upd_other _ _ h1, upd_other _ _ h4, upd_other _ _ h3, upd_other _ _ h2]

/-- `start()` on an enabled interface transmits a start condition (after the stop condition that may be pending), and
leaves TWSTA set. -/
theorem C94_start (s : Bus) (he : s.en = true) :
    ∃ s2, twi_x.start busHw s = .ok ((), s2) ∧
      s2.events = s.events ++ (if s.sto then [.stop, .start] else [.start]) ∧
      s2.sta = true ∧ s2.sto = false ∧ s2.en = true := by
  refine ⟨_, x_start s, ?_⟩
  have b (i : Nat) (hi : i < 7) (h5 : i ≠ 5) :
      ((s.twcr &&& ~~~ 0xa0#8) ||| (0xa0#8 &&& 0xa0#8)).getLsbD i = s.ctrl.getLsbD i := by
    rw [BitVec.getLsbD_or, BitVec.getLsbD_and, Bus.twcr_bit s hi]
    interval_cases i <;> simp at h5 ⊢
  have b7 : ((s.twcr &&& ~~~ 0xa0#8) ||| (0xa0#8 &&& 0xa0#8)).getLsbD 7 = true := by simp
  have b5 : ((s.twcr &&& ~~~ 0xa0#8) ||| (0xa0#8 &&& 0xa0#8)).getLsbD 5 = true := by simp
  have b2 := (b 2 (by norm_num) (by norm_num)).trans he
  have b4 := b 4 (by norm_num) (by norm_num)
  generalize (s.twcr &&& ~~~ 0xa0#8) ||| (0xa0#8 &&& 0xa0#8) = v at *
  rw [Bus.control, b7, b2, b5, b4]
  refine ⟨?_, ?_, ?_, ?_⟩
  · refine (Bus.bytes_perform _ _).trans ?_
    show s.events ++ _ = _
    rw [Bus.sto]
    cases s.ctrl.getLsbD 4 <;> rfl
  · refine (congrArg (·.getLsbD 5) (Bus.ctrl_perform _ _)).trans ?_
    show (v &&& 0x65#8).getLsbD 5 = true
    rw [BitVec.getLsbD_and, b5]; rfl
  · refine (congrArg (·.getLsbD 4) (Bus.ctrl_perform _ _)).trans ?_
    show (v &&& 0x65#8).getLsbD 4 = false
    rw [BitVec.getLsbD_and]; simp
  · refine (congrArg (·.getLsbD 2) (Bus.ctrl_perform _ _)).trans ?_
    show (v &&& 0x65#8).getLsbD 2 = true
    rw [BitVec.getLsbD_and, b2]; rfl

/-- `data( byte )` transmits the byte, provided that neither TWSTA nor TWSTO is set.  Missing: `data( byte )` after
`start()`, which leaves TWSTA set (`C94_no_byte_wrong`). -/
theorem C94_data_partial (b : Byte) (s : Bus) (he : s.en = true) (h1 : s.sta = false) (h2 : s.sto = false) :
    ∃ s2, twi_x.data busHw b s = .ok ((), s2) ∧ s2.events = s.events ++ [.byte b] := by
  refine ⟨_, x_data b s, ?_⟩
  have b (i : Nat) (hi : i < 7) : (s.twcr ||| 0x80#8).getLsbD i = s.ctrl.getLsbD i := by
    rw [BitVec.getLsbD_or, Bus.twcr_bit s hi]
    interval_cases i <;> simp
  have b7 : (s.twcr ||| 0x80#8).getLsbD 7 = true := by simp
  have b2 := (b 2 (by norm_num)).trans he
  have b4 := (b 4 (by norm_num)).trans h2
  have b5 := (b 5 (by norm_num)).trans h1
  generalize s.twcr ||| 0x80#8 = v at *
  rw [Bus.control, b7, b2, b5, b4]
  exact Bus.bytes_perform _ _

/-- Without `start()` before, a byte goes out. -/
example : exampleBus.en = true ∧ exampleBus.sta = false ∧ exampleBus.sto = false := ⟨rfl, rfl, rfl⟩

/-- After `start()`, whatever functions of the driver are called in whatever order, no byte is ever transmitted: all
write TWCR by read-modify-write, so that TWSTA stays set and each action is a start condition again. -/
theorem C94_no_byte_wrong (cs : List TwiCall) (s s2 : Bus) (h : TwiCall.runAll (.start :: cs) s = .ok ((), s2)) :
    s2.bytes = s.bytes := by
  have step (c : TwiCall) (s s2 : Bus) (hs : s.sta = true ∨ c = .start) (h : c.run s = .ok ((), s2)) :
      s2.bytes = s.bytes ∧ s2.sta = true := by
    have b5 : s.sta = true → s.twcr.getLsbD 5 = true := fun hs => (Bus.twcr_bit s (by norm_num)).trans hs
    cases c with
    | start =>
      have e : _ = s2 := congrArg Prod.snd (Except.ok.inj ((x_start s).symm.trans h))
      rw [← e]
      exact Bus.control_sta s.poll (by simp)
    | stop =>
      have e : _ = s2 := congrArg Prod.snd (Except.ok.inj ((x_stop s).symm.trans h))
      rw [← e]
      have := b5 (hs.resolve_right (by simp))
      exact Bus.control_sta s.poll (by rw [BitVec.getLsbD_or, BitVec.getLsbD_and, this]; rfl)
    | ack =>
      have e : _ = s2 := congrArg Prod.snd (Except.ok.inj ((x_ack s).symm.trans h))
      rw [← e]
      have := b5 (hs.resolve_right (by simp))
      exact Bus.control_sta s.poll (by rw [BitVec.getLsbD_or, BitVec.getLsbD_and, this]; rfl)
    | data b =>
      have e : _ = s2 := congrArg Prod.snd (Except.ok.inj ((x_data b s).symm.trans h))
      rw [← e]
      have := b5 (hs.resolve_right (by simp))
      exact Bus.control_sta { s.poll with twdr := b } (by rw [BitVec.getLsbD_or, this]; rfl)
    | address b =>
      have e : _ = s2 := congrArg Prod.snd (Except.ok.inj ((x_address b s).symm.trans h))
      rw [← e]
      exact ⟨rfl, hs.resolve_right (by simp)⟩
    | expect fuel x =>
      have hs := hs.resolve_right (by simp)
      rw [TwiCall.run, M_bind, twi_x.expect, M_bind] at h
      by_cases hb : s.busy < fuel
      · rw [x_wait hb, bind_okM, M_bind, x_stat, bind_okM, M_pure, bind_okM, M_pure] at h
        have e : _ = s2 := congrArg Prod.snd (Except.ok.inj h)
        rw [← e]
        exact ⟨rfl, hs⟩
      · rw [x_wait_none (by omega)] at h
        cases h
  have all (cs : List TwiCall) (s s2 : Bus) (hs : s.sta = true) (h : TwiCall.runAll cs s = .ok ((), s2)) :
      s2.bytes = s.bytes := by
    induction cs generalizing s with
    | nil => exact congrArg (fun r => Bus.bytes (Prod.snd r)) (Except.ok.inj h).symm
    | cons c cs ih =>
      rw [TwiCall.runAll, M_bind] at h
      obtain ⟨⟨⟨⟩, s1⟩, h1, h2⟩ := bind_eq_ok.1 h
      obtain ⟨e1, e2⟩ := step c s s1 (.inl hs) h1
      exact (ih s1 e2 h2).trans e1
  rw [TwiCall.runAll, M_bind] at h
  obtain ⟨⟨⟨⟩, s1⟩, h1, h2⟩ := bind_eq_ok.1 h
  obtain ⟨e1, e2⟩ := step .start s s1 (.inr rfl) h1
  exact (all cs s1 s2 e2 h2).trans e1

/-- A write of one byte to a slave as the comments of the file describe it: it runs to its end, and the bus saw three
start conditions. -/
example : (match TwiCall.runAll [.start, .expect 9 1, .data 0x42, .expect 9 3, .data 0x55, .expect 9 5] exampleBus with
    | .ok (_, s2) => decide (s2.events = [.start, .start, .start])
    | .error _ => false) = true := by decide +kernel

/-- `stop()` with TWINT set ends the transfer, if TWSTA is clear. -/
theorem C94_stop_partial (s : Bus) (he : s.en = true) (h1 : s.sta = false) (h0 : s.busy = 0) :
    ∃ s2, twi_x.stop busHw s = .ok ((), s2) ∧ s2.events = s.events ++ [.stop] := by
  refine ⟨_, x_stop s, ?_⟩
  have b2 : ((s.twcr &&& ~~~ 0x10#8) ||| (0x10#8 &&& 0x10#8)).getLsbD 2 = true := by
    rw [BitVec.getLsbD_or, BitVec.getLsbD_and, Bus.twcr_bit s (by norm_num), show s.ctrl.getLsbD 2 = true from he]
    rfl
  have b5 : ((s.twcr &&& ~~~ 0x10#8) ||| (0x10#8 &&& 0x10#8)).getLsbD 5 = false := by
    rw [BitVec.getLsbD_or, BitVec.getLsbD_and, Bus.twcr_bit s (by norm_num), show s.ctrl.getLsbD 5 = false from h1]
    rfl
  have b7 : ((s.twcr &&& ~~~ 0x10#8) ||| (0x10#8 &&& 0x10#8)).getLsbD 7 = true := by
    rw [BitVec.getLsbD_or, BitVec.getLsbD_and, Bus.twcr_flag, h0]; rfl
  have b4 : ((s.twcr &&& ~~~ 0x10#8) ||| (0x10#8 &&& 0x10#8)).getLsbD 4 = true := by simp
  generalize (s.twcr &&& ~~~ 0x10#8) ||| (0x10#8 &&& 0x10#8) = v at *
  rw [Bus.control, b7, b2, b5, b4]
  exact Bus.bytes_perform _ _

/-- `stop()` before TWINT is set does nothing on the bus: it does not write TWINT. -/
theorem C94_stop_wrong (s : Bus) (h0 : s.busy ≠ 0) :
    ∃ s2, twi_x.stop busHw s = .ok ((), s2) ∧ s2.events = s.events := by
  refine ⟨_, x_stop s, ?_⟩
  have b7 : ((s.twcr &&& ~~~ 0x10#8) ||| (0x10#8 &&& 0x10#8)).getLsbD 7 = false := by
    rw [BitVec.getLsbD_or, BitVec.getLsbD_and, Bus.twcr_flag, decide_eq_false h0]; rfl
  rw [Bus.control, b7]; rfl

/-- `address( byte )` transmits nothing: it sets the own slave address. -/
theorem C94_address_wrong (b : Byte) (s : Bus) :
    ∃ s2, twi_x.address busHw b s = .ok ((), s2) ∧ s2.events = s.events ∧
      s2.twar = (s.twar &&& 0x01#8) ||| (b <<< 1) := by
  refine ⟨_, x_address b s, rfl, ?_⟩
  show (s.twar &&& ~~~ 0xfe#8) ||| ((b <<< 1) &&& 0xfe#8) = _
  refine BitVec.eq_of_getLsbD_eq fun i hi => ?_
  interval_cases i <;> simp

/-- `expect( s )` waits for TWINT, and reports whether the status differs from the expected one, leaving the bus alone;
without reaction it does not come back. -/
theorem C94_expect (fuel : Nat) (x : Byte) (s : Bus) :
    (s.busy < fuel → twi_x.expect busHw fuel x s = .ok (decide (s.status.toNat / 8 ≠ x.toNat), { s with busy := 0 })) ∧
      (fuel ≤ s.busy → twi_x.expect busHw fuel x s = .error .outOfFuel) := by
  constructor
  · intro h
    rw [twi_x.expect, M_bind, x_wait h, bind_okM, M_bind, x_stat, bind_okM, M_pure]
    have e : (s.status &&& 0xf8#8) >>> 3 = s.status >>> 3 := by
      refine BitVec.eq_of_getLsbD_eq fun i hi => ?_
      interval_cases i <;> simp
    have e2 : ((s.status &&& 0xf8#8) >>> 3 != x) = decide (s.status.toNat / 8 ≠ x.toNat) := by
      have h2 : (s.status >>> 3).toNat = s.status.toNat / 8 := by
        rw [BitVec.toNat_ushiftRight, Nat.shiftRight_eq_div_pow]
      rw [e, ← h2, Bool.eq_iff_iff, bne_iff_ne, decide_eq_true_eq]
      exact (not_congr BitVec.toNat_inj).symm
    exact congrArg (fun r => Except.ok (r, _)) e2
  · intro h
    rw [twi_x.expect, M_bind, x_wait_none h]; rfl

end Verif
