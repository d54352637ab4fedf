import Verif.Spec.AvrExamples
import Verif.Lemmas.Atmega
import Mathlib.Tactic.IntervalCases

/- Properties of the example programs without register classes: C105 (level detector), C106 (fading), C107
(blinking). -/

namespace Verif
open Mcu Demo

/-! ### Lemmas -/

namespace Mcu.Demo

theorem setmsk_ram (a : Nat) (m : Byte) (s : Chip) : setmsk ram a m s = .ok ((), upd s a (s.mem a ||| m)) := by
  rw [setmsk, M_bind]
  exact wr_ram _ _ _

theorem clrmsk_ram (a : Nat) (m : Byte) (s : Chip) : clrmsk ram a m s = .ok ((), upd s a (s.mem a &&& ~~~ m)) := by
  rw [clrmsk, M_bind]
  exact wr_ram _ _ _

theorem load16_ram (a : Nat) (s : Chip) : load ram .w16 a s = .ok (s.mem (a + 1) ++ s.mem a, s) := rfl

theorem store16_ram (a : Nat) (v : BitVec 16) (s : Chip) :
    store ram .w16 a v s = .ok ((), upd (upd s (a + 1) (v.extractLsb' 8 8)) a (v.extractLsb' 0 8)) := by
  rw [store, M_bind, wr_ram, bind_okM, wr_ram]

theorem split16 (v : BitVec 16) : v.extractLsb' 8 8 ++ v.extractLsb' 0 8 = v := by
  refine BitVec.eq_of_getLsbD_eq fun i hi => ?_
  rw [BitVec.getLsbD_append]
  by_cases h : i < 8
  · simp [h]
  · have : i - 8 < 8 := by omega
    simp [h, this, show 8 + (i - 8) = i by omega]

theorem lo16 (h l : Byte) : BitVec.extractLsb' 0 8 (h ++ l : BitVec (8 + 8)) = l := by
  refine BitVec.eq_of_getLsbD_eq fun i hi => ?_
  rw [BitVec.getLsbD_extractLsb', BitVec.getLsbD_append]
  simp [hi]

theorem hi16 (h l : Byte) : BitVec.extractLsb' 8 8 (h ++ l : BitVec (8 + 8)) = h := by
  refine BitVec.eq_of_getLsbD_eq fun i hi => ?_
  rw [BitVec.getLsbD_extractLsb', BitVec.getLsbD_append]
  simp [hi]

/-- The interrupt routine. -/
theorem adcIsr_ram {x : Vars} (hx : x.Placed) (s : Chip) :
    ∃ s2, adcIsr ram x s = .ok ((), s2) ∧ s2.mem x.value = s.mem ADC ∧ s2.mem (x.value + 1) = s.mem (ADC + 1) ∧
      s2.mem x.value8 = ((s.mem (ADC + 1) ++ s.mem ADC) >>> 2).setWidth 8 ∧
      ∀ b, b ≠ x.value → b ≠ x.value + 1 → b ≠ x.value8 → s2.mem b = s.mem b := by
  obtain ⟨-, h1, h2⟩ := hx
  rw [adcIsr, M_bind, load16_ram, bind_okM, M_bind, store16_ram, bind_okM, M_bind, load16_ram, bind_okM]
  refine ⟨_, wr_ram _ _ _, ?_, ?_, ?_, fun b b1 b2 b3 => ?_⟩
  · rw [upd_other _ _ h1.symm, upd_same]
    exact lo16 _ _
  · rw [upd_other _ _ h2.symm, upd_other _ _ (by omega), upd_same]
    exact hi16 _ _
  · rw [upd_same, upd_same, upd_other _ _ (by omega), upd_same, split16]
  · rw [upd_other _ _ b3, upd_other _ _ b1, upd_other _ _ b2]

end Mcu.Demo

/-! ### C105: level detector -/

/-- **C105** The interrupt routine stores the conversion result and its upper eight bits. -/
theorem C105_isr {x : Vars} (hx : x.Placed) {r : BitVec 16} (hr : r < 1024) (m : Nat → Byte) :
    Holds x (convert x r m) r ∧ (convert x r m x.value8).toNat = r.toNat / 4 ∧ convert x r m PORTB = m PORTB := by
  obtain ⟨s2, h1, h2, h3, h4, h5⟩ := adcIsr_ram hx
    ⟨fun a => if a = ADC then r.extractLsb' 0 8 else if a = ADC + 1 then r.extractLsb' 8 8 else m a, []⟩
  have e : convert x r m = s2.mem := by rw [convert, h1]
  have e0 : ((r.extractLsb' 8 8 ++ r.extractLsb' 0 8) >>> 2).setWidth 8 = (r >>> 2).setWidth 8 := by rw [split16]
  obtain ⟨⟨p1, p2⟩, -⟩ := hx
  rw [e]
  have h4' : s2.mem x.value8 = (r >>> 2).setWidth 8 := h4.trans e0
  refine ⟨⟨hr, h2, h3, h4'⟩, ?_, h5 _ (by unfold PORTB; omega) (by unfold PORTB; omega) (by unfold PORTB; omega)⟩
  rw [h4', BitVec.toNat_setWidth, BitVec.toNat_ushiftRight, Nat.shiftRight_eq_div_pow]
  have : r.toNat < 1024 := hr
  omega

example : ∃ x : Vars, x.Placed ∧ (515#16) < 1024 := ⟨⟨0x100, 0x102⟩, ⟨by decide, by decide⟩, by decide⟩

namespace Mcu.Demo
variable {x : Vars} {P : BitVec 16 → Prop}

theorem Holds.congr {m m' : Nat → Byte} {r : BitVec 16} (h : Holds x m r) (h1 : m' x.value = m x.value)
    (h2 : m' (x.value + 1) = m (x.value + 1)) (h3 : m' x.value8 = m x.value8) : Holds x m' r :=
  ⟨h.1, h1.trans h.2.1, h2.trans h.2.2.1, h3.trans h.2.2.2⟩

theorem ready_interrupts (hx : x.Placed) {s : Board} (h : Ready x P s) :
    Ready x P (s.interrupts x) ∧ (s.interrupts x).mem PORTB = s.mem PORTB ∧ (s.interrupts x).log = s.log := by
  refine ⟨⟨h.ie, fun k r hk => h.coming (k + 1) r hk, ?_⟩, ?_, rfl⟩
  · unfold Board.interrupts
    rw [h.ie, if_pos rfl]
    cases e : s.sched 0 with
    | none => exact h.holds
    | some r =>
      obtain ⟨h1, h2⟩ := h.coming 0 r e
      exact ⟨r, h2, (C105_isr hx h1 s.mem).1⟩
  · unfold Board.interrupts
    rw [h.ie, if_pos rfl]
    cases e : s.sched 0 with
    | none => rfl
    | some r => exact (C105_isr hx (h.coming 0 r e).1 s.mem).2.2

/-- Reading the byte variable. -/
theorem led_bits (p : Byte) (b : Bool) : Led p b (if b then p ||| 0x20#8 else p &&& ~~~ 0x20#8) := by
  cases b
  · refine ⟨by simp, fun i hi => ?_⟩
    by_cases h8 : i < 8
    · simp only [Bool.false_eq_true, if_false, BitVec.getLsbD_and]
      interval_cases i <;> simp at hi ⊢
    · simp [BitVec.getLsbD_of_ge _ _ (not_lt.1 h8)]
  · refine ⟨by simp, fun i hi => ?_⟩
    by_cases h8 : i < 8
    · simp only [if_true, BitVec.getLsbD_or]
      interval_cases i <;> simp at hi ⊢
    · simp [BitVec.getLsbD_of_ge _ _ (not_lt.1 h8)]

theorem guarded8_board (hx : x.Placed) {s : Board} (h : Ready x P s) :
    ∃ (r : BitVec 16) (s2 : Board), guarded8 (board x) x.value8 s = .ok ((r >>> 2).setWidth 8, s2) ∧ P r ∧ r < 1024 ∧ Ready x P s2 ∧
      s2.mem PORTB = s.mem PORTB ∧ s2.log = s.log := by
  obtain ⟨h1, h2, h3⟩ := ready_interrupts hx h
  obtain ⟨r, p, q⟩ := h1.holds
  refine ⟨r, s.interrupts x, ?_, p, q.1, h1, h2, h3⟩
  rw [← q.2.2.2]
  rfl

/-- Reading the 16-bit variable. -/
theorem guarded16_board {s : Board} (h : Ready x P s) :
    ∃ r s2, guarded16 (board x) x.value s = .ok (r, s2) ∧ P r ∧ r < 1024 ∧ Ready x P s2 ∧
      s2.mem PORTB = s.mem PORTB ∧ s2.log = s.log := by
  obtain ⟨r, p, q⟩ := h.holds
  let s2 : Board := { s with sched := fun k => s.sched (k + 1 + 1) }
  have e : guarded16 (board x) x.value s = .ok (s.mem (x.value + 1) ++ s.mem x.value, s2) := by
    show Except.ok (_, (_ : Board)) = _
    simp [board, Board.interrupts, s2, h.ie]
  refine ⟨r, s2, ?_, p, q.1, ⟨h.ie, fun k r hk => h.coming (k + 1 + 1) r hk, r, p, q⟩, rfl, rfl⟩
  rw [e, q.2.1, q.2.2.1, split16]

theorem putbit_board (hx : x.Placed) {s : Board} (h : Ready x P s) (b : Bool) :
    ∃ v s2, putbit (board x).toHw PORTB 5 b s = .ok ((), s2) ∧ Led (s.mem PORTB) b v ∧ s2.log = s.log ++ [v] ∧ s2.mem PORTB = v ∧
      Ready x P s2 := by
  obtain ⟨h1, h2, h3⟩ := ready_interrupts hx h
  obtain ⟨h4, h5, h6⟩ := ready_interrupts hx h1
  let v : Byte := if b then s.mem PORTB ||| 0x20 else s.mem PORTB &&& ~~~ 0x20
  let s2 : Board := ⟨fun a => if a = PORTB then v else ((s.interrupts x).interrupts x).mem a,
    ((s.interrupts x).interrupts x).ie, ((s.interrupts x).interrupts x).sched, s.log ++ [v]⟩
  have hm : (pureRes (mask [5]) : M Board Byte) = fun s => .ok (0x20#8, s) := rfl
  refine ⟨v, s2, ?_, ?_, rfl, by simp [s2], ⟨h4.ie, h4.coming, ?_⟩⟩
  · cases b
    · have e : v = (s.interrupts x).mem PORTB &&& ~~~ 0x20#8 := by rw [h2]; rfl
      simp only [s2, e]
      rfl
    · have e : v = (s.interrupts x).mem PORTB ||| 0x20#8 := by rw [h2]; rfl
      simp only [s2, e]
      rfl
  · exact led_bits _ _
  · obtain ⟨r, p, q⟩ := h4.holds
    obtain ⟨⟨p1, p2⟩, -⟩ := hx
    refine ⟨r, p, q.congr (if_neg ?_) (if_neg ?_) (if_neg ?_)⟩ <;> unfold PORTB <;> omega

end Mcu.Demo

/-- **C105** One pass of the main loop: the LED is switched twice, first according to whether a conversion result exceeds
512, then according to whether one exceeds 515.  For all times at which conversions complete. -/
theorem C105_pass {x : Vars} (hx : x.Placed) {P : BitVec 16 → Prop} {s : Board} (h : Ready x P s) :
    ∃ r1 r2 v1 v2 s2, poll (board x) x s = .ok ((), s2) ∧ P r1 ∧ P r2 ∧ s2.log = s.log ++ [v1, v2] ∧
      Led (s.mem PORTB) (decide (512 < r1.toNat)) v1 ∧ Led (s.mem PORTB) (decide (515 < r2.toNat)) v2 ∧
      Ready x P s2 ∧ s2.mem PORTB = v2 := by
  obtain ⟨r1, s1, e1, p1, -, a1, b1, c1⟩ := guarded16_board h
  obtain ⟨v1, s2, e2, l1, c2, b2, a2⟩ := putbit_board hx a1 (decide (512#16 < r1))
  obtain ⟨r2, s3, e3, p2, hr2, a3, b3, c3⟩ := guarded8_board hx a2
  obtain ⟨v2, s4, e4, l2, c4, b4, a4⟩ := putbit_board hx a3 (decide (128#8 < (r2 >>> 2).setWidth 8))
  have hd : decide (128#8 < (r2 >>> 2).setWidth 8) = decide (515 < r2.toNat) := by
    have : r2.toNat < 1024 := hr2
    refine decide_eq_decide.2 ?_
    rw [BitVec.lt_def, BitVec.toNat_setWidth, BitVec.toNat_ushiftRight, Nat.shiftRight_eq_div_pow]
    simp only [BitVec.toNat_ofNat]
    omega
  rw [hd] at l2
  rw [b1] at l1
  rw [b3, b2] at l2
  refine ⟨r1, r2, v1, v2, s4, ?_, p1, p2, by rw [c4, c3, c2, c1]; simp, l1, ⟨l2.1, fun i hi => ?_⟩, a4, b4⟩
  · rw [poll, M_bind, e1, bind_okM, M_bind, e2, bind_okM, M_bind, e3, bind_okM, e4]
  · rw [l2.2 i hi, l1.2 i hi]

/-- Any number of passes, if it is known what the results let each pass write. -/
theorem polls_log {x : Vars} (hx : x.Placed) {P : BitVec 16 → Prop} {p : Byte} {a b : Bool}
    (ha : ∀ r, P r → decide (512 < r.toNat) = a) (hb : ∀ r, P r → decide (515 < r.toNat) = b) (n : Nat) :
    ∀ s : Board, Ready x P s → (∀ i, i ≠ 5 → (s.mem PORTB).getLsbD i = p.getLsbD i) →
      ∃ s2 vs, polls x n s = .ok ((), s2) ∧ s2.log = s.log ++ vs ∧ vs.length = 2 * n ∧
        ∀ i (hi : i < vs.length), Led p (if i % 2 = 0 then a else b) vs[i] := by
  induction n with
  | zero => exact fun s _ _ => ⟨s, [], rfl, by simp, rfl, fun i hi => absurd hi (by simp)⟩
  | succ n ih =>
    intro s h hp
    obtain ⟨r1, r2, v1, v2, s1, e1, p1, p2, l, d1, d2, h1, hv⟩ := C105_pass hx h
    rw [ha r1 p1] at d1
    rw [hb r2 p2] at d2
    have d1' : Led p a v1 := ⟨d1.1, fun i hi => (d1.2 i hi).trans (hp i hi)⟩
    have d2' : Led p b v2 := ⟨d2.1, fun i hi => (d2.2 i hi).trans (hp i hi)⟩
    obtain ⟨s2, vs, e2, l2, len, hs⟩ := ih s1 h1 (by rw [hv]; exact d2'.2)
    refine ⟨s2, v1 :: v2 :: vs, ?_, by rw [l2, l]; simp, by simp [len]; omega, ?_⟩
    · rw [polls, M_bind, e1, bind_okM, e2]
    · intro i hi
      match i with
      | 0 => exact d1'
      | 1 => exact d2'
      | i + 2 =>
        have : (i + 2) % 2 = i % 2 := by omega
        rw [this]
        exact hs i (by simpa using hi)

/-- **C105** While the input is above half of the supply voltage by at least 4 units, the LED is on, and while it is not
above half, off: every value written to the port says so. -/
theorem C105_steady {x : Vars} (hx : x.Placed) (on : Bool) {s : Board}
    (h : Ready x (fun r => if on then 515 < r.toNat else r.toNat ≤ 512) s) (n : Nat) :
    ∃ s2 vs, polls x n s = .ok ((), s2) ∧ s2.log = s.log ++ vs ∧ vs.length = 2 * n ∧
      ∀ v ∈ vs, Led (s.mem PORTB) on v := by
  obtain ⟨s2, vs, e, l, len, hs⟩ := polls_log hx (a := on) (b := on) (p := s.mem PORTB)
    (fun r hr => by cases on <;> simp at hr ⊢ <;> omega) (fun r hr => by cases on <;> simp at hr ⊢ <;> omega) n s h
    (fun _ _ => rfl)
  refine ⟨s2, vs, e, l, len, fun v hv => ?_⟩
  obtain ⟨i, hi, rfl⟩ := List.getElem_of_mem hv
  simpa using hs i hi

/-- **C105** The two levels do not agree: an input of 513 to 515 units, above half of the supply voltage, makes the LED
flicker: every pass switches it on and off again. -/
theorem C105_flicker_wrong {x : Vars} (hx : x.Placed) {s : Board}
    (h : Ready x (fun r => 512 < r.toNat ∧ r.toNat < 516) s) (n : Nat) :
    ∃ s2 vs, polls x n s = .ok ((), s2) ∧ s2.log = s.log ++ vs ∧ vs.length = 2 * n ∧
      ∀ i (hi : i < vs.length), Led (s.mem PORTB) (decide (i % 2 = 0)) vs[i] := by
  obtain ⟨s2, vs, e, l, len, hs⟩ := polls_log hx (a := true) (b := false) (p := s.mem PORTB)
    (fun r hr => by simp at hr ⊢; omega) (fun r hr => by simp at hr ⊢; omega) n s h (fun _ _ => rfl)
  refine ⟨s2, vs, e, l, len, fun i hi => ?_⟩
  have := hs i hi
  by_cases h2 : i % 2 = 0 <;> simpa [h2] using this

/-- Boards that meet the hypotheses: a constant input, delivered again and again. -/
example (r : BitVec 16) (hr : r < 1024) : ∃ (x : Vars) (s : Board), x.Placed ∧ Ready x (fun q => q = r) s ∧
    ∀ k, s.sched k = some r := by
  refine ⟨⟨0x100, 0x102⟩, ⟨convert ⟨0x100, 0x102⟩ r fun _ => 0, true, fun _ => some r, []⟩, ⟨by decide, by decide⟩,
    ⟨rfl, fun k q h => ?_, r, rfl, (C105_isr ⟨by decide, by decide⟩ hr _).1⟩, fun _ => rfl⟩
  cases h
  exact ⟨hr, rfl⟩

/-- **C105** `init_adc()`: what it makes of the registers.  ADIF (bit 4 of ADCSRA) is cleared by writing 1, and the program
writes back what it has read. -/
theorem C105_init (s : Chip) :
    ∃ s2, init_adc (chip fun a => if a = ADCSRA then 0x10 else 0) s = .ok ((), s2) ∧
      s2.mem ADMUX = (s.mem ADMUX &&& 0xf2#8) ||| 0x40#8 ∧ s2.mem ADCSRA = 0xef#8 ∧ s2.mem ADCSRB = 0 ∧
      ∀ b, b ∉ [ADMUX, ADCSRA, ADCSRB] → s2.mem b = s.mem b := by
  refine ⟨_, rfl, ?_, ?_, ?_, fun b hb => ?_⟩
  · refine BitVec.eq_of_getLsbD_eq fun i hi => ?_
    interval_cases i <;> simp [chip]
  · refine BitVec.eq_of_getLsbD_eq fun i hi => ?_
    interval_cases i <;> simp [chip]
  · simp [chip]
  · simp only [List.mem_cons, List.not_mem_nil, or_false, not_or] at hb
    simp [chip, hb]

/-- **C105** The channel becomes 0 if bit MUX1 is clear, as it is after a reset … -/
theorem C105_channel (s : Chip) (h : (s.mem ADMUX).getLsbD 1 = false) :
    ∃ s2, init_adc (chip fun a => if a = ADCSRA then 0x10 else 0) s = .ok ((), s2) ∧
      s2.mem ADMUX &&& 0x0f#8 = 0 := by
  obtain ⟨s2, e, h1, -⟩ := C105_init s
  refine ⟨s2, e, ?_⟩
  rw [h1]
  refine BitVec.eq_of_getLsbD_eq fun i hi => ?_
  interval_cases i <;> simp [-BitVec.getLsbD_eq_getElem, h]

/-- **C105** … but not otherwise: the mask lists MUX2 twice and lacks MUX1. -/
theorem C105_channel_wrong (s : Chip) (h : (s.mem ADMUX).getLsbD 1 = true) :
    ∃ s2, init_adc (chip fun a => if a = ADCSRA then 0x10 else 0) s = .ok ((), s2) ∧
      s2.mem ADMUX &&& 0x0f#8 = 2#8 := by
  obtain ⟨s2, e, h1, -⟩ := C105_init s
  refine ⟨s2, e, ?_⟩
  rw [h1]
  refine BitVec.eq_of_getLsbD_eq fun i hi => ?_
  interval_cases i <;> simp [-BitVec.getLsbD_eq_getElem, h]

example : ∃ s s' : Chip, (s.mem ADMUX).getLsbD 1 = false ∧ (s'.mem ADMUX).getLsbD 1 = true :=
  ⟨⟨fun _ => 0x05, []⟩, ⟨fun _ => 0x02, []⟩, rfl, rfl⟩

/-! ### C106: fading -/

namespace Mcu.Demo

/-- `n` samples have been taken and shown. -/
structure Sampled (s : Pins) (n : Nat) (s2 : Pins) : Prop where
  reads : s2.reads = s.reads + n
  input : s2.input = s.input
  led : (s2.mem PORTB).getLsbD 5 = if n = 0 then (s.mem PORTB).getLsbD 5 else (s.input (s.reads + n - 1)).getLsbD 0
  rest : ∀ i, i ≠ 5 → (s2.mem PORTB).getLsbD i = (s.mem PORTB).getLsbD i
  other : ∀ b, b ≠ PORTB → s2.mem b = s.mem b
  log : ∃ l, s2.log = s.log ++ l ∧ ∀ w ∈ l, w.1 = PORTB

theorem Sampled.refl (s : Pins) : Sampled s 0 s :=
  ⟨rfl, rfl, by simp, fun _ _ => rfl, fun _ _ => rfl, [], by simp, by simp⟩

theorem Sampled.trans {s s1 s2 : Pins} {n m : Nat} (h : Sampled s n s1) (g : Sampled s1 m s2) : Sampled s (n + m) s2 := by
  obtain ⟨l, hl, hl'⟩ := h.log
  obtain ⟨k, hk, hk'⟩ := g.log
  refine ⟨by rw [g.reads, h.reads]; omega, g.input.trans h.input, ?_, fun i hi => (g.rest i hi).trans (h.rest i hi),
    fun b hb => (g.other b hb).trans (h.other b hb), l ++ k, by rw [hk, hl]; simp, ?_⟩
  · rw [g.led, h.led, h.reads, h.input]
    by_cases m0 : m = 0
    · simp [m0]
    · simp [m0, show s.reads + n + m - 1 = s.reads + (n + m) - 1 by omega]
  · intro w hw
    rcases List.mem_append.1 hw with hw | hw
    exacts [hl' w hw, hk' w hw]

theorem sample_pins (s : Pins) : ∃ s2, sample pins s = .ok ((), s2) ∧ Sampled s 1 s2 := by
  have h0 : tstbit pins PIND 0 s = .ok (s.input s.reads &&& 1#8 != 0, { s with reads := s.reads + 1 }) := rfl
  have hb : (s.input s.reads &&& 1#8 != 0) = (s.input s.reads).getLsbD 0 := by
    cases h : (s.input s.reads).getLsbD 0
    · have : s.input s.reads &&& 1#8 = 0#8 := by
        refine BitVec.eq_of_getLsbD_eq fun i hi => ?_
        interval_cases i <;> simp [-BitVec.getLsbD_eq_getElem, h]
      simp [this]
    · have : s.input s.reads &&& 1#8 ≠ 0#8 := by
        intro e
        have := congrArg (fun v => v.getLsbD 0) e
        simp [-BitVec.getLsbD_eq_getElem, h] at this
      simpa using this
  rw [hb] at h0
  rw [sample, M_bind, h0, bind_okM]
  cases h : (s.input s.reads).getLsbD 0
  · refine ⟨_, rfl, rfl, rfl, ?_, fun i hi => ?_, fun b hb => if_neg hb, [(PORTB, _)], rfl, by simp⟩
    · simp [pins, h, -BitVec.getLsbD_eq_getElem]
    · show (s.mem PORTB &&& ~~~ 0x20#8).getLsbD i = _
      exact (led_bits (s.mem PORTB) false).2 i hi
  · refine ⟨_, rfl, rfl, rfl, ?_, fun i hi => ?_, fun b hb => if_neg hb, [(PORTB, _)], rfl, by simp⟩
    · simp [pins, h, -BitVec.getLsbD_eq_getElem]
    · show (s.mem PORTB ||| 0x20#8).getLsbD i = _
      exact (led_bits (s.mem PORTB) true).2 i hi

/-- A loop that counts down. -/
theorem countdown_pins {body : Nat → M Pins Unit} {k : Nat}
    (hb : ∀ i s, ∃ s2, body i s = .ok ((), s2) ∧ Sampled s k s2) (n : Nat) :
    ∀ s, ∃ s2, cfor (· != 0) (· - 1) body (n + 1) n s = .ok ((), s2) ∧ Sampled s (n * k) s2 := by
  induction n with
  | zero => exact fun s => ⟨s, rfl, by simpa using Sampled.refl s⟩
  | succ n ih =>
    intro s
    obtain ⟨s1, e1, h1⟩ := hb (n + 1) s
    obtain ⟨s2, e2, h2⟩ := ih s1
    refine ⟨s2, ?_, ?_⟩
    · rw [cfor, if_pos (by simp), M_bind, e1, bind_okM]
      exact e2
    · have := h1.trans h2
      rwa [show k + n * k = (n + 1) * k by rw [Nat.succ_mul, Nat.add_comm]] at this

theorem Drives.refl (s : Pins) : Drives s [] s := ⟨⟨[], by simp, rfl⟩, fun _ _ => rfl, fun _ _ => rfl⟩

theorem Drives.trans {s s1 s2 : Pins} {v w : List (Nat × Byte)} (h : Drives s v s1) (g : Drives s1 w s2) :
    Drives s (v ++ w) s2 := by
  obtain ⟨l, hl, hl'⟩ := h.log
  obtain ⟨k, hk, hk'⟩ := g.log
  exact ⟨⟨l ++ k, by rw [hk, hl]; simp, by rw [List.filter_append, hl', hk']⟩,
    fun i hi => (g.rest i hi).trans (h.rest i hi), fun b hb => (g.other b hb).trans (h.other b hb)⟩

theorem Sampled.drives {s s2 : Pins} {n : Nat} (h : Sampled s n s2) : Drives s [] s2 := by
  obtain ⟨l, hl, hl'⟩ := h.log
  exact ⟨⟨l, hl, List.filter_eq_nil_iff.2 fun w hw => by simp [hl' w hw]⟩, h.rest,
    fun b hb => h.other b fun e => hb (by simp [e])⟩

end Mcu.Demo

/-- **C106** `delay_ms`: the LED shows the last of `ms * (f_cpu / 7000 / 5)` samples of the input; nothing else
changes. -/
theorem C106_delay (f_cpu ms : Nat) (s : Pins) :
    ∃ s2, delay_ms pins f_cpu ms s = .ok ((), s2) ∧ s2.reads = s.reads + ms * (f_cpu / 35000) ∧
      (s.reads < s2.reads → (s2.mem PORTB).getLsbD 5 = (s.input (s2.reads - 1)).getLsbD 0) ∧
      (∀ i, i ≠ 5 → (s2.mem PORTB).getLsbD i = (s.mem PORTB).getLsbD i) ∧
      ∀ b, b ≠ PORTB → s2.mem b = s.mem b := by
  obtain ⟨s2, e, h⟩ := countdown_pins (fun _ => countdown_pins (fun _ => sample_pins) (f_cpu / (7 * 1000) / 5)) ms s
  rw [mul_one, Nat.div_div_eq_div_mul] at h
  refine ⟨s2, e, h.reads, fun hr => ?_, h.rest, h.other⟩
  have h1 := h.reads
  rw [h.led, if_neg (by omega), h1]

namespace Mcu.Demo

theorem duty_pins (f_cpu : Nat) {i : Nat} (hi : i ≤ 1023) (s : Pins) :
    ∃ s2, duty pins f_cpu (BitVec.ofNat 16 i) s = .ok ((), s2) ∧ Drives s (levels i) s2 := by
  have e0 : duty pins f_cpu (BitVec.ofNat 16 i) s = delay_ms pins f_cpu 2
      ⟨_, s.input, s.reads, s.log ++ [(OCR0A, (BitVec.ofNat 16 i / 4).setWidth 8)] ++
        [(OCR1A + 1, (BitVec.ofNat 16 i).extractLsb' 8 8)] ++ [(OCR1A, (BitVec.ofNat 16 i).extractLsb' 0 8)] ++
        [(OCR1B + 1, (top - BitVec.ofNat 16 i).extractLsb' 8 8)] ++
        [(OCR1B, (top - BitVec.ofNat 16 i).extractLsb' 0 8)]⟩ := rfl
  rw [e0]
  generalize e1 : (Pins.mk _ _ _ _) = s1
  obtain ⟨s2, e, h⟩ := countdown_pins (fun _ => countdown_pins (fun _ => sample_pins) (f_cpu / (7 * 1000) / 5)) 2 s1
  refine ⟨s2, e, ?_⟩
  have h1 : Drives s (levels i) s1 := by
    subst e1
    refine ⟨⟨levels i, ?_, by simp [levels, OCR1A, OCR1B, PORTB]⟩, fun i hi => rfl, fun b hb => ?_⟩
    · have c1 : (BitVec.ofNat 16 i / 4).setWidth 8 = BitVec.ofNat 8 (i / 4) := by
        apply BitVec.eq_of_toNat_eq
        rw [BitVec.toNat_setWidth, BitVec.toNat_udiv, BitVec.toNat_ofNat, BitVec.toNat_ofNat, Nat.mod_eq_of_lt (a := i) (by omega)]
        rfl
      have c2 : ∀ j, j ≤ 1023 → (BitVec.ofNat 16 j).extractLsb' 8 8 = BitVec.ofNat 8 (j / 256) := by
        intro j hj
        apply BitVec.eq_of_toNat_eq
        rw [BitVec.extractLsb'_toNat, BitVec.toNat_ofNat, BitVec.toNat_ofNat, Nat.mod_eq_of_lt (a := j) (by omega),
          Nat.shiftRight_eq_div_pow]
      have c3 : ∀ j, j ≤ 1023 → (BitVec.ofNat 16 j).extractLsb' 0 8 = BitVec.ofNat 8 j := by
        intro j hj
        apply BitVec.eq_of_toNat_eq
        rw [BitVec.extractLsb'_toNat, BitVec.toNat_ofNat, BitVec.toNat_ofNat, Nat.mod_eq_of_lt (a := j) (by omega),
          Nat.shiftRight_zero]
      have c4 : top - BitVec.ofNat 16 i = BitVec.ofNat 16 (1023 - i) := by
        apply BitVec.eq_of_toNat_eq
        rw [BitVec.toNat_sub, BitVec.toNat_ofNat, BitVec.toNat_ofNat, top, BitVec.toNat_ofNat]
        omega
      rw [c4, c1, c2 i hi, c3 i hi, c2 _ (Nat.sub_le _ _), c3 _ (Nat.sub_le _ _)]
      simp [levels]
    · simp only [List.mem_cons, List.not_mem_nil, or_false, not_or] at hb
      simp [pins, hb]
  simpa using h1.trans h.drives

theorem up_pins (f_cpu : Nat) (n : Nat) : ∀ i fuel, i + n = 1023 → n < fuel → ∀ s,
    ∃ s2, cfor (fun i : BitVec 16 => decide (i < top)) (· + 1) (duty pins f_cpu) fuel (BitVec.ofNat 16 i) s = .ok ((), s2) ∧
      Drives s ((List.range n).flatMap fun k => levels (i + k)) s2 := by
  induction n with
  | zero =>
    intro i fuel hi hf s
    obtain ⟨fuel, rfl⟩ : ∃ k, fuel = k + 1 := ⟨fuel - 1, by omega⟩
    obtain rfl : i = 1023 := hi
    exact ⟨s, rfl, Drives.refl s⟩
  | succ n ih =>
    intro i fuel hi hf s
    obtain ⟨fuel, rfl⟩ : ∃ k, fuel = k + 1 := ⟨fuel - 1, by omega⟩
    obtain ⟨s1, e1, h1⟩ := duty_pins f_cpu (i := i) (by omega) s
    obtain ⟨s2, e2, h2⟩ := ih (i + 1) fuel (by omega) (by omega) s1
    have hlt : BitVec.ofNat 16 i < top := by
      rw [BitVec.lt_def, BitVec.toNat_ofNat, top, BitVec.toNat_ofNat]
      omega
    have hn : BitVec.ofNat 16 i + 1 = BitVec.ofNat 16 (i + 1) := by
      apply BitVec.eq_of_toNat_eq
      simp
    refine ⟨s2, ?_, ?_⟩
    · rw [cfor, if_pos (by simpa using hlt), M_bind, e1, bind_okM, hn]
      exact e2
    · have := h1.trans h2
      rw [List.range_succ_eq_map, List.flatMap_cons, List.flatMap_map]
      simpa [Nat.add_assoc, Nat.add_comm 1] using this

theorem down_pins (f_cpu : Nat) (i : Nat) : ∀ fuel, i ≤ 1023 → i < fuel → ∀ s,
    ∃ s2, cfor (fun i : BitVec 16 => decide (0 < i)) (· - 1) (duty pins f_cpu) fuel (BitVec.ofNat 16 i) s = .ok ((), s2) ∧
      Drives s ((List.range i).flatMap fun k => levels (i - k)) s2 := by
  induction i with
  | zero =>
    intro fuel hi hf s
    obtain ⟨fuel, rfl⟩ : ∃ k, fuel = k + 1 := ⟨fuel - 1, by omega⟩
    exact ⟨s, rfl, Drives.refl s⟩
  | succ i ih =>
    intro fuel hi hf s
    obtain ⟨fuel, rfl⟩ : ∃ k, fuel = k + 1 := ⟨fuel - 1, by omega⟩
    obtain ⟨s1, e1, h1⟩ := duty_pins f_cpu (i := i + 1) (by omega) s
    obtain ⟨s2, e2, h2⟩ := ih fuel (by omega) (by omega) s1
    have hlt : 0 < BitVec.ofNat 16 (i + 1) := by
      rw [BitVec.lt_def, BitVec.toNat_ofNat]
      show 0 < _
      omega
    have hn : BitVec.ofNat 16 (i + 1) - 1 = BitVec.ofNat 16 i := by
      apply BitVec.eq_of_toNat_eq
      rw [BitVec.toNat_sub, BitVec.toNat_ofNat, BitVec.toNat_ofNat]
      show (2 ^ 16 - 1 + (i + 1) % 2 ^ 16) % 2 ^ 16 = _
      omega
    refine ⟨s2, ?_, ?_⟩
    · rw [cfor, if_pos (by simpa using hlt), M_bind, e1, bind_okM, hn]
      exact e2
    · have := h1.trans h2
      rw [List.range_succ_eq_map, List.flatMap_cons, List.flatMap_map]
      simpa using this

theorem flatMap_halves {α : Type} {f g h : Nat → List α} (k n : Nat) (hk : k = n + n) (hg : ∀ t, t < n → f t = g t)
    (hh : ∀ t, t < n → f (n + t) = h t) :
    (List.range k).flatMap f = (List.range n).flatMap g ++ (List.range n).flatMap h := by
  rw [hk, List.range_add, List.flatMap_append, List.flatMap_map]
  simp only [List.flatMap]
  rw [List.map_congr_left fun t ht => hg t (List.mem_range.1 ht),
    List.map_congr_left (f := fun a => f (n + a)) fun t ht => hh t (List.mem_range.1 ht)]

theorem triangle_levels : (List.range 2046).flatMap (fun t => levels (triangle t)) =
    ((List.range 1023).flatMap fun k => levels (0 + k)) ++ (List.range 1023).flatMap fun k => levels (1023 - k) := by
  refine flatMap_halves 2046 1023 (by norm_num) (fun t ht => ?_) fun t ht => ?_
  · rw [triangle, Nat.mod_eq_of_lt (by omega), if_pos ht, Nat.zero_add]
  · rw [triangle, Nat.mod_eq_of_lt (by omega), if_neg (by omega), show 2046 - (1023 + t) = 1023 - t by omega]

end Mcu.Demo

/-- **C106** One pass: apart from PORTB, exactly these bytes are written, in this order: the levels of one period of a
triangle. -/
theorem C106_pass (f_cpu : Nat) (s : Pins) :
    ∃ s2, fade pins f_cpu s = .ok ((), s2) ∧
      Drives s ((List.range 2046).flatMap fun t => levels (triangle t)) s2 := by
  obtain ⟨s1, e1, h1⟩ := up_pins f_cpu 1023 0 (2 ^ 16) rfl (by omega) s
  obtain ⟨s2, e2, h2⟩ := down_pins f_cpu 1023 (2 ^ 16) le_rfl (by omega) s1
  refine ⟨s2, ?_, ?_⟩
  · rw [fade, M_bind]
    have e1' := e1
    rw [show (BitVec.ofNat 16 0) = 0 from rfl] at e1'
    rw [e1', bind_okM]
    exact e2
  · rw [triangle_levels]
    exact h1.trans h2

/-- **C106** Any number of passes: the levels follow a triangle without a jump, from one pass to the next. -/
theorem C106_triangle (f_cpu n : Nat) : ∀ s : Pins,
    ∃ s2, fades f_cpu n s = .ok ((), s2) ∧
      Drives s ((List.range (n * 2046)).flatMap fun t => levels (triangle t)) s2 := by
  induction n with
  | zero => exact fun s => ⟨s, rfl, by simpa using Drives.refl s⟩
  | succ n ih =>
    intro s
    obtain ⟨s1, e1, h1⟩ := C106_pass f_cpu s
    obtain ⟨s2, e2, h2⟩ := ih s1
    refine ⟨s2, ?_, ?_⟩
    · rw [fades, M_bind, e1, bind_okM, e2]
    · have := h1.trans h2
      rw [Nat.succ_mul, Nat.add_comm, List.range_add, List.flatMap_append, List.flatMap_map]
      have e : ∀ t, triangle (2046 + t) = triangle t := fun t => by simp [triangle]
      simpa only [e] using this

/-- Neighbouring levels differ by 1. -/
theorem C106_no_jump (t : Nat) : triangle (t + 1) = triangle t + 1 ∨ triangle t = triangle (t + 1) + 1 := by
  unfold triangle
  split_ifs <;> omega

/-- **C106** The registers after `init_led`, `init_timer0_pwm` and `init_timer1_pwm`: bits are only set. -/
theorem C106_init (s : Chip) :
    ∃ s2, fade_init ram s = .ok ((), s2) ∧ s2.mem PORTB = s.mem PORTB ||| 0x20 ∧ s2.mem DDRB = s.mem DDRB ||| 0x26 ∧
      s2.mem DDRD = s.mem DDRD ||| 0x40 ∧ s2.mem TCCR0A = s.mem TCCR0A ||| 0x83 ∧
      s2.mem TCCR0B = s.mem TCCR0B ||| 0x03 ∧ s2.mem TCCR1A = s.mem TCCR1A ||| 0xa3 ∧
      s2.mem TCCR1B = s.mem TCCR1B ||| 0x09 ∧
      ∀ b, b ∉ [PORTB, DDRB, DDRD, TCCR0A, TCCR0B, TCCR1A, TCCR1B] → s2.mem b = s.mem b := by
  refine ⟨_, rfl, ?_, ?_, ?_, ?_, ?_, ?_, ?_, fun b hb => ?_⟩
  iterate 7
    · refine BitVec.eq_of_getLsbD_eq fun i hi => ?_
      interval_cases i <;> simp [ram, chip]
  · simp only [List.mem_cons, List.not_mem_nil, or_false, not_or] at hb
    simp [ram, chip, hb]

/-! ### C107: blinking -/

/-- **C107** After the first statements and `n` passes the LED is on if `n` is even, the other pins of port B stay at 1 and
nothing but the port and its direction register is written. -/
theorem C107_blink (n : Nat) (s : Chip) :
    ∃ s1 s2, blink_init ram s = .ok ((), s1) ∧ blinks ram n s1 = .ok ((), s2) ∧
      s2.mem PORTB = (if n % 2 = 0 then 0xff else 0xdf) ∧ s2.mem DDRB = s.mem DDRB ||| 0x20 ∧
      ∀ b, b ≠ PORTB → b ≠ DDRB → s2.mem b = s.mem b := by
  have h : ∀ n (s1 : Chip), ∃ s2, blinks ram n s1 = .ok ((), s2) ∧
      s2.mem PORTB = (if n % 2 = 0 then s1.mem PORTB else s1.mem PORTB ^^^ 0x20#8) ∧
      ∀ b, b ≠ PORTB → s2.mem b = s1.mem b := by
    intro n
    induction n with
    | zero => exact fun s => ⟨s, rfl, rfl, fun _ _ => rfl⟩
    | succ n ih =>
      intro s
      have e : blink ram s = .ok ((), upd s PORTB (s.mem PORTB ^^^ 0x20#8)) := wr_ram _ _ _
      obtain ⟨s2, e2, p2, o2⟩ := ih (upd s PORTB (s.mem PORTB ^^^ 0x20#8))
      refine ⟨s2, by rw [blinks, M_bind, e, bind_okM, e2], ?_, fun b hb => by rw [o2 b hb, upd_other _ _ hb]⟩
      rw [p2, upd_same, BitVec.xor_assoc, BitVec.xor_self, BitVec.xor_zero]
      by_cases hn : n % 2 = 0
      · rw [if_pos hn, if_neg (by omega)]
      · rw [if_neg hn, if_pos (by omega)]
  have e1 : blink_init ram s = .ok ((), upd (upd s PORTB 0xff) DDRB ((upd s PORTB 0xff).mem DDRB ||| 0x20#8)) := by
    rw [blink_init, M_bind, wr_ram, bind_okM]
    exact setmsk_ram _ _ _
  obtain ⟨s2, e2, p2, o2⟩ := h n (upd (upd s PORTB 0xff) DDRB ((upd s PORTB 0xff).mem DDRB ||| 0x20#8))
  refine ⟨_, s2, e1, e2, ?_, ?_, fun b b1 b2 => ?_⟩
  · rw [p2, upd_other _ _ (by decide), upd_same]
    rfl
  · rw [o2 _ (by decide), upd_same, upd_other _ _ (by decide)]
    rfl
  · rw [o2 _ b1, upd_other _ _ b2, upd_other _ _ b1]

end Verif
