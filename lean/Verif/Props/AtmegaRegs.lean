import Verif.Lemmas.AtmegaDrivers
import Verif.Props.Register

/-
Properties C89 to C92: registers, fields and functions of the ATmega328, compared with its datasheet.
-/

namespace Verif
open Mcu Mcu.Atmega Mcu.Datasheet Mcu.Datasheet.Reg Mcu.Datasheet.Bit

/-! ### C89: declarations -/

/-- Each declared field consists of the bits that its name stands for, except FOC1A and FOC1B (see `C89_foc1_wrong`). -/
theorem C89_fields_partial : ∀ p ∈ fieldBits, Consists p.1 p.2 ∨ p.2 ∈ [[FOC1A], [FOC1B]] := by decide +kernel

/-- FOC1A and FOC1B are declared in another register: they are COM1A1 and COM1A0. -/
theorem C89_foc1_wrong : pos FOC1A = some (0x82, 7) ∧ Consists reg.tccr1c.foc1a [COM1A1] ∧
    pos FOC1B = some (0x82, 6) ∧ Consists reg.tccr1c.foc1b [COM1A0] := by decide +kernel

/-- Each declared register is the register that its name stands for. -/
theorem C89_registers : ∀ p ∈ wholeRegs, IsWhole p.1 p.2 := by decide +kernel

/-- The bits of ports, masks and general purpose registers. -/
theorem C89_bits (bit : Nat) :
    (∀ p ∈ [(0, PINB), (1, PINC), (2, PIND)], ∃ a, address p.2 = some a ∧ inp p.1 bit = bit8 .rw a bit) ∧
    (∀ p ∈ [(0, DDRB), (1, DDRC), (2, DDRD)], ∃ a, address p.2 = some a ∧ dir p.1 bit = bit8 .rw a bit) ∧
    (∀ p ∈ [(0, PORTB), (1, PORTC), (2, PORTD)], ∃ a, address p.2 = some a ∧ out p.1 bit = bit8 .rw a bit) ∧
    (∀ p ∈ [(0, PCMSK0), (1, PCMSK1), (2, PCMSK2)],
      ∃ a, address p.2 = some a ∧ reg.pcmsk_bit p.1 bit = bit8 .rw a bit) ∧
    ∀ p ∈ [(0, GPIOR0), (1, GPIOR1), (2, GPIOR2)],
      ∃ a, address p.2 = some a ∧ reg.gpior_bit p.1 bit = bit8 .rw a bit := by
  simp only [List.forall_mem_cons, List.not_mem_nil, false_implies, implies_true, and_true]
  exact ⟨⟨⟨_, rfl, rfl⟩, ⟨_, rfl, rfl⟩, ⟨_, rfl, rfl⟩⟩, ⟨⟨_, rfl, rfl⟩, ⟨_, rfl, rfl⟩, ⟨_, rfl, rfl⟩⟩,
    ⟨⟨_, rfl, rfl⟩, ⟨_, rfl, rfl⟩, ⟨_, rfl, rfl⟩⟩, ⟨⟨_, rfl, rfl⟩, ⟨_, rfl, rfl⟩, ⟨_, rfl, rfl⟩⟩,
    ⟨⟨_, rfl, rfl⟩, ⟨_, rfl, rfl⟩, ⟨_, rfl, rfl⟩⟩⟩

/-- The working registers lie at the start of memory, X, Y and Z are the last three pairs. -/
theorem C89_working_registers :
    (∀ i, (reg.gpwr.r i).address = i ∧ (reg.gpwr.r i).lo = 0 ∧ (reg.gpwr.r i).hi = 7) ∧
    ∀ p ∈ [(reg.gpwr.x, 26), (reg.gpwr.y, 28), (reg.gpwr.z, 30)],
      p.1.w = .w16 ∧ p.1.address = p.2 ∧ p.1.lo = 0 ∧ p.1.hi = 15 :=
  ⟨fun _ => ⟨rfl, rfl, rfl⟩, by decide⟩

/-- The policy of each declared field fits its bits: write-1-to-clear for flags, read-only for bits that cannot be
written, read/write for the others; except for the flags PCIF2 to PCIF0 (see C73) and TWINT (declared both ways) and for
the read-only bit TWWC, which are declared read/write. -/
theorem C89_policies_partial : ∀ p ∈ fieldBits,
    p.1.io = policy p.2 ∨ p.1.io = .rw ∧ p.2 ∈ [[PCIF0], [PCIF1], [PCIF2], [TWINT], [TWWC]] := by decide +kernel

/-- The masks of flags agree with the list of flag bits. -/
theorem C89_flags : ∀ row ∈ summary, ∀ i ∈ List.range 8,
    ((w1c row.1).getLsbD i = true ↔ ∃ b ∈ flagBits, row.2.2[7 - i]? = some (some b)) := by decide +kernel

/-! ### C90: setting fields -/

/-- `set( v );` puts the value into the bits that the function is named for, highest bit first; `current( x )` delivers
it from there.  All other registers stay as they are; so do all other bits of the register, except that its pending
flags, if it has any, are cleared (see C91). -/
theorem C90_set : ∀ p ∈ settingBits, ∀ v : BitVec p.1.setter.w.bits, v.toNat < 2 ^ p.2.length → ∀ s : Chip,
    ∃ s', p.1.set (chip w1c) v s = .ok ((), s') ∧
      (∀ k b a i, p.2[k]? = some b → pos b = some (a, i) →
        (s'.mem a).getLsbD i = v.getLsbD (p.2.length - 1 - k)) ∧
      (∀ g ∈ p.1.getter, ∃ x, g.read (chip w1c) s' = .ok (x, s') ∧ x.toNat = v.toNat) ∧
      (∀ a, (∀ b ∈ p.2, ∀ i, pos b ≠ some (a, i)) → s'.mem a = s.mem a) ∧
      ∀ b ∈ p.2, ∀ a j, pos b = some (a, j) → ∀ i < 8, (∀ c ∈ p.2, pos c ≠ some (a, i)) →
        (s'.mem a).getLsbD i = ((s.mem a).getLsbD i && !(w1c a).getLsbD i) := by
  intro p hp v hc s
  obtain ⟨hC, hle, h8, hio, hcount, hn, hg⟩ := setting_ok p hp
  obtain ⟨⟨g, ⟨w, io, a0, hi, lo⟩, l⟩, bs⟩ := p
  have hw : w = .w8 := hC.1
  subst hw
  have hv : (Mcu.Field.mk .w8 io a0 hi lo).Valid := ⟨hle, h8⟩
  have hfit : (Mcu.Field.mk .w8 io a0 hi lo).Fits v := lt_of_lt_of_eq hc (congrArg (2 ^ ·) hcount)
  have h8' : hi < 8 := h8
  have hn' : ∀ i, (Mcu.Field.mk .w8 io a0 hi lo).Has i → bitAt w1c a0 i = false := fun i hh => by
    have h1 : lo ≤ i ∧ i ≤ hi := hh
    rw [bitAt8 _ _ (by omega)]
    exact hn i (List.mem_range.2 (by omega)) h1.1 h1.2
  obtain ⟨s', h1, h2, h3⟩ := Setting.set_eq (w1c := w1c) (t := ⟨g, ⟨.w8, io, a0, hi, lo⟩, l⟩) hv
    (fun h => by simp only at hio h; rw [hio] at h; cases h) hn' hfit s
  have hbit : ∀ i < 8, (s'.mem a0).getLsbD i = if (Mcu.Field.mk .w8 io a0 hi lo).Has i then v.getLsbD (i - lo)
      else (s.mem a0).getLsbD i && !(w1c a0).getLsbD i := fun i hi8 => by
    have := h2 i hi8
    simp only [bitAt8 _ _ hi8] at this
    exact this
  refine ⟨s', h1, ?_, ?_, ?_, ?_⟩
  · intro k b a i hk hpos
    obtain ⟨e0, -, e2, e3⟩ := Consists.place hC hk hpos
    have e0' : a = a0 := e0
    have e4 : lo ≤ i ∧ i ≤ hi := e3
    have e2' : lo + (bs.length - 1 - k) = i := e2
    rw [e0', hbit i (by omega), if_pos e3, ← e2', Nat.add_sub_cancel_left]
  · intro g' hg'
    obtain ⟨q1, q2, q3, q4⟩ := hg g' hg'
    obtain ⟨gw, gio, ga, ghi, glo⟩ := g'
    have r1 : gw = .w8 := q1
    have r2 : ga = a0 := q2
    have r3 : ghi = hi := q3
    have r4 : glo = lo := q4
    subst r1 r2 r3 r4
    refine ⟨v, read_val (f := ⟨.w8, gio, ga, ghi, glo⟩) ⟨hle, h8⟩ s' hfit fun i hh => ?_, rfl⟩
    have e4 : glo ≤ i ∧ i ≤ ghi := hh
    show bitAt s'.mem ga i = _
    rw [bitAt8 _ _ (by omega), hbit i (by omega)]
    exact if_pos e4
  · intro a ha
    refine h3 a ?_
    have hne : a ≠ a0 := by
      rintro rfl
      obtain ⟨b, hb, hb2⟩ := Consists.pos hC (i := hi) ⟨hle, le_refl _⟩
      exact ha b (List.mem_of_getElem? hb) _ hb2
    show a < a0 ∨ a0 + 8 / 8 ≤ a
    omega
  · intro b hb a j hpos i hi8 hother
    obtain ⟨k, hk⟩ := List.getElem?_of_mem hb
    have e0 : a = a0 := (Consists.place hC hk hpos).1
    subst e0
    rw [hbit i hi8, if_neg]
    intro hh
    obtain ⟨c', hc1, hc2⟩ := Consists.pos hC hh
    exact hother c' (List.mem_of_getElem? hc1) hc2

/-- Example: output mode 2 for compare output A of timer 1 sets COM1A1, clears COM1A0, and is read back. -/
example (s : Chip) : ∃ s', tc1_output_a.set (chip w1c) 2#8 s = .ok ((), s') ∧ (s'.mem 0x80).getLsbD 7 = true ∧
    (s'.mem 0x80).getLsbD 6 = false := by
  obtain ⟨s', h1, h2, -⟩ := C90_set (tc1_output_a, [COM1A1, COM1A0]) (by simp [settingBits]) 2#8 (by decide) s
  exact ⟨s', h1, h2 0 COM1A1 0x80 7 rfl rfl, h2 1 COM1A0 0x80 6 rfl rfl⟩

/-- `set( v );` of a whole register stores the bytes of the value, low byte at the lower address, and changes no other
register; `current( x )` delivers the value. -/
theorem C90_set_register : ∀ p ∈ settingRegs, ∀ (v : BitVec p.1.setter.w.bits) (s : Chip),
    ∃ s', p.1.set (chip w1c) v s = .ok ((), s') ∧
      (∀ k r a, p.2[k]? = some r → address r = some a → s'.mem a = v.extractLsb' (8 * k) 8) ∧
      (∀ g ∈ p.1.getter, ∃ x, g.read (chip w1c) s' = .ok (x, s') ∧ x.toNat = v.toNat) ∧
      ∀ a, (∀ r ∈ p.2, address r ≠ some a) → s'.mem a = s.mem a := by
  intro p hp v s
  obtain ⟨hC, hio, hn, hg⟩ := setting_reg_ok p hp
  obtain ⟨⟨g, ⟨w, io, a0, hi, lo⟩, l⟩, rs⟩ := p
  obtain ⟨hlo, hhi, hlen, hpos⟩ := hC
  simp only at hlo hhi hlen hpos hio hn hg v
  subst hlo
  have hbits : 0 < w.bits := by cases w <;> decide
  have hv : (Mcu.Field.mk w io a0 hi 0).Valid := ⟨Nat.zero_le _, show hi < w.bits by omega⟩
  have hfit : (Mcu.Field.mk w io a0 hi 0).Fits v := by
    show v.toNat < 2 ^ (hi - 0 + 1)
    rw [Nat.sub_zero, hhi]
    exact v.isLt
  have hHas : ∀ i < w.bits, (Mcu.Field.mk w io a0 hi 0).Has i := fun i h => ⟨Nat.zero_le _, show i ≤ hi by omega⟩
  obtain ⟨s', h1, h2, h3⟩ := Setting.set_eq (w1c := w1c) (t := ⟨g, ⟨w, io, a0, hi, 0⟩, l⟩) hv
    (fun h => by simp only at h; rw [hio] at h; cases h)
    (fun i hh => hn i (List.mem_range.2 (lt_of_le_of_lt hh.2 hv.lt))) hfit s
  have hbit : ∀ i < w.bits, bitAt s'.mem a0 i = v.getLsbD i := fun i h => by
    have := h2 i h
    simp only [if_pos (hHas i h), Nat.sub_zero] at this
    exact this
  have hk : ∀ {k r}, rs[k]? = some r → address r = some (a0 + k) ∧ k < rs.length := fun {k r} h =>
    ⟨hpos (r, k) (List.mk_mem_zipIdx_iff_getElem?.2 h), (List.getElem?_eq_some_iff.1 h).1⟩
  refine ⟨s', h1, ?_, ?_, ?_⟩
  · intro k r a hr ha
    obtain ⟨e1, e2⟩ := hk hr
    rw [ha] at e1
    cases e1
    refine BitVec.eq_of_getLsbD_eq fun i hi8 => ?_
    have := hbit (8 * k + i) (by omega)
    rw [bitAt, show (8 * k + i) / 8 = k by omega, show (8 * k + i) % 8 = i by omega] at this
    rw [this, BitVec.getLsbD_extractLsb']
    simp [hi8]
  · intro g' hg'
    obtain ⟨q1, q2, q3, q4⟩ := hg g' hg'
    obtain ⟨gw, gio, ga, ghi, glo⟩ := g'
    simp only at q1 q2 q3 q4
    subst q1 q2 q3 q4
    exact ⟨v, read_val ⟨hv.le, hv.lt⟩ s' hfit fun i hh => hbit i (lt_of_le_of_lt hh.2 hv.lt), rfl⟩
  · intro a ha
    refine h3 a ?_
    show a < a0 ∨ a0 + w.bits / 8 ≤ a
    by_contra hcon
    have hl : a - a0 < rs.length := by omega
    refine ha rs[a - a0] (List.getElem_mem hl) ?_
    rw [(hk (List.getElem?_eq_getElem hl)).1]
    congr 1
    omega

/-! ### C91: pending flags -/

/-- The functions that set a field keep pending interrupt flags, except the functions for ADCSRA, ACSR and TWCR. -/
theorem C91_kept_partial : ∀ p ∈ settingBits, (∀ r ∈ [ADCSRA, ACSR, TWCR], address r ≠ some p.1.setter.address) →
    ∀ v : BitVec p.1.setter.w.bits, v.toNat < 2 ^ p.2.length → ∀ s : Chip,
    ∃ s', p.1.set (chip w1c) v s = .ok ((), s') ∧
      ∀ f ∈ flagBits, ∀ a i, pos f = some (a, i) → (s'.mem a).getLsbD i = (s.mem a).getLsbD i := by
  intro p hp hr v hc s
  obtain ⟨s', h1, -, -, h4, h5⟩ := C90_set p hp v hc s
  refine ⟨s', h1, fun f hf a i hfp => ?_⟩
  have h0 := setting_no_flags p hp hr
  obtain ⟨hi8, hw⟩ := flagBits_ok f hf a i hfp
  have hC := (setting_ok p hp).1
  rw [h4 a]
  intro b hb j hbp
  obtain ⟨k, hk⟩ := List.getElem?_of_mem hb
  obtain ⟨rfl, -⟩ := Consists.place hC hk hbp
  rw [h0] at hw
  simp at hw

/-- Whatever a function for ADCSRA, ACSR or TWCR is asked to set, the pending flag of the register is cleared. -/
theorem C91_lost_wrong : ∀ p ∈ settingBits, ∀ f ∈ flagBits, ∀ i, pos f = some (p.1.setter.address, i) →
    ∀ v : BitVec p.1.setter.w.bits, v.toNat < 2 ^ p.2.length → ∀ s : Chip,
    ∃ s', p.1.set (chip w1c) v s = .ok ((), s') ∧ (s'.mem p.1.setter.address).getLsbD i = false := by
  intro p hp f hf i hfp v hc s
  obtain ⟨s', h1, -, -, -, h5⟩ := C90_set p hp v hc s
  refine ⟨s', h1, ?_⟩
  obtain ⟨hi8, hw⟩ := flagBits_ok f hf _ _ hfp
  obtain ⟨hC, hle, h8, hio, -, hn, -⟩ := setting_ok p hp
  obtain ⟨b, hb, hbp⟩ := Consists.pos hC (i := p.1.setter.hi) ⟨hle, le_refl _⟩
  rw [h5 b (List.mem_of_getElem? hb) _ _ hbp i hi8, hw]
  · simp
  · intro c hc' hcp
    obtain ⟨k, hk⟩ := List.getElem?_of_mem hc'
    obtain ⟨-, -, -, hh⟩ := Consists.place hC hk hcp
    rw [hn i (List.mem_range.2 hi8) hh.1 hh.2] at hw
    cases hw

/-- The functions concerned: selecting the ADC prescaler while its interrupt is pending drops the interrupt, so does
enabling the interrupt of the comparator; and enabling the two-wire interface clears TWINT, which starts its next
action. -/
example (s : Chip) :
    (∃ s', adc_prescale.set (chip w1c) 7#8 s = .ok ((), s') ∧ (s'.mem 0x7a).getLsbD 4 = false) ∧
    (∃ s', ac_interrupt.set (chip w1c) 1#8 s = .ok ((), s') ∧ (s'.mem 0x50).getLsbD 4 = false) ∧
    ∃ s', twi_interface.set (chip w1c) 1#8 s = .ok ((), s') ∧ (s'.mem 0xbc).getLsbD 7 = false :=
  ⟨C91_lost_wrong (adc_prescale, [ADPS2, ADPS1, ADPS0]) (by simp [settingBits]) ADIF (by decide) 4 rfl 7#8
      (by decide) s,
    C91_lost_wrong (ac_interrupt, [ACIE]) (by simp [settingBits]) ACI (by decide) 4 rfl 1#8 (by decide) s,
    C91_lost_wrong (twi_interface, [TWEN]) (by simp [settingBits]) TWINT (by decide) 7 rfl 1#8 (by decide) s⟩

/-- Example for the first theorem: the clock of timer 1. -/
example (s : Chip) : ∃ s', tc1_clock.set (chip w1c) 5#8 s = .ok ((), s') ∧
    ∀ f ∈ flagBits, ∀ a i, pos f = some (a, i) → (s'.mem a).getLsbD i = (s.mem a).getLsbD i :=
  C91_kept_partial (tc1_clock, [CS12, CS11, CS10]) (by simp [settingBits]) (by decide) 5#8 (by decide) s

/-! ### C113: accesses to the hardware -/

/-- What the table says about functions for the same register: lazy, apart from two registers, and not overlapping. -/
theorem setting_pair : ∀ p ∈ settingBits, ∀ q ∈ settingBits, p ≠ q → p.1.setter.address = q.1.setter.address →
    (p.1.setter.hi < q.1.setter.lo ∨ q.1.setter.hi < p.1.setter.lo) ∧
    ((∀ r ∈ [EIMSK, PCICR], address r ≠ some p.1.setter.address) → p.1.lazy = true ∧ q.1.lazy = true) ∧
    ((∃ r ∈ [EIMSK, PCICR], address r = some p.1.setter.address) → p.1.lazy = false ∧ q.1.lazy = false) := by
  decide +kernel

theorem setting_not_all : ∀ p ∈ settingBits, p.1.setter.is_all_bits = false := by decide +kernel

theorem lazy_eq {io : Policy} {a hi lo : Nat} (hle : lo ≤ hi) (h8 : hi < 8) (v : Byte) :
    ∃ m : Byte, (∀ i < 8, m.getLsbD i = decide (lo ≤ i ∧ i ≤ hi)) ∧
      (Mcu.Field.mk .w8 io a hi lo).write_lazy v = .ok ⟨m, v <<< lo, true⟩ := by
  obtain ⟨m, hm, hmb⟩ := rngmask_ok (w := .w8) (hi := hi) (lo := lo) (by omega) hle
  refine ⟨m, hmb, ?_⟩
  rw [Mcu.Field.write_lazy, hm, bind_ok]
  show (shl .w8 v lo >>= _) = _
  rw [shl_ok (w := .w8) v (show lo < 8 by omega)]
  rfl

/-- **C113** On any hardware, `set( v );` of a field reads its register once and writes it once. -/
theorem C113_one_access : ∀ p ∈ settingBits, ∀ (v : BitVec p.1.setter.w.bits) {σ : Type} (hw : Hw σ) (s : σ),
    ∃ y, p.1.set hw v s = .ok ((), hw.write p.1.setter.address y (hw.read p.1.setter.address s).2) := by
  intro p hp v σ hw s
  obtain ⟨hC, hle, h8, hio, -, -, -⟩ := setting_ok p hp
  obtain ⟨⟨g, ⟨w, io, a, hi, lo⟩, l⟩, bs⟩ := p
  have hw' : w = .w8 := hC.1
  have hio' : io = .rw := hio
  have h8' : hi < 8 := h8
  have hle' : lo ≤ hi := hle
  subst hw' hio'
  cases l with
  | true =>
    obtain ⟨m, -, e⟩ := lazy_eq (io := .rw) (a := a) hle' h8' v
    refine ⟨((hw.read a s).1 &&& ~~~m) ||| ((v <<< lo) &&& m), ?_⟩
    show (do
      let p ← pureRes ((Mcu.Field.mk .w8 .rw a hi lo).write_lazy v)
      p.destroy hw : M σ Unit) s = _
    rw [e]
    rfl
  | false =>
    show ∃ y, (Mcu.Field.mk .w8 .rw a hi lo).write hw v s = _
    by_cases h1 : hi = lo
    · subst h1
      obtain ⟨m, e, -⟩ := bitmask_one (w := .w8) (b := hi) h8'
      have e' : bitmask_n .w8 [hi] = .ok (~~~m) := by rw [bitmask_n, e]; rfl
      have single : (Mcu.Field.mk .w8 .rw a hi hi).is_single_bit = true := by simp [Mcu.Field.is_single_bit]
      by_cases h0 : v = 0
      · refine ⟨(hw.read a s).1 &&& ~~~m, ?_⟩
        rw [Mcu.Field.write, if_pos single, if_neg (by simpa using h0), Mcu.Field.clear, clearbit_w0, e']
        rfl
      · refine ⟨(hw.read a s).1 ||| m, ?_⟩
        rw [Mcu.Field.write, if_pos single, if_pos h0, Mcu.Field.set, setbit, e]
        rfl
    · have single : ¬ (Mcu.Field.mk .w8 .rw a hi lo).is_single_bit = true := by simp [Mcu.Field.is_single_bit, h1]
      have all : ¬ (Mcu.Field.mk .w8 .rw a hi lo).is_all_bits = true := by
        have := setting_not_all ⟨⟨g, ⟨.w8, .rw, a, hi, lo⟩, false⟩, bs⟩ hp
        simpa using this
      obtain ⟨m, hm, -⟩ := rngmask_ok (w := .w8) (hi := hi) (lo := lo) (by omega) hle'
      refine ⟨((hw.read a s).1 &&& ~~~m) ||| ((v <<< lo) &&& m), ?_⟩
      rw [Mcu.Field.write, if_neg single, if_neg all]
      show (do
        let mask ← pureRes (rngmask .w8 hi lo)
        let v ← pureRes (shl .w8 v lo)
        writeMask hw .w8 a mask v : M σ Unit) s = _
      rw [hm, shl_ok (w := .w8) v (show lo < 8 by omega)]
      rfl

/-- On any hardware, `set( v );` of a whole register only writes: one byte, or the high byte and then the low byte. -/
theorem C113_register_access : ∀ p ∈ settingRegs, ∀ (v : BitVec p.1.setter.w.bits) {σ : Type} (hw : Hw σ) (s : σ),
    (∀ r a, p.2 = [r] → address r = some a →
      p.1.set hw v s = .ok ((), hw.write a (v.extractLsb' 0 8) s)) ∧
    ∀ r t a b, p.2 = [r, t] → address r = some a → address t = some b →
      p.1.set hw v s = .ok ((), hw.write a (v.extractLsb' 0 8) (hw.write b (v.extractLsb' 8 8) s)) := by
  intro p hp
  simp only [settingRegs, List.mem_cons, List.not_mem_nil, or_false] at hp
  rcases hp with rfl | rfl | rfl | rfl | rfl | rfl | rfl | rfl | rfl | rfl | rfl | rfl | rfl <;> intro v σ hw s <;>
    refine ⟨fun r a h ha => ?_, fun r t a b h ha hb => ?_⟩ <;> simp at h <;>
    first
      | (obtain ⟨rfl, rfl⟩ := h; cases ha; cases hb; rfl)
      | (subst h; cases ha; rw [show v.extractLsb' 0 8 = v from BitVec.extractLsb'_eq_self]; rfl)

/-- `set( v ), set( x );` of two fields of one register, other than EIMSK and PCICR, reads the register once and
writes it once, on any hardware: with both values, and the bits that were read elsewhere. -/
theorem C113_together : ∀ p ∈ settingBits, ∀ q ∈ settingBits, p ≠ q →
    p.1.setter.address = q.1.setter.address → (∀ r ∈ [EIMSK, PCICR], address r ≠ some p.1.setter.address) →
    ∀ (v : BitVec p.1.setter.w.bits) (x : BitVec q.1.setter.w.bits), v.toNat < 2 ^ p.2.length →
    x.toNat < 2 ^ q.2.length → ∀ {σ : Type} (hw : Hw σ) (s : σ),
    ∃ y, p.1.set_set hw q.1 v x s = .ok ((), hw.write p.1.setter.address y (hw.read p.1.setter.address s).2) ∧
      (∀ k b a i, p.2[k]? = some b → pos b = some (a, i) → y.getLsbD i = v.getLsbD (p.2.length - 1 - k)) ∧
      (∀ k b a i, q.2[k]? = some b → pos b = some (a, i) → y.getLsbD i = x.getLsbD (q.2.length - 1 - k)) ∧
      ∀ i < 8, (∀ b ∈ p.2 ++ q.2, pos b ≠ some (p.1.setter.address, i)) →
        y.getLsbD i = (hw.read p.1.setter.address s).1.getLsbD i := by
  intro p hp q hq hne ha hr v x hv hx σ hw s
  obtain ⟨hd, hl, -⟩ := setting_pair p hp q hq hne ha
  replace hl := hl hr
  obtain ⟨hC, hle, h8, hio, hcount, -, -⟩ := setting_ok p hp
  obtain ⟨hC', hle', h8', hio', hcount', -, -⟩ := setting_ok q hq
  obtain ⟨⟨g, ⟨w, io, a, hi, lo⟩, l⟩, bs⟩ := p
  obtain ⟨⟨g', ⟨w', io', a', hi', lo'⟩, l'⟩, bs'⟩ := q
  have e1 : w = .w8 := hC.1
  have e2 : w' = .w8 := hC'.1
  have e3 : io = .rw := hio
  have e4 : io' = .rw := hio'
  have e5 : a = a' := ha
  have e6 : l = true := hl.1
  have e7 : l' = true := hl.2
  subst e1 e2 e3 e4 e5 e6 e7
  simp only at hd hle h8 hcount hle' h8' hcount' v x hv hx
  obtain ⟨m, hm, e⟩ := lazy_eq (io := .rw) (a := a) hle h8 v
  obtain ⟨m', hm', e'⟩ := lazy_eq (io := .rw) (a := a) hle' h8' x
  have hvb : ∀ i, hi - lo < i → v.getLsbD i = false := fun i h => Fits.high (f := ⟨.w8, .rw, a, hi, lo⟩)
    (show v.toNat < 2 ^ (hi - lo + 1) by rw [← hcount]; exact hv) h
  have hxb : ∀ i, hi' - lo' < i → x.getLsbD i = false := fun i h => Fits.high (f := ⟨.w8, .rw, a, hi', lo'⟩)
    (show x.toNat < 2 ^ (hi' - lo' + 1) by rw [← hcount']; exact hx) h
  have hy : ∀ i < 8, (((hw.read a s).1 &&& ~~~(m ||| m')) ||| ((v <<< lo ||| x <<< lo') &&& (m ||| m'))).getLsbD i =
      if lo ≤ i ∧ i ≤ hi then v.getLsbD (i - lo) else if lo' ≤ i ∧ i ≤ hi' then x.getLsbD (i - lo')
      else (hw.read a s).1.getLsbD i := by
    intro i hi8
    have h0 : ∀ z : Byte, (~~~z).getLsbD i = !z.getLsbD i := fun z => by rw [BitVec.getLsbD_not]; simp [hi8]
    rw [BitVec.getLsbD_or, BitVec.getLsbD_and, BitVec.getLsbD_and, h0, BitVec.getLsbD_or, BitVec.getLsbD_or,
      hm i hi8, hm' i hi8, BitVec.getLsbD_shiftLeft, BitVec.getLsbD_shiftLeft]
    by_cases h1 : lo ≤ i ∧ i ≤ hi
    · have h2 : ¬ (lo' ≤ i ∧ i ≤ hi') := by omega
      rw [if_pos h1]
      by_cases h3 : lo' ≤ i
      · have := hxb (i - lo') (by omega)
        simp [h1, hi8, this]
      · have : i < lo' := by omega
        simp [h1, hi8, this]
    · rw [if_neg h1]
      by_cases h2 : lo' ≤ i ∧ i ≤ hi'
      · rw [if_pos h2]
        by_cases h3 : lo ≤ i
        · have := hvb (i - lo) (by omega)
          simp [h2, hi8, this]
        · have : i < lo := by omega
          simp [h2, hi8, this]
      · rw [if_neg h2]
        simp [h1, h2]
  refine ⟨((hw.read a s).1 &&& ~~~(m ||| m')) ||| ((v <<< lo ||| x <<< lo') &&& (m ||| m')), ?_, ?_, ?_, ?_⟩
  · have : Setting.set_set hw ⟨g, ⟨.w8, .rw, a, hi, lo⟩, true⟩ ⟨g', ⟨.w8, .rw, a, hi', lo'⟩, true⟩ v x = (do
        let p ← pureRes ((Mcu.Field.mk .w8 .rw a hi lo).write_lazy v)
        let q ← pureRes ((Mcu.Field.mk .w8 .rw a hi' lo').write_lazy x)
        p.statement hw [q] : M σ Unit) := by
      unfold Setting.set_set
      rw [dif_pos ⟨rfl, rfl, rfl⟩]
    show Setting.set_set hw ⟨g, ⟨.w8, .rw, a, hi, lo⟩, true⟩ ⟨g', ⟨.w8, .rw, a, hi', lo'⟩, true⟩ v x s = _
    rw [this, e, e']
    rfl
  · intro k b c i hk hb
    obtain ⟨-, -, h2, h3⟩ := Consists.place hC hk hb
    have h4 : lo ≤ i ∧ i ≤ hi := h3
    have h5 : lo + (bs.length - 1 - k) = i := h2
    rw [hy i (by omega), if_pos h4, ← h5, Nat.add_sub_cancel_left]
  · intro k b c i hk hb
    obtain ⟨-, -, h2, h3⟩ := Consists.place hC' hk hb
    have h4 : lo' ≤ i ∧ i ≤ hi' := h3
    have h5 : lo' + (bs'.length - 1 - k) = i := h2
    rw [hy i (by omega), if_neg (by omega), if_pos h4, ← h5, Nat.add_sub_cancel_left]
  · intro i hi8 h
    rw [hy i hi8, if_neg, if_neg]
    · intro hh
      obtain ⟨b, hb, hb2⟩ := Consists.pos hC' (i := i) hh
      exact h b (List.mem_append.2 (.inr (List.mem_of_getElem? hb))) hb2
    · intro hh
      obtain ⟨b, hb, hb2⟩ := Consists.pos hC (i := i) hh
      exact h b (List.mem_append.2 (.inl (List.mem_of_getElem? hb))) hb2

/-- The functions for EIMSK and PCICR write at once: two of them in one statement read and write the register twice. -/
theorem C113_apart : ∀ p ∈ settingBits, ∀ q ∈ settingBits, p ≠ q → p.1.setter.address = q.1.setter.address →
    (∃ r ∈ [EIMSK, PCICR], address r = some p.1.setter.address) →
    ∀ (v : BitVec p.1.setter.w.bits) (x : BitVec q.1.setter.w.bits) {σ : Type} (hw : Hw σ) (s : σ),
    ∃ y z, p.1.set_set hw q.1 v x s = .ok ((), hw.write p.1.setter.address z (hw.read p.1.setter.address
      (hw.write p.1.setter.address y (hw.read p.1.setter.address s).2)).2) := by
  intro p hp q hq hne ha hr v x σ hw s
  obtain ⟨-, -, hl⟩ := setting_pair p hp q hq hne ha
  obtain ⟨y, h1⟩ := C113_one_access p hp v hw s
  obtain ⟨z, h2⟩ := C113_one_access q hq x hw (hw.write p.1.setter.address y (hw.read p.1.setter.address s).2)
  refine ⟨y, z, ?_⟩
  rw [Setting.set, if_neg (by rw [(hl hr).1]; simp)] at h1
  rw [Setting.set, if_neg (by rw [(hl hr).2]; simp), ← ha] at h2
  rw [Setting.set_set, (hl hr).1, (hl hr).2]
  show (p.1.setter.write hw v >>= fun _ => q.1.setter.write hw x : M σ Unit) s = _
  rw [M_bind, h1, bind_okM, h2]

/-- Example: mode and interrupt of the analog comparator in one statement. -/
example (s : Chip) : ∃ y, ac_interrupt_on.set_set (chip w1c) ac_interrupt 3#8 1#8 s =
      .ok ((), (chip w1c).write 0x50 y ((chip w1c).read 0x50 s).2) ∧ y.getLsbD 0 = true ∧ y.getLsbD 1 = true ∧
      y.getLsbD 3 = true := by
  obtain ⟨y, h1, h2, h3, -⟩ := C113_together (ac_interrupt_on, [ACIS1, ACIS0]) (by simp [settingBits]) (ac_interrupt, [ACIE])
    (by simp [settingBits]) (by decide) rfl (by decide) 3#8 1#8 (by decide) (by decide) (chip w1c) s
  exact ⟨y, h1, h2 1 ACIS0 0x50 0 rfl rfl, h2 0 ACIS1 0x50 1 rfl rfl, h3 0 ACIE 0x50 3 rfl rfl⟩

/-! ### C92: reading and clearing flags -/

/-- The function that reads an interrupt flag delivers it, and changes nothing. -/
theorem C92_current : ∀ p ∈ flagBit, ∀ a i, pos p.2 = some (a, i) → ∀ s : Chip,
    current_flag (chip w1c) p.1 s = .ok ((s.mem a).getLsbD i, s) := by
  intro p hp a i hpos s
  obtain ⟨hC, h8, hlo, -, -⟩ := flag_ok p hp
  obtain ⟨⟨w, io, a0, hi, lo⟩, b⟩ := p
  simp only at hlo
  subst hlo
  have hw : w = .w8 := hC.1
  subst hw
  obtain ⟨rfl, hi', -, -⟩ := Consists.place hC (k := 0) rfl hpos
  have hi'' : i = lo := hi'
  subst hi''
  have hr : Field.read (chip w1c) ⟨.w8, io, a, i, i⟩ s
      = .ok (if (s.mem a).getLsbD i = true then 1#8 else 0#8, s) := by
    refine read_val (f := ⟨.w8, io, a, i, i⟩) ⟨le_refl _, h8⟩ s ?_ fun j hj => ?_
    · show BitVec.toNat _ < 2 ^ (i - i + 1)
      rw [Nat.sub_self]
      by_cases h : (s.mem a).getLsbD i = true
      · rw [if_pos h]; norm_num
      · rw [if_neg h]; norm_num
    · have : j = i := by
        have h2 : i ≤ j ∧ j ≤ i := hj
        omega
      subst this
      show bitAt s.mem a j = BitVec.getLsbD _ (j - j)
      rw [bitAt8 _ _ h8, Nat.sub_self]
      cases (s.mem a).getLsbD j <;> simp
  rw [current_flag, M_bind, hr, bind_okM, M_pure]
  cases (s.mem a).getLsbD i <;> rfl

/-- The function that clears an interrupt flag clears it; it changes no bit of any register that is not a flag, and no
other register, but it also clears all other flags of the register (C60). -/
theorem C92_clear : ∀ p ∈ flagBit, ∀ a i, pos p.2 = some (a, i) → ∀ s : Chip,
    ∃ s', clear_flag (chip w1c) p.1 s = .ok ((), s') ∧ current_flag (chip w1c) p.1 s' = .ok (false, s') ∧
      (∀ j < 8, (s'.mem a).getLsbD j = ((s.mem a).getLsbD j && !(w1c a).getLsbD j)) ∧
      ∀ b, b ≠ a → s'.mem b = s.mem b := by
  intro p hp a i hpos s
  have hcur := C92_current p hp a i hpos
  obtain ⟨hC, h8, hlo, hio, hflag⟩ := flag_ok p hp
  obtain ⟨⟨w, io, a0, hi, lo⟩, b⟩ := p
  simp only at hlo hio
  subst hlo hio
  have hw : w = .w8 := hC.1
  subst hw
  obtain ⟨rfl, hi', -, -⟩ := Consists.place hC (k := 0) rfl hpos
  have hi'' : i = lo := hi'
  subst hi''
  obtain ⟨s', h1, h2, h3⟩ := C60_clear_partial (w1c := w1c) (f := ⟨.w8, .rc_w1, a, i, i⟩) h8 rfl s
  have hb : ∀ j < 8, (s'.mem a).getLsbD j = ((s.mem a).getLsbD j && !(w1c a).getLsbD j) := fun j hj => by
    have := h2 j hj
    simp only [bitAt8 _ _ hj] at this
    rw [this]
    by_cases hji : j = i
    · subst hji
      have hflag' : (w1c a).getLsbD j = true := hflag
      simp [hflag']
    · rw [if_neg hji]
      cases (w1c a).getLsbD j <;> simp
  refine ⟨s', h1, ?_, hb, fun b hb => h3 b ?_⟩
  · have hflag' : (w1c a).getLsbD i = true := hflag
    rw [hcur s', hb i h8, hflag']
    simp
  · show b < a ∨ a + 8 / 8 ≤ b
    omega

/-- Example: clearing the capture flag of timer 1. -/
example (s : Chip) : ∃ s', clear_flag (chip w1c) tc1_capture_flag s = .ok ((), s') ∧ (s'.mem 0x36).getLsbD 5 = false := by
  obtain ⟨s', h1, -, h3, -⟩ := C92_clear (tc1_capture_flag, ICF1) (by simp [flagBit]) 0x36 5 rfl s
  exact ⟨s', h1, (h3 5 (by norm_num)).trans (by simp [w1c])⟩

/-! ### Results -/

/-- The conversion result is the pair of registers ADCH, ADCL, read low byte first; the status is TWSR without its low
bits; the comparator output is ACO. -/
theorem C92_results (s : Chip) :
    adc_result (chip w1c) s = .ok (s.mem 0x79 ++ s.mem 0x78, s) ∧
    adc_lsb (chip w1c) s = .ok (s.mem 0x78, s) ∧ adc_msb (chip w1c) s = .ok (s.mem 0x79, s) ∧
    (∃ x : Byte, twi_status (chip w1c) s = .ok (x, s) ∧ x.toNat = (s.mem 0xb9).toNat / 8) ∧
    ∃ x : Byte, ac_state (chip w1c) s = .ok (x, s) ∧ x.toNat = (s.mem 0x50).toNat / 32 % 2 := by
  refine ⟨rfl, rfl, rfl, ?_, ?_⟩
  · obtain ⟨x, h1, h2⟩ := Field.read_eq (w1c := w1c) (f := reg.twsr.tws) ⟨by decide, by decide⟩ s
    refine ⟨x, h1, ?_⟩
    have : x = (s.mem 0xb9) >>> 3 := by
      refine BitVec.eq_of_getLsbD_eq fun i hi => ?_
      have hi8 : i < 8 := hi
      rw [h2 i hi, BitVec.getLsbD_ushiftRight]
      show (decide (3 + i ≤ 7) && bitAt s.mem 0xb9 (3 + i)) = _
      by_cases h : 3 + i ≤ 7
      · rw [decide_eq_true h, Bool.true_and, bitAt8 _ _ (by omega)]
      · rw [decide_eq_false h, Bool.false_and]
        exact (BitVec.getLsbD_of_ge _ _ (show 8 ≤ 3 + i by omega)).symm
    rw [this, BitVec.toNat_ushiftRight, Nat.shiftRight_eq_div_pow]
  · obtain ⟨x, h1, h2⟩ := Field.read_eq (w1c := w1c) (f := reg.acsr.aco) ⟨by decide, by decide⟩ s
    refine ⟨x, h1, ?_⟩
    have : x = ((s.mem 0x50) >>> 5) &&& 1#8 := by
      refine BitVec.eq_of_getLsbD_eq fun i hi => ?_
      have hi8 : i < 8 := hi
      rw [h2 i hi, BitVec.getLsbD_and, BitVec.getLsbD_ushiftRight]
      show (decide (5 + i ≤ 5) && bitAt s.mem 0x50 (5 + i)) = _
      rcases Nat.eq_zero_or_pos i with rfl | h
      · rw [bitAt8 _ _ (by norm_num)]
        cases (s.mem 0x50).getLsbD 5 <;> simp
      · rw [decide_eq_false (by omega), Bool.false_and, BitVec.getLsbD_one]
        simp
        omega
    rw [this, BitVec.toNat_and, BitVec.toNat_ushiftRight, Nat.shiftRight_eq_div_pow]
    exact Nat.and_one_is_mod _

/-- Example: TWSR = 0x18 is status 3 of the field, result bytes 0x02, 0x9a are 0x29a. -/
example : ∃ s : Chip, (∃ x : Byte, twi_status (chip w1c) s = .ok (x, s) ∧ x.toNat = 3) ∧
    adc_result (chip w1c) s = .ok (0x29a#16, s) := by
  obtain ⟨h1, -, -, ⟨x, h2, h3⟩, -⟩ :=
    C92_results ⟨fun a => if a = 0xb9 then 0x18 else if a = 0x78 then 0x9a else 0x02, []⟩
  exact ⟨_, ⟨x, h2, h3.trans rfl⟩, h1⟩

end Verif
