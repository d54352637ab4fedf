import Verif.Spec.AtmegaNames
import Verif.Lemmas.Register

/- Lemmas about functions that set a field. -/

namespace Verif
namespace Mcu
namespace Atmega

variable {w1c : Nat → Byte}

/-- A value that fits into a field has no bits beyond it. -/
theorem Fits.high {f : Field} {v : BitVec f.w.bits} (hf : f.Fits v) {i : Nat} (hi : f.hi - f.lo < i) :
    v.getLsbD i = false := by
  rw [← BitVec.testBit_toNat]
  exact Nat.testBit_lt_two_pow (lt_of_lt_of_le hf (Nat.pow_le_pow_right (by norm_num) hi))

/-- Writing a value that fits: the bits of the field, flags of the register are cleared. -/
theorem Setting.set_eq {t : Setting} (hv : t.setter.Valid) (hio : t.setter.io ≠ .rc_w1)
    (hn : ∀ i, t.setter.Has i → bitAt w1c t.setter.address i = false) {v : BitVec t.setter.w.bits}
    (hf : t.setter.Fits v) (s : Chip) :
    ∃ s', t.set (chip w1c) v s = .ok ((), s') ∧ Becomes t.setter.w t.setter.address s s' fun i =>
      if t.setter.Has i then v.getLsbD (i - t.setter.lo)
      else bitAt s.mem t.setter.address i && !bitAt w1c t.setter.address i := by
  obtain ⟨g, f, l⟩ := t
  have hle : f.lo ≤ f.hi := hv.le
  have hlt : f.hi < f.w.bits := hv.lt
  cases l with
  | false =>
    obtain ⟨x, h1, h2⟩ := Field.write_eq (w1c := w1c) hv hio v s
    obtain ⟨s', h3, _, h4⟩ := store_chip (w1c := w1c) f.w f.address x s
    refine ⟨s', h1.trans h3, h4.congr fun i hi => ?_⟩
    rw [h2 i hi]
    by_cases hh : f.Has i
    · rw [if_pos hh, if_pos hh, hn i hh]
      by_cases h : f.hi = f.lo
      · have hi' : i = f.lo := by have h5 : f.lo ≤ i ∧ i ≤ f.hi := hh; omega
        rw [if_pos h, hi', Nat.sub_self]
        by_cases h0 : v = 0
        · subst h0; simp
        · have : v.getLsbD 0 = true := by
            by_contra hc
            refine h0 (BitVec.eq_of_getLsbD_eq fun k hk => ?_)
            rcases Nat.eq_zero_or_pos k with rfl | hk0
            · simpa using hc
            · rw [Fits.high hf (by show f.hi - f.lo < k; omega)]; simp
          simpa [this] using h0
      · simp [if_neg h]
    · rw [if_neg hh, if_neg hh]
      cases bitAt w1c f.address i <;> cases bitAt s.mem f.address i <;> rfl
  | true =>
    obtain ⟨m, hm, hmb⟩ := rngmask_ok (w := f.w) hv.hi16 hv.le
    have hw : f.write_lazy v = .ok ⟨m, v <<< f.lo, true⟩ := by
      rw [Field.write_lazy, hm, shl_ok v hv.lo_lt]; rfl
    obtain ⟨s', h3, _, h4⟩ := store_chip (w1c := w1c) f.w f.address
      ((val s.mem f.w f.address &&& ~~~ m) ||| ((v <<< f.lo) &&& m)) s
    refine ⟨s', ?_, h4.congr fun i hi => ?_⟩
    · show (do
        let p ← pureRes (f.write_lazy v)
        p.destroy (chip w1c) : M Chip Unit) s = _
      rw [hw, M_bind, pureRes_ok, bind_okM, Proxy.destroy, if_pos rfl, writeMask_eq, h3]
    · rw [BitVec.getLsbD_or, BitVec.getLsbD_and, BitVec.getLsbD_and, BitVec.getLsbD_not, val_bit _ _ hi, hmb i hi,
        BitVec.getLsbD_shiftLeft]
      by_cases hh : f.Has i
      · have h5 : f.lo ≤ i ∧ i ≤ f.hi := hh
        rw [if_pos hh, hn i hh]
        simp [hi, h5]
      · have h5 : ¬ (f.lo ≤ i ∧ i ≤ f.hi) := hh
        rw [if_neg hh]
        cases bitAt w1c f.address i <;> cases bitAt s.mem f.address i <;> simp [hi, h5]

/-- Reading a field whose bits are known. -/
theorem read_val {f : Field} (hv : f.Valid) (s : Chip) {v : BitVec f.w.bits} (hf : f.Fits v)
    (h : ∀ i, f.Has i → bitAt s.mem f.address i = v.getLsbD (i - f.lo)) :
    f.read (chip w1c) s = .ok (v, s) := by
  have hle := hv.le
  obtain ⟨x, h1, h2⟩ := Field.read_eq (w1c := w1c) hv s
  have : x = v := by
    refine BitVec.eq_of_getLsbD_eq fun i hi => ?_
    rw [h2 i hi]
    by_cases hh : f.lo + i ≤ f.hi
    · rw [h _ ⟨by omega, hh⟩, decide_eq_true hh, Nat.add_sub_cancel_left, Bool.true_and]
    · rw [decide_eq_false hh, Fits.high hf (by omega), Bool.false_and]
  rw [h1, this]

open Datasheet

/-- What the names say about a function that sets a field. -/
theorem setting_ok : ∀ p ∈ settingBits, Consists p.1.setter p.2 ∧ p.1.setter.lo ≤ p.1.setter.hi ∧
    p.1.setter.hi < 8 ∧ p.1.setter.io = .rw ∧ p.2.length = p.1.setter.hi - p.1.setter.lo + 1 ∧
    (∀ i ∈ List.range 8, p.1.setter.lo ≤ i → i ≤ p.1.setter.hi →
      (Datasheet.w1c p.1.setter.address).getLsbD i = false) ∧
    ∀ g ∈ p.1.getter, g.w = p.1.setter.w ∧ g.address = p.1.setter.address ∧ g.hi = p.1.setter.hi ∧
      g.lo = p.1.setter.lo := by decide +kernel

/-- What the names say about a function that sets a register. -/
theorem setting_reg_ok : ∀ p ∈ settingRegs, IsWhole p.1.setter p.2 ∧ p.1.setter.io = .rw ∧
    (∀ i ∈ List.range p.1.setter.w.bits, bitAt Datasheet.w1c p.1.setter.address i = false) ∧
    ∀ g ∈ p.1.getter, g.w = p.1.setter.w ∧ g.address = p.1.setter.address ∧ g.hi = p.1.setter.hi ∧
      g.lo = p.1.setter.lo := by decide +kernel

/-- What the names say about a flag. -/
theorem flag_ok : ∀ p ∈ flagBit, Consists p.1 [p.2] ∧ p.1.hi < 8 ∧ p.1.lo = p.1.hi ∧ p.1.io = .rc_w1 ∧
    (Datasheet.w1c p.1.address).getLsbD p.1.hi = true := by decide +kernel

/-- Registers without flags. -/
theorem setting_no_flags : ∀ p ∈ settingBits,
    (∀ r ∈ [Reg.ADCSRA, Reg.ACSR, Reg.TWCR], address r ≠ some p.1.setter.address) →
    Datasheet.w1c p.1.setter.address = 0 := by decide +kernel

/-- The masks of flags contain the flags. -/
theorem flagBits_ok (f : Bit) (hf : f ∈ flagBits) (a i : Nat) (h : pos f = some (a, i)) :
    i < 8 ∧ (Datasheet.w1c a).getLsbD i = true := by
  have : ∀ f ∈ flagBits, ∀ q ∈ Datasheet.pos f, q.2 < 8 ∧ (Datasheet.w1c q.1).getLsbD q.2 = true := by decide +kernel
  exact this f hf (a, i) h

/-- The bits of a field in place. -/
theorem Consists.pos {f : Field} {bs : List Bit} (h : Consists f bs) {i : Nat} (hi : f.Has i) :
    ∃ b, bs[f.hi - i]? = some b ∧ pos b = some (f.address, i) := by
  have h1 : f.lo ≤ i ∧ i ≤ f.hi := hi
  have h2 := h.2.1
  have h3 : f.hi - i < bs.length := by omega
  refine ⟨bs[f.hi - i], List.getElem?_eq_getElem h3, ?_⟩
  have := h.2.2 (bs[f.hi - i], f.hi - i) (List.mk_mem_zipIdx_iff_getElem?.2 (List.getElem?_eq_getElem h3))
  rw [this]
  simp only [Option.some.injEq, Prod.mk.injEq, true_and]
  omega

/-- The place of a bit of a field. -/
theorem Consists.place {f : Field} {bs : List Bit} (h : Consists f bs) {k a i : Nat} {b : Bit} (hb : bs[k]? = some b)
    (hp : Datasheet.pos b = some (a, i)) : a = f.address ∧ i = f.hi - k ∧ f.lo + (bs.length - 1 - k) = i ∧ f.Has i := by
  have h1 := h.2.2 (b, k) (List.mk_mem_zipIdx_iff_getElem?.2 hb)
  have h2 := h.2.1
  have h3 : k < bs.length := (List.getElem?_eq_some_iff.1 hb).1
  rw [hp] at h1
  simp only [Option.some.injEq, Prod.mk.injEq] at h1
  refine ⟨h1.1, h1.2, by omega, ?_⟩
  show f.lo ≤ i ∧ i ≤ f.hi
  omega

theorem bitAt8 (m : Nat → Byte) (a : Nat) {i : Nat} (hi : i < 8) : bitAt m a i = (m a).getLsbD i := by
  rw [bitAt, Nat.div_eq_of_lt hi, Nat.mod_eq_of_lt hi, Nat.add_zero]

end Atmega
end Mcu
end Verif
