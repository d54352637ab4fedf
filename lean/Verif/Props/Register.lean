import Verif.Lemmas.Register
import Mathlib.Tactic.NormNum

/-
Properties C57 to C60, C68, C69: access to memory-mapped registers.
-/

namespace Verif
open Mcu

variable {w1c : Nat → Byte}

/-! ### C57: fields -/

/-- `read` of a field delivers exactly its bits and changes nothing. -/
theorem C57_read {f : Field} (hv : f.Valid) (s : Chip) :
    ∃ x, f.read (chip w1c) s = .ok (x, s) ∧
      ∀ i < f.w.bits, x.getLsbD i = (decide (f.Has (f.lo + i)) && bitAt s.mem f.address (f.lo + i)) := by
  obtain ⟨x, h1, h2⟩ := Field.read_eq (w1c := w1c) hv s
  exact ⟨x, h1, fun i hi => by rw [h2 i hi]; simp [Field.Has]⟩

/-- `write` to a field of a register without flags changes the bits of the field only. -/
theorem C57_write {f : Field} (hv : f.Valid) (hio : f.io ≠ .rc_w1) (hp : Plain w1c f.w f.address)
    (v : BitVec f.w.bits) (s : Chip) :
    ∃ s', f.write (chip w1c) v s = .ok ((), s') ∧ Becomes f.w f.address s s' fun i =>
      if f.Has i then (if f.hi = f.lo then decide (v ≠ 0) else v.getLsbD (i - f.lo))
      else bitAt s.mem f.address i := by
  obtain ⟨x, h1, h2⟩ := Field.write_eq (w1c := w1c) hv hio v s
  obtain ⟨s', h3, _, h4⟩ := store_plain hp x s
  exact ⟨s', h1.trans h3, h4.congr h2⟩

/-- Writing, then reading: the bits of the value within the field. -/
theorem C57_write_read {f : Field} (hv : f.Valid) (hio : f.io ≠ .rc_w1) (hp : Plain w1c f.w f.address)
    (v : BitVec f.w.bits) (s : Chip) :
    ∃ s' x, f.write (chip w1c) v s = .ok ((), s') ∧ f.read (chip w1c) s' = .ok (x, s') ∧
      x.toNat = if f.hi = f.lo then (if v = 0 then 0 else 1) else v.toNat % 2 ^ (f.hi - f.lo + 1) := by
  obtain ⟨s', h1, h2, _⟩ := C57_write hv hio hp v s
  obtain ⟨x, h3, h4⟩ := C57_read (w1c := w1c) hv s'
  refine ⟨s', x, h1, h3, Nat.eq_of_testBit_eq fun i => ?_⟩
  have hle := hv.le
  have hlt := hv.lt
  rw [BitVec.testBit_toNat]
  by_cases hi : f.lo + i ≤ f.hi
  · have hb : f.lo + i < f.w.bits := lt_of_le_of_lt hi hlt
    have hHas : f.Has (f.lo + i) := ⟨Nat.le_add_right _ _, hi⟩
    rw [h4 i (lt_of_le_of_lt (Nat.le_add_left i f.lo) hb), h2 _ hb, decide_eq_true hHas, Bool.true_and]
    beta_reduce
    rw [if_pos hHas, Nat.add_sub_cancel_left]
    by_cases h : f.hi = f.lo
    · obtain rfl : i = 0 := by omega
      rw [if_pos h, if_pos h]
      by_cases hz : v = 0
      · simp [hz]
      · rw [if_neg hz, decide_eq_true hz]; rfl
    · rw [if_neg h, if_neg h, Nat.testBit_mod_two_pow, BitVec.testBit_toNat,
        decide_eq_true (by omega : i < f.hi - f.lo + 1), Bool.true_and]
  · have hx : x.getLsbD i = false := by
      by_cases hb : i < f.w.bits
      · rw [h4 i hb, decide_eq_false (fun h => hi h.2), Bool.false_and]
      · exact BitVec.getLsbD_of_ge _ _ (Nat.le_of_not_lt hb)
    rw [hx]
    by_cases h : f.hi = f.lo
    · have h0 : i ≠ 0 := by omega
      rw [if_pos h]
      by_cases hz : v = 0
      · simp [hz]
      · rw [if_neg hz]
        exact (Nat.testBit_one_eq_true_iff_self_eq_zero (i := i)).not.2 h0 |> Bool.eq_false_iff.2 |>.symm
    · rw [if_neg h, Nat.testBit_mod_two_pow, decide_eq_false (by omega), Bool.false_and]

/-- Round trip: a value that fits its field is read back. -/
theorem C57_round_trip {f : Field} (hv : f.Valid) (hio : f.io ≠ .rc_w1) (hp : Plain w1c f.w f.address)
    (v : BitVec f.w.bits) (hfit : f.Fits v) (s : Chip) :
    ∃ s', f.write (chip w1c) v s = .ok ((), s') ∧ f.read (chip w1c) s' = .ok (v, s') := by
  obtain ⟨s', x, h1, h2, h3⟩ := C57_write_read hv hio hp v s
  have : x = v := by
    refine BitVec.eq_of_toNat_eq (h3.trans ?_)
    rw [Field.Fits] at hfit
    by_cases h : f.hi = f.lo
    · rw [if_pos h]
      have h2 : v.toNat < 2 := by rw [h] at hfit; simpa using hfit
      by_cases hz : v = 0
      · simp [hz]
      · have : v.toNat ≠ 0 := fun hc => hz (BitVec.eq_of_toNat_eq (by simpa using hc))
        rw [if_neg hz]; omega
    · rw [if_neg h, Nat.mod_eq_of_lt hfit]
  exact ⟨s', h1, this ▸ h2⟩

/-- An over-wide value is truncated by a field of several bits, but sets a single bit: `write( 2 )` to a single bit
sets it (`value` is a condition there). -/
theorem C57_single_overwide {f : Field} (hv : f.Valid) (h1 : f.hi = f.lo) (hio : f.io ≠ .rc_w1)
    (hp : Plain w1c f.w f.address) (s : Chip) :
    ∃ s', f.write (chip w1c) 2 s = .ok ((), s') ∧ f.read (chip w1c) s' = .ok (1, s') := by
  obtain ⟨s', x, h2, h3, h4⟩ := C57_write_read hv hio hp (2 : BitVec f.w.bits) s
  have h5 : (2 : BitVec f.w.bits) ≠ 0 := by cases f.w <;> decide
  have h6 : (1 : BitVec f.w.bits).toNat = 1 := by cases f.w <;> rfl
  rw [if_pos h1, if_neg h5, ← h6] at h4
  exact ⟨s', h2, BitVec.eq_of_toNat_eq h4 ▸ h3⟩

/-- The hypotheses are met: bits 5 to 3 of a 16-bit register, the value 5. -/
example (s : Chip) :
    ∃ s', Field.write ram ⟨.w16, .rw, 0x84, 5, 3⟩ 5 s = .ok ((), s') ∧
      Field.read ram ⟨.w16, .rw, 0x84, 5, 3⟩ s' = .ok (5, s') :=
  C57_round_trip (f := ⟨.w16, .rw, 0x84, 5, 3⟩) ⟨by norm_num, by norm_num⟩ (by simp) (plain_ram _ _) 5
    (show 5 < 8 by norm_num) s

/-! ### C58: lazy writes -/

/-- What a combined lazy write does, whatever the fields and values: one write of the register, in which each bit of the
given fields is the disjunction of all shifted values, also of those meant for other fields. -/
theorem C58_combined {w : RegW} {a : Nat} {io : Policy} (hp : Plain w1c w a) {ps : List (Part w)} (hne : ps ≠ [])
    (hv : ∀ p ∈ ps, (p.field io a).Valid) (s : Chip) :
    ∃ s', Part.combined (chip w1c) io a ps s = .ok ((), s') ∧
      (∃ v, s'.log = s.log ++ writes w a v) ∧
      Becomes w a s s' fun i =>
        if ∃ p ∈ ps, p.Has i then decide (∃ p ∈ ps, p.lo ≤ i ∧ p.value.getLsbD (i - p.lo) = true)
        else bitAt s.mem a i := by
  obtain ⟨qs, h1, h2, h3⟩ := Part.proxies_eq (io := io) (a := a) hv
  cases qs with
  | nil =>
    exfalso
    cases ps with
    | nil => exact hne rfl
    | cons p ps =>
      have hlt : p.lo < w.bits := (hv p (by simp)).lo_lt
      have h : (∃ q ∈ p :: ps, q.Has p.lo) := ⟨p, by simp, le_rfl, (hv p (by simp)).le⟩
      have := (h3 p.lo hlt).1
      rw [decide_eq_true h] at this
      simp at this
  | cons q qs =>
    set t := q.total qs with ht
    obtain ⟨s', h4, h5, h6⟩ := store_plain hp ((val s.mem w a &&& ~~~ t.clear_mask) ||| (t.value &&& t.clear_mask)) s
    refine ⟨s', ?_, ⟨_, h5⟩, h6.congr fun i hi => ?_⟩
    · rw [Part.combined, h1]
      show q.statement _ qs s = _
      rw [Proxy.statement_eq, Proxy.destroy, if_pos (Proxy.total_apply q qs (h2 q (by simp))), ← ht, writeMask_eq, h4]
    · rw [BitVec.getLsbD_or, BitVec.getLsbD_and, BitVec.getLsbD_and, BitVec.getLsbD_not, val_bit _ _ hi, ht,
        Proxy.total_mask, Proxy.total_value, (h3 i hi).1, (h3 i hi).2]
      by_cases h : ∃ p ∈ ps, p.Has i
      · simp [h, hi]
      · simp [h, hi]

/-- What separate writes do: the fields are changed one after another. -/
theorem C58_separate {w : RegW} {a : Nat} {io : Policy} (hio : io ≠ .rc_w1) (hp : Plain w1c w a) :
    ∀ {ps : List (Part w)}, (∀ p ∈ ps, (p.field io a).Valid) → (∀ p ∈ ps, (p.field io a).Fits p.value) →
      ps.Pairwise (fun p q => ∀ i, ¬ (p.Has i ∧ q.Has i)) → ∀ s : Chip,
    ∃ s', Part.separate (chip w1c) io a ps s = .ok ((), s') ∧
      Becomes w a s s' fun i =>
        if ∃ p ∈ ps, p.Has i then decide (∃ p ∈ ps, p.Has i ∧ p.value.getLsbD (i - p.lo) = true)
        else bitAt s.mem a i
  | [], _, _, _, s => ⟨s, rfl, Becomes.rfl'.congr fun i _ => by simp⟩
  | p :: ps, hv, hf, hd, s => by
    obtain ⟨s1, h1, h2⟩ := C57_write (hv p (by simp)) hio hp p.value s
    rw [List.pairwise_cons] at hd
    obtain ⟨s2, h3, h4⟩ := C58_separate hio hp (fun q hq => hv q (by simp [hq])) (fun q hq => hf q (by simp [hq]))
      hd.2 s1
    refine ⟨s2, ?_, Becomes.congr (h2.trans h4) fun i hi => ?_⟩
    · rw [Part.separate, M_bind, h1, bind_okM, h3]
    · have h5 := h2.1 i hi
      have h5' : bitAt s1.mem a i = if p.Has i then
          (if p.hi = p.lo then decide (p.value ≠ 0) else p.value.getLsbD (i - p.lo)) else bitAt s.mem a i := h5
      by_cases hps : ∃ q ∈ ps, q.Has i
      · obtain ⟨q, hq, hqi⟩ := hps
        have hpi : ¬ p.Has i := fun h => hd.1 q hq i ⟨h, hqi⟩
        rw [if_pos (⟨q, hq, hqi⟩ : ∃ q ∈ ps, q.Has i),
          if_pos (⟨q, by simp [hq], hqi⟩ : ∃ q ∈ p :: ps, q.Has i), decide_eq_decide]
        simp [hpi]
      · rw [if_neg hps, h5']
        by_cases hpi : p.Has i
        · rw [if_pos hpi, if_pos (⟨p, by simp, hpi⟩ : ∃ q ∈ p :: ps, q.Has i)]
          have hnq : ¬ ∃ q ∈ ps, q.Has i ∧ q.value.getLsbD (i - q.lo) = true :=
            fun ⟨q, hq, hqi, _⟩ => hps ⟨q, hq, hqi⟩
          have : (∃ q ∈ p :: ps, q.Has i ∧ q.value.getLsbD (i - q.lo) = true)
              ↔ p.value.getLsbD (i - p.lo) = true := by
            simp only [List.mem_cons, exists_eq_or_imp]
            simp [hpi, hnq]
          simp only [this]
          by_cases hs : p.hi = p.lo
          · have hi0 : i - p.lo = 0 := by have := hpi.1; have := hpi.2; omega
            have hfit : p.value.toNat < 2 := by
              have h : p.value.toNat < 2 ^ (p.hi - p.lo + 1) := hf p (by simp)
              rw [hs, Nat.sub_self] at h
              exact h
            rw [if_pos hs, hi0]
            have hb : p.value.getLsbD 0 = p.value.toNat.testBit 0 := rfl
            rw [hb, Nat.testBit_zero]
            have hz : p.value ≠ 0 ↔ p.value.toNat ≠ 0 := by
              constructor
              · intro h hc; exact h (BitVec.eq_of_toNat_eq (by simpa using hc))
              · intro h hc; exact h (by rw [hc]; simp)
            simp only [hz, decide_eq_true_eq]
            rw [decide_eq_decide]; omega
          · rw [if_neg hs]; simp
        · rw [if_neg hpi, if_neg (by
            rintro ⟨q, hq, hqi⟩
            rcases List.mem_cons.1 hq with rfl | hq
            · exact hpi hqi
            · exact hps ⟨q, hq, hqi⟩)]

/-- Combined lazy writes of fitting values to disjoint fields have the effect of separate writes, with one write of the
register. -/
theorem C58_combined_eq_separate {w : RegW} {a : Nat} {io : Policy} (hio : io ≠ .rc_w1) (hp : Plain w1c w a)
    {ps : List (Part w)} (hne : ps ≠ []) (hv : ∀ p ∈ ps, (p.field io a).Valid)
    (hf : ∀ p ∈ ps, (p.field io a).Fits p.value)
    (hd : ps.Pairwise (fun p q => ∀ i, ¬ (p.Has i ∧ q.Has i))) (s : Chip) :
    ∃ s1 s2, Part.combined (chip w1c) io a ps s = .ok ((), s1) ∧
      Part.separate (chip w1c) io a ps s = .ok ((), s2) ∧ s1.mem = s2.mem ∧
      ∃ v, s1.log = s.log ++ writes w a v := by
  obtain ⟨s1, h1, hl, h2⟩ := C58_combined (io := io) hp hne hv s
  obtain ⟨s2, h3, h4⟩ := C58_separate hio hp hv hf hd s
  refine ⟨s1, s2, h1, h3, ?_, hl⟩
  refine Becomes.mem_eq h2 (h4.congr fun i hi => ?_)
  by_cases h : ∃ p ∈ ps, p.Has i
  · rw [if_pos h, if_pos h, decide_eq_decide]
    constructor
    · rintro ⟨p, hp, hi, hb⟩; exact ⟨p, hp, hi.1, hb⟩
    · rintro ⟨p, hp, hlo, hb⟩
      refine ⟨p, hp, ⟨hlo, ?_⟩, hb⟩
      by_contra hgt
      have hfit : p.value.toNat < 2 ^ (p.hi - p.lo + 1) := hf p hp
      have hle : p.lo ≤ p.hi := (hv p hp).le
      have : p.value.getLsbD (i - p.lo) = false := by
        show p.value.toNat.testBit (i - p.lo) = false
        exact Nat.testBit_lt_two_pow (lt_of_lt_of_le hfit (Nat.pow_le_pow_right (by norm_num) (by omega)))
      rw [this] at hb; simp at hb
  · rw [if_neg h, if_neg h]

/-- The hypotheses are met: bits 7:6, 5:4 and 0 of register 0x44. -/
example (s : Chip) :
    ∃ s1 s2, Part.combined ram .rw 0x44 [⟨7, 6, 2⟩, ⟨5, 4, 3⟩, (⟨0, 0, 1⟩ : Part .w8)] s = .ok ((), s1) ∧
      Part.separate ram .rw 0x44 [⟨7, 6, 2⟩, ⟨5, 4, 3⟩, (⟨0, 0, 1⟩ : Part .w8)] s = .ok ((), s2) ∧
      s1.mem = s2.mem ∧ ∃ v, s1.log = s.log ++ writes .w8 0x44 v := by
  refine C58_combined_eq_separate (by simp) (plain_ram _ _) (by simp) ?_ ?_ ?_ s
  · simp only [List.mem_cons, List.not_mem_nil, or_false, forall_eq_or_imp, forall_eq]
    exact ⟨⟨show 6 ≤ 7 by norm_num, show 7 < 8 by norm_num⟩, ⟨show 4 ≤ 5 by norm_num, show 5 < 8 by norm_num⟩,
      ⟨show 0 ≤ 0 by norm_num, show 0 < 8 by norm_num⟩⟩
  · simp only [List.mem_cons, List.not_mem_nil, or_false, forall_eq_or_imp, forall_eq]
    exact ⟨show 2 < 4 by norm_num, show 3 < 4 by norm_num, show 1 < 2 by norm_num⟩
  · simp only [List.pairwise_cons, List.mem_cons, List.not_mem_nil, or_false, forall_eq_or_imp, forall_eq, Part.Has]
    refine ⟨⟨fun i => by omega, fun i => by omega⟩, fun i => by omega, by simp, List.Pairwise.nil⟩

/-- An over-wide value corrupts a combined neighbour: 4 for bits 1:0 together with 0 for bits 3:2 sets bit 2; the
separate writes do not. -/
theorem C58_overwide_wrong (s : Chip) :
    (∃ s1, Part.combined ram .rw 0x44 [⟨1, 0, 4⟩, (⟨3, 2, 0⟩ : Part .w8)] s = .ok ((), s1) ∧
      bitAt s1.mem 0x44 2 = true) ∧
    ∃ s2, Part.separate ram .rw 0x44 [⟨1, 0, 4⟩, (⟨3, 2, 0⟩ : Part .w8)] s = .ok ((), s2) ∧
      bitAt s2.mem 0x44 2 = false := by
  have hv1 : (Part.field .rw 0x44 (⟨1, 0, 4⟩ : Part .w8)).Valid := ⟨show 0 ≤ 1 by norm_num, show 1 < 8 by norm_num⟩
  have hv2 : (Part.field .rw 0x44 (⟨3, 2, 0⟩ : Part .w8)).Valid := ⟨show 2 ≤ 3 by norm_num, show 3 < 8 by norm_num⟩
  constructor
  · obtain ⟨s1, h1, _, h2, _⟩ := C58_combined (w1c := fun _ => 0) (io := .rw) (a := 0x44) (plain_ram _ _)
      (ps := [⟨1, 0, 4⟩, (⟨3, 2, 0⟩ : Part .w8)]) (by simp) (by
        intro p hp
        rcases List.mem_cons.1 hp with rfl | hp
        · exact hv1
        · rw [List.mem_singleton.1 hp]; exact hv2) s
    refine ⟨s1, h1, ?_⟩
    refine (h2 2 (by norm_num)).trans ?_
    refine (if_pos ⟨⟨3, 2, 0⟩, by simp, by norm_num [Part.Has]⟩).trans ?_
    exact decide_eq_true ⟨⟨1, 0, 4⟩, by simp, by norm_num, rfl⟩
  · obtain ⟨s1, h1, -, -⟩ := C57_write (w1c := fun _ => 0) hv1 (by simp [Part.field]) (plain_ram _ _) 4 s
    obtain ⟨s2, h2, h3, -⟩ := C57_write (w1c := fun _ => 0) hv2 (by simp [Part.field]) (plain_ram _ _) 0 s1
    refine ⟨s2, ?_, ?_⟩
    · have e1 : ∀ s, Part.separate ram .rw 0x44 [⟨1, 0, 4⟩, (⟨3, 2, 0⟩ : Part .w8)] s
          = (Field.write ram (Part.field .rw 0x44 (⟨1, 0, 4⟩ : Part .w8)) (4 : BitVec 8) s).bind fun r =>
            (Field.write ram (Part.field .rw 0x44 (⟨3, 2, 0⟩ : Part .w8)) (0 : BitVec 8) r.2).bind fun r =>
              .ok ((), r.2) := fun _ => rfl
      rw [e1]
      have h1' : Field.write ram (Part.field .rw 0x44 (⟨1, 0, 4⟩ : Part .w8)) (4 : BitVec 8) s = .ok ((), s1) := h1
      have h2' : Field.write ram (Part.field .rw 0x44 (⟨3, 2, 0⟩ : Part .w8)) (0 : BitVec 8) s1 = .ok ((), s2) := h2
      rw [h1', bind_okM, h2', bind_okM]
    · refine (h3 2 (show 2 < 8 by norm_num)).trans ?_
      exact (if_pos (⟨show 2 ≤ 2 by norm_num, show 2 ≤ 3 by norm_num⟩ :
        Field.Has (Part.field .rw 0x44 (⟨3, 2, 0⟩ : Part .w8)) 2)).trans
          ((if_neg (show ¬ 3 = 2 by norm_num)).trans rfl)

/-! ### C59: bits and masks -/

/-- `set()` of a bit. -/
theorem C59_set {f : Field} (hlt : f.hi < f.w.bits) (hp : Plain w1c f.w f.address) (s : Chip) :
    ∃ s', f.set (chip w1c) s = .ok ((), s') ∧
      Becomes f.w f.address s s' fun i => if i = f.hi then true else bitAt s.mem f.address i := by
  obtain ⟨m, hm, hmb⟩ := bitmask_one hlt
  obtain ⟨s', h1, _, h2⟩ := store_plain hp (val s.mem f.w f.address ||| m) s
  refine ⟨s', by rw [Field.set, setbit_eq hm, h1], h2.congr fun i hi => ?_⟩
  rw [BitVec.getLsbD_or, val_bit _ _ hi, hmb i hi]
  by_cases h : i = f.hi <;> simp [h]

/-- `clear()` of a read/write bit. -/
theorem C59_clear {f : Field} (hlt : f.hi < f.w.bits) (hio : f.io ≠ .rc_w1) (hp : Plain w1c f.w f.address)
    (s : Chip) :
    ∃ s', f.clear (chip w1c) s = .ok ((), s') ∧
      Becomes f.w f.address s s' fun i => if i = f.hi then false else bitAt s.mem f.address i := by
  obtain ⟨m, hm, hmb⟩ := bitmask_one hlt
  obtain ⟨s', h1, _, h2⟩ := store_plain hp (val s.mem f.w f.address &&& ~~~ m) s
  refine ⟨s', ?_, h2.congr fun i hi => ?_⟩
  · rw [← h1, ← clearbit_w0_eq hm, Field.clear]
    cases hi : f.io <;> simp_all
  · rw [BitVec.getLsbD_and, BitVec.getLsbD_not, val_bit _ _ hi, hmb i hi]
    by_cases h : i = f.hi <;> simp [h, hi]

/-- `toggle()` of a bit. -/
theorem C59_toggle {f : Field} (hlt : f.hi < f.w.bits) (hp : Plain w1c f.w f.address) (s : Chip) :
    ∃ s', f.toggle (chip w1c) s = .ok ((), s') ∧
      Becomes f.w f.address s s' fun i =>
        if i = f.hi then !bitAt s.mem f.address i else bitAt s.mem f.address i := by
  obtain ⟨m, hm, hmb⟩ := bitmask_one hlt
  obtain ⟨s', h1, _, h2⟩ := store_plain hp (val s.mem f.w f.address ^^^ m) s
  refine ⟨s', by rw [Field.toggle, togglebit_eq hm, h1], h2.congr fun i hi => ?_⟩
  rw [BitVec.getLsbD_xor, val_bit _ _ hi, hmb i hi]
  by_cases h : i = f.hi <;> simp [h]

/-- Toggling twice restores the memory. -/
theorem C59_toggle_twice {f : Field} (hlt : f.hi < f.w.bits) (hp : Plain w1c f.w f.address) (s : Chip) :
    ∃ s1 s2, f.toggle (chip w1c) s = .ok ((), s1) ∧ f.toggle (chip w1c) s1 = .ok ((), s2) ∧
      s2.mem = s.mem := by
  obtain ⟨s1, h1, h2⟩ := C59_toggle hlt hp s
  obtain ⟨s2, h3, h4⟩ := C59_toggle hlt hp s1
  refine ⟨s1, s2, h1, h3, Becomes.mem_eq (h2.trans h4) (Becomes.rfl'.congr fun i hi => ?_)⟩
  rw [h2.1 i hi]
  by_cases h : i = f.hi <;> simp [h]

/-- `trigger()` of a bit writes 1 to it and to the bits that are set already, 0 to the others. -/
theorem C59_trigger {f : Field} (hlt : f.hi < f.w.bits) (hp : Plain w1c f.w f.address) (s : Chip) :
    ∃ s', f.trigger (chip w1c) s = .ok ((), s') ∧
      Becomes f.w f.address s s' fun i => if i = f.hi then true else bitAt s.mem f.address i := by
  obtain ⟨m, hm, hmb⟩ := bitmask_one hlt
  obtain ⟨s', h1, _, h2⟩ := store_plain hp (val s.mem f.w f.address ||| m) s
  refine ⟨s', by rw [Field.trigger, triggerbit_eq hm, h1], h2.congr fun i hi => ?_⟩
  rw [BitVec.getLsbD_or, val_bit _ _ hi, hmb i hi]
  by_cases h : i = f.hi <;> simp [h]

/-- `bitmask` has exactly the listed bits, `bitmask_n` the others. -/
theorem C59_bitmask {w : RegW} {args : List Nat} (h : ∀ i ∈ args, i < 16) :
    ∃ m, bitmask w args = .ok m ∧ bitmask_n w args = .ok (~~~ m) ∧
      ∀ i < w.bits, m.getLsbD i = decide (i ∈ args) := by
  obtain ⟨m, hm, hb⟩ := bitmask_ok (w := w) h
  exact ⟨m, hm, by rw [bitmask_n, hm]; rfl, hb⟩

/-- A bit index of 16 or more is undefined behaviour. -/
theorem C59_bitmask_undefined {w : RegW} {args : List Nat} {i : Nat} (hi : i ∈ args) (h : 16 ≤ i) :
    bitmask w args = .error .badShift := by
  have : ¬ args.all (· < 16) = true := by
    intro hall
    have := List.all_eq_true.1 hall i hi
    simp at this; omega
  rw [bitmask, if_neg this]

/-- `rngmask( hi, lo )` has exactly the bits lo to hi, `rngmask_n` the others. -/
theorem C59_rngmask {w : RegW} {hi lo : Nat} (h : hi < w.bits) (hl : lo ≤ hi) :
    ∃ m, rngmask w hi lo = .ok m ∧ rngmask_n w hi lo = .ok (~~~ m) ∧
      ∀ i < w.bits, m.getLsbD i = decide (lo ≤ i ∧ i ≤ hi) := by
  obtain ⟨m, hm, hb⟩ := rngmask_ok (w := w) (lt_of_lt_of_le h (bits_le w)) hl
  exact ⟨m, hm, by rw [rngmask_n, hm]; rfl, hb⟩

/-- The hypotheses are met: bit 6 of an 8-bit register. -/
example (s : Chip) : ∃ s1 s2, (bit8 .rw 0x25 6).toggle ram s = .ok ((), s1) ∧
    (bit8 .rw 0x25 6).toggle ram s1 = .ok ((), s2) ∧ s2.mem = s.mem :=
  C59_toggle_twice (by norm_num [bit8]) (plain_ram _ _) s

example : bitmask .w8 [6, 5, 0] = .ok 0x61 ∧ rngmask .w8 3 0 = .ok 0x0f := ⟨rfl, rfl⟩

/-! ### C60, C68, C69: flags that are cleared by writing 1 -/

/-- What `clear()` of a write-1-to-clear flag does: it clears the flag, but also every other pending flag of the
register, because it writes back the flags that it has read.  The claim that other pending flags stay pending holds only
if there are none. -/
theorem C60_clear_partial {f : Field} (hlt : f.hi < f.w.bits) (hio : f.io = .rc_w1) (s : Chip) :
    ∃ s', f.clear (chip w1c) s = .ok ((), s') ∧ Becomes f.w f.address s s' fun i =>
      if bitAt w1c f.address i then false
      else if i = f.hi then true else bitAt s.mem f.address i := by
  obtain ⟨m, hm, hmb⟩ := bitmask_one hlt
  obtain ⟨s', h1, _, h2⟩ := store_chip (w1c := w1c) f.w f.address (val s.mem f.w f.address ||| m) s
  refine ⟨s', by rw [Field.clear, hio]; exact (clearbit_w1_eq hm s).trans h1, h2.congr fun i hi => ?_⟩
  rw [BitVec.getLsbD_or, val_bit _ _ hi, hmb i hi]
  by_cases h : i = f.hi <;> cases bitAt s.mem f.address i <;> simp [h]

/-- The claim holds if no other flag is pending. -/
theorem C60_clear_alone_partial {f : Field} (hlt : f.hi < f.w.bits) (hio : f.io = .rc_w1)
    (hall : ∀ i < f.w.bits, bitAt w1c f.address i = true) (s : Chip)
    (halone : ∀ i < f.w.bits, i ≠ f.hi → bitAt s.mem f.address i = false) :
    ∃ s', f.clear (chip w1c) s = .ok ((), s') ∧ Becomes f.w f.address s s' fun i =>
      if i = f.hi then false else bitAt s.mem f.address i := by
  obtain ⟨s', h1, h2⟩ := C60_clear_partial (w1c := w1c) hlt hio s
  refine ⟨s', h1, h2.congr fun i hi => ?_⟩
  rw [if_pos (hall i hi)]
  by_cases h : i = f.hi
  · rw [if_pos h]
  · rw [if_neg h, halone i hi h]

/-- Every other pending flag is lost. -/
theorem C60_others_lost {f : Field} (hlt : f.hi < f.w.bits) (hio : f.io = .rc_w1) (s : Chip) {i : Nat}
    (hi : i < f.w.bits) (hflag : bitAt w1c f.address i = true) :
    ∃ s', f.clear (chip w1c) s = .ok ((), s') ∧ bitAt s'.mem f.address i = false := by
  obtain ⟨s', h1, h2, _⟩ := C60_clear_partial (w1c := w1c) hlt hio s
  exact ⟨s', h1, (h2 i hi).trans (if_pos hflag)⟩

/-- Example: clearing the overflow flag (bit 0) of TIFR0 loses a pending compare-match flag (bit 1). -/
example : ∃ s : Chip, bitAt s.mem 0x35 1 = true ∧
    ∃ s', (bit8 .rc_w1 0x35 0).clear (chip fun _ => 0xff) s = .ok ((), s') ∧ bitAt s'.mem 0x35 1 = false :=
  ⟨⟨fun _ => 0x03, []⟩, rfl, C60_others_lost (by norm_num [bit8]) rfl _ (by norm_num [bit8]) rfl⟩

/-- `clear()` of a write-1-to-clear flag declared with the read/write policy does the opposite of what is wanted: the
flag stays as it is, and every other pending flag is cleared. -/
theorem C68_rw_clear {f : Field} (hlt : f.hi < f.w.bits) (hio : f.io = .rw) (s : Chip) :
    ∃ s', f.clear (chip w1c) s = .ok ((), s') ∧ Becomes f.w f.address s s' fun i =>
      if bitAt w1c f.address i then (if i = f.hi then bitAt s.mem f.address i else false)
      else if i = f.hi then false else bitAt s.mem f.address i := by
  obtain ⟨m, hm, hmb⟩ := bitmask_one hlt
  obtain ⟨s', h1, _, h2⟩ := store_chip (w1c := w1c) f.w f.address (val s.mem f.w f.address &&& ~~~ m) s
  refine ⟨s', by rw [Field.clear, hio]; exact (clearbit_w0_eq hm s).trans h1, h2.congr fun i hi => ?_⟩
  rw [BitVec.getLsbD_and, BitVec.getLsbD_not, val_bit _ _ hi, hmb i hi]
  by_cases h : i = f.hi <;> cases bitAt s.mem f.address i <;> simp [h, hi]

/-- Writing a field of a register that also holds write-1-to-clear flags clears every pending flag outside the field. -/
theorem C69_write_clears_flags {f : Field} (hv : f.Valid) (hio : f.io ≠ .rc_w1) (v : BitVec f.w.bits) (s : Chip)
    (hfield : ∀ i, f.Has i → bitAt w1c f.address i = false) :
    ∃ s', f.write (chip w1c) v s = .ok ((), s') ∧ Becomes f.w f.address s s' fun i =>
      if f.Has i then (if f.hi = f.lo then decide (v ≠ 0) else v.getLsbD (i - f.lo))
      else if bitAt w1c f.address i then false else bitAt s.mem f.address i := by
  obtain ⟨x, h1, h2⟩ := Field.write_eq (w1c := w1c) hv hio v s
  obtain ⟨s', h3, _, h4⟩ := store_chip (w1c := w1c) f.w f.address x s
  refine ⟨s', h1.trans h3, h4.congr fun i hi => ?_⟩
  rw [h2 i hi]
  by_cases hh : f.Has i
  · rw [if_pos hh, if_pos hh, hfield i hh]; simp
  · rw [if_neg hh, if_neg hh]
    cases bitAt s.mem f.address i <;> simp

/-- The hypotheses are met: the prescaler bits of ADCSRA (0x7a), whose bit 4 is the flag ADIF. -/
example (s : Chip) : ∃ s', (bitfield8 .rw 0x7a 2 0).write (chip fun a => if a = 0x7a then 0x10 else 0) 7 s = .ok ((), s') ∧
    bitAt s'.mem 0x7a 4 = false := by
  obtain ⟨s', h1, h2, _⟩ := C69_write_clears_flags (f := bitfield8 .rw 0x7a 2 0)
    (w1c := fun a => if a = 0x7a then 0x10 else 0) ⟨by norm_num [bitfield8], by norm_num [bitfield8]⟩
    (by simp) 7 s (fun i hi => by
      have h2 : i ≤ 2 := hi.2
      have : i = 0 ∨ i = 1 ∨ i = 2 := by omega
      rcases this with rfl | rfl | rfl <;> rfl)
  refine ⟨s', h1, ?_⟩
  have := h2 4 (by norm_num [bitfield8])
  exact this.trans ((if_neg (by simp [Field.Has])).trans (if_pos rfl))

end Verif
