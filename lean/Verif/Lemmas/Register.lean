import Verif.Spec.Register
import Verif.Lemmas.Loop
import Mathlib.Tactic.Linarith
import Mathlib.Tactic.SplitIfs

/- Lemmas about register access. -/

namespace Verif
namespace Mcu

variable {σ : Type}

theorem M_bind {α β : Type} (x : M σ α) (f : α → M σ β) (s : σ) :
    (x >>= f) s = (x s).bind fun r => f r.1 r.2 := rfl

theorem M_pure {α : Type} (v : α) (s : σ) : (pure v : M σ α) s = .ok (v, s) := rfl

theorem pureRes_ok {α : Type} (v : α) (s : σ) : pureRes (.ok v) s = .ok (v, s) := rfl

theorem bind_okM {α β : Type} (v : α) (f : α → Res β) : (Except.ok v : Res α).bind f = f v := rfl

/-! ### Masks -/

theorem foldl_or_getLsbD (l : List Nat) (r : BitVec 16) (i : Nat) :
    (l.foldl (fun r i => r ||| (1#16 <<< i)) r).getLsbD i
      = (r.getLsbD i || (decide (i < 16) && decide (i ∈ l))) := by
  induction l generalizing r with
  | nil => simp
  | cons a l ih =>
    rw [List.foldl_cons, ih]
    by_cases h : i < 16
    · by_cases ha : i = a
      · subst ha
        simp [h]
      · have : (1#16 <<< a).getLsbD i = false := by
          rw [BitVec.getLsbD_shiftLeft]
          by_cases hia : i < a
          · simp [hia]
          · have : i - a ≠ 0 := by omega
            simp [h, hia, BitVec.getLsbD_one, this]
        rw [BitVec.getLsbD_or, this]
        simp [h, ha]
    · have : (1#16 <<< a).getLsbD i = false := BitVec.getLsbD_of_ge _ _ (by omega)
      simp [h, this]

theorem bitmask_ok {w : RegW} {args : List Nat} (h : ∀ i ∈ args, i < 16) :
    ∃ m, bitmask w args = .ok m ∧ ∀ i < w.bits, m.getLsbD i = decide (i ∈ args) := by
  have hall : args.all (· < 16) = true := by simpa using h
  refine ⟨_, by rw [bitmask, if_pos hall], fun i hi => ?_⟩
  rw [BitVec.getLsbD_setWidth, foldl_or_getLsbD]
  have : i < 16 := by cases w <;> simp [RegW.bits] at hi ⊢ <;> omega
  simp [hi, this]

theorem bits_le (w : RegW) : w.bits ≤ 16 := by cases w <;> simp [RegW.bits]

theorem bitmask_one {w : RegW} {b : Nat} (h : b < w.bits) :
    ∃ m, bitmask w [b] = .ok m ∧ ∀ i < w.bits, m.getLsbD i = decide (i = b) := by
  obtain ⟨m, hm, hb⟩ := bitmask_ok (w := w) (args := [b]) (by
    have := bits_le w; simp; omega)
  exact ⟨m, hm, fun i hi => by rw [hb i hi]; simp⟩

theorem rngmask_loop {w : RegW} {lo : Nat} : ∀ n, (lo + n ≤ 16) →
    ∃ m : BitVec w.bits, forRange n (fun k result => do .ok (result ||| (← bitmask w [lo + k]))) 0 = .ok m ∧
      ∀ i < w.bits, m.getLsbD i = decide (lo ≤ i ∧ i < lo + n)
  | 0, _ => ⟨0, rfl, fun i _ => by simp⟩
  | n + 1, h => by
    obtain ⟨m, hm, hb⟩ := rngmask_loop (w := w) (lo := lo) n (by omega)
    obtain ⟨b, hb1, hb2⟩ := bitmask_ok (w := w) (args := [lo + n]) (by simp; omega)
    refine ⟨m ||| b, ?_, fun i hi => ?_⟩
    · rw [forRange, hm]
      show (do Except.ok (m ||| (← bitmask w [lo + n])) : Res _) = _
      rw [hb1]; rfl
    · rw [BitVec.getLsbD_or, hb i hi, hb2 i hi]
      rw [← Bool.decide_or]
      simp only [List.mem_singleton, decide_eq_decide]
      omega

theorem rngmask_ok {w : RegW} {hi lo : Nat} (h : hi < 16) (hl : lo ≤ hi) :
    ∃ m, rngmask w hi lo = .ok m ∧ ∀ i < w.bits, m.getLsbD i = decide (lo ≤ i ∧ i ≤ hi) := by
  obtain ⟨m, hm, hb⟩ := rngmask_loop (w := w) (lo := lo) (hi + 1 - lo) (by omega)
  refine ⟨m, hm, fun i hi' => ?_⟩
  rw [hb i hi', decide_eq_decide]
  omega

theorem shl_ok {w : RegW} (v : BitVec w.bits) {n : Nat} (h : n < w.bits) : shl w v n = .ok (v <<< n) := by
  have h16 : ¬ 16 ≤ n := by have := bits_le w; omega
  have h2 : ¬ (w = .w8 ∧ 2 ^ 16 ≤ v.toNat * 2 ^ n) := by
    rintro ⟨rfl, h'⟩
    have hv : v.toNat < 2 ^ 8 := v.isLt
    have hn : 2 ^ n ≤ 2 ^ 7 := Nat.pow_le_pow_right (by norm_num) (by simp [RegW.bits] at h; omega)
    have := Nat.mul_le_mul (Nat.le_of_lt_succ hv) hn
    omega
  rw [shl, if_neg h16, if_neg h2]

theorem shr_ok {w : RegW} (v : BitVec w.bits) {n : Nat} (h : n < w.bits) : shr w v n = .ok (v >>> n) := by
  have h16 : ¬ 16 ≤ n := by have := bits_le w; omega
  rw [shr, if_neg h16]

/-! ### Registers of a chip -/

/-- The contents of a register. -/
def val (m : Nat → Byte) : (w : RegW) → Nat → BitVec w.bits
  | .w8, a => m a
  | .w16, a => m (a + 1) ++ m a

theorem val_bit (m : Nat → Byte) {w : RegW} (a : Nat) {i : Nat} (hi : i < w.bits) :
    (val m w a).getLsbD i = bitAt m a i := by
  cases w with
  | w8 =>
    have h1 : i / 8 = 0 := by simp [RegW.bits] at hi; omega
    have h2 : i % 8 = i := by simp [RegW.bits] at hi; omega
    simp [val, bitAt, h1, h2]
  | w16 =>
    simp only [RegW.bits] at hi
    show (m (a + 1) ++ m a).getLsbD i = _
    rw [BitVec.getLsbD_append, bitAt]
    by_cases h : i < 8
    · have h1 : i / 8 = 0 := by omega
      have h2 : i % 8 = i := by omega
      simp [h, h1, h2]
    · have h1 : i / 8 = 1 := by omega
      have h2 : i % 8 = i - 8 := by omega
      simp [h, h1, h2]

variable {w1c : Nat → Byte}

theorem load_chip (w : RegW) (a : Nat) (s : Chip) : load (chip w1c) w a s = .ok (val s.mem w a, s) := by
  cases w <;> rfl

theorem plain_ram (w : RegW) (a : Nat) : Plain (fun _ => 0) w a := fun i _ => by simp [bitAt]

theorem store_chip (w : RegW) (a : Nat) (v : BitVec w.bits) (s : Chip) :
    ∃ s', store (chip w1c) w a v s = .ok ((), s') ∧ s'.log = s.log ++ writes w a v ∧
      Becomes w a s s' fun i =>
        if bitAt w1c a i then bitAt s.mem a i && !v.getLsbD i else v.getLsbD i := by
  cases w with
  | w8 =>
    refine ⟨_, rfl, rfl, fun i hi => ?_, fun b hb => ?_⟩
    · have h1 : i / 8 = 0 := by simp [RegW.bits] at hi; omega
      have h2 : i % 8 = i := by simp [RegW.bits] at hi; omega
      have hi' : i < 8 := hi
      simp only [bitAt, h1, h2, chip, Nat.add_zero, if_true, BitVec.getLsbD_or, BitVec.getLsbD_and,
        BitVec.getLsbD_not, hi', decide_true, Bool.true_and]
      cases (w1c a).getLsbD i <;> simp
    · have : b ≠ a := by simp [RegW.bits] at hb; omega
      simp [chip, this]
  | w16 =>
    refine ⟨_, rfl, by simp [chip, writes], fun i hi => ?_, fun b hb => ?_⟩
    · simp only [RegW.bits] at hi
      by_cases h : i < 8
      · have h1 : i / 8 = 0 := by omega
        have h2 : i % 8 = i := by omega
        have hne : ¬ a = a + 1 := by omega
        simp only [bitAt, h1, h2, chip, Nat.add_zero, if_true, BitVec.getLsbD_or, BitVec.getLsbD_and,
          BitVec.getLsbD_not, h, decide_true, Bool.true_and, if_neg hne, BitVec.getLsbD_extractLsb', Nat.zero_add]
        cases (w1c a).getLsbD i <;> simp
      · have h1 : i / 8 = 1 := by omega
        have h2 : i % 8 = i - 8 := by omega
        have h3 : i - 8 < 8 := by omega
        have h4 : 8 + (i - 8) = i := by omega
        have hne : ¬ a + 1 = a := by omega
        simp only [bitAt, h1, h2, chip, if_true, BitVec.getLsbD_or, BitVec.getLsbD_and,
          BitVec.getLsbD_not, h3, decide_true, Bool.true_and, if_neg hne, BitVec.getLsbD_extractLsb', h4]
        cases (w1c (a + 1)).getLsbD (i - 8) <;> simp
    · have h1 : b ≠ a := by simp [RegW.bits] at hb; omega
      have h2 : b ≠ a + 1 := by simp [RegW.bits] at hb; omega
      simp [chip, h1, h2]

theorem Becomes.congr {w : RegW} {a : Nat} {s s' : Chip} {f g : Nat → Bool} (h : Becomes w a s s' f)
    (hfg : ∀ i < w.bits, f i = g i) : Becomes w a s s' g :=
  ⟨fun i hi => (h.1 i hi).trans (hfg i hi), h.2⟩

/-- A register becomes the same in memories that are equal there. -/
theorem Becomes.mem_eq {w : RegW} {a : Nat} {s s1 s2 : Chip} {f : Nat → Bool} (h1 : Becomes w a s s1 f)
    (h2 : Becomes w a s s2 f) : s1.mem = s2.mem := by
  funext b
  by_cases hb : b < a ∨ a + w.bits / 8 ≤ b
  · rw [h1.2 b hb, h2.2 b hb]
  · refine BitVec.eq_of_getLsbD_eq fun j hj => ?_
    have hi : (b - a) * 8 + j < w.bits := by
      cases w <;> simp [RegW.bits] at hb ⊢ <;> omega
    have e := (h1.1 _ hi).trans (h2.1 _ hi).symm
    have e1 : a + ((b - a) * 8 + j) / 8 = b := by omega
    have e2 : ((b - a) * 8 + j) % 8 = j := by omega
    simpa only [bitAt, e1, e2] using e

theorem Becomes.trans {w : RegW} {a : Nat} {s s1 s2 : Chip} {f g : Nat → Bool} (h1 : Becomes w a s s1 f)
    (h2 : Becomes w a s1 s2 g) : Becomes w a s s2 g :=
  ⟨h2.1, fun b hb => (h2.2 b hb).trans (h1.2 b hb)⟩

theorem Becomes.rfl' {w : RegW} {a : Nat} {s : Chip} : Becomes w a s s (bitAt s.mem a) :=
  ⟨fun _ _ => rfl, fun _ _ => rfl⟩

/-- Storing a computed value in a register without flags. -/
theorem store_plain {w : RegW} {a : Nat} (hp : Plain w1c w a) (v : BitVec w.bits) (s : Chip) :
    ∃ s', store (chip w1c) w a v s = .ok ((), s') ∧ s'.log = s.log ++ writes w a v ∧
      Becomes w a s s' v.getLsbD := by
  obtain ⟨s', h1, h2, h3⟩ := store_chip (w1c := w1c) w a v s
  exact ⟨s', h1, h2, h3.congr fun i hi => by rw [hp i hi]; simp⟩

/-! ### Operations: the value stored, on any chip -/

theorem setbit_eq {w : RegW} {a b : Nat} {m : BitVec w.bits} (hm : bitmask w [b] = .ok m) (s : Chip) :
    setbit (chip w1c) w a b s = store (chip w1c) w a (val s.mem w a ||| m) s := by
  simp only [setbit, M_bind, load_chip, bind_okM, hm, pureRes_ok]

theorem clearbit_w1_eq {w : RegW} {a b : Nat} {m : BitVec w.bits} (hm : bitmask w [b] = .ok m) (s : Chip) :
    clearbit_w1 (chip w1c) w a b s = store (chip w1c) w a (val s.mem w a ||| m) s := by
  simp only [clearbit_w1, M_bind, load_chip, bind_okM, hm, pureRes_ok]

theorem triggerbit_eq {w : RegW} {a b : Nat} {m : BitVec w.bits} (hm : bitmask w [b] = .ok m) (s : Chip) :
    triggerbit (chip w1c) w a b s = store (chip w1c) w a (val s.mem w a ||| m) s := by
  simp only [triggerbit, M_bind, load_chip, bind_okM, hm, pureRes_ok]

theorem togglebit_eq {w : RegW} {a b : Nat} {m : BitVec w.bits} (hm : bitmask w [b] = .ok m) (s : Chip) :
    togglebit (chip w1c) w a b s = store (chip w1c) w a (val s.mem w a ^^^ m) s := by
  simp only [togglebit, M_bind, load_chip, bind_okM, hm, pureRes_ok]

theorem clearbit_w0_eq {w : RegW} {a b : Nat} {m : BitVec w.bits} (hm : bitmask w [b] = .ok m) (s : Chip) :
    clearbit_w0 (chip w1c) w a b s = store (chip w1c) w a (val s.mem w a &&& ~~~ m) s := by
  have : bitmask_n w [b] = .ok (~~~ m) := by rw [bitmask_n, hm]; rfl
  simp only [clearbit_w0, M_bind, load_chip, bind_okM, this, pureRes_ok]

theorem getbit_eq {w : RegW} {a b : Nat} {m : BitVec w.bits} (hm : bitmask w [b] = .ok m) (s : Chip) :
    getbit (chip w1c) w a b s = .ok (if val s.mem w a &&& m ≠ 0 then 1 else 0, s) := by
  simp only [getbit, M_bind, load_chip, bind_okM, hm, pureRes_ok, M_pure]

theorem writeMask_eq {w : RegW} {a : Nat} (m v : BitVec w.bits) (s : Chip) :
    writeMask (chip w1c) w a m v s
      = store (chip w1c) w a ((val s.mem w a &&& ~~~ m) ||| (v &&& m)) s := by
  simp only [writeMask, M_bind, load_chip, bind_okM]

theorem and_bit_ne_zero {w : RegW} {b : Nat} (hb : b < w.bits) {m : BitVec w.bits}
    (hm : ∀ i < w.bits, m.getLsbD i = decide (i = b)) (v : BitVec w.bits) :
    v &&& m ≠ 0 ↔ v.getLsbD b = true := by
  constructor
  · intro h
    by_contra hv
    refine h (BitVec.eq_of_getLsbD_eq fun i hi => ?_)
    rw [BitVec.getLsbD_and, hm i hi]
    by_cases hib : i = b
    · subst hib; simp [hv]
    · simp [hib]
  · intro h h0
    have := congrArg (fun x => x.getLsbD b) h0
    simp [hm b hb, h] at this

/-! ### Fields -/

theorem Field.Valid.hi16 {f : Field} (hv : f.Valid) : f.hi < 16 := lt_of_lt_of_le hv.lt (bits_le _)

theorem Field.Valid.lo_lt {f : Field} (hv : f.Valid) : f.lo < f.w.bits := lt_of_le_of_lt hv.le hv.lt

theorem lo_zero {hi lo n : Nat} (hl : lo ≤ hi) (h : hi < n) (h3 : hi - lo + 1 = n) : lo = 0 := by omega

theorem le_hi {hi lo n i : Nat} (h : i < n) (h3 : hi - lo + 1 = n) : i ≤ hi := by omega

/-- The value stored by `write`. -/
theorem Field.write_eq {f : Field} (hv : f.Valid) (hio : f.io ≠ .rc_w1) (v : BitVec f.w.bits) (s : Chip) :
    ∃ x : BitVec f.w.bits, f.write (chip w1c) v s = store (chip w1c) f.w f.address x s ∧
      ∀ i < f.w.bits, x.getLsbD i =
        if f.Has i then (if f.hi = f.lo then decide (v ≠ 0) else v.getLsbD (i - f.lo))
        else bitAt s.mem f.address i := by
  have hb : ∀ {i}, i < f.w.bits → _ := fun {i} hi => val_bit s.mem (w := f.w) f.address (i := i) hi
  by_cases h1 : f.hi = f.lo
  · obtain ⟨m, hm, hmb⟩ := bitmask_one hv.lt
    have hsb : f.is_single_bit = true := by simp [is_single_bit, h1]
    have hHas : ∀ i, f.Has i ↔ i = f.hi := fun i => by rw [Has]; omega
    by_cases h0 : v ≠ 0
    · refine ⟨val s.mem f.w f.address ||| m, ?_, fun i hi => ?_⟩
      · rw [write, if_pos hsb, if_pos h0, Field.set, setbit_eq hm]
      · rw [BitVec.getLsbD_or, hb hi, hmb i hi]
        by_cases hh : i = f.hi
        · rw [if_pos ((hHas i).2 hh), if_pos h1]; simpa [hh] using h0
        · rw [if_neg (mt (hHas i).1 hh)]; simp [hh]
    · refine ⟨val s.mem f.w f.address &&& ~~~ m, ?_, fun i hi => ?_⟩
      · rw [write, if_pos hsb, if_neg h0, ← clearbit_w0_eq hm, Field.clear]
        cases hi : f.io <;> simp_all
      · rw [BitVec.getLsbD_and, BitVec.getLsbD_not, hb hi, hmb i hi]
        by_cases hh : i = f.hi
        · rw [if_pos ((hHas i).2 hh), if_pos h1]; simpa [hh] using h0
        · rw [if_neg (mt (hHas i).1 hh)]; simp [hh, hi]
  · have hsb : ¬ f.is_single_bit = true := by simp [is_single_bit, h1]
    by_cases h2 : f.is_all_bits = true
    · refine ⟨v, ?_, fun i hi => ?_⟩
      · rw [write, if_neg hsb, if_pos h2, writeAll]
      · have h3 : f.hi - f.lo + 1 = f.w.bits := by simpa [is_all_bits] using h2
        have hlo : f.lo = 0 := lo_zero hv.le hv.lt h3
        rw [if_pos ⟨hlo ▸ Nat.zero_le i, le_hi hi h3⟩, if_neg h1, hlo, Nat.sub_zero]
    · obtain ⟨m, hm, hmb⟩ := rngmask_ok (w := f.w) hv.hi16 hv.le
      refine ⟨(val s.mem f.w f.address &&& ~~~ m) ||| ((v <<< f.lo) &&& m), ?_, fun i hi => ?_⟩
      · rw [write, if_neg hsb, if_neg h2, hm, shl_ok v hv.lo_lt]
        exact writeMask_eq m (v <<< f.lo) s
      · rw [BitVec.getLsbD_or, BitVec.getLsbD_and, BitVec.getLsbD_and, BitVec.getLsbD_not, hb hi, hmb i hi,
          BitVec.getLsbD_shiftLeft, if_neg h1]
        by_cases hh : f.Has i
        · have h5 : f.lo ≤ i ∧ i ≤ f.hi := hh
          rw [if_pos hh]; simp [hi, h5]
        · have h5 : ¬ (f.lo ≤ i ∧ i ≤ f.hi) := hh
          rw [if_neg hh]; simp [hi, h5]

/-- The value read by `read`. -/
theorem Field.read_eq {f : Field} (hv : f.Valid) (s : Chip) :
    ∃ x : BitVec f.w.bits, f.read (chip w1c) s = .ok (x, s) ∧
      ∀ i < f.w.bits, x.getLsbD i =
        (decide (f.lo + i ≤ f.hi) && bitAt s.mem f.address (f.lo + i)) := by
  have hb := fun i => val_bit s.mem (w := f.w) f.address (i := i)
  by_cases h1 : f.hi = f.lo
  · obtain ⟨m, hm, hmb⟩ := bitmask_one hv.lt
    have hsb : f.is_single_bit = true := by simp [is_single_bit, h1]
    refine ⟨_, by rw [read, if_pos hsb, getbit_eq hm], fun i hi => ?_⟩
    simp only [and_bit_ne_zero hv.lt hmb, hb _ hv.lt]
    by_cases h0 : i = 0
    · subst h0
      cases h3 : bitAt s.mem f.address f.hi
      · simp [← h1, h3]
      · simp [← h1, h3, hi]
    · have : ¬ f.lo + i ≤ f.hi := by omega
      cases h3 : bitAt s.mem f.address f.hi
      · simp [this]
      · have : (1 : BitVec f.w.bits).getLsbD i = false := by
          show (1#f.w.bits).getLsbD i = false
          rw [BitVec.getLsbD_one]; simp [h0]
        simp [*]
  · have hsb : ¬ f.is_single_bit = true := by simp [is_single_bit, h1]
    by_cases h2 : f.is_all_bits = true
    · refine ⟨_, by rw [read, if_neg hsb, if_pos h2, readAll, load_chip], fun i hi => ?_⟩
      have h3 : f.hi - f.lo + 1 = f.w.bits := by simpa [is_all_bits] using h2
      have hlo : f.lo = 0 := lo_zero hv.le hv.lt h3
      rw [hb i hi, hlo, Nat.zero_add, decide_eq_true (le_hi hi h3), Bool.true_and]
    · obtain ⟨m, hm, hmb⟩ := rngmask_ok (w := f.w) hv.hi16 hv.le
      refine ⟨(val s.mem f.w f.address &&& m) >>> f.lo, ?_, fun i hi => ?_⟩
      · rw [read, if_neg hsb, if_neg h2, hm]
        simp only [M_bind, pureRes_ok, bind_okM, readMask, load_chip, M_pure, shr_ok _ hv.lo_lt]
      · rw [BitVec.getLsbD_ushiftRight, BitVec.getLsbD_and]
        have := hv.lt
        by_cases h5 : f.lo + i < f.w.bits
        · rw [hb _ h5, hmb _ h5]
          simp [Bool.and_comm]
        · rw [BitVec.getLsbD_of_ge _ _ (by omega), decide_eq_false (by omega)]; simp

/-! ### Lazy writes -/

section lazy
variable {w : RegW} {a : Nat}

theorem Proxy.comma_eq (hw : Hw σ) (p q : Proxy w a) (s : σ) :
    p.comma hw q s = .ok (⟨p.clear_mask ||| q.clear_mask, p.value ||| q.value, true⟩, s) := rfl

/-- Combined masks and values. -/
def Proxy.total (p : Proxy w a) (qs : List (Proxy w a)) : Proxy w a :=
  qs.foldl (fun p q => ⟨p.clear_mask ||| q.clear_mask, p.value ||| q.value, true⟩) p

theorem Proxy.statement_eq (hw : Hw σ) (p : Proxy w a) (qs : List (Proxy w a)) (s : σ) :
    p.statement hw qs s = (p.total qs).destroy hw s := by
  induction qs generalizing p with
  | nil => rfl
  | cons q qs ih =>
    rw [Proxy.statement, M_bind, Proxy.comma_eq, bind_okM]
    exact ih _

theorem Proxy.total_apply (p : Proxy w a) (qs : List (Proxy w a)) (hp : p.apply = true) :
    (p.total qs).apply = true := by
  induction qs generalizing p with
  | nil => exact hp
  | cons q qs ih => exact ih _ rfl

theorem Proxy.total_mask (p : Proxy w a) (qs : List (Proxy w a)) (i : Nat) :
    (p.total qs).clear_mask.getLsbD i = (p :: qs).any fun q => q.clear_mask.getLsbD i := by
  induction qs generalizing p with
  | nil => simp [Proxy.total]
  | cons q qs ih =>
    have := ih ⟨p.clear_mask ||| q.clear_mask, p.value ||| q.value, true⟩
    rw [Proxy.total, List.foldl_cons, ← Proxy.total, this]
    simp [Bool.or_assoc]

theorem Proxy.total_value (p : Proxy w a) (qs : List (Proxy w a)) (i : Nat) :
    (p.total qs).value.getLsbD i = (p :: qs).any fun q => q.value.getLsbD i := by
  induction qs generalizing p with
  | nil => simp [Proxy.total]
  | cons q qs ih =>
    have := ih ⟨p.clear_mask ||| q.clear_mask, p.value ||| q.value, true⟩
    rw [Proxy.total, List.foldl_cons, ← Proxy.total, this]
    simp [Bool.or_assoc]

theorem Part.write_lazy_eq {io : Policy} {p : Part w} (hv : (p.field io a).Valid) :
    ∃ q : Proxy w a, (p.field io a).write_lazy p.value = .ok q ∧ q.apply = true ∧
      (∀ i < w.bits, q.clear_mask.getLsbD i = decide (p.Has i)) ∧
      ∀ i < w.bits, q.value.getLsbD i = (decide (p.lo ≤ i) && p.value.getLsbD (i - p.lo)) := by
  obtain ⟨m, hm, hmb⟩ := rngmask_ok (w := w) (hi := p.hi) (lo := p.lo) hv.hi16 hv.le
  refine ⟨⟨m, p.value <<< p.lo, true⟩, ?_, rfl, fun i hi => ?_, fun i hi => ?_⟩
  · show (do
      let mask ← rngmask w p.hi p.lo
      .ok (⟨mask, ← shl w p.value p.lo, true⟩ : Proxy w a) : Res _) = _
    rw [hm]
    show (do Except.ok (⟨m, ← shl w p.value p.lo, true⟩ : Proxy w a) : Res _) = _
    have h2 : p.lo < w.bits := hv.lo_lt
    rw [shl_ok p.value h2]; rfl
  · exact hmb i hi
  · show (p.value <<< p.lo).getLsbD i = _
    rw [BitVec.getLsbD_shiftLeft]
    by_cases h : p.lo ≤ i
    · have : ¬ i < p.lo := by omega
      simp [hi, h, this]
    · have : i < p.lo := by omega
      simp [h, this]

theorem Part.proxies_eq {io : Policy} : ∀ {ps : List (Part w)}, (∀ p ∈ ps, (p.field io a).Valid) →
    ∃ qs, Part.proxies io a ps = .ok qs ∧ (∀ q ∈ qs, q.apply = true) ∧ ∀ i < w.bits,
      (qs.any fun q => q.clear_mask.getLsbD i) = decide (∃ p ∈ ps, p.Has i) ∧
      (qs.any fun q => q.value.getLsbD i)
        = decide (∃ p ∈ ps, p.lo ≤ i ∧ p.value.getLsbD (i - p.lo) = true)
  | [], _ => ⟨[], rfl, by simp, by simp⟩
  | p :: ps, h => by
    obtain ⟨q, h1, h2, h3, h4⟩ := Part.write_lazy_eq (h p (by simp))
    obtain ⟨qs, g1, g2, g3⟩ := Part.proxies_eq (ps := ps) fun p' hp' => h p' (by simp [hp'])
    refine ⟨q :: qs, ?_, ?_, fun i hi => ⟨?_, ?_⟩⟩
    · rw [Part.proxies, h1]
      show (do Except.ok (q :: (← Part.proxies io a ps)) : Res _) = _
      rw [g1]; rfl
    · simpa [h2] using g2
    · rw [List.any_cons, (g3 i hi).1, h3 i hi, ← Bool.decide_or]
      simp
    · rw [List.any_cons, (g3 i hi).2, h4 i hi]
      simp

end lazy

end Mcu
end Verif
