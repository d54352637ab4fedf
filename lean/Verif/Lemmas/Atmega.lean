import Verif.Spec.Atmega
import Verif.Lemmas.Register
import Mathlib.Tactic.IntervalCases

/- Lemmas about 8-bit registers in plain memory. -/

namespace Verif
namespace Mcu

/-- Memory with one byte written. -/
def upd (s : Chip) (a : Nat) (v : Byte) : Chip := ⟨fun b => if b = a then v else s.mem b, s.log ++ [(a, v)]⟩

theorem upd_same (s : Chip) (a : Nat) (v : Byte) : (upd s a v).mem a = v := if_pos rfl

theorem upd_other (s : Chip) {a b : Nat} (v : Byte) (h : b ≠ a) : (upd s a v).mem b = s.mem b := if_neg h

theorem wr_ram (a : Nat) (v : Byte) (s : Chip) : wr ram a v s = .ok ((), upd s a v) := by
  have : (v &&& ~~~ (0 : Byte)) ||| (s.mem a &&& 0 &&& ~~~ v) = v := by
    refine BitVec.eq_of_getLsbD_eq fun i hi => ?_
    simp only [BitVec.getLsbD_or, BitVec.getLsbD_and, BitVec.getLsbD_not, hi]
    simp
  show Except.ok ((), Chip.mk _ _) = _
  rw [this]; rfl

theorem store_ram (a : Nat) (v : Byte) (s : Chip) : store ram .w8 a v s = .ok ((), upd s a v) := wr_ram a v s

theorem writeMask_ram (a : Nat) (m v : Byte) (s : Chip) :
    writeMask ram .w8 a m v s = .ok ((), upd s a ((s.mem a &&& ~~~ m) ||| (v &&& m))) :=
  (writeMask_eq (w := .w8) m v s).trans (store_ram _ _ _)

/-- Writing part of an 8-bit register. -/
theorem write_ram {io : Policy} {a hi lo : Nat} {m : Byte} (hm : rngmask .w8 hi lo = .ok m) (h1 : hi ≠ lo)
    (h2 : hi - lo ≠ 7) (h3 : lo < 8) (v : Byte) (s : Chip) :
    (bitfield8 io a hi lo).write ram v s = .ok ((), upd s a ((s.mem a &&& ~~~ m) ||| ((v <<< lo) &&& m))) := by
  have hsb : ¬ (bitfield8 io a hi lo).is_single_bit = true := by simp [Field.is_single_bit, h1]
  have hab : ¬ (bitfield8 io a hi lo).is_all_bits = true := by
    have h : hi - lo + 1 ≠ 8 := by omega
    intro hc
    rw [Field.is_all_bits, beq_iff_eq] at hc
    exact h hc
  rw [Field.write, if_neg hsb, if_neg hab]
  show (do
    let mask ← pureRes (rngmask .w8 hi lo)
    let v ← pureRes (shl .w8 v lo)
    writeMask ram .w8 a mask v : M Chip Unit) s = _
  have hs : shl .w8 v lo = .ok (v <<< lo) := shl_ok (w := .w8) v h3
  rw [hm, hs, M_bind, pureRes_ok, bind_okM, M_bind, pureRes_ok, bind_okM, writeMask_ram]

/-- Reading part of an 8-bit register. -/
theorem read_ram {io : Policy} {a hi lo : Nat} {m : Byte} (hm : rngmask .w8 hi lo = .ok m) (h1 : hi ≠ lo)
    (h2 : hi - lo ≠ 7) (h3 : lo < 8) (s : Chip) :
    (bitfield8 io a hi lo).read ram s = .ok ((s.mem a &&& m) >>> lo, s) := by
  have hsb : ¬ (bitfield8 io a hi lo).is_single_bit = true := by simp [Field.is_single_bit, h1]
  have hab : ¬ (bitfield8 io a hi lo).is_all_bits = true := by
    have h : hi - lo + 1 ≠ 8 := by omega
    intro hc
    rw [Field.is_all_bits, beq_iff_eq] at hc
    exact h hc
  rw [Field.read, if_neg hsb, if_neg hab]
  show (do
    let mask ← pureRes (rngmask .w8 hi lo)
    let v ← readMask ram .w8 a mask
    pureRes (shr .w8 v lo) : M Chip Byte) s = _
  have hs : shr .w8 (s.mem a &&& m) lo = .ok ((s.mem a &&& m) >>> lo) := shr_ok (w := .w8) _ h3
  rw [hm, M_bind, pureRes_ok, bind_okM, M_bind]
  show pureRes (shr .w8 (s.mem a &&& m) lo) s = _
  rw [hs]; rfl

/-- Reading a bit of an 8-bit register. -/
theorem readBit_ram {io : Policy} {a b : Nat} {m : Byte} (hm : bitmask .w8 [b] = .ok m) (s : Chip) :
    (bit8 io a b).read ram s = .ok (if s.mem a &&& m ≠ 0 then 1 else 0, s) := by
  have hsb : (bit8 io a b).is_single_bit = true := by simp [Field.is_single_bit]
  rw [Field.read, if_pos hsb]
  exact getbit_eq (w := .w8) hm s

theorem set_ram {io : Policy} {a b : Nat} {m : Byte} (hm : bitmask .w8 [b] = .ok m) (s : Chip) :
    (bit8 io a b).set ram s = .ok ((), upd s a (s.mem a ||| m)) :=
  (setbit_eq (w := .w8) hm s).trans (store_ram _ _ _)

theorem write_lazy_eq {io : Policy} {a hi lo : Nat} {m : Byte} (hm : rngmask .w8 hi lo = .ok m)
    (h3 : lo < 8) (v : Byte) :
    (bitfield8 io a hi lo).write_lazy v = .ok (⟨m, v <<< lo, true⟩ : Proxy .w8 a) := by
  show (do
    let mask ← rngmask .w8 hi lo
    .ok (⟨mask, ← shl .w8 v lo, true⟩ : Proxy .w8 a) : Res _) = _
  have hs : shl .w8 v lo = .ok (v <<< lo) := shl_ok (w := .w8) v h3
  rw [hm, hs]; rfl

theorem destroy_ram {a : Nat} (m v : Byte) (s : Chip) :
    (⟨m, v, true⟩ : Proxy .w8 a).destroy ram s = .ok ((), upd s a ((s.mem a &&& ~~~ m) ||| (v &&& m))) := by
  rw [Proxy.destroy, if_pos rfl, writeMask_ram]

theorem shr8 (v : Byte) {n : Nat} (h : n < 8) : shr .w8 v n = .ok (v >>> n) := shr_ok (w := .w8) v h
theorem shl8 (v : Byte) {n : Nat} (h : n < 8) : shl .w8 v n = .ok (v <<< n) := shl_ok (w := .w8) v h

/-! ### Two-wire interface -/

open Atmega

theorem twi_start (d : Byte) (ev : List TwiEvent) (bz n : Nat) (st r : Byte) (rs : List (Nat × Byte)) :
    twi.start twiHw ⟨d, ev, bz, st, (n, r) :: rs⟩ = .ok ((), ⟨d, ev ++ [.start], n, r, rs⟩) := rfl

theorem twi_data (d b : Byte) (ev : List TwiEvent) (bz n : Nat) (st r : Byte) (rs : List (Nat × Byte)) :
    twi.data twiHw b ⟨d, ev, bz, st, (n, r) :: rs⟩ = .ok ((), ⟨b, ev ++ [.byte b], n, r, rs⟩) := rfl

theorem twi_wait {n fuel : Nat} (h : n < fuel) (d st : Byte) (ev : List TwiEvent) (rs : List (Nat × Byte)) :
    twi.wait twiHw fuel ⟨d, ev, n, st, rs⟩ = .ok ((), ⟨d, ev, 0, st, rs⟩) := by
  induction fuel generalizing n with
  | zero => omega
  | succ fuel ih =>
    rw [twi.wait, M_bind]
    cases n with
    | zero =>
      have e : twi.flag twiHw ⟨d, ev, 0, st, rs⟩ = .ok (true, ⟨d, ev, 0, st, rs⟩) := by
        rw [twi.flag, M_bind]
        simp only [rd, twiHw, if_true, bind_okM, M_pure]
        rfl
      rw [e]; rfl
    | succ n =>
      have e : twi.flag twiHw ⟨d, ev, n + 1, st, rs⟩ = .ok (false, ⟨d, ev, n, st, rs⟩) := by
        rw [twi.flag, M_bind]
        simp only [rd, twiHw, if_true, bind_okM, M_pure, Nat.add_one_ne_zero, if_false, Nat.add_sub_cancel]
        rfl
      rw [e, bind_okM]
      exact ih (by omega)

theorem twi_expect {n fuel : Nat} (h : n < fuel) (d st x : Byte) (ev : List TwiEvent) (rs : List (Nat × Byte)) :
    twi.expect_status twiHw fuel x ⟨d, ev, n, st, rs⟩ = .ok (st &&& 0xf8#8 != x, ⟨d, ev, 0, st, rs⟩) := by
  rw [twi.expect_status, M_bind, twi_wait h, bind_okM]
  rfl

end Mcu
end Verif
