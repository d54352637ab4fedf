import Verif.Spec.Twi
import Verif.Lemmas.Atmega

/- Lemmas about the field-based two-wire driver. -/

namespace Verif
namespace Mcu
open Atmega

namespace Bus

/-- What a read of TWCR delivers. -/
def twcr (s : Bus) : Byte := if s.busy = 0 then s.ctrl ||| 0x80 else s.ctrl &&& 0x7f

/-- The state after a read of TWCR. -/
def poll (s : Bus) : Bus := { s with busy := s.busy - 1 }

theorem rd_twcr (s : Bus) : rd busHw 0xbc s = .ok (s.twcr, s.poll) := by
  show Except.ok (if s.busy = 0 then (s.ctrl ||| 0x80, s) else (s.ctrl &&& 0x7f, { s with busy := s.busy - 1 })) = _
  rw [twcr, poll]
  split_ifs with h
  · rw [show s.busy - 1 = s.busy by omega]
  · rfl

theorem twcr_bit (s : Bus) {i : Nat} (h : i < 7) : s.twcr.getLsbD i = s.ctrl.getLsbD i := by
  rw [twcr]
  split_ifs <;> interval_cases i <;> simp

theorem twcr_flag (s : Bus) : s.twcr.getLsbD 7 = (decide (s.busy = 0) || false) := by
  rw [twcr]
  split_ifs with h <;> simp [h]

end Bus

theorem x_writeMask (m v : Byte) (s : Bus) :
    writeMask busHw .w8 0xbc m v s = .ok ((), s.poll.control ((s.twcr &&& ~~~ m) ||| (v &&& m))) := by
  rw [writeMask, M_bind]
  show (rd busHw 0xbc s).bind _ = _
  rw [Bus.rd_twcr]; rfl

theorem x_destroy (m v : Byte) (s : Bus) : (⟨m, v, true⟩ : Proxy .w8 0xbc).destroy busHw s
    = .ok ((), s.poll.control ((s.twcr &&& ~~~ m) ||| (v &&& m))) := by
  rw [Proxy.destroy, if_pos rfl, x_writeMask]

theorem x_start (s : Bus) :
    twi_x.start busHw s = .ok ((), s.poll.control ((s.twcr &&& ~~~ 0xa0#8) ||| (0xa0#8 &&& 0xa0#8))) :=
  x_destroy 0xa0#8 0xa0#8 s

theorem x_stop (s : Bus) :
    twi_x.stop busHw s = .ok ((), s.poll.control ((s.twcr &&& ~~~ 0x10#8) ||| (0x10#8 &&& 0x10#8))) :=
  x_destroy 0x10#8 0x10#8 s

theorem x_ack (s : Bus) :
    twi_x.ack busHw s = .ok ((), s.poll.control ((s.twcr &&& ~~~ 0x40#8) ||| (0x40#8 &&& 0x40#8))) :=
  x_destroy 0x40#8 0x40#8 s

theorem x_data (b : Byte) (s : Bus) :
    twi_x.data busHw b s = .ok ((), { s.poll with twdr := b }.control (s.twcr ||| 0x80#8)) := by
  have e : Setting.set busHw Atmega.twi_data b s = .ok ((), { s with twdr := b }) := rfl
  have e2 : Field.clear busHw reg.twcr.twintc { s with twdr := b }
      = clearbit_w1 busHw .w8 0xbc 7 { s with twdr := b } := rfl
  rw [twi_x.data, M_bind, e, bind_okM, e2, clearbit_w1, M_bind]
  show (rd busHw 0xbc { s with twdr := b }).bind _ = _
  rw [Bus.rd_twcr]; rfl

theorem x_address (b : Byte) (s : Bus) : twi_x.address busHw b s
    = .ok ((), { s with twar := (s.twar &&& ~~~ 0xfe#8) ||| ((b <<< 1) &&& 0xfe#8) }) := by
  have e : reg.twar.twa.write_lazy b = .ok (⟨0xfe#8, b <<< 1, true⟩ : Proxy .w8 0xba) :=
    write_lazy_eq (hi := 7) (lo := 1) rfl (by norm_num) b
  have e2 : twi_x.address busHw b s
      = (pureRes (reg.twar.twa.write_lazy b) >>= fun p => p.destroy busHw : M Bus Unit) s := rfl
  rw [e2, e]; rfl

theorem x_flag (s : Bus) :
    twi_x.flag busHw s = .ok (if s.twcr &&& 0x80#8 ≠ 0 then 1 else 0, s.poll) := by
  have e : twi_x.flag busHw s = getbit busHw .w8 0xbc 7 s := rfl
  rw [e, getbit, M_bind]
  show (rd busHw 0xbc s).bind _ = _
  rw [Bus.rd_twcr]; rfl

theorem x_stat (s : Bus) : twi_x.stat busHw s = .ok ((s.status &&& 0xf8#8) >>> 3, s) := rfl

theorem x_wait {fuel : Nat} {s : Bus} (h : s.busy < fuel) :
    twi_x.wait busHw fuel s = .ok ((), { s with busy := 0 }) := by
  induction fuel generalizing s with
  | zero => omega
  | succ fuel ih =>
    rw [twi_x.wait, M_bind, x_flag, bind_okM]
    by_cases hb : s.busy = 0
    · have e : s.twcr &&& 0x80#8 ≠ 0 := by
        intro hc
        have := congrArg (·.getLsbD 7) hc
        simp [Bus.twcr, hb] at this
      have e2 : s.poll = { s with busy := 0 } := by rw [Bus.poll, show s.busy - 1 = 0 by omega]
      rw [if_pos e, e2]; rfl
    · have e : ¬ s.twcr &&& 0x80#8 ≠ 0 := by
        rw [not_not, Bus.twcr, if_neg hb]
        refine BitVec.eq_of_getLsbD_eq fun i hi => ?_
        interval_cases i <;> simp
      rw [if_neg e]
      exact ih (s := s.poll) (by show s.busy - 1 < fuel; omega)

theorem x_wait_none {fuel : Nat} {s : Bus} (h : fuel ≤ s.busy) :
    twi_x.wait busHw fuel s = .error .outOfFuel := by
  induction fuel generalizing s with
  | zero => rfl
  | succ fuel ih =>
    have hb : s.busy ≠ 0 := by omega
    rw [twi_x.wait, M_bind, x_flag, bind_okM]
    have e : ¬ s.twcr &&& 0x80#8 ≠ 0 := by
      rw [not_not, Bus.twcr, if_neg hb]
      refine BitVec.eq_of_getLsbD_eq fun i hi => ?_
      interval_cases i <;> simp
    rw [if_neg e]
    exact ih (s := s.poll) (by show fuel ≤ s.busy - 1; omega)

namespace Bus

theorem bytes_perform (s : Bus) (e : List TwiEvent) : (s.perform e).events = s.events ++ e := by
  rw [perform]; split <;> rfl

theorem ctrl_perform (s : Bus) (e : List TwiEvent) : (s.perform e).ctrl = s.ctrl := by
  rw [perform]; split <;> rfl

/-- A write of TWCR with TWSTA set sends no byte, and leaves TWSTA set. -/
theorem control_sta (s : Bus) {v : Byte} (h : v.getLsbD 5 = true) :
    (s.control v).bytes = s.bytes ∧ (s.control v).sta = true := by
  rw [control]
  split_ifs
  · constructor
    · rw [bytes, bytes_perform, h, List.filterMap_append]
      have : ∀ t d, List.filterMap TwiEvent.byte? (action true t d) = [] := fun t d => by cases t <;> rfl
      rw [this, List.append_nil]; rfl
    · rw [sta, ctrl_perform]
      show (v &&& 0x65#8).getLsbD 5 = true
      rw [BitVec.getLsbD_and, h]; rfl
  · refine ⟨rfl, ?_⟩
    show (v &&& 0x75#8).getLsbD 5 = true
    rw [BitVec.getLsbD_and, h]; rfl

end Bus
end Mcu
end Verif
