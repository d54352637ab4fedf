import Verif.Spec.Register
import Verif.Model.Atmega

/- Specification of the ATmega328 hardware that the drivers use. -/

namespace Verif
namespace Mcu

/-! ### Two-wire interface -/

/-- What happens on the two-wire bus. -/
inductive TwiEvent where
  | start
  | byte (b : Byte)
  | stop
deriving DecidableEq

/-- The two-wire interface: data register, events so far, remaining polls until the interrupt flag is set, status, and
the reactions to come (polls, status). -/
structure Twi where
  twdr : Byte
  events : List TwiEvent
  busy : Nat
  status : Byte
  replies : List (Nat × Byte)

/-- Writing TWCR (0xbc) with TWINT (bit 7) set performs the action selected by TWSTA (bit 5), TWSTO (bit 4); then the
flag TWINT is 0 for some polls, after which TWSR (0xb9) holds the status of the reaction. -/
def Twi.act (s : Twi) (v : Byte) : Twi :=
  if v.getLsbD 7 && v.getLsbD 2 then
    let e := if v.getLsbD 5 then .start else if v.getLsbD 4 then .stop else .byte s.twdr
    match s.replies with
    | [] => { s with events := s.events ++ [e], busy := 0, status := 0xf8 }
    | (n, st) :: rs => { s with events := s.events ++ [e], busy := n, status := st, replies := rs }
  else s

/-- The interface as hardware. -/
def twiHw : Hw Twi where
  read a s :=
    if a = 0xbc then (if s.busy = 0 then (0x84, s) else (0x04, { s with busy := s.busy - 1 }))
    else if a = 0xb9 then (s.status, s)
    else if a = 0xbb then (s.twdr, s)
    else (0, s)
  write a v s :=
    if a = 0xbc then s.act v
    else if a = 0xbb then { s with twdr := v }
    else s

/-! ### Port pins -/

/-- A port: output latch (pull-ups of inputs), and the levels that the pins will show at each access. -/
structure Port where
  latch : Byte
  time : Nat
  level : Nat → Byte

/-- The port C of an ATmega328: writing ones to PINC (0x26) toggles the corresponding bits of PORTC (0x28). -/
def portHw : Hw Port where
  read a s :=
    if a = 0x26 then (s.level s.time, { s with time := s.time + 1 })
    else if a = 0x28 then (s.latch, s)
    else (0, s)
  write a v s :=
    if a = 0x26 then { s with latch := s.latch ^^^ v }
    else if a = 0x28 then { s with latch := v }
    else s

end Mcu
end Verif
