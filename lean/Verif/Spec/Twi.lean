import Verif.Spec.Atmega
import Verif.Model.AtmegaDrivers

/-
Specification for the field-based two-wire driver: an interface whose control register TWCR keeps the bits written to
it, as the datasheet describes (section 21.9.2).  This is not a model of repository code.
-/

namespace Verif
namespace Mcu

/-- The two-wire interface.  `ctrl`: the control bits of TWCR (TWEA 6, TWSTA 5, TWSTO 4, TWEN 2, TWIE 0); `busy`:
remaining reads of TWCR until TWINT (bit 7) is set; `replies`: the reactions to come (reads, status). -/
structure Bus where
  ctrl : Byte
  twdr : Byte
  twar : Byte
  events : List TwiEvent
  busy : Nat
  status : Byte
  replies : List (Nat × Byte)

/-- The byte of an event. -/
def TwiEvent.byte? : TwiEvent → Option Byte
  | .byte b => some b
  | _ => none

namespace Bus

/-- TWSTA. -/
def sta (s : Bus) : Bool := s.ctrl.getLsbD 5

/-- TWSTO. -/
def sto (s : Bus) : Bool := s.ctrl.getLsbD 4

/-- TWEN. -/
def en (s : Bus) : Bool := s.ctrl.getLsbD 2

/-- The bytes transmitted so far. -/
def bytes (s : Bus) : List Byte := s.events.filterMap TwiEvent.byte?

/-- The action that clearing TWINT begins. -/
def action (sta sto : Bool) (d : Byte) : List TwiEvent :=
  match sta, sto with
  | true, true => [.stop, .start]
  | true, false => [.start]
  | false, true => [.stop]
  | false, false => [.byte d]

/-- The action happens, and the next reaction follows. -/
def perform (s : Bus) (e : List TwiEvent) : Bus :=
  match s.replies with
  | [] => { s with events := s.events ++ e, busy := 0, status := 0xf8 }
  | (n, st) :: rs => { s with events := s.events ++ e, busy := n, status := st, replies := rs }

/-- Writing TWCR: the control bits are kept; if TWINT is written as 1 and the interface is enabled, the action selected
by TWSTA and TWSTO happens, after which the hardware clears TWSTO, but not TWSTA ("TWSTA must be cleared by software
when the START condition has been transmitted"). -/
def control (s : Bus) (v : Byte) : Bus :=
  if v.getLsbD 7 && v.getLsbD 2 then
    { s with ctrl := v &&& 0x65 }.perform (action (v.getLsbD 5) (v.getLsbD 4) s.twdr)
  else { s with ctrl := v &&& 0x75 }

end Bus

/-- The interface as hardware. -/
def busHw : Hw Bus where
  read a s :=
    if a = 0xbc then
      (if s.busy = 0 then (s.ctrl ||| 0x80, s) else (s.ctrl &&& 0x7f, { s with busy := s.busy - 1 }))
    else if a = 0xb9 then (s.status, s)
    else if a = 0xbb then (s.twdr, s)
    else if a = 0xba then (s.twar, s)
    else (0, s)
  write a v s :=
    if a = 0xbc then s.control v
    else if a = 0xbb then { s with twdr := v }
    else if a = 0xba then { s with twar := v }
    else s

/-- The calls of the driver. -/
inductive TwiCall where
  | start
  | stop
  | ack
  | data (b : Byte)
  | address (b : Byte)
  | expect (fuel : Nat) (s : Byte)

open Atmega in
/-- One call. -/
def TwiCall.run : TwiCall → M Bus Unit
  | .start => twi_x.start busHw
  | .stop => twi_x.stop busHw
  | .ack => twi_x.ack busHw
  | .data b => twi_x.data busHw b
  | .address b => twi_x.address busHw b
  | .expect fuel s => do
    let _ ← twi_x.expect busHw fuel s

/-- Calls one after the other. -/
def TwiCall.runAll : List TwiCall → M Bus Unit
  | [] => pure ()
  | c :: cs => do
    c.run
    runAll cs

end Mcu
end Verif
