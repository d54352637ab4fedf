import Verif.Model.AvrExamples
import Verif.Spec.Register

/- Specification of the environment of the example programs: conversions that interrupt the main program, pins. -/

namespace Verif
namespace Mcu
namespace Demo

/-- The variables lie in the SRAM and do not overlap. -/
structure Vars.Placed (x : Vars) : Prop where
  sram : 0x100 ≤ x.value ∧ 0x100 ≤ x.value8
  apart : x.value8 ≠ x.value ∧ x.value8 ≠ x.value + 1

/-- Memory, interrupt enable flag, the results of coming conversions (one may complete before each access of the main
program), and the values written to PORTB so far. -/
structure Board where
  mem : Nat → Byte
  ie : Bool
  sched : Nat → Option (BitVec 16)
  log : List Byte

/-- A conversion has completed with result `r`: the interrupt routine runs. -/
def convert (x : Vars) (r : BitVec 16) (m : Nat → Byte) : Nat → Byte :=
  match adcIsr ram x ⟨fun a => if a = ADC then r.extractLsb' 0 8 else if a = ADC + 1 then r.extractLsb' 8 8 else m a, []⟩
  with
  | .ok (_, s) => s.mem
  | .error _ => m

/-- What happens before an access of the main program. -/
def Board.interrupts (x : Vars) (s : Board) : Board :=
  { s with
    mem := if s.ie then (s.sched 0).elim s.mem fun r => convert x r s.mem else s.mem
    sched := fun k => s.sched (k + 1) }

/-- The hardware as seen by the main program. -/
def board (x : Vars) : IrqHw Board where
  read a s := ((s.interrupts x).mem a, s.interrupts x)
  write a v s :=
    { s.interrupts x with
      mem := fun b => if b = a then v else (s.interrupts x).mem b
      log := if a = PORTB then s.log ++ [v] else s.log }
  cli s := { s with ie := false }
  sei s := { s with ie := true }

/-- The variables hold the conversion result `r`. -/
def Holds (x : Vars) (m : Nat → Byte) (r : BitVec 16) : Prop :=
  r < 1024 ∧ m x.value = r.extractLsb' 0 8 ∧ m (x.value + 1) = r.extractLsb' 8 8 ∧
    m x.value8 = (r >>> 2).setWidth 8

/-- A value of PORTB with the LED (bit 5) on or off and the other bits as in `p`. -/
def Led (p : Byte) (on : Bool) (v : Byte) : Prop := v.getLsbD 5 = on ∧ ∀ i, i ≠ 5 → v.getLsbD i = p.getLsbD i

/-- The state between the passes: interrupts are enabled, the variables hold a conversion result and the coming
conversions are of ten bits; all of them satisfy `P`. -/
structure Ready (x : Vars) (P : BitVec 16 → Prop) (s : Board) : Prop where
  ie : s.ie = true
  coming : ∀ k r, s.sched k = some r → r < 1024 ∧ P r
  holds : ∃ r, P r ∧ Holds x s.mem r

/-- `n` passes of the main loop. -/
def polls (x : Vars) : Nat → M Board Unit
  | 0 => pure ()
  | n + 1 => do
    poll (board x) x
    polls x n

/-- Memory of which PIND is an input: reading it yields the next sample. -/
structure Pins where
  mem : Nat → Byte
  input : Nat → Byte
  reads : Nat
  log : List (Nat × Byte)

/-- Access to it. -/
def pins : Hw Pins where
  read a s := if a = PIND then (s.input s.reads, { s with reads := s.reads + 1 }) else (s.mem a, s)
  write a v s := { s with mem := fun b => if b = a then v else s.mem b, log := s.log ++ [(a, v)] }

/-- The triangle wave with period 2046: up from 0 to 1023 and down again. -/
def triangle (t : Nat) : Nat := if t % 2046 < 1023 then t % 2046 else 2046 - t % 2046

/-- The bytes that set the three outputs to the level `i` of 1023: timer 0 has a quarter of the resolution, output B is
the complement of output A.  The high byte of a 16-bit register goes first. -/
def levels (i : Nat) : List (Nat × Byte) :=
  [(OCR0A, .ofNat 8 (i / 4)), (OCR1A + 1, .ofNat 8 (i / 256)), (OCR1A, .ofNat 8 i),
    (OCR1B + 1, .ofNat 8 ((1023 - i) / 256)), (OCR1B, .ofNat 8 (1023 - i))]

/-- From `s` to `s2` the bytes `ws` have been written, apart from those to PORTB, of which only bit 5 may have
changed; nothing but the outputs has changed. -/
structure Drives (s : Pins) (ws : List (Nat × Byte)) (s2 : Pins) : Prop where
  log : ∃ l, s2.log = s.log ++ l ∧ l.filter (fun w => decide (w.1 ≠ PORTB)) = ws
  rest : ∀ i, i ≠ 5 → (s2.mem PORTB).getLsbD i = (s.mem PORTB).getLsbD i
  other : ∀ b, b ∉ [PORTB, OCR0A, OCR1A, OCR1A + 1, OCR1B, OCR1B + 1] → s2.mem b = s.mem b

/-- `n` passes of the loop of the fading program. -/
def fades (f_cpu : Nat) : Nat → M Pins Unit
  | 0 => pure ()
  | n + 1 => do
    fade pins f_cpu
    fades f_cpu n

/-- `n` passes of the loop of the blinking program. -/
def blinks (hw : Hw Chip) : Nat → M Chip Unit
  | 0 => pure ()
  | n + 1 => do
    blink hw
    blinks hw n

end Demo
end Mcu
end Verif
