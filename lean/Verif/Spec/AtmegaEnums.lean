import Verif.Spec.AtmegaNames
import Verif.Model.AtmegaEnums

/-
Specification of the codes of the ATmega328: what the bits of a field select (datasheet DS40002061A), and what the names
of the enumerators say.
-/

namespace Verif
namespace Mcu
namespace Datasheet

/-- What a field selects. -/
inductive Meaning where
  | off | on | reserved
  /-- clocks: stopped, the system clock divided, the edge of an input pin -/
  | stopped | divided (n : Nat) | pinEdge (rising : Bool)
  /-- events: low level, any change, an edge -/
  | lowLevel | anyChange | edge (rising : Bool)
  /-- compare output: not connected, toggle, clear, set on match -/
  | disconnected | toggleOnMatch | clearOnMatch | setOnMatch
  /-- EEPROM programming -/
  | eraseAndWrite | eraseOnly | writeOnly
  /-- ADC: adjustment of the result, reference, input, trigger -/
  | adjusted (left : Bool) | refAref | refAvcc | ref1v1
  | channel (n : Nat) | temperature | input1v1 | ground
  | freeRunning | comparator | extInt0 | tc0MatchA | tc0Overflow | tc1MatchB | tc1Overflow | tc1Capture
  deriving DecidableEq

open Meaning

/-- Interrupt enable bits and the like. -/
def switch : Nat → Option Meaning
  | 0 => off | 1 => on | _ => none

/-- Table 12-1, EEPM1:0. -/
def eepm : Nat → Option Meaning
  | 0 => eraseAndWrite | 1 => eraseOnly | 2 => writeOnly | 3 => reserved | _ => none

/-- Tables 17-1 and 17-2, ISCn1:0. -/
def isc : Nat → Option Meaning
  | 0 => lowLevel | 1 => anyChange | 2 => edge false | 3 => edge true | _ => none

/-- Tables 19-10 and 20-7, CSn2:0. -/
def cs : Nat → Option Meaning
  | 0 => stopped | 1 => divided 1 | 2 => divided 8 | 3 => divided 64 | 4 => divided 256 | 5 => divided 1024
  | 6 => pinEdge false | 7 => pinEdge true | _ => none

/-- Tables 19-3, 19-6 and 20-3, COMnx1:0 in non-PWM mode. -/
def com : Nat → Option Meaning
  | 0 => disconnected | 1 => toggleOnMatch | 2 => clearOnMatch | 3 => setOnMatch | _ => none

/-- 20.14.2, ICES1. -/
def ices : Nat → Option Meaning
  | 0 => edge false | 1 => edge true | _ => none

/-- Table 26-8, TWPS1:0. -/
def twps : Nat → Option Meaning
  | 0 => divided 1 | 1 => divided 4 | 2 => divided 16 | 3 => divided 64 | _ => none

/-- Table 27-2, ACIS1:0. -/
def acis : Nat → Option Meaning
  | 0 => anyChange | 1 => reserved | 2 => edge false | 3 => edge true | _ => none

/-- 28.9.1, ADLAR. -/
def adlar : Nat → Option Meaning
  | 0 => adjusted false | 1 => adjusted true | _ => none

/-- Table 28-3, REFS1:0. -/
def refs : Nat → Option Meaning
  | 0 => refAref | 1 => refAvcc | 2 => reserved | 3 => ref1v1 | _ => none

/-- Table 28-4, MUX3:0. -/
def mux (n : Nat) : Option Meaning :=
  if n < 8 then channel n else if n = 8 then temperature else if n < 14 then reserved
  else if n = 14 then input1v1 else if n = 15 then ground else none

/-- Table 28-6, ADTS2:0. -/
def adts : Nat → Option Meaning
  | 0 => freeRunning | 1 => comparator | 2 => extInt0 | 3 => tc0MatchA | 4 => tc0Overflow | 5 => tc1MatchB
  | 6 => tc1Overflow | 7 => tc1Capture | _ => none

/-- Table 28-5, ADPS2:0. -/
def adps (n : Nat) : Option Meaning :=
  if n = 0 then divided 2 else if n < 8 then divided (2 ^ n) else none

/-- Kinds of waveform of a timer. -/
inductive Waveform where
  | normal | phaseCorrect | phaseFrequencyCorrect | ctc | fast
  deriving DecidableEq

/-- The value at which a timer wraps or turns: fixed, or in a register. -/
inductive Top where
  | value (n : Nat) | ocra | icr
  deriving DecidableEq

/-- Table 19-9, WGM02:0. -/
def wgm0 : Nat → Option (Waveform × Top)
  | 0 => some (.normal, .value 0xff) | 1 => some (.phaseCorrect, .value 0xff) | 2 => some (.ctc, .ocra) | 3 => some (.fast, .value 0xff)
  | 5 => some (.phaseCorrect, .ocra) | 7 => some (.fast, .ocra) | _ => none

/-- Table 20-6, WGM13:0. -/
def wgm1 : Nat → Option (Waveform × Top)
  | 0 => some (.normal, .value 0xffff)
  | 1 => some (.phaseCorrect, .value 0xff) | 2 => some (.phaseCorrect, .value 0x1ff) | 3 => some (.phaseCorrect, .value 0x3ff)
  | 4 => some (.ctc, .ocra)
  | 5 => some (.fast, .value 0xff) | 6 => some (.fast, .value 0x1ff) | 7 => some (.fast, .value 0x3ff)
  | 8 => some (.phaseFrequencyCorrect, .icr) | 9 => some (.phaseFrequencyCorrect, .ocra)
  | 10 => some (.phaseCorrect, .icr) | 11 => some (.phaseCorrect, .ocra) | 12 => some (.ctc, .icr)
  | 14 => some (.fast, .icr) | 15 => some (.fast, .ocra) | _ => none

/-- States of the bus in master transmitter mode. -/
inductive BusState where
  | start | repeatedStart | addressAck | addressNack | dataAck | dataNack | arbitrationLost
  deriving DecidableEq

/-- Table 26-3, status codes (TWSR with the prescaler bits zero). -/
def twsr : Nat → Option BusState
  | 0x08 => BusState.start | 0x10 => BusState.repeatedStart | 0x18 => BusState.addressAck | 0x20 => BusState.addressNack
  | 0x28 => BusState.dataAck | 0x30 => BusState.dataNack | 0x38 => BusState.arbitrationLost | _ => none

/-- The number in the given bits, highest first. -/
def numeral (m : Nat → Byte) (bs : List Bit) : Nat :=
  bs.foldl (fun n b => 2 * n + (match pos b with
    | some (a, i) => ((m a).getLsbD i).toNat
    | none => 0)) 0

end Datasheet

namespace Atmega
open Datasheet Datasheet.Bit Datasheet.Meaning enum.Id

/-- What the enumerators say. -/
def says : enum.Id → Option Meaning
  | .off => Meaning.off | .on => Meaning.on
  | erase_write => eraseAndWrite | erase_only => eraseOnly | write_only => writeOnly
  | low => lowLevel | change => anyChange | falling_edge => edge false | rising_edge => edge true
  | x1 => divided 1 | x2 => divided 2 | x02 => divided 2 | x4 => divided 4 | x8 => divided 8 | x16 => divided 16
  | x32 => divided 32 | x64 => divided 64 | x128 => divided 128 | x256 => divided 256 | x1024 => divided 1024
  | ext1_falling_adge => pinEdge false | ext1_rising_adge => pinEdge true
  | falling => edge false | rising => edge true
  | .toggle => toggleOnMatch | clear => clearOnMatch | .set => setOnMatch
  | right => adjusted false | left => adjusted true
  | aref => refAref | avcc => refAvcc | intern_1v1 => ref1v1
  | ch0 => channel 0 | ch1 => channel 1 | ch2 => channel 2 | ch3 => channel 3 | ch4 => channel 4 | ch5 => channel 5
  | ch6 => channel 6 | ch7 => channel 7 | ch8 => temperature | internal_1v1 => input1v1 | gnd => ground
  | free_run => freeRunning | ac => comparator | ei0 => extInt0 | tc0_match_a => tc0MatchA
  | tc0_overflow => tc0Overflow | tc1_match_b => tc1MatchB | tc1_overflow => tc1Overflow
  | tc1_capture_event => tc1Capture
  | .reserved | reserved1 | reserved3 | reserved4 | reserved6 | reserved9 | reserved10 | reserved11 | reserved12
  | reserved13 => Meaning.reserved
  | _ => .none

/-- For clocks, `none` says that the timer is stopped. -/
def saysClock (n : enum.Id) : Option Meaning := if n = .none then some stopped else says n

/-- For outputs, `none` says that the pin is not connected. -/
def saysOutput (n : enum.Id) : Option Meaning := if n = .none then some disconnected else says n

/-- For events, `toggle` says any change. -/
def saysEvent (n : enum.Id) : Option Meaning := if n = .toggle then some anyChange else says n

/-- The functions that set a field, its bits, the enumeration of the parameter, what the bits select, and what the
enumerators say. -/
def enumerated : List (Setting × List Bit × List (enum.Id × Option Nat) × (Nat → Option Meaning) ×
    (enum.Id → Option Meaning)) := [
  (eeprom_program_mode, [EEPM1, EEPM0], enum.eeprom_mode, eepm, says),
  (eeprom_enable_master_write, [EEMPE], enum.onOff, switch, says),
  (eeprom_enable_write, [EEPE], enum.onOff, switch, says),
  (eeprom_enable_read, [EERE], enum.onOff, switch, says),
  (eeprom_interrupt_on_ready, [EERIE], enum.onOff, switch, says),
  (interrupt_sense0, [ISC01, ISC00], enum.sense, isc, says),
  (interrupt_sense1, [ISC11, ISC10], enum.sense, isc, says),
  (tc0_clock, [CS02, CS01, CS00], enum.tc0_clock, cs, saysClock),
  (tc0_output_a, [COM0A1, COM0A0], enum.tc0_mode_a, com, saysOutput),
  (tc0_output_b, [COM0B1, COM0B0], enum.tc0_mode_b, com, saysOutput),
  (tc0_on_match_a, [OCIE0A], enum.onOff, switch, says), (tc0_on_match_b, [OCIE0B], enum.onOff, switch, says),
  (tc0_on_overflow, [TOIE0], enum.onOff, switch, says),
  (tc1_clock, [CS12, CS11, CS10], enum.tc1_clock, cs, saysClock),
  (tc1_capture_edge, [ICES1], enum.tc1_edge, ices, says),
  (tc1_output_a, [COM1A1, COM1A0], enum.tc1_mode_a, com, saysOutput),
  (tc1_output_b, [COM1B1, COM1B0], enum.tc1_mode_b, com, saysOutput),
  (tc1_on_capture, [ICIE1], enum.onOff, switch, says), (tc1_on_match_a, [OCIE1A], enum.onOff, switch, says),
  (tc1_on_match_b, [OCIE1B], enum.onOff, switch, says), (tc1_on_overflow, [TOIE1], enum.onOff, switch, says),
  (tcp_synchronization, [TSM], enum.onOff, switch, says), (tcp_reset_tc2, [PSRASY], enum.onOff, switch, says),
  (tcp_reset_tc01, [PSRSYNC], enum.onOff, switch, says),
  (twi_prescale, [TWPS1, TWPS0], enum.twi_factor, twps, says), (twi_interface, [TWEN], enum.onOff, switch, says),
  (twi_interrupt, [TWIE], enum.onOff, switch, says), (twi_general_call, [TWGCE], enum.onOff, switch, says),
  (ac_bandgap, [ACBG], enum.onOff, switch, says),
  (ac_interrupt_on, [ACIS1, ACIS0], enum.ac_on, acis, saysEvent),
  (ac_interrupt, [ACIE], enum.onOff, switch, says), (ac_capture, [ACIC], enum.onOff, switch, says),
  (ac_disable, [ACD], enum.onOff, switch, says),
  (adc_adjustment, [ADLAR], enum.adc_adjustment, adlar, says),
  (adc_reference, [REFS1, REFS0], enum.adc_reference, refs, says),
  (adc_channel, [MUX3, MUX2, MUX1, MUX0], enum.adc_channel, mux, says),
  (adc_enable, [ADEN], enum.onOff, switch, says), (adc_interrupt, [ADIE], enum.onOff, switch, says),
  (adc_auto_trigger, [ADATE], enum.onOff, switch, says), (adc_comparator, [ACME], enum.onOff, switch, says),
  (adc_trigger_on, [ADTS2, ADTS1, ADTS0], enum.adc_on, adts, says),
  (adc_prescale, [ADPS2, ADPS1, ADPS0], enum.adc_factor, adps, says)]

/-- What the waveforms of timer 0 say. -/
def says0 : enum.Id → Option (Waveform × Top)
  | normal => some (.normal, .value 0xff) | pwm_phase_correct => some (.phaseCorrect, .value 0xff)
  | ctc_ocr0a => some (.ctc, .ocra) | ctc => some (.ctc, .ocra) | fast_pwm => some (.fast, .value 0xff)
  | pwm_phase_correct_ocr0a => some (.phaseCorrect, .ocra) | fast_pwm_ocr0a => some (.fast, .ocra) | _ => .none

/-- What the waveforms of timer 1 say.  (`fast_pwm_phase_correct_…bit` are taken as fast PWM, which is not phase
correct.) -/
def says1 : enum.Id → Option (Waveform × Top)
  | normal => some (.normal, .value 0xffff) | pwm_phase_correct_8bit => some (.phaseCorrect, .value 0xff)
  | pwm_phase_correct_9bit => some (.phaseCorrect, .value 0x1ff)
  | pwm_phase_correct_10bit => some (.phaseCorrect, .value 0x3ff)
  | ctc_ocr1a => some (.ctc, .ocra) | fast_pwm_phase_correct_8bit => some (.fast, .value 0xff)
  | fast_pwm_phase_correct_9bit => some (.fast, .value 0x1ff) | fast_pwm_phase_correct_10bit => some (.fast, .value 0x3ff)
  | pwm_phase_frequency_correct_icr1 => some (.phaseFrequencyCorrect, .icr)
  | pwm_phase_frequency_correct_ocr1a => some (.phaseFrequencyCorrect, .ocra)
  | pwm_phase_correct_icr1 => some (.phaseCorrect, .icr) | pwm_phase_correct_ocr1a => some (.phaseCorrect, .ocra)
  | ctc_icr1 => some (.ctc, .icr) | fast_pwm_icr1 => some (.fast, .icr) | fast_pwm_ocr1a => some (.fast, .ocra) | _ => .none

/-- What the states of the bus say. -/
def saysBus : enum.Id → Option BusState
  | S_transmitted => BusState.start | RS_transmitted => BusState.repeatedStart
  | SLAW_transmitted_ACK => BusState.addressAck | SLAW_transmitted_NACK => BusState.addressNack
  | Data_transmitted_ACK => BusState.dataAck | Data_transmitted_NACK => BusState.dataNack
  | Arbitration_lost => BusState.arbitrationLost | _ => .none

end Atmega
end Mcu
end Verif
