import Verif.Model.AtmegaDrivers

/-
Model of the enumerations of include/mcu/atmega328.hpp.
-/

namespace Verif
namespace Mcu
namespace Atmega
namespace enum

/-- The identifiers that occur as enumerators. -/
inductive Id where
  | off | on | erase_write | erase_only | write_only | reserved3 | low | change | falling_edge | rising_edge
  | none | x1 | x8 | x64 | x256 | x1024 | ext1_falling_adge | ext1_rising_adge | toggle | clear | set | normal
  | pwm_phase_correct | ctc_ocr0a | ctc | fast_pwm | reserved4 | pwm_phase_correct_ocr0a | reserved6
  | fast_pwm_ocr0a | falling | rising | pwm_phase_correct_8bit | pwm_phase_correct_9bit | pwm_phase_correct_10bit
  | ctc_ocr1a | fast_pwm_phase_correct_8bit | fast_pwm_phase_correct_9bit | fast_pwm_phase_correct_10bit
  | pwm_phase_frequency_correct_icr1 | pwm_phase_frequency_correct_ocr1a | pwm_phase_correct_icr1
  | pwm_phase_correct_ocr1a | ctc_icr1 | reserved13 | fast_pwm_icr1 | fast_pwm_ocr1a | S_transmitted
  | RS_transmitted | SLAW_transmitted_ACK | SLAW_transmitted_NACK | Data_transmitted_ACK | Data_transmitted_NACK
  | Arbitration_lost | x4 | x16 | reserved1 | right | left | aref | avcc | reserved | intern_1v1 | ch0 | ch1 | ch2
  | ch3 | ch4 | ch5 | ch6 | ch7 | ch8 | reserved9 | reserved10 | reserved11 | reserved12 | internal_1v1 | gnd
  | free_run | ac | ei0 | tc0_match_a | tc0_overflow | tc1_match_b | tc1_overflow | tc1_capture_event | x02 | x2
  | x32 | x128
  deriving DecidableEq

/-- The values of enumerators (C++ [dcl.enum]/2): the value given, or one more than the previous, beginning with 0. -/
def values (next : Nat) : List (Id × Option Nat) → List (Id × Nat)
  | [] => []
  | (n, some v) :: r => (n, v) :: values (v + 1) r
  | (n, none) :: r => (n, next) :: values (next + 1) r

/-- `enum class …: uint8_t { off, on }`, the same wherever a setting is switched on or off (atmega328.hpp:e.g. 253). -/
def onOff : List (Id × Option Nat) := [
  (.off, none), (.on, none)]

/-- `mem::eeprom::program::mode` (atmega328.hpp:232-238). -/
def eeprom_mode : List (Id × Option Nat) := [
  (.erase_write, some 0), (.erase_only, none), (.write_only, none), (.reserved3, none)]

/-- `ei::sense` (atmega328.hpp:444-450). -/
def sense : List (Id × Option Nat) := [
  (.low, some 0), (.change, none), (.falling_edge, none), (.rising_edge, none)]

/-- `tc0::input::clock` (atmega328.hpp:813-823). -/
def tc0_clock : List (Id × Option Nat) := [
  (.none, some 0), (.x1, none), (.x8, none), (.x64, none), (.x256, none), (.x1024, none),
  (.ext1_falling_adge, none), (.ext1_rising_adge, none)]

/-- `tc0::output::a::mode` (atmega328.hpp:842-848). -/
def tc0_mode_a : List (Id × Option Nat) := [
  (.none, some 0), (.toggle, none), (.clear, none), (.set, none)]

/-- `tc0::output::b::mode` (atmega328.hpp:865-871). -/
def tc0_mode_b : List (Id × Option Nat) := [
  (.none, some 0), (.toggle, none), (.clear, none), (.set, none)]

/-- `tc0::waveform` (atmega328.hpp:886-896). -/
def tc0_waveform : List (Id × Option Nat) := [
  (.normal, some 0), (.pwm_phase_correct, some 1), (.ctc_ocr0a, some 2), (.ctc, some 2), (.fast_pwm, some 3),
  (.reserved4, some 4), (.pwm_phase_correct_ocr0a, some 5), (.reserved6, some 6), (.fast_pwm_ocr0a, some 7)]

/-- `tc1::input::clock` (atmega328.hpp:1215-1225). -/
def tc1_clock : List (Id × Option Nat) := [
  (.none, some 0), (.x1, none), (.x8, none), (.x64, none), (.x256, none), (.x1024, none),
  (.ext1_falling_adge, none), (.ext1_rising_adge, none)]

/-- `tc1::input::capture::edge` (atmega328.hpp:1239). -/
def tc1_edge : List (Id × Option Nat) := [
  (.falling, none), (.rising, none)]

/-- `tc1::output::a::mode` (atmega328.hpp:1259-1265). -/
def tc1_mode_a : List (Id × Option Nat) := [
  (.none, some 0), (.toggle, none), (.clear, none), (.set, none)]

/-- `tc1::output::b::mode` (atmega328.hpp:1282-1288). -/
def tc1_mode_b : List (Id × Option Nat) := [
  (.none, some 0), (.toggle, none), (.clear, none), (.set, none)]

/-- `tc1::waveform` (atmega328.hpp:1303-1321). -/
def tc1_waveform : List (Id × Option Nat) := [
  (.normal, some 0), (.pwm_phase_correct_8bit, some 1), (.pwm_phase_correct_9bit, some 2),
  (.pwm_phase_correct_10bit, some 3), (.ctc_ocr1a, some 4), (.fast_pwm_phase_correct_8bit, some 5),
  (.fast_pwm_phase_correct_9bit, some 6), (.fast_pwm_phase_correct_10bit, some 7),
  (.pwm_phase_frequency_correct_icr1, some 8), (.pwm_phase_frequency_correct_ocr1a, some 9),
  (.pwm_phase_correct_icr1, some 10), (.pwm_phase_correct_ocr1a, some 11), (.ctc_icr1, some 12),
  (.reserved13, some 13), (.fast_pwm_icr1, some 14), (.fast_pwm_ocr1a, some 15)]

/-- `twi::protocol::status` (atmega328.hpp:1793-1802). -/
def twi_status : List (Id × Option Nat) := [
  (.S_transmitted, some 1), (.RS_transmitted, some 2), (.SLAW_transmitted_ACK, some 3),
  (.SLAW_transmitted_NACK, some 4), (.Data_transmitted_ACK, some 5), (.Data_transmitted_NACK, some 6),
  (.Arbitration_lost, some 7)]

/-- `twi::control::prescale::factor` (atmega328.hpp:1887-1893). -/
def twi_factor : List (Id × Option Nat) := [
  (.x1, some 0), (.x4, none), (.x16, none), (.x64, none)]

/-- `ac::output::interrupt::on` (atmega328.hpp:2172-2178). -/
def ac_on : List (Id × Option Nat) := [
  (.toggle, some 0), (.reserved1, none), (.falling_edge, none), (.rising_edge, none)]

/-- `adc::conversion::adjustment` (atmega328.hpp:2355-2359). -/
def adc_adjustment : List (Id × Option Nat) := [
  (.right, some 0), (.left, none)]

/-- `adc::input::reference` (atmega328.hpp:2396-2402). -/
def adc_reference : List (Id × Option Nat) := [
  (.aref, some 0), (.avcc, none), (.reserved, none), (.intern_1v1, none)]

/-- `adc::input::channel` (atmega328.hpp:2406-2424). -/
def adc_channel : List (Id × Option Nat) := [
  (.ch0, some 0), (.ch1, none), (.ch2, none), (.ch3, none), (.ch4, none), (.ch5, none), (.ch6, none),
  (.ch7, none), (.ch8, none), (.reserved9, none), (.reserved10, none), (.reserved11, none), (.reserved12, none),
  (.reserved13, none), (.internal_1v1, none), (.gnd, none)]

/-- `adc::trigger::on` (atmega328.hpp:2514-2524). -/
def adc_on : List (Id × Option Nat) := [
  (.free_run, some 0), (.ac, none), (.ei0, none), (.tc0_match_a, none), (.tc0_overflow, none),
  (.tc1_match_b, none), (.tc1_overflow, none), (.tc1_capture_event, none)]

/-- `adc::prescale::factor` (atmega328.hpp:2541-2551). -/
def adc_factor : List (Id × Option Nat) := [
  (.x02, some 0), (.x2, none), (.x4, none), (.x8, none), (.x16, none), (.x32, none), (.x64, none), (.x128, none)]

end enum
end Atmega
end Mcu
end Verif
