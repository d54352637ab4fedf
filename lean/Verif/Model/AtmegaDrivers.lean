import Verif.Model.AtmegaRegs
import Verif.Model.Atmega

/-
Model of the functions of include/mcu/atmega328.hpp that get and set a single field, or read and clear an interrupt
flag.  (The functions of timer waveforms and compare forcing are in Model/Atmega.lean.)
-/

namespace Verif
namespace Mcu
namespace Atmega

variable {σ : Type}

deriving instance DecidableEq for Field

/-- A pair of functions `current( x )`, `set( x )`: the field that the first reads (none if it delivers nothing), the
field that the second writes, lazily (`write_lazy`) or not (`write`). -/
structure Setting where
  getter : Option Field
  setter : Field
  lazy : Bool
  deriving DecidableEq

namespace Setting

/-- The statement `set( v );`: a proxy, if any, is destroyed at its end. -/
def set (hw : Hw σ) (t : Setting) (v : BitVec t.setter.w.bits) : M σ Unit :=
  if t.lazy then do
    let p ← pureRes (t.setter.write_lazy v)
    p.destroy hw
  else t.setter.write hw v

/-- The statement `set( v ), set( x );` with two settings: proxies combine (register.hpp:347-380; its static assertions
reject different registers, here an error), a single proxy is destroyed at the end of the statement. -/
def set_set (hw : Hw σ) (t u : Setting) (v : BitVec t.setter.w.bits) (x : BitVec u.setter.w.bits) : M σ Unit :=
  match t.lazy, u.lazy with
  | true, true =>
    if h : u.setter.address = t.setter.address ∧ u.setter.w = t.setter.w ∧ u.setter.io = t.setter.io then do
      let p ← pureRes (t.setter.write_lazy v)
      let q ← pureRes (u.setter.write_lazy x)
      p.statement hw [h.1 ▸ h.2.1 ▸ q]
    else pureRes (.error .assertFail)
  | true, false => do
    let p ← pureRes (t.setter.write_lazy v)
    u.setter.write hw x
    p.destroy hw
  | false, true => do
    t.setter.write hw v
    let q ← pureRes (u.setter.write_lazy x)
    q.destroy hw
  | false, false => do
    t.setter.write hw v
    u.setter.write hw x

end Setting

/-- `mem::eeprom::address` (atmega328.hpp: `current` 210-213; `set` 215-218). -/
def eeprom_address : Setting := ⟨some reg.eear, reg.eear, false⟩

/-- `mem::eeprom::data` (atmega328.hpp: `current` 220-223; `set` 225-228). -/
def eeprom_data : Setting := ⟨some reg.eedr, reg.eedr, false⟩

/-- `mem::eeprom::program::mode` (atmega328.hpp: `current` 240-243; `set` 245-248). -/
def eeprom_program_mode : Setting := ⟨some reg.eecr.eepm, reg.eecr.eepm, true⟩

/-- `mem::eeprom::enable::master_write` (atmega328.hpp: `current` 257-260; `set` 262-265). -/
def eeprom_enable_master_write : Setting := ⟨some reg.eecr.eempe, reg.eecr.eempe, true⟩

/-- `mem::eeprom::enable::write` (atmega328.hpp: `current` 267-270; `set` 272-275). -/
def eeprom_enable_write : Setting := ⟨some reg.eecr.eepe, reg.eecr.eepe, true⟩

/-- `mem::eeprom::enable::read` (atmega328.hpp: `current` 277-280; `set` 282-285). -/
def eeprom_enable_read : Setting := ⟨some reg.eecr.eere, reg.eecr.eere, true⟩

/-- `mem::eeprom::interrupt::on_ready` (atmega328.hpp: `current` 292-295; `set` 297-300). -/
def eeprom_interrupt_on_ready : Setting := ⟨some reg.eecr.eerie, reg.eecr.eerie, true⟩

/-- `ei::eicra::interrupt_sense<eint::int1>` (atmega328.hpp: get 463-468; set 477-482). -/
def interrupt_sense1 : Setting := ⟨some reg.eicra.ics1, reg.eicra.ics1, true⟩

/-- `ei::eicra::interrupt_sense<eint::int0>` (atmega328.hpp: get 469-473; set 483-487). -/
def interrupt_sense0 : Setting := ⟨some reg.eicra.ics0, reg.eicra.ics0, true⟩

/-- `ei::enabled_external_int0, enable_external_int0` (atmega328.hpp: get 496-499; set 506-509). -/
def external_int0 : Setting := ⟨some (reg.eimsk 0), reg.eimsk 0, false⟩

/-- `ei::enabled_external_int1, enable_external_int1` (atmega328.hpp: get 501-504; set 511-514). -/
def external_int1 : Setting := ⟨some (reg.eimsk 1), reg.eimsk 1, false⟩

/-- `ei::enabled_pin_change_int2, enable_pin_change_int2` (atmega328.hpp: get 546-549; set 561-564). -/
def pin_change_int2 : Setting := ⟨some (reg.pcicr 2), reg.pcicr 2, false⟩

/-- `ei::enabled_pin_change_int1, enable_pin_change_int1` (atmega328.hpp: get 551-554; set 566-569). -/
def pin_change_int1 : Setting := ⟨some (reg.pcicr 1), reg.pcicr 1, false⟩

/-- `ei::enabled_pin_change_int0, enable_pin_change_int0` (atmega328.hpp: get 556-559; set 571-574). -/
def pin_change_int0 : Setting := ⟨some (reg.pcicr 0), reg.pcicr 0, false⟩

/-- `ei::pin_change_interrupt_mask2` (atmega328.hpp: get 629-632; set 644-647). -/
def pin_change_mask2 : Setting := ⟨some (reg.pcmsk 2), reg.pcmsk 2, false⟩

/-- `ei::pin_change_interrupt_mask1` (atmega328.hpp: get 634-637; set 649-652). -/
def pin_change_mask1 : Setting := ⟨some (reg.pcmsk 1), reg.pcmsk 1, false⟩

/-- `ei::pin_change_interrupt_mask0` (atmega328.hpp: get 639-642; set 654-657). -/
def pin_change_mask0 : Setting := ⟨some (reg.pcmsk 0), reg.pcmsk 0, false⟩

/-- `tc0::input::clock` (atmega328.hpp: `current` 825-828; `set` 830-833). -/
def tc0_clock : Setting := ⟨some reg.tccr0b.cs0, reg.tccr0b.cs0, true⟩

/-- `tc0::output::a::mode` (atmega328.hpp: `current` 850-853; `set` 855-858). -/
def tc0_output_a : Setting := ⟨some reg.tccr0a.com0a, reg.tccr0a.com0a, true⟩

/-- `tc0::output::b::mode` (atmega328.hpp: `current` 873-876; `set` 878-881). -/
def tc0_output_b : Setting := ⟨some reg.tccr0a.com0b, reg.tccr0a.com0b, true⟩

/-- `tc0::value::timer` (atmega328.hpp: `current` 941-944; `set` 946-949). -/
def tc0_timer : Setting := ⟨some reg.tcnt0.whole, reg.tcnt0.whole, false⟩

/-- `tc0::value::compare::a` (atmega328.hpp: `current` 956-959, which returns nothing; `set` 961-964). -/
def tc0_compare_a : Setting := ⟨none, reg.ocr0a.whole, false⟩

/-- `tc0::value::compare::b` (atmega328.hpp: `current` 966-969, which returns nothing; `set` 971-974). -/
def tc0_compare_b : Setting := ⟨none, reg.ocr0b.whole, false⟩

/-- `tc0::enable::interrupt::on::match_a` (atmega328.hpp: `current` 988-991; `set` 993-996). -/
def tc0_on_match_a : Setting := ⟨some reg.timsk0.ocie0a, reg.timsk0.ocie0a, true⟩

/-- `tc0::enable::interrupt::on::match_b` (atmega328.hpp: `current` 998-1001; `set` 1003-1006). -/
def tc0_on_match_b : Setting := ⟨some reg.timsk0.ocie0b, reg.timsk0.ocie0b, true⟩

/-- `tc0::enable::interrupt::on::overflow` (atmega328.hpp: `current` 1008-1011; `set` 1013-1016). -/
def tc0_on_overflow : Setting := ⟨some reg.timsk0.toie0, reg.timsk0.toie0, true⟩

/-- `tc1::input::clock` (atmega328.hpp: `current` 1227-1230; `set` 1232-1235). -/
def tc1_clock : Setting := ⟨some reg.tccr1b.cs1, reg.tccr1b.cs1, true⟩

/-- `tc1::input::capture::edge` (atmega328.hpp: `current` 1241-1244; `set` 1246-1249). -/
def tc1_capture_edge : Setting := ⟨some reg.tccr1b.ices1, reg.tccr1b.ices1, true⟩

/-- `tc1::output::a::mode` (atmega328.hpp: `current` 1267-1270; `set` 1272-1275). -/
def tc1_output_a : Setting := ⟨some reg.tccr1a.com1a, reg.tccr1a.com1a, true⟩

/-- `tc1::output::b::mode` (atmega328.hpp: `current` 1290-1293; `set` 1295-1298). -/
def tc1_output_b : Setting := ⟨some reg.tccr1a.com1b, reg.tccr1a.com1b, true⟩

/-- `tc1::value::timer` (atmega328.hpp: `current` 1366-1369; `set` 1371-1374). -/
def tc1_timer : Setting := ⟨some reg.tcnt1.whole, reg.tcnt1.whole, false⟩

/-- `tc1::value::compare::a` (atmega328.hpp: `current` 1381-1384, which returns nothing; `set` 1386-1389). -/
def tc1_compare_a : Setting := ⟨none, reg.ocr1a.whole, false⟩

/-- `tc1::value::compare::b` (atmega328.hpp: `current` 1391-1394, which returns nothing; `set` 1396-1399). -/
def tc1_compare_b : Setting := ⟨none, reg.ocr1b.whole, false⟩

/-- `tc1::enable::capture::input_capture_noise_canceler` (atmega328.hpp: get 1408-1411; set 1413-1416). -/
def tc1_noise_canceler : Setting := ⟨some reg.tccr1b.icnc1, reg.tccr1b.icnc1, true⟩

/-- `tc1::enable::interrupt::on::capture` (atmega328.hpp: `current` 1428-1431; `set` 1433-1436). -/
def tc1_on_capture : Setting := ⟨some reg.timsk1.icie1, reg.timsk1.icie1, true⟩

/-- `tc1::enable::interrupt::on::match_a` (atmega328.hpp: `current` 1438-1441; `set` 1443-1446). -/
def tc1_on_match_a : Setting := ⟨some reg.timsk1.ocie1a, reg.timsk1.ocie1a, true⟩

/-- `tc1::enable::interrupt::on::match_b` (atmega328.hpp: `current` 1448-1451; `set` 1453-1456). -/
def tc1_on_match_b : Setting := ⟨some reg.timsk1.ocie1b, reg.timsk1.ocie1b, true⟩

/-- `tc1::enable::interrupt::on::overflow` (atmega328.hpp: `current` 1458-1461; `set` 1463-1466). -/
def tc1_on_overflow : Setting := ⟨some reg.timsk1.toie1, reg.timsk1.toie1, true⟩

/-- `tcp::synchronization` (atmega328.hpp: `current` 1559-1562; `set` 1564-1567). -/
def tcp_synchronization : Setting := ⟨some reg.gtccr.tsm, reg.gtccr.tsm, true⟩

/-- `tcp::reset::prescaler::tc2` (atmega328.hpp: `current` 1576-1579; `set` 1581-1584). -/
def tcp_reset_tc2 : Setting := ⟨some reg.gtccr.psrasy, reg.gtccr.psrasy, true⟩

/-- `tcp::reset::prescaler::tc01` (atmega328.hpp: `current` 1586-1589; `set` 1591-1594). -/
def tcp_reset_tc01 : Setting := ⟨some reg.gtccr.psrsync, reg.gtccr.psrsync, true⟩

/-- `twi::protocol::start` (atmega328.hpp: `current` 1809-1812; `set` 1814-1817, always with 1). -/
def twi_start : Setting := ⟨some reg.twcr.twsta, reg.twcr.twsta, true⟩

/-- `twi::protocol::stop` (atmega328.hpp: `current` 1819-1822; `set` 1824-1827, always with 1). -/
def twi_stop : Setting := ⟨some reg.twcr.twsto, reg.twcr.twsto, true⟩

/-- `twi::protocol::ack` (atmega328.hpp: `current` 1829-1832; `set` 1834-1837, always with 1). -/
def twi_ack : Setting := ⟨some reg.twcr.twea, reg.twcr.twea, true⟩

/-- `twi::protocol::data` (atmega328.hpp: `current` 1849-1852; `set` 1854-1857). -/
def twi_data : Setting := ⟨some reg.twdr, reg.twdr, false⟩

/-- `twi::protocol::address` (atmega328.hpp: `current` 1859-1862; `set` 1864-1867). -/
def twi_address : Setting := ⟨some reg.twar.twa, reg.twar.twa, true⟩

/-- `twi::control::rate` (atmega328.hpp: `current` 1875-1878; `set` 1880-1883). -/
def twi_rate : Setting := ⟨some reg.twbr, reg.twbr, false⟩

/-- `twi::control::prescale::factor` (atmega328.hpp: `current` 1895-1898; `set` 1900-1903). -/
def twi_prescale : Setting := ⟨some reg.twsr.twps, reg.twsr.twps, false⟩

/-- `twi::enable::interface` (atmega328.hpp: `current` 1913-1916; `set` 1918-1921). -/
def twi_interface : Setting := ⟨some reg.twcr.twen, reg.twcr.twen, true⟩

/-- `twi::enable::interrupt` (atmega328.hpp: `current` 1923-1926; `set` 1928-1931). -/
def twi_interrupt : Setting := ⟨some reg.twcr.twie, reg.twcr.twie, true⟩

/-- `twi::enable::general_call` (atmega328.hpp: `current` 1933-1936; `set` 1938-1941). -/
def twi_general_call : Setting := ⟨some reg.twar.twgce, reg.twar.twgce, true⟩

/-- `ac::input::select::bandgap_ref` (atmega328.hpp: `current` 2147-2150; `set` 2152-2155). -/
def ac_bandgap : Setting := ⟨some reg.acsr.acbg, reg.acsr.acbg, true⟩

/-- `ac::output::interrupt::on` (atmega328.hpp: `current` 2180-2183; `set` 2185-2188). -/
def ac_interrupt_on : Setting := ⟨some reg.acsr.acis, reg.acsr.acis, true⟩

/-- `ac::enable::interrupt` (atmega328.hpp: `current` 2196-2199; `set` 2201-2204). -/
def ac_interrupt : Setting := ⟨some reg.acsr.acie, reg.acsr.acie, true⟩

/-- `ac::enable::input::capture` (atmega328.hpp: `current` 2210-2213; `set` 2215-2218). -/
def ac_capture : Setting := ⟨some reg.acsr.acic, reg.acsr.acic, true⟩

/-- `ac::disable::analog::comparator` (atmega328.hpp: `current` 2228-2231; `set` 2233-2236). -/
def ac_disable : Setting := ⟨some reg.acsr.acd, reg.acsr.acd, true⟩

/-- `adc::conversion::start` (atmega328.hpp: set 2361-2364, always with 1). -/
def adc_start : Setting := ⟨none, reg.adcsra.adsc, true⟩

/-- `adc::conversion::adjustment` (atmega328.hpp: `current` 2381-2384; `set` 2386-2389). -/
def adc_adjustment : Setting := ⟨some reg.admux.adlar, reg.admux.adlar, true⟩

/-- `adc::input::reference` (atmega328.hpp: `current` 2426-2429; `set` 2431-2434). -/
def adc_reference : Setting := ⟨some reg.admux.refs, reg.admux.refs, true⟩

/-- `adc::input::channel` (atmega328.hpp: `current` 2436-2439; `set` 2441-2444). -/
def adc_channel : Setting := ⟨some reg.admux.mux, reg.admux.mux, true⟩

/-- `adc::enable::adc` (atmega328.hpp: `current` 2454-2457; `set` 2459-2462). -/
def adc_enable : Setting := ⟨some reg.adcsra.aden, reg.adcsra.aden, true⟩

/-- `adc::enable::interrupt` (atmega328.hpp: `current` 2464-2467; `set` 2469-2472). -/
def adc_interrupt : Setting := ⟨some reg.adcsra.adie, reg.adcsra.adie, true⟩

/-- `adc::enable::auto_trigger` (atmega328.hpp: `current` 2474-2477; `set` 2479-2482). -/
def adc_auto_trigger : Setting := ⟨some reg.adcsra.adate, reg.adcsra.adate, true⟩

/-- `adc::enable::comparator` (atmega328.hpp: `current` 2484-2487; `set` 2489-2492). -/
def adc_comparator : Setting := ⟨some reg.adcsrb.acme, reg.adcsrb.acme, true⟩

/-- `adc::trigger::on` (atmega328.hpp: `current` 2526-2529; `set` 2531-2534). -/
def adc_trigger_on : Setting := ⟨some reg.adcsrb.adts, reg.adcsrb.adts, true⟩

/-- `adc::prescale::factor` (atmega328.hpp: `current` 2553-2556; `set` 2558-2561). -/
def adc_prescale : Setting := ⟨some reg.adcsra.adps, reg.adcsra.adps, true⟩

/-! ### Interrupt flags -/

/-- `ei::external_int0_flag, clear_external_int0_flag` (atmega328.hpp:521-524, 531-534). -/
def external_int0_flag : Field := eifr 0

/-- `ei::external_int1_flag, clear_external_int1_flag` (atmega328.hpp:526-529, 536-539). -/
def external_int1_flag : Field := eifr 1

/-- `tc0::interrupt::compare::flag::a` (atmega328.hpp:1030-1038). -/
def tc0_match_a_flag : Field := reg.tifr0.ocf0a

/-- `tc0::interrupt::compare::flag::b` (atmega328.hpp:1040-1048). -/
def tc0_match_b_flag : Field := reg.tifr0.ocf0b

/-- `tc0::interrupt::overflow::flag` (atmega328.hpp:1056-1064). -/
def tc0_overflow_flag : Field := reg.tifr0.tov0

/-- `tc1::interrupt::capture::flag` (atmega328.hpp:1477-1485). -/
def tc1_capture_flag : Field := reg.tifr1.icf1

/-- `tc1::interrupt::compare::flag::a` (atmega328.hpp:1495-1503). -/
def tc1_match_a_flag : Field := reg.tifr1.ocf1a

/-- `tc1::interrupt::compare::flag::b` (atmega328.hpp:1505-1513). -/
def tc1_match_b_flag : Field := reg.tifr1.ocf1b

/-- `tc1::interrupt::overflow::flag` (atmega328.hpp:1521-1529). -/
def tc1_overflow_flag : Field := reg.tifr1.tov1

/-- `ac::interrupt::flag` (atmega328.hpp:2244-2252). -/
def ac_flag : Field := reg.acsr.aci

/-- `adc::interrupt::flag` (atmega328.hpp:2499-2507). -/
def adc_flag : Field := reg.adcsra.adif

/-- `current( flag )`: `0 != read()` (as listed; for the external interrupts the value itself, which the caller
converts). -/
def current_flag (hw : Hw σ) (f : Field) : M σ Bool := do
  let v ← f.read hw
  pure (v != 0)

/-- `clear( flag )`. -/
def clear_flag (hw : Hw σ) (f : Field) : M σ Unit := f.clear hw

/-! ### Results -/

/-- `twi::protocol::current( status )` (atmega328.hpp:1804-1807). -/
def twi_status (hw : Hw σ) : M σ Byte := reg.twsr.tws.read hw

/-- `ac::output::current( state )` (atmega328.hpp:2163-2166). -/
def ac_state (hw : Hw σ) : M σ Byte := reg.acsr.aco.read hw

/-- `adc::conversion::result()` (atmega328.hpp:2366-2369). -/
def adc_result (hw : Hw σ) : M σ (BitVec 16) := reg.adc.adchl.read hw

/-- `adc::conversion::lsb()` (atmega328.hpp:2371-2374). -/
def adc_lsb (hw : Hw σ) : M σ Byte := reg.adc.adcl.read hw

/-- `adc::conversion::msb()` (atmega328.hpp:2376-2379). -/
def adc_msb (hw : Hw σ) : M σ Byte := reg.adc.adch.read hw

/-! ### Two-wire interface by fields -/

namespace twi_x

/-- `detail_x::init( bitrate, prescale )` (atmega328.hpp:1973-1984). -/
def init (hw : Hw σ) (bitrate prescale : Byte) : M σ Unit := do
  twi_rate.set hw bitrate
  twi_prescale.set hw prescale
  twi_interface.set hw 1#8
  (inp 1 4).set hw
  (inp 1 5).set hw

/-- `detail_x::flag()` (atmega328.hpp:1986; 1948-1951). -/
def flag (hw : Hw σ) : M σ Byte := reg.twcr.twint.read hw

/-- `detail_x::stat()` (atmega328.hpp:1987). -/
def stat (hw : Hw σ) : M σ Byte := twi_status hw

/-- `detail_x::start()` (atmega328.hpp:1989): `set( flag{} ), set( start{} );` (1953-1956, 1814-1817). -/
def start (hw : Hw σ) : M σ Unit := do
  let p ← pureRes (reg.twcr.twint.write_lazy 1#8)
  let q ← pureRes (reg.twcr.twsta.write_lazy 1#8)
  p.statement hw [q]

/-- `detail_x::stop()` (atmega328.hpp:1990). -/
def stop (hw : Hw σ) : M σ Unit := twi_stop.set hw 1#8

/-- `detail_x::ack()` (atmega328.hpp:1991). -/
def ack (hw : Hw σ) : M σ Unit := twi_ack.set hw 1#8

/-- `detail_x::data( byte )` (atmega328.hpp:1993; 1854-1857, 1958-1961). -/
def data (hw : Hw σ) (byte : Byte) : M σ Unit := do
  twi_data.set hw byte
  reg.twcr.twintc.clear hw

/-- `detail_x::address( byte )` (atmega328.hpp:1994). -/
def address (hw : Hw σ) (byte : Byte) : M σ Unit := twi_address.set hw byte

/-- `while ( ! flag() ) ;` (atmega328.hpp:2000-2001).  Simplification: at most `fuel` iterations. -/
def wait (hw : Hw σ) : Nat → M σ Unit
  | 0 => pureRes (.error .outOfFuel)
  | fuel + 1 => do
    let f ← flag hw
    if f != 0 then pure () else wait hw fuel

/-- `detail_x::expect( s )` (atmega328.hpp:1998-2004). -/
def expect (hw : Hw σ) (fuel : Nat) (s : Byte) : M σ Bool := do
  wait hw fuel
  let v ← stat hw
  pure (v != s)

end twi_x

end Atmega
end Mcu
end Verif
