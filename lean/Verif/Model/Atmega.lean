import Verif.Model.Register

/-
Model of include/mcu/atmega328.hpp: registers and drivers of the ATmega328.  Bit positions are those of avr/io.h.
An `enum class` value is its underlying integer (`to_integral`, atmega328.hpp:33-37).
-/

namespace Verif
namespace Mcu
namespace Atmega

variable {σ : Type}

/-! ### 11. CPU core -/

/-- `core::sreg::whole` (atmega328.hpp:66). -/
abbrev sreg : Field := register8 .rw 0x5f

/-- `{ core::scoped_sreg _; body }` (atmega328.hpp:87-93). -/
def scoped_sreg {α : Type} (hw : Hw σ) (body : M σ α) : M σ α := do
  let cache ← sreg.read hw
  let r ← body
  sreg.write hw cache
  pure r

/-! ### 17. External interrupts -/

/-- `ei::eifr<i>` (atmega328.hpp:518-519). -/
abbrev eifr (i : Nat) : Field := bit8 .rc_w1 0x3c i

/-- `ei::clear_external_int0_flag()`, `int1` (atmega328.hpp:531-539). -/
def clear_external_int_flag (hw : Hw σ) (i : Nat) : M σ Unit := (eifr i).clear hw

/-- `ei::pcifr<i>` (atmega328.hpp:578-579): declared read/write. -/
abbrev pcifr (i : Nat) : Field := bit8 .rw 0x3b i

/-- `ei::clear_pin_change_int0_flag()`, `int1`, `int2` (atmega328.hpp:596-609). -/
def clear_pin_change_int_flag (hw : Hw σ) (i : Nat) : M σ Unit := (pcifr i).clear hw

/-! ### 18. Ports -/

/-- `gpio<port>`: `pin_addr` (atmega328.hpp:683-684), port B = 0, C = 1, D = 2. -/
def pin_addr (port : Nat) : Nat := 0x23 + 3 * port + 0
/-- `ddr_addr` (atmega328.hpp:685). -/
def ddr_addr (port : Nat) : Nat := 0x23 + 3 * port + 1
/-- `port_addr` (atmega328.hpp:686). -/
def port_addr (port : Nat) : Nat := 0x23 + 3 * port + 2

/-- `gpio<port>::p<pin>::dir` (atmega328.hpp:697). -/
abbrev dir (port pin : Nat) : Field := bit8 .rw (ddr_addr port) pin
/-- `gpio<port>::p<pin>::inp` (atmega328.hpp:698). -/
abbrev inp (port pin : Nat) : Field := bit8 .rw (pin_addr port) pin
/-- `gpio<port>::p<pin>::out` (atmega328.hpp:699). -/
abbrev out (port pin : Nat) : Field := bit8 .rw (port_addr port) pin

/-! ### 19. Timer 0 -/

namespace tc0
/-- `tccr0a::wgm0` (atmega328.hpp:737). -/
abbrev wgm0 : Field := bitfield8 .rw 0x44 1 0
/-- `tccr0b::wgm02` (atmega328.hpp:749). -/
abbrev wgm02 : Field := bit8 .rw 0x45 3
/-- `tccr0b::foc0a` (atmega328.hpp:747). -/
abbrev foc0a : Field := bit8 .rw 0x45 7
/-- `tccr0b::foc0b` (atmega328.hpp:748). -/
abbrev foc0b : Field := bit8 .rw 0x45 6

/-- `output::current( waveform )` (atmega328.hpp:900-903). -/
def current_waveform (hw : Hw σ) : M σ Byte := do
  let b ← wgm02.read hw
  let b ← pureRes (shl .w8 b 3)
  let a ← wgm0.read hw
  pure (b + a)

/-- `output::set( waveform )` (atmega328.hpp:905-912): the caller destroys the proxy. -/
def set_waveform (hw : Hw σ) (w : Byte) : M σ (Proxy .w8 0x45) := do
  let mask ← pureRes (bitmask .w8 [1, 0])
  wgm0.write hw (w &&& mask)
  let v ← pureRes (shr .w8 w 2)
  pureRes (wgm02.write_lazy v)

/-- `control::compare::force::set( a )` (atmega328.hpp:924-927). -/
def force_a (hw : Hw σ) : M σ Unit := foc0a.set hw

/-- `control::compare::force::set( b )` (atmega328.hpp:929-932). -/
def force_b (hw : Hw σ) : M σ Unit := foc0b.set hw
end tc0

/-! ### 20. Timer 1 -/

namespace tc1
/-- `tccr1a::wgm1` (atmega328.hpp:1111). -/
abbrev wgm1a : Field := bitfield8 .rw 0x80 1 0
/-- `tccr1b::wgm1` (atmega328.hpp:1123). -/
abbrev wgm1b : Field := bitfield8 .rw 0x81 4 3
/-- `tccr1b::cs1` (atmega328.hpp:1124). -/
abbrev cs1 : Field := bitfield8 .rw 0x81 2 0
/-- `tccr1a::com1a` (atmega328.hpp:1109). -/
abbrev com1a : Field := bitfield8 .rw 0x80 7 6
/-- `tccr1c::foc1a` (atmega328.hpp:1134): declared with the address of TCCR1A. -/
abbrev foc1a : Field := bit8 .rw 0x80 7
/-- `tccr1c::foc1b` (atmega328.hpp:1135): declared with the address of TCCR1A. -/
abbrev foc1b : Field := bit8 .rw 0x80 6

/-- `output::current( waveform )` (atmega328.hpp:1325-1328). -/
def current_waveform (hw : Hw σ) : M σ Byte := do
  let b ← wgm1b.read hw
  let b ← pureRes (shl .w8 b 3)
  let a ← wgm1a.read hw
  pure (b + a)

/-- `output::set( waveform )` (atmega328.hpp:1330-1337): the caller destroys the proxy. -/
def set_waveform (hw : Hw σ) (w : Byte) : M σ (Proxy .w8 0x81) := do
  let mask ← pureRes (bitmask .w8 [1, 0])
  wgm1a.write hw (w &&& mask)
  let v ← pureRes (shr .w8 w 2)
  pureRes (wgm1b.write_lazy v)

/-- `control::compare::force::set( a )` (atmega328.hpp:1349-1352). -/
def force_a (hw : Hw σ) : M σ Unit := foc1a.set hw

/-- `control::compare::force::set( b )` (atmega328.hpp:1354-1357). -/
def force_b (hw : Hw σ) : M σ Unit := foc1b.set hw
end tc1

/-- `tc1_pwm_on_a_pb1::init()` (atmega328.hpp:2613-2624). -/
def tc1_pwm_init (hw : Hw σ) : M σ Unit := do
  (dir 0 1).set hw
  let p ← pureRes (tc1.com1a.write_lazy 2)
  p.destroy hw
  let q ← tc1.set_waveform hw 7
  let r ← pureRes (tc1.cs1.write_lazy 1)
  q.statement hw [r]

/-! ### 26. TWI, synchronous -/

namespace twi

/-- `init()` (atmega328.hpp:2013-2026), with port C = 1, sda = 4, scl = 5. -/
def init (hw : Hw σ) (br : Byte) : M σ Unit := do
  (inp 1 4).set hw
  (inp 1 5).set hw
  wr hw 0xb9 0x00
  wr hw 0xb8 br
  wr hw 0xbc (1#8 <<< 2)

/-- `status()` (atmega328.hpp:2028-2031). -/
def status (hw : Hw σ) : M σ Byte := do
  let v ← rd hw 0xb9
  pure (v &&& 0xf8)

/-- `flag()` (atmega328.hpp:2033-2036). -/
def flag (hw : Hw σ) : M σ Bool := do
  let v ← rd hw 0xbc
  pure (v &&& (1#8 <<< 7) != 0)

/-- `wait()` (atmega328.hpp:2038-2042).  Simplification: at most `fuel` iterations. -/
def wait (hw : Hw σ) : Nat → M σ Unit
  | 0 => pureRes (.error .outOfFuel)
  | fuel + 1 => do
    if ← flag hw then pure () else wait hw fuel

/-- `expect_status( s )` (atmega328.hpp:2044-2047). -/
def expect_status (hw : Hw σ) (fuel : Nat) (s : Byte) : M σ Bool := do
  wait hw fuel
  let v ← status hw
  pure (v != s)

/-- `start()` (atmega328.hpp:2049-2052). -/
def start (hw : Hw σ) : M σ Unit := wr hw 0xbc ((1#8 <<< 7) ||| (1#8 <<< 5) ||| (1#8 <<< 2))

/-- `stop()` (atmega328.hpp:2054-2057). -/
def stop (hw : Hw σ) : M σ Unit := wr hw 0xbc ((1#8 <<< 7) ||| (1#8 <<< 4) ||| (1#8 <<< 2))

/-- `data( byte )` (atmega328.hpp:2062-2066). -/
def data (hw : Hw σ) (byte : Byte) : M σ Unit := do
  wr hw 0xbb byte
  wr hw 0xbc ((1#8 <<< 7) ||| (1#8 <<< 2))

/-- `write( address, byte )` (atmega328.hpp:2070-2090): the second `data` call also has argument `address`. -/
def write (hw : Hw σ) (fuel : Nat) (address byte : Byte) : M σ Bool := do
  let _ := byte
  start hw
  if ← expect_status hw fuel 0x08 then
    pure true
  else do
    data hw address
    if ← expect_status hw fuel 0x18 then
      pure true
    else do
      data hw address
      if ← expect_status hw fuel 0x28 then
        pure true
      else do
        stop hw
        pure false

end twi

end Atmega
end Mcu
end Verif
