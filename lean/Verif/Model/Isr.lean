import Verif.Model.Atmega

/-
Model of the interrupt-related parts: `mcu::atomic` (include/mcu/register.hpp) as a sequence of instructions that
interrupts may separate, the interrupt routines, mailboxes and initialisation of
example/avr/avr-adc-dac-isr-atmega.e.cpp, and the interrupt routine of example/avr/avr-blink-led-isr.e.cpp.
-/

namespace Verif
namespace Mcu

variable {σ : Type}

/-! ### Atomic access -/

/-- The instructions that matter for access to a variable of `n` bytes: interrupts off and on, access to one byte.
(Not from the sources.) -/
inductive Instr (n : Nat) where
  | cli
  | sei
  | load (k : Fin n)
  | store (k : Fin n) (v : Byte)

/-- Instructions for reading a variable of `n` bytes; the order of the bytes is the compiler's. -/
def plainRead {n : Nat} (order : List (Fin n)) : List (Instr n) := order.map .load

/-- Instructions for the assignment of `v` to a variable of `n` bytes. -/
def plainWrite {n : Nat} (order : List (Fin n)) (v : Fin n → Byte) : List (Instr n) :=
  order.map fun k => .store k (v k)

/-- `scoped_interrupt_guard{}, ...` (register.hpp:532-536): the guard lives until the end of the full expression. -/
def guarded {n : Nat} (body : List (Instr n)) : List (Instr n) := .cli :: (body ++ [.sei])

/-- `atomic( value )` (register.hpp:540-545). -/
def atomicRead {n : Nat} (order : List (Fin n)) : List (Instr n) :=
  if n > 1 then guarded (plainRead order) else plainRead order

/-- `atomic( dest, value )` (register.hpp:547-552). -/
def atomicWrite {n : Nat} (order : List (Fin n)) (v : Fin n → Byte) : List (Instr n) :=
  if n > 1 then guarded (plainWrite order v) else plainWrite order v

namespace Atmega

/-! ### Mailboxes -/

/-- `mbx::operator=( x )` (avr-adc-dac-isr-atmega.e.cpp:121-124), the flag being at address `a`. -/
def mbxPut (hw : Hw σ) (a : Nat) (x : Bool) : M σ Unit := wr hw a (if x then 1 else 0)

/-- `mbx::operator bool()` (avr-adc-dac-isr-atmega.e.cpp:126-140): `scoped_reset` writes when the return expression has
been evaluated. -/
def mbxGet (hw : Hw σ) (a : Nat) : M σ Bool := do
  let flag ← rd hw a
  if flag ≠ 0 then do
    wr hw a 0
    pure true
  else pure false

/-! ### Interrupt routines -/

/-- The static variables of the timer interrupt routine, and the mailboxes
(avr-adc-dac-isr-atmega.e.cpp:143-146, 182-184). -/
structure Beat where
  cnt_10ms : Byte := 10
  cnt_100ms : Byte := 10
  cnt_1000ms : Byte := 10
  mbx_1ms : Bool := false
  mbx_10ms : Bool := false
  mbx_100ms : Bool := false
  mbx_1000ms : Bool := false

/-- `ISR( TIMER0_COMPA_vect )` (avr-adc-dac-isr-atmega.e.cpp:176-205).  Not modelled here: `scoped_sreg`, see C72. -/
def Beat.isr (s : Beat) : Beat :=
  let s := { s with mbx_1ms := true }
  let s := { s with cnt_10ms := s.cnt_10ms - 1 }
  if s.cnt_10ms > 0 then s else
  let s := { s with cnt_10ms := 10, mbx_10ms := true }
  let s := { s with cnt_100ms := s.cnt_100ms - 1 }
  if s.cnt_100ms > 0 then s else
  let s := { s with cnt_100ms := 10, mbx_100ms := true }
  let s := { s with cnt_1000ms := s.cnt_1000ms - 1 }
  if s.cnt_1000ms > 0 then s else
  { s with cnt_1000ms := 10, mbx_1000ms := true }

/-- The static variables of the interrupt routine and the LED port (avr-blink-led-isr.e.cpp:56-70, 28). -/
structure Blink where
  cnt_10ms : Byte := 10
  cnt_100ms : Byte := 10
  cnt_1000ms : Byte := 10
  led_port : Byte

/-- `toggle_led()` (avr-blink-led-isr.e.cpp:26-29), `led_bit` = 5. -/
def Blink.toggle_led (s : Blink) : Blink := { s with led_port := s.led_port ^^^ (1#8 <<< 5) }

/-- `ISR( TIMER0_COMPA_vect )` (avr-blink-led-isr.e.cpp:54-78). -/
def Blink.isr (s : Blink) : Blink :=
  let s := { s with cnt_10ms := s.cnt_10ms - 1 }
  if s.cnt_10ms > 0 then s else
  let s := { s with cnt_10ms := 10 }
  let s := { s with cnt_100ms := s.cnt_100ms - 1 }
  if s.cnt_100ms > 0 then s else
  let s := { s with cnt_100ms := 10 }
  let s := { s with cnt_1000ms := s.cnt_1000ms - 1 }
  if s.cnt_1000ms > 0 then s else
  { s with cnt_1000ms := 10 }.toggle_led

/-! ### Initialisation and drivers of the example -/

namespace tc0
/-- `tccr0b::cs0` (atmega328.hpp:750). -/
abbrev cs0 : Field := bitfield8 .rw 0x45 2 0
/-- `timsk0::ocie0a` (atmega328.hpp:761). -/
abbrev ocie0a : Field := bit8 .rw 0x6e 1
/-- `ocr0a::whole` (atmega328.hpp:784). -/
abbrev ocr0a : Field := register8 .rw 0x47
end tc0

/-- `count1ms` (avr-adc-dac-isr-atmega.e.cpp:159-162), with `F_CPU_HZ` such that the static assertion holds. -/
def count1ms : Byte := 250

/-- `beat::init()` (avr-adc-dac-isr-atmega.e.cpp:155-172; atmega328.hpp:830-833, 905-912, 961-964, 993-996). -/
def beat_init (hw : Hw σ) : M σ Unit := do
  let p ← pureRes (tc0.ocie0a.write_lazy 1)
  p.destroy hw
  tc0.ocr0a.write hw count1ms
  let q ← tc0.set_waveform hw 2
  let r ← pureRes (tc0.cs0.write_lazy 3)
  q.statement hw [r]

namespace adc
/-- `admux::refs` (atmega328.hpp:2300). -/
abbrev refs : Field := bitfield8 .rw 0x7c 7 6
/-- `admux::mux` (atmega328.hpp:2302). -/
abbrev mux : Field := bitfield8 .rw 0x7c 3 0
/-- `adcsra::aden` (atmega328.hpp:2312). -/
abbrev aden : Field := bit8 .rw 0x7a 7
/-- `adcsra::adsc` (atmega328.hpp:2313). -/
abbrev adsc : Field := bit8 .rw 0x7a 6
/-- `adcsra::adate` (atmega328.hpp:2314). -/
abbrev adate : Field := bit8 .rw 0x7a 5
/-- `adcsra::adie` (atmega328.hpp:2316). -/
abbrev adie : Field := bit8 .rw 0x7a 3
/-- `adcsra::adps` (atmega328.hpp:2317). -/
abbrev adps : Field := bitfield8 .rw 0x7a 2 0
/-- `adcsrb::adts` (atmega328.hpp:2328). -/
abbrev adts : Field := bitfield8 .rw 0x7b 2 0
/-- `adc::adchl` (atmega328.hpp:2288). -/
abbrev adchl : Field := register16 .r 0x78

/-- `adc::init()` (avr-adc-dac-isr-atmega.e.cpp:73-92; atmega328.hpp:2361-2364, 2431-2444, 2459-2482, 2531-2534,
2558-2561). -/
def init (hw : Hw σ) : M σ Unit := do
  let p ← pureRes (refs.write_lazy 1)
  let q ← pureRes (mux.write_lazy 0)
  p.statement hw [q]
  let p ← pureRes (adts.write_lazy 0)
  p.destroy hw
  let p ← pureRes (adps.write_lazy 7)
  let q ← pureRes (aden.write_lazy 1)
  let r ← pureRes (adie.write_lazy 1)
  let t ← pureRes (adate.write_lazy 1)
  let u ← pureRes (adsc.write_lazy 1)
  p.statement hw [q, r, t, u]

/-- `conversion::result()` (atmega328.hpp:2366-2369). -/
def result (hw : Hw σ) : M σ (BitVec 16) := adchl.read hw
end adc

/-- `led<port, pin>::on()` (atmega328.hpp:2596). -/
def led_on (hw : Hw σ) (port pin : Nat) : M σ Unit := (out port pin).set hw
/-- `led<port, pin>::off()` (atmega328.hpp:2597). -/
def led_off (hw : Hw σ) (port pin : Nat) : M σ Unit := (out port pin).clear hw
/-- `led<port, pin>::toggle()` (atmega328.hpp:2598). -/
def led_toggle (hw : Hw σ) (port pin : Nat) : M σ Unit := (out port pin).toggle hw
/-- `led<port, pin>::enable()` (atmega328.hpp:2599). -/
def led_enable (hw : Hw σ) (port pin : Nat) : M σ Unit := (dir port pin).set hw

/-- `clamp( v, lo, hi )` (avr-adc-dac-isr-atmega.e.cpp:21-25). -/
def clamp {T : Type} [LT T] [DecidableLT T] (v lo hi : T) : T := if v < lo then lo else if hi < v then hi else v

/-- `dac::write( value )` (avr-adc-dac-isr-atmega.e.cpp:53-56; atmega328.hpp:2608-2609, 2628-2631), OCR1A at 0x88.
Simplification: without the interrupt guard of `atomic`, see `atomicWrite`. -/
def dac_write (hw : Hw σ) (value : BitVec 16) : M σ Unit :=
  store hw .w16 0x88 (clamp value 0b0011#16 0b1111111111#16)

end Atmega
end Mcu
end Verif
