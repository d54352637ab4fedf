import Verif.Model.Isr

/-
Model of the example programs without register classes: example/avr/avr-adc-isr.e.cpp, avr-fade-led.e.cpp and
avr-blink-led.e.cpp.  They use the macros of `avr/io.h`; the addresses are those of the ATmega328.

Not modelled: `tstmsk`, `led`, `init_spl` and the masks of prescalers, which no program uses.
-/

namespace Verif
namespace Mcu
namespace Demo
variable {σ : Type}

/-- `bitmask( args... )` (avr-adc-isr.e.cpp:28-32, avr-fade-led.e.cpp:51-55, avr-blink-led.e.cpp:20-23). -/
def mask (args : List Nat) : Res Byte := bitmask .w8 args

/-- `setmsk( sfr, msk )` (avr-adc-isr.e.cpp:73-77, avr-fade-led.e.cpp:47). -/
def setmsk (hw : Hw σ) (a : Nat) (msk : Byte) : M σ Unit := do wr hw a ((← rd hw a) ||| msk)

/-- `clrmsk( sfr, msk )` (avr-adc-isr.e.cpp:85-89). -/
def clrmsk (hw : Hw σ) (a : Nat) (msk : Byte) : M σ Unit := do wr hw a ((← rd hw a) &&& ~~~ msk)

/-- `setbit( sfr, bit )` (avr-adc-isr.e.cpp:40-44, avr-fade-led.e.cpp:42). -/
def setbit (hw : Hw σ) (a bit : Nat) : M σ Unit := do setmsk hw a (← pureRes (mask [bit]))

/-- `clrbit( sfr, bit )` (avr-adc-isr.e.cpp:52-56, avr-fade-led.e.cpp:44). -/
def clrbit (hw : Hw σ) (a bit : Nat) : M σ Unit := do clrmsk hw a (← pureRes (mask [bit]))

/-- `xorbit( sfr, bit )` (avr-blink-led.e.cpp:44). -/
def xorbit (hw : Hw σ) (a bit : Nat) : M σ Unit := do
  let m ← pureRes (mask [bit])
  wr hw a ((← rd hw a) ^^^ m)

/-- `putbit( sfr, bit, on )` (avr-adc-isr.e.cpp:58-65). -/
def putbit (hw : Hw σ) (a bit : Nat) (on : Bool) : M σ Unit := if on then setbit hw a bit else clrbit hw a bit

/-- `tstbit( sfr, bit )` (avr-fade-led.e.cpp:41; `bit_is_set` of avr/sfr_defs.h). -/
def tstbit (hw : Hw σ) (a bit : Nat) : M σ Bool := do
  let m ← pureRes (mask [bit])
  pure ((← rd hw a) &&& m != 0)

/-- Registers of the ATmega328 (avr/iom328p.h). -/
abbrev PIND := 0x29
abbrev DDRB := 0x24
abbrev PORTB := 0x25
abbrev DDRD := 0x2a
abbrev TCCR0A := 0x44
abbrev TCCR0B := 0x45
abbrev OCR0A := 0x47
abbrev ADC := 0x78
abbrev ADCSRA := 0x7a
abbrev ADCSRB := 0x7b
abbrev ADMUX := 0x7c
abbrev TCCR1A := 0x80
abbrev TCCR1B := 0x81
abbrev OCR1A := 0x88
abbrev OCR1B := 0x8a

/-! ### avr-adc-isr.e.cpp -/

/-- Hardware with the instructions `cli` and `sei`. -/
structure IrqHw (σ : Type) extends Hw σ where
  cli : σ → σ
  sei : σ → σ

/-- The addresses of `adc_value` and `adc_value8` (avr-adc-isr.e.cpp:150-151), chosen by the linker. -/
structure Vars where
  value : Nat
  value8 : Nat

/-- `init_adc()` (avr-adc-isr.e.cpp:109-133). -/
def init_adc (hw : Hw σ) : M σ Unit := do
  clrmsk hw ADMUX (← pureRes (mask [3, 2, 2, 0]))
  setmsk hw ADMUX (← pureRes (mask [6]))
  setmsk hw ADCSRA (← pureRes (mask [2, 1, 0, 5, 7, 3, 6]))
  wr hw ADCSRB 0

/-- `init_led()` (avr-adc-isr.e.cpp:135-139, avr-fade-led.e.cpp:86-90). -/
def init_led (hw : Hw σ) : M σ Unit := do
  setbit hw PORTB 5
  setbit hw DDRB 5

/-- `guarded( adc_value )` (avr-adc-isr.e.cpp:94-107): the destructor of the guard runs after the return value has been
read. -/
def guarded16 (hw : IrqHw σ) (a : Nat) : M σ (BitVec 16) := do
  modify hw.cli
  let v ← load hw.toHw .w16 a
  modify hw.sei
  pure v

/-- `guarded( adc_value8 )` (avr-adc-isr.e.cpp:102-107): one byte needs no guard. -/
def guarded8 (hw : IrqHw σ) (a : Nat) : M σ Byte := rd hw.toHw a

/-- The body of the loop of `main` (avr-adc-isr.e.cpp:162-163, 146-147). -/
def poll (hw : IrqHw σ) (x : Vars) : M σ Unit := do
  putbit hw.toHw PORTB 5 (decide (512#16 < (← guarded16 hw x.value)))
  putbit hw.toHw PORTB 5 (decide (128#8 < (← guarded8 hw x.value8)))

/-- `ISR( ADC_vect )` (avr-adc-isr.e.cpp:167-171); `adc_value` is volatile and read again. -/
def adcIsr (hw : Hw σ) (x : Vars) : M σ Unit := do
  store hw .w16 x.value (← load hw .w16 ADC)
  let v ← load hw .w16 x.value
  wr hw x.value8 ((v >>> 2).setWidth 8)

/-! ### avr-fade-led.e.cpp -/

/-- `for ( auto i = i0; cond( i ); i = next( i ) ) body( i )`, at most `fuel` tests. -/
def cfor {α : Type} (cond : α → Bool) (next : α → α) (body : α → M σ Unit) : (fuel : Nat) → (i : α) → M σ Unit
  | 0, _ => fun _ => .error .outOfFuel
  | fuel + 1, i =>
    if cond i then do
      body i
      cfor cond next body fuel (next i)
    else pure ()

/-- `init_timer0_pwm()` (avr-fade-led.e.cpp:97-112). -/
def init_timer0_pwm (hw : Hw σ) : M σ Unit := do
  setbit hw DDRD 6
  setmsk hw TCCR0A (← pureRes (mask [7]))
  setmsk hw TCCR0A (← pureRes (mask [1, 0]))
  setmsk hw TCCR0B (← pureRes (mask [1, 0]))

/-- `init_timer1_pwm()` (avr-fade-led.e.cpp:114-135). -/
def init_timer1_pwm (hw : Hw σ) : M σ Unit := do
  setmsk hw DDRB (← pureRes (mask [1, 2]))
  setmsk hw TCCR1A (← pureRes (mask [7, 5]))
  setmsk hw TCCR1A (← pureRes (mask [1, 0]))
  setmsk hw TCCR1B (← pureRes (mask [3]))
  setbit hw TCCR1B 0

/-- The innermost statement of `delay_ms` (avr-fade-led.e.cpp:146-149). -/
def sample (hw : Hw σ) : M σ Unit := do
  if ← tstbit hw PIND 0 then setbit hw PORTB 5 else clrbit hw PORTB 5

/-- `delay_ms( ms )` (avr-fade-led.e.cpp:137-152) for the clock frequency `f_cpu`.  Simplification: the counters, which only
count down to 0, are natural numbers. -/
def delay_ms (hw : Hw σ) (f_cpu ms : Nat) : M σ Unit :=
  let ms_count := f_cpu / (7 * 1000) / 5
  cfor (· != 0) (· - 1)
    (fun _ => cfor (· != 0) (· - 1) (fun _ => sample hw) (ms_count + 1) ms_count) (ms + 1) ms

/-- `top` (avr-fade-led.e.cpp:163). -/
def top : BitVec 16 := 0x3ff#16

/-- The body of both loops over `i` (avr-fade-led.e.cpp:169-172, 179-182); `i / 4` is converted to the 8 bits of OCR0A. -/
def duty (hw : Hw σ) (f_cpu : Nat) (i : BitVec 16) : M σ Unit := do
  wr hw OCR0A ((i / 4).setWidth 8)
  store hw .w16 OCR1A i
  store hw .w16 OCR1B (top - i)
  delay_ms hw f_cpu 2

/-- The body of the endless loop (avr-fade-led.e.cpp:163-183). -/
def fade (hw : Hw σ) (f_cpu : Nat) : M σ Unit := do
  cfor (fun i : BitVec 16 => decide (i < top)) (· + 1) (duty hw f_cpu) (2 ^ 16) 0
  cfor (fun i : BitVec 16 => decide (0 < i)) (· - 1) (duty hw f_cpu) (2 ^ 16) top

/-- The first statements of `main` (avr-fade-led.e.cpp:157-159). -/
def fade_init (hw : Hw σ) : M σ Unit := do
  init_led hw
  init_timer0_pwm hw
  init_timer1_pwm hw

/-! ### avr-blink-led.e.cpp -/

/-- The first statements of `main` (avr-blink-led.e.cpp:36-37). -/
def blink_init (hw : Hw σ) : M σ Unit := do
  wr hw PORTB 0xff
  setmsk hw DDRB (← pureRes (mask [5]))

/-- The body of the loop of `main` (avr-blink-led.e.cpp:41-44).  Simplification: without `delay_ms`, which only counts. -/
def blink (hw : Hw σ) : M σ Unit := xorbit hw PORTB 5

end Demo
end Mcu
end Verif
