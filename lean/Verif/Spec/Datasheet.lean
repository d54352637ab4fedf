import Verif.Spec.Register

/-
The registers of the ATmega328 as in the register summary of its datasheet (section 36 of the 2018 edition), as far as
the sources use them.  The status register bits I, T, H, S, V, N, Z, C are called SI, ST, and so on.
-/

namespace Verif
namespace Mcu
namespace Datasheet

/-- Registers of one byte. -/
inductive Reg where
  | PINB | DDRB | PORTB | PINC | DDRC | PORTC | PIND | DDRD | PORTD | TIFR0 | TIFR1 | TIFR2 | PCIFR | EIFR | EIMSK
  | GPIOR0 | EECR | EEDR | EEARL | EEARH | GTCCR | TCCR0A | TCCR0B | TCNT0 | OCR0A | OCR0B | GPIOR1 | GPIOR2 | ACSR
  | SPL | SPH | SREG | PCICR | EICRA | PCMSK0 | PCMSK1 | PCMSK2 | TIMSK0 | TIMSK1 | ADCL | ADCH | ADCSRA | ADCSRB
  | ADMUX | DIDR0 | DIDR1 | TCCR1A | TCCR1B | TCCR1C | TCNT1L | TCNT1H | ICR1L | ICR1H | OCR1AL | OCR1AH | OCR1BL
  | OCR1BH | TWBR | TWSR | TWAR | TWDR | TWCR | TWAMR
deriving DecidableEq

/-- Bits with a name of their own. -/
inductive Bit where
  | PINB7 | PINB6 | PINB5 | PINB4 | PINB3 | PINB2 | PINB1 | PINB0 | DDB7 | DDB6 | DDB5 | DDB4 | DDB3 | DDB2 | DDB1
  | DDB0 | PORTB7 | PORTB6 | PORTB5 | PORTB4 | PORTB3 | PORTB2 | PORTB1 | PORTB0 | PINC6 | PINC5 | PINC4 | PINC3
  | PINC2 | PINC1 | PINC0 | DDC6 | DDC5 | DDC4 | DDC3 | DDC2 | DDC1 | DDC0 | PORTC6 | PORTC5 | PORTC4 | PORTC3
  | PORTC2 | PORTC1 | PORTC0 | PIND7 | PIND6 | PIND5 | PIND4 | PIND3 | PIND2 | PIND1 | PIND0 | DDD7 | DDD6 | DDD5
  | DDD4 | DDD3 | DDD2 | DDD1 | DDD0 | PORTD7 | PORTD6 | PORTD5 | PORTD4 | PORTD3 | PORTD2 | PORTD1 | PORTD0 | OCF0B
  | OCF0A | TOV0 | ICF1 | OCF1B | OCF1A | TOV1 | OCF2B | OCF2A | TOV2 | PCIF2 | PCIF1 | PCIF0 | INTF1 | INTF0 | INT1
  | INT0 | EEPM1 | EEPM0 | EERIE | EEMPE | EEPE | EERE | TSM | PSRASY | PSRSYNC | COM0A1 | COM0A0 | COM0B1 | COM0B0
  | WGM01 | WGM00 | FOC0A | FOC0B | WGM02 | CS02 | CS01 | CS00 | ACD | ACBG | ACO | ACI | ACIE | ACIC | ACIS1 | ACIS0
  | SI | ST | SH | SS | SV | SN | SZ | SC | PCIE2 | PCIE1 | PCIE0 | ISC11 | ISC10 | ISC01 | ISC00 | OCIE0B | OCIE0A
  | TOIE0 | ICIE1 | OCIE1B | OCIE1A | TOIE1 | ADEN | ADSC | ADATE | ADIF | ADIE | ADPS2 | ADPS1 | ADPS0 | ACME
  | ADTS2 | ADTS1 | ADTS0 | REFS1 | REFS0 | ADLAR | MUX3 | MUX2 | MUX1 | MUX0 | ADC5D | ADC4D | ADC3D | ADC2D | ADC1D
  | ADC0D | AIN1D | AIN0D | COM1A1 | COM1A0 | COM1B1 | COM1B0 | WGM11 | WGM10 | ICNC1 | ICES1 | WGM13 | WGM12 | CS12
  | CS11 | CS10 | FOC1A | FOC1B | TWS7 | TWS6 | TWS5 | TWS4 | TWS3 | TWPS1 | TWPS0 | TWA6 | TWA5 | TWA4 | TWA3 | TWA2
  | TWA1 | TWA0 | TWGCE | TWINT | TWEA | TWSTA | TWSTO | TWWC | TWEN | TWIE | TWAM6 | TWAM5 | TWAM4 | TWAM3 | TWAM2
  | TWAM1 | TWAM0
deriving DecidableEq

open Reg Bit

/-- Address, register, and names of bits 7 to 0 (reserved and data bits have none). -/
def summary : List (Nat × Reg × List (Option Bit)) := [
  (0x23, PINB, [some PINB7, some PINB6, some PINB5, some PINB4, some PINB3, some PINB2, some PINB1, some PINB0]),
  (0x24, DDRB, [some DDB7, some DDB6, some DDB5, some DDB4, some DDB3, some DDB2, some DDB1, some DDB0]),
  (0x25, PORTB, [some PORTB7, some PORTB6, some PORTB5, some PORTB4, some PORTB3, some PORTB2, some PORTB1, some PORTB0]),
  (0x26, PINC, [none, some PINC6, some PINC5, some PINC4, some PINC3, some PINC2, some PINC1, some PINC0]),
  (0x27, DDRC, [none, some DDC6, some DDC5, some DDC4, some DDC3, some DDC2, some DDC1, some DDC0]),
  (0x28, PORTC, [none, some PORTC6, some PORTC5, some PORTC4, some PORTC3, some PORTC2, some PORTC1, some PORTC0]),
  (0x29, PIND, [some PIND7, some PIND6, some PIND5, some PIND4, some PIND3, some PIND2, some PIND1, some PIND0]),
  (0x2a, DDRD, [some DDD7, some DDD6, some DDD5, some DDD4, some DDD3, some DDD2, some DDD1, some DDD0]),
  (0x2b, PORTD, [some PORTD7, some PORTD6, some PORTD5, some PORTD4, some PORTD3, some PORTD2, some PORTD1, some PORTD0]),
  (0x35, TIFR0, [none, none, none, none, none, some OCF0B, some OCF0A, some TOV0]),
  (0x36, TIFR1, [none, none, some ICF1, none, none, some OCF1B, some OCF1A, some TOV1]),
  (0x37, TIFR2, [none, none, none, none, none, some OCF2B, some OCF2A, some TOV2]),
  (0x3b, PCIFR, [none, none, none, none, none, some PCIF2, some PCIF1, some PCIF0]),
  (0x3c, EIFR, [none, none, none, none, none, none, some INTF1, some INTF0]),
  (0x3d, EIMSK, [none, none, none, none, none, none, some INT1, some INT0]),
  (0x3e, GPIOR0, []),
  (0x3f, EECR, [none, none, some EEPM1, some EEPM0, some EERIE, some EEMPE, some EEPE, some EERE]),
  (0x40, EEDR, []),
  (0x41, EEARL, []),
  (0x42, EEARH, []),
  (0x43, GTCCR, [some TSM, none, none, none, none, none, some PSRASY, some PSRSYNC]),
  (0x44, TCCR0A, [some COM0A1, some COM0A0, some COM0B1, some COM0B0, none, none, some WGM01, some WGM00]),
  (0x45, TCCR0B, [some FOC0A, some FOC0B, none, none, some WGM02, some CS02, some CS01, some CS00]),
  (0x46, TCNT0, []),
  (0x47, OCR0A, []),
  (0x48, OCR0B, []),
  (0x4a, GPIOR1, []),
  (0x4b, GPIOR2, []),
  (0x50, ACSR, [some ACD, some ACBG, some ACO, some ACI, some ACIE, some ACIC, some ACIS1, some ACIS0]),
  (0x5d, SPL, []),
  (0x5e, SPH, []),
  (0x5f, SREG, [some SI, some ST, some SH, some SS, some SV, some SN, some SZ, some SC]),
  (0x68, PCICR, [none, none, none, none, none, some PCIE2, some PCIE1, some PCIE0]),
  (0x69, EICRA, [none, none, none, none, some ISC11, some ISC10, some ISC01, some ISC00]),
  (0x6b, PCMSK0, []),
  (0x6c, PCMSK1, []),
  (0x6d, PCMSK2, []),
  (0x6e, TIMSK0, [none, none, none, none, none, some OCIE0B, some OCIE0A, some TOIE0]),
  (0x6f, TIMSK1, [none, none, some ICIE1, none, none, some OCIE1B, some OCIE1A, some TOIE1]),
  (0x78, ADCL, []),
  (0x79, ADCH, []),
  (0x7a, ADCSRA, [some ADEN, some ADSC, some ADATE, some ADIF, some ADIE, some ADPS2, some ADPS1, some ADPS0]),
  (0x7b, ADCSRB, [none, some ACME, none, none, none, some ADTS2, some ADTS1, some ADTS0]),
  (0x7c, ADMUX, [some REFS1, some REFS0, some ADLAR, none, some MUX3, some MUX2, some MUX1, some MUX0]),
  (0x7e, DIDR0, [none, none, some ADC5D, some ADC4D, some ADC3D, some ADC2D, some ADC1D, some ADC0D]),
  (0x7f, DIDR1, [none, none, none, none, none, none, some AIN1D, some AIN0D]),
  (0x80, TCCR1A, [some COM1A1, some COM1A0, some COM1B1, some COM1B0, none, none, some WGM11, some WGM10]),
  (0x81, TCCR1B, [some ICNC1, some ICES1, none, some WGM13, some WGM12, some CS12, some CS11, some CS10]),
  (0x82, TCCR1C, [some FOC1A, some FOC1B, none, none, none, none, none, none]),
  (0x84, TCNT1L, []),
  (0x85, TCNT1H, []),
  (0x86, ICR1L, []),
  (0x87, ICR1H, []),
  (0x88, OCR1AL, []),
  (0x89, OCR1AH, []),
  (0x8a, OCR1BL, []),
  (0x8b, OCR1BH, []),
  (0xb8, TWBR, []),
  (0xb9, TWSR, [some TWS7, some TWS6, some TWS5, some TWS4, some TWS3, none, some TWPS1, some TWPS0]),
  (0xba, TWAR, [some TWA6, some TWA5, some TWA4, some TWA3, some TWA2, some TWA1, some TWA0, some TWGCE]),
  (0xbb, TWDR, []),
  (0xbc, TWCR, [some TWINT, some TWEA, some TWSTA, some TWSTO, some TWWC, some TWEN, none, some TWIE]),
  (0xbd, TWAMR, [some TWAM6, some TWAM5, some TWAM4, some TWAM3, some TWAM2, some TWAM1, some TWAM0, none])]

/-- The address of a register. -/
def address (r : Reg) : Option Nat := summary.findSome? fun row => if row.2.1 = r then some row.1 else none

/-- Address and index of a bit. -/
def pos (b : Bit) : Option (Nat × Nat) :=
  summary.findSome? fun row => (row.2.2.idxOf? (some b)).map fun k => (row.1, 7 - k)

/-- Flags that the program clears by writing 1. -/
def flagBits : List Bit := [OCF0B, OCF0A, TOV0, ICF1, OCF1B, OCF1A, TOV1, OCF2B, OCF2A, TOV2, PCIF2, PCIF1, PCIF0,
  INTF1, INTF0, ACI, ADIF, TWINT]

/-- Bits that the program can only read. -/
def readOnly : List Bit := [ACO, TWS7, TWS6, TWS5, TWS4, TWS3, TWWC]

/-- The flags cleared by writing 1, as masks by address. -/
def w1c (a : Nat) : Byte :=
  if a = 0x35 then 0x07 else if a = 0x36 then 0x27 else if a = 0x37 then 0x07 else if a = 0x3b then 0x07
  else if a = 0x3c then 0x03 else if a = 0x50 then 0x10 else if a = 0x7a then 0x10 else if a = 0xbc then 0x80 else 0

/-- The field consists of the given bits, highest first. -/
def Consists (f : Field) (bs : List Bit) : Prop :=
  f.w = .w8 ∧ f.hi + 1 = f.lo + bs.length ∧ ∀ p ∈ bs.zipIdx, pos p.1 = some (f.address, f.hi - p.2)

instance (f : Field) (bs : List Bit) : Decidable (Consists f bs) :=
  inferInstanceAs (Decidable (_ ∧ _ ∧ ∀ p ∈ bs.zipIdx, _))

/-- The field is the whole of the given registers, low byte first. -/
def IsWhole (f : Field) (rs : List Reg) : Prop :=
  f.lo = 0 ∧ f.hi + 1 = f.w.bits ∧ f.w.bits = 8 * rs.length ∧ ∀ p ∈ rs.zipIdx, address p.1 = some (f.address + p.2)

instance (f : Field) (rs : List Reg) : Decidable (IsWhole f rs) :=
  inferInstanceAs (Decidable (_ ∧ _ ∧ _ ∧ ∀ p ∈ rs.zipIdx, _))

/-- The policy that fits the bits. -/
def policy (bs : List Bit) : Policy :=
  if bs.any (· ∈ flagBits) then .rc_w1 else if bs.any (· ∈ readOnly) then .r else .rw

end Datasheet
end Mcu
end Verif
