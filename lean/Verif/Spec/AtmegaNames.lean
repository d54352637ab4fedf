import Verif.Spec.Datasheet
import Verif.Model.AtmegaDrivers

/- The names of the sources in terms of the datasheet. -/

namespace Verif
namespace Mcu
namespace Atmega
open Datasheet Datasheet.Reg Datasheet.Bit

/-- The declared fields and the bits that their names stand for. -/
def fieldBits : List (Field × List Bit) := [
  (reg.sreg.I, [SI]), (reg.sreg.T, [ST]), (reg.sreg.H, [SH]), (reg.sreg.S, [SS]), (reg.sreg.V, [SV]),
  (reg.sreg.N, [SN]), (reg.sreg.Z, [SZ]), (reg.sreg.C, [SC]), (reg.eecr.eepm, [EEPM1, EEPM0]),
  (reg.eecr.eerie, [EERIE]), (reg.eecr.eempe, [EEMPE]), (reg.eecr.eepe, [EEPE]), (reg.eecr.eere, [EERE]),
  (reg.eicra.ics1, [ISC11, ISC10]), (reg.eicra.ics0, [ISC01, ISC00]), (reg.tccr0a.com0a, [COM0A1, COM0A0]),
  (reg.tccr0a.com0b, [COM0B1, COM0B0]), (reg.tccr0a.wgm0, [WGM01, WGM00]), (reg.tccr0b.foc0a, [FOC0A]),
  (reg.tccr0b.foc0b, [FOC0B]), (reg.tccr0b.wgm02, [WGM02]), (reg.tccr0b.cs0, [CS02, CS01, CS00]),
  (reg.timsk0.ocie0b, [OCIE0B]), (reg.timsk0.ocie0a, [OCIE0A]), (reg.timsk0.toie0, [TOIE0]),
  (reg.tifr0.ocf0b, [OCF0B]), (reg.tifr0.ocf0a, [OCF0A]), (reg.tifr0.tov0, [TOV0]),
  (reg.tccr1a.com1a, [COM1A1, COM1A0]), (reg.tccr1a.com1b, [COM1B1, COM1B0]), (reg.tccr1a.wgm1, [WGM11, WGM10]),
  (reg.tccr1b.icnc1, [ICNC1]), (reg.tccr1b.ices1, [ICES1]), (reg.tccr1b.wgm1, [WGM13, WGM12]),
  (reg.tccr1b.cs1, [CS12, CS11, CS10]), (reg.tccr1c.foc1a, [FOC1A]), (reg.tccr1c.foc1b, [FOC1B]),
  (reg.timsk1.icie1, [ICIE1]), (reg.timsk1.ocie1b, [OCIE1B]), (reg.timsk1.ocie1a, [OCIE1A]),
  (reg.timsk1.toie1, [TOIE1]), (reg.tifr1.icf1, [ICF1]), (reg.tifr1.ocf1b, [OCF1B]), (reg.tifr1.ocf1a, [OCF1A]),
  (reg.tifr1.tov1, [TOV1]), (reg.gtccr.tsm, [TSM]), (reg.gtccr.psrasy, [PSRASY]), (reg.gtccr.psrsync, [PSRSYNC]),
  (reg.twsr.tws, [TWS7, TWS6, TWS5, TWS4, TWS3]), (reg.twsr.twps, [TWPS1, TWPS0]),
  (reg.twar.twa, [TWA6, TWA5, TWA4, TWA3, TWA2, TWA1, TWA0]), (reg.twar.twgce, [TWGCE]), (reg.twcr.twintc, [TWINT]),
  (reg.twcr.twint, [TWINT]), (reg.twcr.twea, [TWEA]), (reg.twcr.twsta, [TWSTA]), (reg.twcr.twsto, [TWSTO]),
  (reg.twcr.twwc, [TWWC]), (reg.twcr.twen, [TWEN]), (reg.twcr.twie, [TWIE]),
  (reg.twamr.twam, [TWAM6, TWAM5, TWAM4, TWAM3, TWAM2, TWAM1, TWAM0]), (reg.acsr.acd, [ACD]),
  (reg.acsr.acbg, [ACBG]), (reg.acsr.aco, [ACO]), (reg.acsr.aci, [ACI]), (reg.acsr.acie, [ACIE]),
  (reg.acsr.acic, [ACIC]), (reg.acsr.acis, [ACIS1, ACIS0]), (reg.didr1, [AIN1D, AIN0D]),
  (reg.admux.refs, [REFS1, REFS0]), (reg.admux.adlar, [ADLAR]), (reg.admux.mux, [MUX3, MUX2, MUX1, MUX0]),
  (reg.adcsra.aden, [ADEN]), (reg.adcsra.adsc, [ADSC]), (reg.adcsra.adate, [ADATE]), (reg.adcsra.adif, [ADIF]),
  (reg.adcsra.adie, [ADIE]), (reg.adcsra.adps, [ADPS2, ADPS1, ADPS0]), (reg.adcsrb.acme, [ACME]),
  (reg.adcsrb.adts, [ADTS2, ADTS1, ADTS0]), (reg.didr0, [ADC5D, ADC4D, ADC3D, ADC2D, ADC1D, ADC0D]),
  (reg.eimsk 0, [INT0]), (reg.eimsk 1, [INT1]), (eifr 0, [INTF0]), (eifr 1, [INTF1]), (reg.pcicr 0, [PCIE0]),
  (reg.pcicr 1, [PCIE1]), (reg.pcicr 2, [PCIE2]), (pcifr 0, [PCIF0]), (pcifr 1, [PCIF1]), (pcifr 2, [PCIF2]),
  (tc0.wgm0, [WGM01, WGM00]), (tc0.wgm02, [WGM02]), (tc0.foc0a, [FOC0A]), (tc0.foc0b, [FOC0B]),
  (tc1.wgm1a, [WGM11, WGM10]), (tc1.wgm1b, [WGM13, WGM12]), (tc1.cs1, [CS12, CS11, CS10]),
  (tc1.com1a, [COM1A1, COM1A0])]

/-- The declared registers and the registers (low byte first) that their names stand for. -/
def wholeRegs : List (Field × List Reg) := [
  (reg.sreg.whole, [SREG]), (reg.sp.whole, [SPL, SPH]), (reg.sp.lo, [SPL]), (reg.sp.hi, [SPH]),
  (reg.eear, [EEARL, EEARH]), (reg.eedr, [EEDR]), (reg.eecr.whole, [EECR]), (reg.eicra.whole, [EICRA]),
  (reg.tccr0a.whole, [TCCR0A]), (reg.tccr0b.whole, [TCCR0B]), (reg.timsk0.whole, [TIMSK0]),
  (reg.tcnt0.whole, [TCNT0]), (reg.ocr0a.whole, [OCR0A]), (reg.ocr0b.whole, [OCR0B]), (reg.tifr0.whole, [TIFR0]),
  (reg.tccr1a.whole, [TCCR1A]), (reg.tccr1b.whole, [TCCR1B]), (reg.tccr1c.whole, [TCCR1C]),
  (reg.tcnt1.whole, [TCNT1L, TCNT1H]), (reg.tcnt1.lo, [TCNT1L]), (reg.tcnt1.hi, [TCNT1H]),
  (reg.icr1.whole, [ICR1L, ICR1H]), (reg.icr1.lo, [ICR1L]), (reg.icr1.hi, [ICR1H]),
  (reg.ocr1a.whole, [OCR1AL, OCR1AH]), (reg.ocr1a.lo, [OCR1AL]), (reg.ocr1a.hi, [OCR1AH]),
  (reg.ocr1b.whole, [OCR1BL, OCR1BH]), (reg.ocr1b.lo, [OCR1BL]), (reg.ocr1b.hi, [OCR1BH]),
  (reg.timsk1.whole, [TIMSK1]), (reg.tifr1.whole, [TIFR1]), (reg.gtccr.whole, [GTCCR]), (reg.twbr, [TWBR]),
  (reg.twdr, [TWDR]), (reg.twsr.whole, [TWSR]), (reg.twar.whole, [TWAR]), (reg.twcr.whole, [TWCR]),
  (reg.twamr.whole, [TWAMR]), (reg.acsr.whole, [ACSR]), (reg.adc.whole, [ADCL, ADCH]), (reg.adc.adchl, [ADCL, ADCH]),
  (reg.adc.adcl, [ADCL]), (reg.adc.adch, [ADCH]), (reg.admux.whole, [ADMUX]), (reg.adcsra.whole, [ADCSRA]),
  (reg.adcsrb.whole, [ADCSRB]), (reg.gpior 0, [GPIOR0]), (reg.gpior 1, [GPIOR1]), (reg.gpior 2, [GPIOR2]),
  (reg.pcmsk 0, [PCMSK0]), (reg.pcmsk 1, [PCMSK1]), (reg.pcmsk 2, [PCMSK2]), (reg.pin 0, [PINB]),
  (reg.ddr 0, [DDRB]), (reg.port 0, [PORTB]), (reg.pin 1, [PINC]), (reg.ddr 1, [DDRC]), (reg.port 1, [PORTC]),
  (reg.pin 2, [PIND]), (reg.ddr 2, [DDRD]), (reg.port 2, [PORTD]), (sreg, [SREG])]

/-- The functions that set a field, and its bits. -/
def settingBits : List (Setting × List Bit) := [
  (eeprom_program_mode, [EEPM1, EEPM0]), (eeprom_enable_master_write, [EEMPE]), (eeprom_enable_write, [EEPE]),
  (eeprom_enable_read, [EERE]), (eeprom_interrupt_on_ready, [EERIE]), (interrupt_sense1, [ISC11, ISC10]),
  (interrupt_sense0, [ISC01, ISC00]), (external_int0, [INT0]), (external_int1, [INT1]), (pin_change_int2, [PCIE2]),
  (pin_change_int1, [PCIE1]), (pin_change_int0, [PCIE0]), (tc0_clock, [CS02, CS01, CS00]),
  (tc0_output_a, [COM0A1, COM0A0]), (tc0_output_b, [COM0B1, COM0B0]), (tc0_on_match_a, [OCIE0A]),
  (tc0_on_match_b, [OCIE0B]), (tc0_on_overflow, [TOIE0]), (tc1_clock, [CS12, CS11, CS10]),
  (tc1_capture_edge, [ICES1]), (tc1_output_a, [COM1A1, COM1A0]), (tc1_output_b, [COM1B1, COM1B0]),
  (tc1_noise_canceler, [ICNC1]), (tc1_on_capture, [ICIE1]), (tc1_on_match_a, [OCIE1A]), (tc1_on_match_b, [OCIE1B]),
  (tc1_on_overflow, [TOIE1]), (tcp_synchronization, [TSM]), (tcp_reset_tc2, [PSRASY]), (tcp_reset_tc01, [PSRSYNC]),
  (twi_start, [TWSTA]), (twi_stop, [TWSTO]), (twi_ack, [TWEA]),
  (twi_address, [TWA6, TWA5, TWA4, TWA3, TWA2, TWA1, TWA0]), (twi_prescale, [TWPS1, TWPS0]), (twi_interface, [TWEN]),
  (twi_interrupt, [TWIE]), (twi_general_call, [TWGCE]), (ac_bandgap, [ACBG]), (ac_interrupt_on, [ACIS1, ACIS0]),
  (ac_interrupt, [ACIE]), (ac_capture, [ACIC]), (ac_disable, [ACD]), (adc_start, [ADSC]), (adc_adjustment, [ADLAR]),
  (adc_reference, [REFS1, REFS0]), (adc_channel, [MUX3, MUX2, MUX1, MUX0]), (adc_enable, [ADEN]),
  (adc_interrupt, [ADIE]), (adc_auto_trigger, [ADATE]), (adc_comparator, [ACME]),
  (adc_trigger_on, [ADTS2, ADTS1, ADTS0]), (adc_prescale, [ADPS2, ADPS1, ADPS0])]

/-- The functions that set a whole register, and the register (low byte first). -/
def settingRegs : List (Setting × List Reg) := [
  (eeprom_address, [EEARL, EEARH]), (eeprom_data, [EEDR]), (pin_change_mask2, [PCMSK2]),
  (pin_change_mask1, [PCMSK1]), (pin_change_mask0, [PCMSK0]), (tc0_timer, [TCNT0]), (tc0_compare_a, [OCR0A]),
  (tc0_compare_b, [OCR0B]), (tc1_timer, [TCNT1L, TCNT1H]), (tc1_compare_a, [OCR1AL, OCR1AH]),
  (tc1_compare_b, [OCR1BL, OCR1BH]), (twi_data, [TWDR]), (twi_rate, [TWBR])]

/-- The interrupt flags and their bits. -/
def flagBit : List (Field × Bit) := [
  (external_int0_flag, INTF0), (external_int1_flag, INTF1), (tc0_match_a_flag, OCF0A), (tc0_match_b_flag, OCF0B),
  (tc0_overflow_flag, TOV0), (tc1_capture_flag, ICF1), (tc1_match_a_flag, OCF1A), (tc1_match_b_flag, OCF1B),
  (tc1_overflow_flag, TOV1), (ac_flag, ACI), (adc_flag, ADIF)]

end Atmega
end Mcu
end Verif
