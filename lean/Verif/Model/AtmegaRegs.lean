import Verif.Model.Register

/-
Model of the register and field declarations of include/mcu/atmega328.hpp, complete apart from those of namespaces in
which the source declares addresses only (clock, power, reset, tc2) or nothing (spi, usart, dbgw, spf).  The names of
bits in the source are macros of avr/io.h, their values here are those of that header (iom328p.h).  A register
declared with an enumeration as value type (`register_t<data, rw_t, address>`) has the size of its underlying type.
-/

namespace Verif
namespace Mcu
namespace Atmega
namespace reg

namespace sreg
/-- `sreg::whole` (atmega328.hpp:66). -/
abbrev whole : Field := register8 .rw 0x5f
/-- `sreg::I` (atmega328.hpp:67). -/
abbrev I : Field := bit8 .rw 0x5f 7
/-- `sreg::T` (atmega328.hpp:68). -/
abbrev T : Field := bit8 .rw 0x5f 6
/-- `sreg::H` (atmega328.hpp:69). -/
abbrev H : Field := bit8 .rw 0x5f 5
/-- `sreg::S` (atmega328.hpp:70). -/
abbrev S : Field := bit8 .rw 0x5f 4
/-- `sreg::V` (atmega328.hpp:71). -/
abbrev V : Field := bit8 .rw 0x5f 3
/-- `sreg::N` (atmega328.hpp:72). -/
abbrev N : Field := bit8 .rw 0x5f 2
/-- `sreg::Z` (atmega328.hpp:73). -/
abbrev Z : Field := bit8 .rw 0x5f 1
/-- `sreg::C` (atmega328.hpp:74). -/
abbrev C : Field := bit8 .rw 0x5f 0
end sreg

namespace gpwr
/-- `core::gpwr::r0` to `r31` (atmega328.hpp:99-130), register i at address i. -/
abbrev r (i : Nat) : Field := register8 .rw i
/-- `gpwr::x` (atmega328.hpp:132). -/
abbrev x : Field := register16 .rw 0x1a
/-- `gpwr::y` (atmega328.hpp:133). -/
abbrev y : Field := register16 .rw 0x1c
/-- `gpwr::z` (atmega328.hpp:134). -/
abbrev z : Field := register16 .rw 0x1e
end gpwr

namespace sp
/-- `sp::whole` (atmega328.hpp:141). -/
abbrev whole : Field := register16 .rw 0x5d
/-- `sp::lo` (atmega328.hpp:142). -/
abbrev lo : Field := register8 .rw 0x5d
/-- `sp::hi` (atmega328.hpp:143). -/
abbrev hi : Field := register8 .rw 0x5e
end sp

/-- `eear` (atmega328.hpp:179). -/
abbrev eear : Field := register16 .rw 0x41

/-- `eedr` (atmega328.hpp:180). -/
abbrev eedr : Field := register8 .rw 0x40

namespace eecr
/-- `eecr::whole` (atmega328.hpp:192). -/
abbrev whole : Field := register8 .rw 0x3f
/-- `eecr::eepm` (atmega328.hpp:193). -/
abbrev eepm : Field := bitfield8 .rw 0x3f 5 4
/-- `eecr::eerie` (atmega328.hpp:194). -/
abbrev eerie : Field := bit8 .rw 0x3f 3
/-- `eecr::eempe` (atmega328.hpp:195). -/
abbrev eempe : Field := bit8 .rw 0x3f 2
/-- `eecr::eepe` (atmega328.hpp:196). -/
abbrev eepe : Field := bit8 .rw 0x3f 1
/-- `eecr::eere` (atmega328.hpp:197). -/
abbrev eere : Field := bit8 .rw 0x3f 0
end eecr

namespace eicra
/-- `eicra::whole` (atmega328.hpp:456). -/
abbrev whole : Field := register8 .rw 0x69
/-- `eicra::ics1` (atmega328.hpp:457). -/
abbrev ics1 : Field := bitfield8 .rw 0x69 3 2
/-- `eicra::ics0` (atmega328.hpp:458). -/
abbrev ics0 : Field := bitfield8 .rw 0x69 1 0
end eicra

namespace tccr0a
/-- `tccr0a::whole` (atmega328.hpp:734). -/
abbrev whole : Field := register8 .rw 0x44
/-- `tccr0a::com0a` (atmega328.hpp:735). -/
abbrev com0a : Field := bitfield8 .rw 0x44 7 6
/-- `tccr0a::com0b` (atmega328.hpp:736). -/
abbrev com0b : Field := bitfield8 .rw 0x44 5 4
/-- `tccr0a::wgm0` (atmega328.hpp:737). -/
abbrev wgm0 : Field := bitfield8 .rw 0x44 1 0
end tccr0a

namespace tccr0b
/-- `tccr0b::whole` (atmega328.hpp:746). -/
abbrev whole : Field := register8 .rw 0x45
/-- `tccr0b::foc0a` (atmega328.hpp:747). -/
abbrev foc0a : Field := bit8 .rw 0x45 7
/-- `tccr0b::foc0b` (atmega328.hpp:748). -/
abbrev foc0b : Field := bit8 .rw 0x45 6
/-- `tccr0b::wgm02` (atmega328.hpp:749). -/
abbrev wgm02 : Field := bit8 .rw 0x45 3
/-- `tccr0b::cs0` (atmega328.hpp:750). -/
abbrev cs0 : Field := bitfield8 .rw 0x45 2 0
end tccr0b

namespace timsk0
/-- `timsk0::whole` (atmega328.hpp:759). -/
abbrev whole : Field := register8 .rw 0x6e
/-- `timsk0::ocie0b` (atmega328.hpp:760). -/
abbrev ocie0b : Field := bit8 .rw 0x6e 2
/-- `timsk0::ocie0a` (atmega328.hpp:761). -/
abbrev ocie0a : Field := bit8 .rw 0x6e 1
/-- `timsk0::toie0` (atmega328.hpp:762). -/
abbrev toie0 : Field := bit8 .rw 0x6e 0
end timsk0

namespace tcnt0
/-- `tcnt0::whole` (atmega328.hpp:776). -/
abbrev whole : Field := register8 .rw 0x46
end tcnt0

namespace ocr0a
/-- `ocr0a::whole` (atmega328.hpp:784). -/
abbrev whole : Field := register8 .rw 0x47
end ocr0a

namespace ocr0b
/-- `ocr0b::whole` (atmega328.hpp:792). -/
abbrev whole : Field := register8 .rw 0x48
end ocr0b

namespace tifr0
/-- `tifr0::whole` (atmega328.hpp:800). -/
abbrev whole : Field := register8 .rw 0x35
/-- `tifr0::ocf0b` (atmega328.hpp:801). -/
abbrev ocf0b : Field := bit8 .rc_w1 0x35 2
/-- `tifr0::ocf0a` (atmega328.hpp:802). -/
abbrev ocf0a : Field := bit8 .rc_w1 0x35 1
/-- `tifr0::tov0` (atmega328.hpp:803). -/
abbrev tov0 : Field := bit8 .rc_w1 0x35 0
end tifr0

namespace tccr1a
/-- `tccr1a::whole` (atmega328.hpp:1108). -/
abbrev whole : Field := register8 .rw 0x80
/-- `tccr1a::com1a` (atmega328.hpp:1109). -/
abbrev com1a : Field := bitfield8 .rw 0x80 7 6
/-- `tccr1a::com1b` (atmega328.hpp:1110). -/
abbrev com1b : Field := bitfield8 .rw 0x80 5 4
/-- `tccr1a::wgm1` (atmega328.hpp:1111). -/
abbrev wgm1 : Field := bitfield8 .rw 0x80 1 0
end tccr1a

namespace tccr1b
/-- `tccr1b::whole` (atmega328.hpp:1120). -/
abbrev whole : Field := register8 .rw 0x81
/-- `tccr1b::icnc1` (atmega328.hpp:1121). -/
abbrev icnc1 : Field := bit8 .rw 0x81 7
/-- `tccr1b::ices1` (atmega328.hpp:1122). -/
abbrev ices1 : Field := bit8 .rw 0x81 6
/-- `tccr1b::wgm1` (atmega328.hpp:1123). -/
abbrev wgm1 : Field := bitfield8 .rw 0x81 4 3
/-- `tccr1b::cs1` (atmega328.hpp:1124). -/
abbrev cs1 : Field := bitfield8 .rw 0x81 2 0
end tccr1b

namespace tccr1c
/-- `tccr1c::whole` (atmega328.hpp:1133). -/
abbrev whole : Field := register8 .rw 0x82
/-- `tccr1c::foc1a` (atmega328.hpp:1134): declared with the address of TCCR1A. -/
abbrev foc1a : Field := bit8 .rw 0x80 7
/-- `tccr1c::foc1b` (atmega328.hpp:1135): declared with the address of TCCR1A. -/
abbrev foc1b : Field := bit8 .rw 0x80 6
end tccr1c

namespace tcnt1
/-- `tcnt1::whole` (atmega328.hpp:1144). -/
abbrev whole : Field := register16 .rw 0x84
/-- `tcnt1::lo` (atmega328.hpp:1145). -/
abbrev lo : Field := register8 .rw 0x84
/-- `tcnt1::hi` (atmega328.hpp:1146). -/
abbrev hi : Field := register8 .rw 0x85
end tcnt1

namespace icr1
/-- `icr1::whole` (atmega328.hpp:1155). -/
abbrev whole : Field := register16 .rw 0x86
/-- `icr1::lo` (atmega328.hpp:1156). -/
abbrev lo : Field := register8 .rw 0x86
/-- `icr1::hi` (atmega328.hpp:1157). -/
abbrev hi : Field := register8 .rw 0x87
end icr1

namespace ocr1a
/-- `ocr1a::whole` (atmega328.hpp:1166). -/
abbrev whole : Field := register16 .rw 0x88
/-- `ocr1a::lo` (atmega328.hpp:1167). -/
abbrev lo : Field := register8 .rw 0x88
/-- `ocr1a::hi` (atmega328.hpp:1168). -/
abbrev hi : Field := register8 .rw 0x89
end ocr1a

namespace ocr1b
/-- `ocr1b::whole` (atmega328.hpp:1177). -/
abbrev whole : Field := register16 .rw 0x8a
/-- `ocr1b::lo` (atmega328.hpp:1178). -/
abbrev lo : Field := register8 .rw 0x8a
/-- `ocr1b::hi` (atmega328.hpp:1179). -/
abbrev hi : Field := register8 .rw 0x8b
end ocr1b

namespace timsk1
/-- `timsk1::whole` (atmega328.hpp:1188). -/
abbrev whole : Field := register8 .rw 0x6f
/-- `timsk1::icie1` (atmega328.hpp:1189). -/
abbrev icie1 : Field := bit8 .rw 0x6f 5
/-- `timsk1::ocie1b` (atmega328.hpp:1190). -/
abbrev ocie1b : Field := bit8 .rw 0x6f 2
/-- `timsk1::ocie1a` (atmega328.hpp:1191). -/
abbrev ocie1a : Field := bit8 .rw 0x6f 1
/-- `timsk1::toie1` (atmega328.hpp:1192). -/
abbrev toie1 : Field := bit8 .rw 0x6f 0
end timsk1

namespace tifr1
/-- `tifr1::whole` (atmega328.hpp:1201). -/
abbrev whole : Field := register8 .rc_w1 0x36
/-- `tifr1::icf1` (atmega328.hpp:1202). -/
abbrev icf1 : Field := bit8 .rc_w1 0x36 5
/-- `tifr1::ocf1b` (atmega328.hpp:1203). -/
abbrev ocf1b : Field := bit8 .rc_w1 0x36 2
/-- `tifr1::ocf1a` (atmega328.hpp:1204). -/
abbrev ocf1a : Field := bit8 .rc_w1 0x36 1
/-- `tifr1::tov1` (atmega328.hpp:1205). -/
abbrev tov1 : Field := bit8 .rc_w1 0x36 0
end tifr1

namespace gtccr
/-- `gtccr::whole` (atmega328.hpp:1547). -/
abbrev whole : Field := register8 .rw 0x43
/-- `gtccr::tsm` (atmega328.hpp:1548). -/
abbrev tsm : Field := bit8 .rw 0x43 7
/-- `gtccr::psrasy` (atmega328.hpp:1549). -/
abbrev psrasy : Field := bit8 .rw 0x43 1
/-- `gtccr::psrsync` (atmega328.hpp:1550). -/
abbrev psrsync : Field := bit8 .rw 0x43 0
end gtccr

/-- `twbr` (atmega328.hpp:1746). -/
abbrev twbr : Field := register8 .rw 0xb8

/-- `twdr` (atmega328.hpp:1747). -/
abbrev twdr : Field := register8 .rw 0xbb

namespace twsr
/-- `twsr::whole` (atmega328.hpp:1753). -/
abbrev whole : Field := register8 .rw 0xb9
/-- `twsr::tws` (atmega328.hpp:1754). -/
abbrev tws : Field := bitfield8 .r 0xb9 7 3
/-- `twsr::twps` (atmega328.hpp:1755). -/
abbrev twps : Field := bitfield8 .rw 0xb9 1 0
end twsr

namespace twar
/-- `twar::whole` (atmega328.hpp:1762). -/
abbrev whole : Field := register8 .rw 0xba
/-- `twar::twa` (atmega328.hpp:1763). -/
abbrev twa : Field := bitfield8 .rw 0xba 7 1
/-- `twar::twgce` (atmega328.hpp:1764). -/
abbrev twgce : Field := bit8 .rw 0xba 0
end twar

namespace twcr
/-- `twcr::whole` (atmega328.hpp:1771). -/
abbrev whole : Field := register8 .rw 0xbc
/-- `twcr::twintc` (atmega328.hpp:1772). -/
abbrev twintc : Field := bit8 .rc_w1 0xbc 7
/-- `twcr::twint` (atmega328.hpp:1773). -/
abbrev twint : Field := bit8 .rw 0xbc 7
/-- `twcr::twea` (atmega328.hpp:1774). -/
abbrev twea : Field := bit8 .rw 0xbc 6
/-- `twcr::twsta` (atmega328.hpp:1775). -/
abbrev twsta : Field := bit8 .rw 0xbc 5
/-- `twcr::twsto` (atmega328.hpp:1776). -/
abbrev twsto : Field := bit8 .rw 0xbc 4
/-- `twcr::twwc` (atmega328.hpp:1777). -/
abbrev twwc : Field := bit8 .rw 0xbc 3
/-- `twcr::twen` (atmega328.hpp:1778). -/
abbrev twen : Field := bit8 .rw 0xbc 2
/-- `twcr::twie` (atmega328.hpp:1779). -/
abbrev twie : Field := bit8 .rw 0xbc 0
end twcr

namespace twamr
/-- `twamr::whole` (atmega328.hpp:1786). -/
abbrev whole : Field := register8 .rw 0xbd
/-- `twamr::twam` (atmega328.hpp:1787). -/
abbrev twam : Field := bitfield8 .rw 0xbd 7 1
end twamr

namespace acsr
/-- `acsr::whole` (atmega328.hpp:2122). -/
abbrev whole : Field := register8 .rw 0x50
/-- `acsr::acd` (atmega328.hpp:2123). -/
abbrev acd : Field := bit8 .rw 0x50 7
/-- `acsr::acbg` (atmega328.hpp:2124). -/
abbrev acbg : Field := bit8 .rw 0x50 6
/-- `acsr::aco` (atmega328.hpp:2125). -/
abbrev aco : Field := bit8 .r 0x50 5
/-- `acsr::aci` (atmega328.hpp:2126). -/
abbrev aci : Field := bit8 .rc_w1 0x50 4
/-- `acsr::acie` (atmega328.hpp:2127). -/
abbrev acie : Field := bit8 .rw 0x50 3
/-- `acsr::acic` (atmega328.hpp:2128). -/
abbrev acic : Field := bit8 .rw 0x50 2
/-- `acsr::acis` (atmega328.hpp:2129). -/
abbrev acis : Field := bitfield8 .rw 0x50 1 0
end acsr

/-- `didr1` (atmega328.hpp:2137). -/
abbrev didr1 : Field := bitfield8 .rw 0x7f 1 0

namespace adc
/-- `adc::whole` (atmega328.hpp:2287). -/
abbrev whole : Field := register16 .r 0x78
/-- `adc::adchl` (atmega328.hpp:2288). -/
abbrev adchl : Field := register16 .r 0x78
/-- `adc::adcl` (atmega328.hpp:2289). -/
abbrev adcl : Field := register8 .r 0x78
/-- `adc::adch` (atmega328.hpp:2290). -/
abbrev adch : Field := register8 .r 0x79
end adc

namespace admux
/-- `admux::whole` (atmega328.hpp:2299). -/
abbrev whole : Field := register8 .rw 0x7c
/-- `admux::refs` (atmega328.hpp:2300). -/
abbrev refs : Field := bitfield8 .rw 0x7c 7 6
/-- `admux::adlar` (atmega328.hpp:2301). -/
abbrev adlar : Field := bit8 .rw 0x7c 5
/-- `admux::mux` (atmega328.hpp:2302). -/
abbrev mux : Field := bitfield8 .rw 0x7c 3 0
end admux

namespace adcsra
/-- `adcsra::whole` (atmega328.hpp:2311). -/
abbrev whole : Field := register8 .rw 0x7a
/-- `adcsra::aden` (atmega328.hpp:2312). -/
abbrev aden : Field := bit8 .rw 0x7a 7
/-- `adcsra::adsc` (atmega328.hpp:2313). -/
abbrev adsc : Field := bit8 .rw 0x7a 6
/-- `adcsra::adate` (atmega328.hpp:2314). -/
abbrev adate : Field := bit8 .rw 0x7a 5
/-- `adcsra::adif` (atmega328.hpp:2315). -/
abbrev adif : Field := bit8 .rc_w1 0x7a 4
/-- `adcsra::adie` (atmega328.hpp:2316). -/
abbrev adie : Field := bit8 .rw 0x7a 3
/-- `adcsra::adps` (atmega328.hpp:2317). -/
abbrev adps : Field := bitfield8 .rw 0x7a 2 0
end adcsra

namespace adcsrb
/-- `adcsrb::whole` (atmega328.hpp:2326). -/
abbrev whole : Field := register8 .rw 0x7b
/-- `adcsrb::acme` (atmega328.hpp:2327). -/
abbrev acme : Field := bit8 .rw 0x7b 6
/-- `adcsrb::adts` (atmega328.hpp:2328). -/
abbrev adts : Field := bitfield8 .rw 0x7b 2 0
end adcsrb

/-- `didr0` (atmega328.hpp:2336). -/
abbrev didr0 : Field := bitfield8 .rw 0x7e 5 0

/-- `mem::gpio<address>::whole` (atmega328.hpp:318), with the addresses r2, r1, r0 (309-311). -/
abbrev gpior (i : Nat) : Field := register8 .rw (if i = 2 then 0x4b else if i = 1 then 0x4a else 0x3e)

/-- `mem::gpio<address>::bit<bit_id>` (atmega328.hpp:321-322). -/
abbrev gpior_bit (i bit : Nat) : Field := bit8 .rw (if i = 2 then 0x4b else if i = 1 then 0x4a else 0x3e) bit

/-- `ei::eimsk<i>` (atmega328.hpp:493-494). -/
abbrev eimsk (i : Nat) : Field := bit8 .rw 0x3d i

/-- `ei::pcicr<i>` (atmega328.hpp:543-544). -/
abbrev pcicr (i : Nat) : Field := bit8 .rw 0x68 i

/-- `ei::pcmsk<address>::whole` (atmega328.hpp:622), with the addresses pcmsk2, pcmsk1, pcmsk0 (440-442). -/
abbrev pcmsk (i : Nat) : Field := register8 .rw (if i = 2 then 0x6d else if i = 1 then 0x6c else 0x6b)

/-- `ei::pcmsk<address>::bit<bit_id>` (atmega328.hpp:625-626). -/
abbrev pcmsk_bit (i bit : Nat) : Field := bit8 .rw (if i = 2 then 0x6d else if i = 1 then 0x6c else 0x6b) bit

/-- `gpio<port>::pin` (atmega328.hpp:690), port B = 0, C = 1, D = 2. -/
abbrev pin (port : Nat) : Field := register8 .rw (0x23 + 3 * port + 0)
/-- `gpio<port>::ddr` (atmega328.hpp:691). -/
abbrev ddr (port : Nat) : Field := register8 .rw (0x23 + 3 * port + 1)
/-- `gpio<port>::port` (atmega328.hpp:692). -/
abbrev port (port : Nat) : Field := register8 .rw (0x23 + 3 * port + 2)

end reg
end Atmega
end Mcu
end Verif
