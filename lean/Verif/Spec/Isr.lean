import Verif.Model.Isr
import Verif.Spec.Register

/- Specification of interrupts: when they happen and what they may do; timers, mailboxes and 16-bit registers as the
hardware manual describes them. -/

namespace Verif
namespace Mcu

/-! ### Interrupts between the instructions of the main program -/

/-- Value of a variable of `n` bytes. -/
abbrev Val (n : Nat) := Fin n → Byte

/-- State of main program and interrupt routine: the shared variable, the copy of the main program, the interrupt enable
flag; and, for each run of the interrupt routine, the value of the variable it found and the value it left. -/
structure Cpu (n : Nat) where
  var : Val n
  copy : Val n
  ie : Bool
  runs : List (Val n × Val n)

namespace Cpu
variable {n : Nat}

/-- Effect of an instruction. -/
def step (s : Cpu n) : Instr n → Cpu n
  | .cli => { s with ie := false }
  | .sei => { s with ie := true }
  | .load k => { s with copy := fun j => if j = k then s.var j else s.copy j }
  | .store k v => { s with var := fun j => if j = k then v else s.var j }

/-- The interrupt routine runs once; it changes the variable by `f`. -/
def isr (s : Cpu n) (f : Val n → Val n) : Cpu n := { s with var := f s.var, runs := s.runs ++ [(s.var, f s.var)] }

/-- The interrupt routine runs any number of times, if interrupts are enabled. -/
def interrupts (s : Cpu n) (fs : List (Val n → Val n)) : Cpu n := if s.ie then fs.foldl isr s else s

/-- Execution of a program; before instruction number `i`, and after the last one, the interrupts `sched i` arrive. -/
def exec : List (Instr n) → (sched : Nat → List (Val n → Val n)) → Cpu n → Cpu n
  | [], sched, s => s.interrupts (sched 0)
  | i :: is, sched, s => exec is (fun k => sched (k + 1)) ((s.interrupts (sched 0)).step i)

end Cpu

/-- Runs of the interrupt routine one after the other, the first of which finds `x`, each further one finds what the one
before has left, and the last of which leaves `y`. -/
def Chain {n : Nat} (x : Val n) : List (Val n × Val n) → Val n → Prop
  | [], y => y = x
  | p :: ps, y => p.1 = x ∧ Chain p.2 ps y

namespace Atmega

/-! ### Mailboxes -/

/-- A mailbox flag and its user: `posts` is the number of times an interrupt routine has posted; before the next access
of the main program the interrupt routine posts `sched 0` times, before the one after that `sched 1` times, etc. -/
structure Box where
  flag : Byte
  posts : Nat
  sched : Nat → Nat

/-- The interrupt routine posts as scheduled. -/
def Box.interrupts (s : Box) : Box :=
  ⟨if s.sched 0 = 0 then s.flag else 1, s.posts + s.sched 0, fun k => s.sched (k + 1)⟩

/-- Access to the flag by the main program. -/
def boxHw : Hw Box where
  read _ s := (s.interrupts.flag, s.interrupts)
  write _ v s := { s.interrupts with flag := v }

/-- `n` polls of the mailbox in a row: the answers. -/
def polls : Nat → M Box (List Bool)
  | 0 => pure []
  | n + 1 => do
    let b ← mbxGet boxHw 0
    let bs ← polls n
    pure (b :: bs)

/-! ### Timer -/

/-- 8-bit timer in CTC mode: the counter counts to the compare value and is then cleared; each time it is cleared
a compare interrupt is requested (`events` counts these). -/
structure Ctc where
  count : Nat
  events : Nat

/-- One timer clock. -/
def Ctc.clock (ocr : Nat) (t : Ctc) : Ctc :=
  if t.count = ocr then ⟨0, t.events + 1⟩ else ⟨t.count + 1, t.events⟩

/-! ### 16-bit registers -/

/-- The result register of the ADC: reading the low byte (0x78) locks the register until the high byte has been read.
Before the next access a conversion may deliver a new result, before the one after that another, etc. -/
structure Adc where
  data : BitVec 16
  locked : Option (BitVec 16)
  sched : Nat → Option (BitVec 16)

/-- The conversion that completes before the next access, if any. -/
def Adc.conversion (s : Adc) : Adc := ⟨(s.sched 0).getD s.data, s.locked, fun k => s.sched (k + 1)⟩

/-- Access to the result register of the ADC. -/
def adcHw : Hw Adc where
  read a s :=
    let s := s.conversion
    if a = 0x78 then ((s.data).extractLsb' 0 8, { s with locked := some s.data })
    else ((s.locked.getD s.data).extractLsb' 8 8, { s with locked := none })
  write _ _ s := s

/-- A 16-bit timer register: writing the high byte (0x89) stores it in a temporary register, writing the low byte (0x88)
sets the whole register.  `history` lists the values the register has had. -/
structure Ocr where
  temp : Byte
  history : List (BitVec 16)

/-- Access to a 16-bit timer register. -/
def ocrHw : Hw Ocr where
  read _ s := (0, s)
  write a v s := if a = 0x89 then { s with temp := v } else { s with history := s.history ++ [s.temp ++ v] }

end Atmega
end Mcu
end Verif
