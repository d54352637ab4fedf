import Verif.Model.Register

/- Specification of register access: hardware behaviour and the contents of memory as bits. -/

namespace Verif
namespace Mcu

/-- Memory, and all writes so far. -/
structure Chip where
  mem : Nat → Byte
  log : List (Nat × Byte)

/-- Memory in which the bits `w1c a` of address `a` are flags that the program can only clear, by writing 1; the others
keep what is written. -/
def chip (w1c : Nat → Byte) : Hw Chip where
  read a s := (s.mem a, s)
  write a v s :=
    ⟨fun b => if b = a then (v &&& ~~~ w1c a) ||| (s.mem a &&& w1c a &&& ~~~ v) else s.mem b,
      s.log ++ [(a, v)]⟩

/-- Plain memory. -/
def ram : Hw Chip := chip fun _ => 0

/-- Bit `i` of the register at address `a`. -/
def bitAt (m : Nat → Byte) (a i : Nat) : Bool := (m (a + i / 8)).getLsbD (i % 8)

/-- The bits of the register of type `w` at address `a` become `f`, nothing else changes. -/
def Becomes (w : RegW) (a : Nat) (s s' : Chip) (f : Nat → Bool) : Prop :=
  (∀ i < w.bits, bitAt s'.mem a i = f i) ∧ ∀ b, b < a ∨ a + w.bits / 8 ≤ b → s'.mem b = s.mem b

/-- A field within its register. -/
structure Field.Valid (f : Field) : Prop where
  le : f.lo ≤ f.hi
  lt : f.hi < f.w.bits

/-- Bit `i` belongs to the field. -/
def Field.Has (f : Field) (i : Nat) : Prop := f.lo ≤ i ∧ i ≤ f.hi

instance (f : Field) (i : Nat) : Decidable (f.Has i) := inferInstanceAs (Decidable (_ ∧ _))

/-- The value fits into the field. -/
def Field.Fits (f : Field) (v : BitVec f.w.bits) : Prop := v.toNat < 2 ^ (f.hi - f.lo + 1)

/-- No bit of the register is a flag. -/
def Plain (w1c : Nat → Byte) (w : RegW) (a : Nat) : Prop := ∀ i < w.bits, bitAt w1c a i = false

/-- The byte writes that make up one write of a register. -/
def writes : (w : RegW) → Nat → BitVec w.bits → List (Nat × Byte)
  | .w8, a, v => [(a, v)]
  | .w16, a, v => [(a + 1, v.extractLsb' 8 8), (a, v.extractLsb' 0 8)]

/-- A field of a given register and a value for it. -/
structure Part (w : RegW) where
  hi : Nat
  lo : Nat
  value : BitVec w.bits

namespace Part
variable {w : RegW}

def field (io : Policy) (a : Nat) (p : Part w) : Field := ⟨w, io, a, p.hi, p.lo⟩

/-- Bit `i` belongs to the field. -/
def Has (p : Part w) (i : Nat) : Prop := p.lo ≤ i ∧ i ≤ p.hi

instance (p : Part w) (i : Nat) : Decidable (p.Has i) := inferInstanceAs (Decidable (_ ∧ _))

/-- The proxies that `write_lazy` makes. -/
def proxies (io : Policy) (a : Nat) : List (Part w) → Res (List (Proxy w a))
  | [] => .ok []
  | p :: ps => do
    let q ← (p.field io a).write_lazy p.value
    .ok (q :: (← proxies io a ps))

/-- The statement `f::write_lazy( v ), g::write_lazy( u ), ...;`. -/
def combined {σ : Type} (hw : Hw σ) (io : Policy) (a : Nat) (ps : List (Part w)) : M σ Unit := do
  match ← pureRes (proxies io a ps) with
  | [] => pure ()
  | q :: qs => q.statement hw qs

/-- The statements `f::write( v ); g::write( u ); ...`. -/
def separate {σ : Type} (hw : Hw σ) (io : Policy) (a : Nat) : List (Part w) → M σ Unit
  | [] => pure ()
  | p :: ps => do
    (p.field io a).write hw p.value
    separate hw io a ps

end Part

end Mcu
end Verif
