import Verif.Model.Cpp

/-
Model of include/mcu/register.hpp: masks, shifts, bit and field access to memory-mapped registers.
The target is AVR: `int` has 16 bits, pointers address bytes.
-/

namespace Verif
namespace Mcu

abbrev Byte := BitVec 8

/-- Hardware as seen by the program: reading or writing a byte address may have side effects.
(Not from the sources.) -/
structure Hw (σ : Type) where
  read : Nat → σ → Byte × σ
  write : Nat → Byte → σ → σ

/-- Computations that access hardware in state `σ`. -/
abbrev M (σ : Type) := StateT σ Res

variable {σ : Type}

/-- A volatile read of a byte. -/
def rd (hw : Hw σ) (a : Nat) : M σ Byte := fun s => .ok (hw.read a s)

/-- A volatile write of a byte. -/
def wr (hw : Hw σ) (a : Nat) (v : Byte) : M σ Unit := fun s => .ok ((), hw.write a v s)

/-- A computation without hardware access. -/
def pureRes {α : Type} (r : Res α) : M σ α := fun s => r.map fun v => (v, s)

/-- The data types of registers: `uint8_t`, `uint16_t` (register.hpp:505-521), or enumerations with these
underlying types. -/
inductive RegW where
  | w8
  | w16
deriving DecidableEq

/-- `bits<T>()` (register.hpp:38-42). -/
@[reducible] def RegW.bits : RegW → Nat
  | .w8 => 8
  | .w16 => 16

/-- `bitmask<T>( args... )` (register.hpp:47-51): computed in `int`, then converted to `T`. -/
def bitmask (w : RegW) (args : List Nat) : Res (BitVec w.bits) :=
  if args.all (· < 16) then
    .ok ((args.foldl (fun r i => r ||| (1#16 <<< i)) 0#16).setWidth w.bits)
  else .error .badShift

/-- `bitmask_n<T>( args... )` (register.hpp:55-59). -/
def bitmask_n (w : RegW) (args : List Nat) : Res (BitVec w.bits) := do
  .ok (~~~ (← bitmask w args))

/-- `rngmask<T>( hi, lo )` (register.hpp:63-72).  Simplification: `hi < 255` (otherwise the loop has already
shifted out of range). -/
def rngmask (w : RegW) (hi lo : Nat) : Res (BitVec w.bits) :=
  forRange (hi + 1 - lo) (fun k result => do .ok (result ||| (← bitmask w [lo + k]))) 0

/-- `rngmask_n<T>( hi, lo )` (register.hpp:76-80). -/
def rngmask_n (w : RegW) (hi lo : Nat) : Res (BitVec w.bits) := do
  .ok (~~~ (← rngmask w hi lo))

/-- `shl( value, n )` (register.hpp:84-88): `uint8_t` is promoted to `int`, whose shift must not lose bits. -/
def shl (w : RegW) (value : BitVec w.bits) (n : Nat) : Res (BitVec w.bits) :=
  if 16 ≤ n then .error .badShift
  else if w = .w8 ∧ 2 ^ 16 ≤ value.toNat * 2 ^ n then .error .badShift
  else .ok (value <<< n)

/-- `shr( value, n )` (register.hpp:92-96). -/
def shr (w : RegW) (value : BitVec w.bits) (n : Nat) : Res (BitVec w.bits) :=
  if 16 ≤ n then .error .badShift else .ok (value >>> n)

/-- `*to_pointer<T>( address )` as a value (register.hpp:100-104): the low byte is read first. -/
def load (hw : Hw σ) (w : RegW) (address : Nat) : M σ (BitVec w.bits) :=
  match w with
  | .w8 => rd hw address
  | .w16 => do
    let lo ← rd hw address
    let hi ← rd hw (address + 1)
    pure (hi ++ lo)

/-- `*to_pointer<T>( address ) = value` (register.hpp:100-104): the high byte is written first. -/
def store (hw : Hw σ) (w : RegW) (address : Nat) (value : BitVec w.bits) : M σ Unit :=
  match w with
  | .w8 => wr hw address value
  | .w16 => do
    wr hw (address + 1) (value.extractLsb' 8 8)
    wr hw address (value.extractLsb' 0 8)

/-- `getbit_t<T>::get` (register.hpp:169-176). -/
def getbit (hw : Hw σ) (w : RegW) (address bit : Nat) : M σ (BitVec w.bits) := do
  let v ← load hw w address
  let m ← pureRes (bitmask w [bit])
  pure (if v &&& m ≠ 0 then 1 else 0)

/-- `setbit_t<T>::set` (register.hpp:180-187). -/
def setbit (hw : Hw σ) (w : RegW) (address bit : Nat) : M σ Unit := do
  let v ← load hw w address
  let m ← pureRes (bitmask w [bit])
  store hw w address (v ||| m)

/-- `togglebit_t<T>::toggle` (register.hpp:191-198). -/
def togglebit (hw : Hw σ) (w : RegW) (address bit : Nat) : M σ Unit := do
  let v ← load hw w address
  let m ← pureRes (bitmask w [bit])
  store hw w address (v ^^^ m)

/-- `clearbit_w1_t<T>::clear` (register.hpp:202-209). -/
def clearbit_w1 (hw : Hw σ) (w : RegW) (address bit : Nat) : M σ Unit := do
  let v ← load hw w address
  let m ← pureRes (bitmask w [bit])
  store hw w address (v ||| m)

/-- `clearbit_w0_t<T>::clear` (register.hpp:213-220). -/
def clearbit_w0 (hw : Hw σ) (w : RegW) (address bit : Nat) : M σ Unit := do
  let v ← load hw w address
  let m ← pureRes (bitmask_n w [bit])
  store hw w address (v &&& m)

/-- `trigger_t<T>::trigger` (register.hpp:224-231). -/
def triggerbit (hw : Hw σ) (w : RegW) (address bit : Nat) : M σ Unit := do
  let v ← load hw w address
  let m ← pureRes (bitmask w [bit])
  store hw w address (v ||| m)

/-- `r_t<T>::read( address )` (register.hpp:242-245). -/
def readAll (hw : Hw σ) (w : RegW) (address : Nat) : M σ (BitVec w.bits) := load hw w address

/-- `r_t<T>::read( address, mask )` (register.hpp:247-250). -/
def readMask (hw : Hw σ) (w : RegW) (address : Nat) (mask : BitVec w.bits) : M σ (BitVec w.bits) := do
  let v ← load hw w address
  pure (v &&& mask)

/-- `w_t<T>::write( address, value )` (register.hpp:260-263). -/
def writeAll (hw : Hw σ) (w : RegW) (address : Nat) (value : BitVec w.bits) : M σ Unit :=
  store hw w address value

/-- `w_t<T>::write( address, mask, value )` (register.hpp:265-268). -/
def writeMask (hw : Hw σ) (w : RegW) (address : Nat) (mask value : BitVec w.bits) : M σ Unit := do
  let v ← load hw w address
  store hw w address ((v &&& ~~~ mask) ||| (value &&& mask))

/-- The io policies (register.hpp:237-317). -/
inductive Policy where
  | r
  | w
  | rw
  | rc_w1
  | rc_w0
  | rc_r
  | rs
  | rt_w
deriving DecidableEq

/-- `write_proxy<T, io, address, clear_mask, set_mask>` (register.hpp:321-343).  `set_mask` occurs in no
computation. -/
structure Proxy (w : RegW) (address : Nat) where
  clear_mask : BitVec w.bits
  value : BitVec w.bits
  apply : Bool := true

namespace Proxy
variable {w : RegW} {address : Nat}

/-- `~write_proxy()` (register.hpp:329-335). -/
def destroy (hw : Hw σ) (p : Proxy w address) : M σ Unit :=
  if p.apply then writeMask hw w address p.clear_mask p.value else pure ()

/-- `discard()` (register.hpp:339-342). -/
def discard (p : Proxy w address) : Proxy w address := { p with apply := false }

/-- `operator,( a, b )` (register.hpp:347-380): the result, after which the parameters are destroyed.  The static
assertions are in the types.  Simplification: the operands are temporaries (which become the parameters), as
everywhere in the sources. -/
def comma (hw : Hw σ) (a b : Proxy w address) : M σ (Proxy w address) := do
  let a := a.discard
  let b := b.discard
  let r : Proxy w address := ⟨a.clear_mask ||| b.clear_mask, a.value ||| b.value, true⟩
  b.destroy hw
  a.destroy hw
  pure r

/-- The statement `p, q1, q2, ...;`. -/
def statement (hw : Hw σ) (p : Proxy w address) : List (Proxy w address) → M σ Unit
  | [] => p.destroy hw
  | q :: qs => do
    let r ← p.comma hw q
    r.statement hw qs

end Proxy

/-- `bitfield_t<T, io_t, address, hi, lo>` (register.hpp:384-501): its template arguments. -/
structure Field where
  w : RegW
  io : Policy
  address : Nat
  hi : Nat
  lo : Nat

namespace Field

/-- `is_single_bit()` (register.hpp:487-490). -/
def is_single_bit (f : Field) : Bool := f.hi == f.lo

/-- `is_all_bits()` (register.hpp:492-495). -/
def is_all_bits (f : Field) : Bool := f.hi - f.lo + 1 == f.w.bits

/-- `read()` (register.hpp:403-419). -/
def read (hw : Hw σ) (f : Field) : M σ (BitVec f.w.bits) :=
  if f.is_single_bit then getbit hw f.w f.address f.hi
  else if f.is_all_bits then readAll hw f.w f.address
  else do
    let mask ← pureRes (rngmask f.w f.hi f.lo)
    let v ← readMask hw f.w f.address mask
    pureRes (shr f.w v f.lo)

/-- `set()` (register.hpp:452-457). -/
def set (hw : Hw σ) (f : Field) : M σ Unit := setbit hw f.w f.address f.hi

/-- `clear()` (register.hpp:461-466), according to the policy (282-293; the policies without `clear` do not
compile). -/
def clear (hw : Hw σ) (f : Field) : M σ Unit :=
  match f.io with
  | .rc_w1 => clearbit_w1 hw f.w f.address f.hi
  | _ => clearbit_w0 hw f.w f.address f.hi

/-- `toggle()` (register.hpp:470-475). -/
def toggle (hw : Hw σ) (f : Field) : M σ Unit := togglebit hw f.w f.address f.hi

/-- `trigger()` (register.hpp:479-484). -/
def trigger (hw : Hw σ) (f : Field) : M σ Unit := triggerbit hw f.w f.address f.hi

/-- `write( value )` (register.hpp:423-441). -/
def write (hw : Hw σ) (f : Field) (value : BitVec f.w.bits) : M σ Unit :=
  if f.is_single_bit then
    if value ≠ 0 then f.set hw else f.clear hw
  else if f.is_all_bits then writeAll hw f.w f.address value
  else do
    let mask ← pureRes (rngmask f.w f.hi f.lo)
    let v ← pureRes (shl f.w value f.lo)
    writeMask hw f.w f.address mask v

/-- `write_lazy( value )` (register.hpp:445-448). -/
def write_lazy (f : Field) (value : BitVec f.w.bits) : Res (Proxy f.w f.address) := do
  let mask ← rngmask f.w f.hi f.lo
  .ok ⟨mask, ← shl f.w value f.lo, true⟩

end Field

/-- `bitfield8_t<io, address, hi, lo>` (register.hpp:505-506). -/
abbrev bitfield8 (io : Policy) (address hi lo : Nat) : Field := ⟨.w8, io, address, hi, lo⟩

/-- `bitfield8_t<io, address, bit>` (register.hpp:505-506). -/
abbrev bit8 (io : Policy) (address bit : Nat) : Field := ⟨.w8, io, address, bit, bit⟩

/-- `register8_t<io, address>` (register.hpp:515-516). -/
abbrev register8 (io : Policy) (address : Nat) : Field := ⟨.w8, io, address, 7, 0⟩

/-- `register16_t<io, address>` (register.hpp:520-521). -/
abbrev register16 (io : Policy) (address : Nat) : Field := ⟨.w16, io, address, 15, 0⟩

end Mcu
end Verif
