import Verif.Model.Cascade
import Verif.Spec.Filter

/- A cascade is a list of at most `N` sections; filters in series. -/

namespace Verif
namespace Cascade
variable {T : Type} {N : Nat}

/-- The sections in use. -/
def toList (c : Cascade T N) : List (Biquad T) := c.biquad.toList.take c.next

/-- The representation invariant. -/
def WF (c : Cascade T N) : Prop := c.next ≤ N

/-- The operations that change the set of sections. -/
inductive Op (T : Type) where
  | append (bq : Biquad T)
  | insert (i : Int) (bq : Biquad T)
  | remove (i : Int)
  | replace (i : Int) (bq : Biquad T)
  | clear

/-- Their effect on the object. -/
def Op.run (c : Cascade T N) : Op T → Res (Cascade T N)
  | .append bq => c.append bq
  | .insert i bq => c.insert i bq
  | .remove i => c.remove i
  | .replace i bq => do .ok (← c.replace i bq).2
  | .clear => .ok c.clear

/-- Their effect on a list of at most `N` sections; `none` if the precondition is violated. -/
def Op.spec (N : Nat) (l : List (Biquad T)) : Op T → Option (List (Biquad T))
  | .append bq => if l.length < N then some (l ++ [bq]) else none
  | .insert i bq =>
    if 0 ≤ i ∧ i < l.length ∧ l.length < N then some (l.insertIdx i.toNat bq) else none
  | .remove i => if 0 ≤ i ∧ i < l.length then some (l.eraseIdx i.toNat) else none
  | .replace i bq => if 0 ≤ i ∧ i < l.length then some (l.set i.toNat bq) else none
  | .clear => some []

/-- A sequence of operations on the object. -/
def runOps (c : Cascade T N) : List (Op T) → Res (Cascade T N)
  | [] => .ok c
  | op :: ops => do runOps (← op.run c) ops

/-- A sequence of operations on the list. -/
def specOps (N : Nat) (l : List (Biquad T)) : List (Op T) → Option (List (Biquad T))
  | [] => some l
  | op :: ops => (op.spec N l).bind (specOps N · ops)

end Cascade

namespace Sig
variable {σ T : Type}

/-- Filters in series: `z` is obtained from `x` by passing the whole sequence through the filters one
after the other. -/
def Series (f : σ → T → Res (T × σ)) : List σ → (ℕ → T) → (ℕ → T) → Prop
  | [], x, z => z = x
  | q :: qs, x, z => ∃ y, Runs f q x y ∧ Series f qs y z

end Sig
end Verif
