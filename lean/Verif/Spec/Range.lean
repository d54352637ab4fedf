import Verif.Model.Range

/- Specification of ranges. -/

namespace Verif

/-- `v` is a value of type `t`. -/
def IntTy.Has (t : IntTy) (v : Int) : Prop := t.lo ≤ v ∧ v ≤ t.hi

/-- The first `n` elements of the sequence `a, a + s, a + 2 s, ...`. -/
def Range.progression {T : Type} [Add T] [Mul T] [NatCast T] (a s : T) (n : ℕ) : List T :=
  (List.range n).map fun k : ℕ => a + k * s

/-- The number of elements of the sequence that are less than `b`. -/
def Range.count (a b s : Int) : ℕ := ((b - a + s - 1) / s).toNat

end Verif
