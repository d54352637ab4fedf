import Mathlib.Data.List.DropRight
import Verif.Model.Cascade
import Verif.Model.FixedFloat
import Verif.Model.Matrix
import Verif.Model.OnePole

/-
Model of the stream output: include/num/matrix-io.hpp, fixed-point-io.hpp, include/core/vector-io.hpp,
include/dsp/biquad-io.hpp, biquad-cascade-io.hpp, onepole-io.hpp.

A stream is the list of characters written to it.  What `std::ostream` does with a number is modelled by
its standard semantics: the default format is that of `printf( "%.6g" )`.  Simplifications: the stream has
its default format and locale and never fails; as elsewhere, infinities, NaNs and the sign of zero are
left out.
-/

namespace Verif

/-- What has been written to a stream. -/
abbrev Text := List Char

namespace Output

/-- A decimal digit. -/
def digit (n : Nat) : Char := Char.ofNat ('0'.toNat + n % 10)

/-- The last `w` decimal digits of `n`, with leading zeros. -/
def dec : (w n : Nat) → Text
  | 0, _ => []
  | w + 1, n => dec w (n / 10) ++ [digit n]

/-- `os << n` for a number of objects or bytes (`std::size_t`, `int` that is not negative). -/
def natural (n : Nat) : Text := dec (Nat.log 10 n + 1) n

/-- Six significant digits `n` and exponent `e` of a number other than 0, so that it is about
`n / 10^5 * 10^e`: rounded to nearest, ties to even (what the C library does with an exact decimal
expansion in the default rounding mode). -/
def significant (x : ℚ) : Nat × Int :=
  let e := Int.log 10 |x|
  let n := (Ieee.roundEven (|x| / 10 ^ (e - 5))).toNat
  if n = 10 ^ 6 then (10 ^ 5, e + 1) else (n, e)

/-- Decimal point and digits after it, without trailing zeros. -/
def fraction (t : Text) : Text :=
  match t.rdropWhile (· == '0') with
  | [] => []
  | s => '.' :: s

/-- Exponent: sign and at least two digits. -/
def exponent (e : Int) : Text :=
  'e' :: (if e < 0 then '-' else '+') :: dec (max 2 (Nat.log 10 e.natAbs + 1)) e.natAbs

/-- `os << x` for a `double` or `float` of value `x`: `printf( "%.6g", x )`. -/
def number (x : ℚ) : Text :=
  if x = 0 then ['0'] else
  let n := (significant x).1
  let e := (significant x).2
  (if x < 0 then ['-'] else []) ++
    if e < -4 ∨ 6 ≤ e then dec 1 (n / 10 ^ 5) ++ fraction (dec 5 (n % 10 ^ 5)) ++ exponent e
    else if 0 ≤ e then
      dec (e.toNat + 1) (n / 10 ^ (5 - e.toNat)) ++
        fraction (dec (5 - e.toNat) (n % 10 ^ (5 - e.toNat)))
    else '0' :: fraction (List.replicate (-e - 1).toNat '0' ++ dec 6 n)

/-- `os << x` for a floating-point number of the model. -/
def float {f : Ieee.Format} (x : Flt f) : Text := number x.val

section
variable {T : Type}

/-- `operator<<( std::ostream &, matrix )` (matrix-io.hpp:16-28); `elem` is the output of an element. -/
def matrix {N M : Nat} (elem : T → Text) (A : Mat T N M) : Res Text :=
  forRange N (fun row os => do
    let os ← forRange M (fun col os => do
      let v ← A.at2 row col
      .ok (os ++ [' '] ++ elem v)) os
    .ok (os ++ ['\n'])) []

/-- `operator<<( std::ostream &, std::vector )` (vector-io.hpp:16-25). -/
def vector (elem : T → Text) (x : List T) : Text :=
  x.foldl (fun os v => os ++ [' '] ++ elem v) ['['] ++ [']']

/-- `operator<<` of `AT` (biquad-io.hpp:16-20). -/
def bqA (elem : T → Text) (a : BqA T) : Text :=
  "[A ".toList ++ elem a.a1 ++ ", ".toList ++ elem a.a2 ++ " ]".toList

/-- `operator<<` of `BT` (biquad-io.hpp:22-26). -/
def bqB (elem : T → Text) (b : BqB T) : Text :=
  "[B ".toList ++ elem b.b0 ++ ", ".toList ++ elem b.b1 ++ ", ".toList ++ elem b.b2 ++ " ]".toList

/-- `operator<<` of `BAT` (biquad-io.hpp:28-32). -/
def bqBA (elem : T → Text) (b : BqB T) (a : BqA T) : Text := bqB elem b ++ bqA elem a

/-- `operator<<` of `WT` (biquad-io.hpp:34-38). -/
def bqW (elem : T → Text) (w : BqW T) : Text :=
  "[W ".toList ++ elem w.v1 ++ ", ".toList ++ elem w.v2 ++ " ]".toList
end

/-- `operator<<` of `std::complex`. -/
def complex (elem : ℝ → Text) (z : ℂ) : Text := "(".toList ++ elem z.re ++ ",".toList ++ elem z.im ++ ")".toList

/-- `operator<<` of `SolutionT` (biquad-io.hpp:40-44). -/
def solution (elem : ℝ → Text) (s : Solution) : Text :=
  "[S ".toList ++ complex elem s.s0 ++ ", ".toList ++ complex elem s.s1 ++ " ]".toList

/-- `operator<<` of `BiQuadT` (biquad-io.hpp:46-57); `elem` is the output of a number. -/
noncomputable def biquad (elem : ℝ → Text) (q : Biquad ℝ) : Res Text := do
  let stable ← q.is_stable
  let p ← q.poles
  let z ← q.zeros
  .ok ("\nBiQuad is ".toList ++ (if stable then "stable:" else "NOT stable:").toList ++
    "\na: ".toList ++ bqA elem q.coeff_a ++ "\nb: ".toList ++ bqB elem q.coeff_b ++
    "\nw: ".toList ++ bqW elem q.state ++ "\np: ".toList ++ solution elem p ++
    "\nz: ".toList ++ solution elem z ++ "\n".toList)

/-- `operator<<` of `BiQuadCascadeT` (biquad-cascade-io.hpp:16-34); `bytes` is `sizeof` of the type. -/
noncomputable def cascade (elem : ℝ → Text) (bytes : Nat) {N : Nat} (c : Cascade ℝ N) : Res Text := do
  let stable ← c.is_stable
  let os := "\nFilter cascade occupies ".toList ++ natural bytes ++ " bytes in memory.".toList ++
    "\nfilters: ".toList ++ natural c.size ++ " entries out of ".toList ++ natural c.reserved ++
    ", ".toList ++ (if stable then "stable:" else "NOT stable:").toList ++ "\n".toList
  forRange c.next (fun k os => do
    let q ← c.get k
    let t ← biquad elem q
    .ok (os ++ t)) os

/-- `operator<<` of `OnePoleT` (onepole-io.hpp:47-58) with those of its parts (16-44). -/
noncomputable def onepole (elem : ℝ → Text) (q : OnePole ℝ) : Res Text := do
  let p ← q.poles
  .ok ("\nOnePole is always stable".toList ++
    "\na: ".toList ++ "[A ".toList ++ elem q.coeff_a ++ " ]".toList ++
    "\nb: ".toList ++ "[B ".toList ++ elem q.coeff_b ++ " ]".toList ++
    "\nw: ".toList ++ "[W ".toList ++ elem q.state ++ " ]".toList ++
    "\np: ".toList ++ "[S ".toList ++ complex elem p ++ " ]".toList ++
    "\nz: ".toList ++ "[S ".toList ++ complex elem q.zeros ++ " ]".toList ++ "\n".toList)

end Output

namespace Fx
variable {w : Width} {F : Nat}

/-- `operator<<( std::ostream &, fixed_point )` (fixed-point-io.hpp:16-20), on the desktop. -/
def print (x : Fx w F) : Res Text := do
  let d ← x.asFlt Ieee.binary64
  .ok (Output.float d)

end Fx
end Verif
