import Verif.Model.Cpp

/-
Model of include/num/matrix.hpp.

Simplifications common to all definitions: template arguments `int N, int M` are natural numbers
(the code requires positive ones); index arithmetic on `int` is exact (`Int`), i.e. `N*M` is assumed
to fit an `int`; `constexpr` is ignored.
-/

namespace Verif

/-- `matrix<T,N,M>` with `value_type storage[ N * M ]` (matrix.hpp:45-46, 171). -/
structure Mat (T : Type) (N M : Nat) where
  storage : Vector T (N * M)

/-- `colvec<T,N>` is `matrix<T,N,1>` (matrix.hpp:37-38). -/
abbrev ColVec (T : Type) (N : Nat) := Mat T N 1
/-- `rowvec<T,M>` is `matrix<T,1,M>` (matrix.hpp:40-41). -/
abbrev RowVec (T : Type) (M : Nat) := Mat T 1 M

namespace Mat
variable {T : Type} {N M : Nat}

/-- `rows()` (matrix.hpp:81-84). -/
def rows (_ : Mat T N M) : Nat := N
/-- `columns()` (matrix.hpp:86-89). -/
def columns (_ : Mat T N M) : Nat := M
/-- `size()` (matrix.hpp:91-94). -/
def size (A : Mat T N M) : Nat := A.rows * A.columns

/-- `at( int ndx ) const` (matrix.hpp:106-109): no bounds check in the code, so an index outside
`storage` is undefined behaviour. -/
def at1 (A : Mat T N M) (ndx : Int) : Res T :=
  if h : 0 ≤ ndx ∧ ndx.toNat < N * M then .ok (A.storage[ndx.toNat]'h.2) else .error .outOfBounds

/-- `at( int row, int col ) const`, `operator()( int row, int col ) const` (matrix.hpp:111-119). -/
def at2 (A : Mat T N M) (row col : Int) : Res T := A.at1 (row * M + col)

/-- `operator[]( int ) const`, `operator()( int ) const` (matrix.hpp:96-104). -/
def idx (A : Mat T N M) (ndx : Int) : Res T := A.at2 0 ndx

/-- Assignment through the reference returned by `at( int ndx )` (matrix.hpp:138-141). -/
def set1 (A : Mat T N M) (ndx : Int) (v : T) : Res (Mat T N M) :=
  if h : 0 ≤ ndx ∧ ndx.toNat < N * M then .ok ⟨A.storage.set ndx.toNat v h.2⟩
  else .error .outOfBounds

/-- Assignment through `operator()( int row, int col )`, `at( int row, int col )`
(matrix.hpp:133-136, 143-146). -/
def set2 (A : Mat T N M) (row col : Int) (v : T) : Res (Mat T N M) := A.set1 (row * M + col) v

/-- Assignment through `operator[]( int )`, `operator()( int )` (matrix.hpp:123-131). -/
def setIdx (A : Mat T N M) (ndx : Int) (v : T) : Res (Mat T N M) := A.set2 0 ndx v

/-- `matrix( value_type v )` (matrix.hpp:67-71); `std20::fill` over the whole storage is modelled by
its result (the loop itself is `Verif.Model.Algorithm`). -/
def fill (N M : Nat) (v : T) : Mat T N M := ⟨Vector.replicate (N * M) v⟩

/-- The loop of `std20::copy( il.begin(), il.end(), begin() )` (std/algorithm.hpp:14-22):
consecutive writes from index `k`. -/
def copyFrom (A : Mat T N M) : (k : Nat) → List T → Res (Mat T N M)
  | _, [] => .ok A
  | k, x :: xs => do
    let A ← A.set1 k x
    copyFrom A (k + 1) xs

/-- `matrix( std::initializer_list<T> il )` (matrix.hpp:73-77): value-initialise, then copy without
checking the length. -/
def ofList [CNum T] (N M : Nat) (il : List T) : Res (Mat T N M) :=
  (fill N M CNum.zero).copyFrom 0 il

section ops
variable [CNum T]

/-! ### 1x1 matrix algorithms -/

/-- `vec_1x1 + v` (matrix.hpp:179-183). -/
def add11s (A : Mat T 1 1) (v : T) : Res T := do CNum.add (← A.idx 0) v
/-- `v + vec_1x1` (matrix.hpp:187-191): the operands change places. -/
def adds11 (v : T) (A : Mat T 1 1) : Res T := do CNum.add (← A.idx 0) v
/-- `vec_1x1 - v` (matrix.hpp:195-199). -/
def sub11s (A : Mat T 1 1) (v : T) : Res T := do CNum.sub (← A.idx 0) v
/-- `v - vec_1x1` (matrix.hpp:203-207). -/
def subs11 (v : T) (A : Mat T 1 1) : Res T := do CNum.sub v (← A.idx 0)
/-- `vec_1x1 * v` (matrix.hpp:211-215). -/
def mul11s (A : Mat T 1 1) (v : T) : Res T := do CNum.mul (← A.idx 0) v
/-- `v * vec_1x1` (matrix.hpp:219-223): calls the former. -/
def muls11 (v : T) (A : Mat T 1 1) : Res T := A.mul11s v
/-- `A1x1 * A1x1` (matrix.hpp:242-246). -/
def mul11 (A B : Mat T 1 1) : Res (Mat T 1 1) := do
  ofList 1 1 [← CNum.mul (← A.idx 0) (← B.idx 0)]

/-! ### vector algorithms -/

/-- `rowvec * colvec`, dot product (matrix.hpp:253-263). -/
def dot {N : Nat} (a : RowVec T N) (b : ColVec T N) : Res T :=
  forRange a.size (fun i result => do
    CNum.add result (← CNum.mul (← a.idx i) (← b.idx i))) CNum.zero

/-- `colvec * rowvec`, outer product (matrix.hpp:267-280). -/
def outer {N : Nat} (a : ColVec T N) (b : RowVec T N) : Res (Mat T N N) :=
  forRange a.rows (fun row result =>
    forRange b.columns (fun col result => do
      result.set2 row col (← CNum.mul (← a.idx row) (← b.idx col))) result) (fill N N CNum.zero)

/-! ### matrix algorithms -/

/-- `A + v` (matrix.hpp:286-296). -/
def addS (A : Mat T N M) (v : T) : Res (Mat T N M) :=
  forRange A.size (fun i result => do
    result.setIdx i (← CNum.add (← A.idx i) v)) (fill N M CNum.zero)

/-- `A - v` = `A + -v` (matrix.hpp:308-312). -/
def subS (A : Mat T N M) (v : T) : Res (Mat T N M) := do A.addS (← CNum.neg v)

/-- `A * v` (matrix.hpp:316-326). -/
def mulS (A : Mat T N M) (v : T) : Res (Mat T N M) :=
  forRange A.size (fun i result => do
    result.setIdx i (← CNum.mul (← A.idx i) v)) (fill N M CNum.zero)

/-- `v + A` (matrix.hpp:300-304): calls `A + v`. -/
def sAdd (v : T) (A : Mat T N M) : Res (Mat T N M) := A.addS v

/-- `v * A` (matrix.hpp:330-334): calls `A * v`. -/
def sMul (v : T) (A : Mat T N M) : Res (Mat T N M) := A.mulS v

/-- `A * A1x1` (matrix.hpp:338-342). -/
def mulM11 (A : Mat T N M) (v : Mat T 1 1) : Res (Mat T N M) := do A.mulS (← v.idx 0)

/-- `A1x1 * A` (matrix.hpp:346-350): the operands change places. -/
def m11Mul (v : Mat T 1 1) (A : Mat T N M) : Res (Mat T N M) := do A.mulS (← v.idx 0)

/-- `A + B1x1` (matrix.hpp:227-231). -/
def addM11 (A : Mat T N M) (B : Mat T 1 1) : Res (Mat T N M) := do A.addS (← B.idx 0)

/-- `A1x1 + B` (matrix.hpp:235-239): `A(0) + B`. -/
def m11Add (A : Mat T 1 1) (B : Mat T N M) : Res (Mat T N M) := do sAdd (← A.idx 0) B

/-- `A + A` (matrix.hpp:354-364). -/
def add (a b : Mat T N M) : Res (Mat T N M) :=
  forRange a.size (fun i result => do
    result.setIdx i (← CNum.add (← a.idx i) (← b.idx i))) (fill N M CNum.zero)

/-- `A - A` (matrix.hpp:368-378). -/
def sub (a b : Mat T N M) : Res (Mat T N M) :=
  forRange a.size (fun i result => do
    result.setIdx i (← CNum.sub (← a.idx i) (← b.idx i))) (fill N M CNum.zero)

/-- `A * B` (matrix.hpp:382-399); note that both operands and the result have shape `N`x`M`. -/
def mul (A B : Mat T N M) : Res (Mat T N M) :=
  forRange A.rows (fun row result =>
    forRange A.columns (fun col result =>
      forRange A.columns (fun k result => do
        result.set2 row col (← CNum.add (← result.at2 row col)
          (← CNum.mul (← A.at2 row k) (← B.at2 k col)))) result) result) (fill N M CNum.zero)

/-- `x * A`, row vector (matrix.hpp:403-415); note the result has `N` columns, not `M`. -/
def vecMul (x : RowVec T N) (A : Mat T N M) : Res (RowVec T N) :=
  forRange A.rows (fun row result =>
    forRange A.columns (fun col result => do
      result.setIdx col (← CNum.add (← result.idx col)
        (← CNum.mul (← A.at2 row col) (← x.idx row)))) result) (fill 1 N CNum.zero)

/-- `A * x`, column vector (matrix.hpp:419-431); note `x` has `N` rows, not `M`. -/
def mulVec (A : Mat T N M) (x : ColVec T N) : Res (ColVec T N) :=
  forRange A.rows (fun row result =>
    forRange A.columns (fun col result => do
      result.setIdx row (← CNum.add (← result.idx row)
        (← CNum.mul (← A.at2 row col) (← x.idx col)))) result) (fill N 1 CNum.zero)

/-! ### Transposition -/

/-- `transposed( colvec )` (matrix.hpp:438-446): copy the storage. -/
def transposedCol {N : Nat} (x : ColVec T N) : Res (RowVec T N) :=
  (fill 1 N CNum.zero).copyFrom 0 x.storage.toList

/-- `transposed( rowvec )` (matrix.hpp:450-458): copy the storage. -/
def transposedRow {N : Nat} (x : RowVec T N) : Res (ColVec T N) :=
  (fill N 1 CNum.zero).copyFrom 0 x.storage.toList

/-- `transposed( matrix<T,2,2> )` (matrix.hpp:469-477): copy and swap two elements
(`std20::swap`, std/utility.hpp: temporary, two assignments). -/
def transposed22 (A : Mat T 2 2) : Res (Mat T 2 2) := do
  let tmp ← A.at2 0 1
  let result ← A.set2 0 1 (← A.at2 1 0)
  result.set2 1 0 tmp

/-! ### Inversion -/

/-- `inverted( T v )` (matrix.hpp:484-488). -/
def invertedS (v : T) : Res T :=
  if CNum.isNonZero v then CNum.div CNum.one v else .ok CNum.zero

/-- `inverted( matrix<T,2,2> )` (matrix.hpp:492-505); unary plus is the identity;
`- det * A(2)` parses as `(-det) * A(2)`. -/
def inverted22 (A : Mat T 2 2) : Res (Mat T 2 2) := do
  let det ← CNum.div CNum.one
    (← CNum.sub (← CNum.mul (← A.idx 0) (← A.idx 3)) (← CNum.mul (← A.idx 1) (← A.idx 2)))
  let result : Mat T 2 2 := fill 2 2 CNum.zero
  let result ← result.setIdx 0 (← CNum.mul det (← A.idx 3))
  let result ← result.setIdx 1 (← CNum.mul (← CNum.neg det) (← A.idx 2))
  let result ← result.setIdx 2 (← CNum.mul (← CNum.neg det) (← A.idx 1))
  result.setIdx 3 (← CNum.mul det (← A.idx 0))

/-! ### Other -/

/-- `eye<T,N>()` (matrix.hpp:512-522). -/
def eye (T : Type) [CNum T] (N : Nat) : Res (Mat T N N) :=
  forRange N (fun i result => result.set2 i i CNum.one) (fill N N CNum.zero)

end ops
end Mat
end Verif
