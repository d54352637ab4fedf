import Verif.Model.DesignFloat

/-
Model of include/dsp/chebyshev-design.hpp for any numeric type, in particular floating point with rounding.  The
functions of `<cmath>` are parameters.

Simplifications: all intermediate results have the type `T`.  For `double` this is so, also on AVR, where `double` is
binary32; for `float` elsewhere the unqualified `sin` and `cos` may be those of `double`.  Subexpressions that occur
several times in the source (`W0 * W0`, `2 * W0 * cos( th )`) are evaluated once.  The reported `f3` is not computed
(for real numbers it is in Verif/Model/ChebyshevInfo.lean); it does not influence the sections.
-/

namespace Verif.ChebyshevFloat

/-- The functions of `<cmath>` and the constants used by the designs; `pow x s` is `std::pow( x, s )`, `lt` is `<`,
`ceilInt` is `as<int>( std::ceil( · ) )`, `hundredth` is `0.01`. -/
structure Math (T : Type) extends DesignFloat.Math T where
  pow : T → T → Res T
  acosh : T → Res T
  asinh : T → Res T
  sinh : T → Res T
  sin : T → Res T
  cos : T → Res T
  ceilInt : T → Res ℤ
  lt : T → T → Bool
  hundredth : T

/-- `DigitalCoeffT<T>` (chebyshev-design.hpp:67-87): the coefficients of the sections and the order. -/
structure Digital (T : Type) where
  b : List (BqB T)
  a : List (BqA T)
  N : ℤ

/-- `A.emplace_back( … ); B.emplace_back( … )` (e.g. chebyshev-design.hpp:133-134). -/
def Digital.push {T : Type} (d : Digital T) (x : BqB T × BqA T) : Digital T :=
  { d with b := d.b ++ [x.1], a := d.a ++ [x.2] }

variable {T : Type} [CNum T] [CLit T] (M : Math T)

/-- `epass`, `estop` (chebyshev-design.hpp:110-111, 186-187). -/
def ripple (A : T) : Res T := do
  M.sqrt (← CNum.sub (← M.pow10 (← CNum.div A (← CLit.lit 10))) CNum.one)

/-- `s` (chebyshev-design.hpp:105, 181); `low`: `kind == FilterResponse::low_pass`, otherwise high pass. -/
def sgn (low : Bool) : Res T := if low then .ok CNum.one else CLit.lit (-1)

/-- The common beginning of the type 1 and type 2 designs (chebyshev-design.hpp:98-114, 174-190): the checked `s`,
`Wpass`, `Wstop`, `epass`, `estop`, `N`. -/
def order (low : Bool) (fs fpass fstop Apass Astop : T) : Res (T × T × T × T × T × ℤ) := do
  let half ← CNum.div fs (← CLit.lit 2)
  if !M.lt fpass half then .error .assertFail
  else if !M.lt fstop half then .error .assertFail
  else
    let s ← sgn low
    let Wpass ← M.pow (← DesignFloat.prewarp M.toMath fpass fs) s
    let Wstop ← M.pow (← DesignFloat.prewarp M.toMath fstop fs) s
    let epass ← ripple M Apass
    let estop ← ripple M Astop
    let Nex ← CNum.div (← M.acosh (← CNum.div estop epass)) (← M.acosh (← CNum.div Wstop Wpass))
    let N ← M.ceilInt Nex
    .ok (s, Wpass, Wstop, epass, estop, N)

/-- `a` (chebyshev-design.hpp:118, 194). -/
def asinhN (estop : T) (N : ℤ) : Res T := do CNum.div (← M.asinh estop) (← CLit.lit N)

/-- `th` (chebyshev-design.hpp:139, 214); the `int` arithmetic overflows for an order of 2^30 or more. -/
def angle (N i : ℤ) : Res T :=
  if 2 * N ≤ 2147483647 then do CNum.div (← CNum.mul M.pi (← CLit.lit (N - 1 + 2 * i))) (← CLit.lit (2 * N))
  else .error .overflow

/-- The first-order section (chebyshev-design.hpp:131-134, 207-210). -/
def first (s W0 : T) : Res (BqB T × BqA T) := do
  let G ← CNum.div CNum.one (← CNum.add CNum.one W0)
  let a1 ← CNum.mul s (← CNum.sub (← CNum.mul (← CLit.lit 2) G) CNum.one)
  let b1 ← CNum.mul s G
  .ok (⟨G, b1, CNum.zero⟩, ⟨a1, CNum.zero⟩)

/-- `2 * W0 * cos( th )` (chebyshev-design.hpp:141, 216). -/
def mid (W0 c : T) : Res T := do CNum.mul (← CNum.mul (← CLit.lit 2) W0) c

omit [CLit T] in
/-- `D`, that is `1 - 2 * W0 * cos( th ) + W0 * W0 + Wi * Wi`, from `e` = `2 * W0 * cos( th )`, `p` = `W0 * W0` and
`q` = `Wi * Wi` (chebyshev-design.hpp:141, 216). -/
def den (e p q : T) : Res T := do CNum.add (← CNum.add (← CNum.sub CNum.one e) p) q

omit [CLit T] in
/-- `1 + 2 * W0 * cos( th ) + W0 * W0 + Wi * Wi` (chebyshev-design.hpp:144, 220). -/
def num (e p q : T) : Res T := do CNum.add (← CNum.add (← CNum.add CNum.one e) p) q

/-- A second-order section of type 1 from `Wi` and `c` = `cos( th )` (chebyshev-design.hpp:141-147). -/
def section1 (s W0 Wi c : T) : Res (BqB T × BqA T) := do
  let e ← mid W0 c
  let p ← CNum.mul W0 W0
  let q ← CNum.mul Wi Wi
  let D ← den e p q
  let G ← CNum.div (← CNum.add p q) D
  let a1 ← CNum.div (← CNum.mul (← CLit.lit 2) (← CNum.sub (← CNum.add p q) CNum.one)) D
  let a2 ← CNum.div (← num e p q) D
  let sa1 ← CNum.mul s a1
  let b1 ← CNum.mul (← CNum.mul G s) (← CLit.lit 2)
  .ok (⟨G, b1, G⟩, ⟨sa1, a2⟩)

/-- A second-order section of type 2 from `Wi` and `c` = `cos( th )` (chebyshev-design.hpp:216-223). -/
def section2 (s W0 Wi c : T) : Res (BqB T × BqA T) := do
  let e ← mid W0 c
  let p ← CNum.mul W0 W0
  let q ← CNum.mul Wi Wi
  let D ← den e p q
  let G ← CNum.div (← CNum.add CNum.one q) D
  let b1 ← CNum.div (← CNum.mul (← CLit.lit 2) (← CNum.sub CNum.one q)) (← CNum.add CNum.one q)
  let a1 ← CNum.div (← CNum.mul (← CLit.lit 2) (← CNum.sub (← CNum.sub CNum.one p) q)) D
  let a2 ← CNum.div (← num e p q) D
  let sa1 ← CNum.mul s a1
  let gb1 ← CNum.mul (← CNum.mul G s) b1
  .ok (⟨G, gb1, G⟩, ⟨sa1, a2⟩)

/-- `coeff` and `if ( r == 1 )` (chebyshev-design.hpp:124-135, 200-211). -/
def start (r N : ℤ) (s W0 : T) : Res (Digital T) :=
  if r = 1 then do .ok ((⟨[], [], N⟩ : Digital T).push (← first s W0)) else .ok ⟨[], [], N⟩

/-- `r`, `K`, `if ( r == 1 )` and the loop over `core::range( 1, K+1 )` (chebyshev-design.hpp:115-116, 129-148, 191-192,
205-224) with the section `body i` for `i` = 1, …, `K`. -/
def sections (N : ℤ) (s W0 : T) (body : ℤ → Res (BqB T × BqA T)) : Res (Digital T) := do
  let coeff ← start (N % 2) N s W0
  forRange ((N - N % 2) / 2).toNat (fun k coeff => do .ok (coeff.push (← body (k + 1)))) coeff

/-- `chebyshev1_lp_hp_impl` (chebyshev-design.hpp:96-151). -/
def chebyshev1_lp_hp_impl (low : Bool) (fs fpass fstop Apass Astop : T) : Res (Digital T) := do
  let (s, Wpass, _Wstop, _epass, estop, N) ← order M low fs fpass fstop Apass Astop
  let W0 ← CNum.mul (← M.sinh (← asinhN M estop N)) Wpass
  sections N s W0 fun i => do
    let th ← angle M N i
    let Wi ← CNum.mul Wpass (← M.sin th)
    section1 s W0 Wi (← M.cos th)

/-- `chebyshev2_lp_hp_impl` (chebyshev-design.hpp:172-226). -/
def chebyshev2_lp_hp_impl (low : Bool) (fs fpass fstop Apass Astop : T) : Res (Digital T) := do
  let (s, _Wpass, Wstop, _epass, estop, N) ← order M low fs fpass fstop Apass Astop
  let W0 ← CNum.div (← M.sinh (← asinhN M estop N)) Wstop
  sections N s W0 fun i => do
    let th ← angle M N i
    let Wi ← CNum.div (← M.sin th) Wstop
    section2 s W0 Wi (← M.cos th)

omit [CNum T] [CLit T] in
/-- `(std::max<T>)( A, 0.01 )` (chebyshev-design.hpp:161, 245): `A` unless it is less. -/
def least (A : T) : T := if M.lt A M.hundredth then M.hundredth else A

/-- `chebyshev1_lp_hp` (chebyshev-design.hpp:155-162). -/
def chebyshev1_lp_hp (low : Bool) (fs fpass fstop Apass Astop : T) : Res (Digital T) :=
  chebyshev1_lp_hp_impl M low fs fpass fstop (least M Apass) (least M Astop)

/-- `chebyshev2_lp_hp` (chebyshev-design.hpp:239-246). -/
def chebyshev2_lp_hp (low : Bool) (fs fpass fstop Apass Astop : T) : Res (Digital T) :=
  chebyshev2_lp_hp_impl M low fs fpass fstop (least M Apass) (least M Astop)

end Verif.ChebyshevFloat
