import Verif.Model.Biquad
import Verif.Model.OnePole
import Verif.Model.Design
import Verif.Model.KalmanSim

/-
Model of include/dsp/biquad-design.hpp and include/dsp/onepole-design.hpp for any numeric type, in particular
floating point with rounding.  The functions of `<cmath>` are parameters.

Simplification: all arguments and intermediate results have the type `T`.  For `T` = `double` this is so; for `float`
the shelves use `std::sqrt( 2 )`, which is a `double`, and the one-pole designs the unqualified `exp`, which may be
that of `double`.  Subexpressions that occur several times in the source (`K / Q`, `K * K`) are evaluated once.
-/

namespace Verif.DesignFloat

/-- The functions and constants of `<cmath>` and num/constants.hpp:14 used by the designs; `pow10` is
`std::pow( T{10}, · )`, `nonneg` is `· >= 0`. -/
structure Math (T : Type) where
  pi : T
  exp : T → Res T
  tan : T → Res T
  sqrt : T → Res T
  pow10 : T → Res T
  abs : T → Res T
  nonneg : T → Bool

variable {T : Type} [CNum T] [CLit T] (M : Math T)

/-- `prewarp( f, fs )` (filter-design.hpp:20-26). -/
def prewarp (f fs : T) : Res T := do
  M.tan (← CNum.div (← CNum.mul M.pi f) fs)

/-- `dbP_factor( dbv )` (filter-design.hpp:40-44). -/
def dbP_factor (dbv : T) : Res T := do
  M.pow10 (← CNum.div (← M.abs dbv) (← CLit.lit 10))

/-- `dbV_factor( dbv )` (filter-design.hpp:56-60). -/
def dbV_factor (dbv : T) : Res T := do
  CNum.div (← dbP_factor M dbv) (← CLit.lit 2)

/-- `BiquadCoeffT<T>` (biquad-design.hpp:80-92). -/
structure Coeff (T : Type) where
  b : BqB T
  a : BqA T

omit [CLit T] in
/-- Expressions of the form `v + d + s`, evaluated from the left, e.g. `1 + K / Q + K * K` (biquad-design.hpp:108). -/
def plus (v d s : T) : Res T := do CNum.add (← CNum.add v d) s

omit [CLit T] in
/-- Expressions of the form `v - d + s`, e.g. `1 - K / Q + K * K` (biquad-design.hpp:113). -/
def minus (v d s : T) : Res T := do CNum.add (← CNum.sub v d) s

/-- Expressions of the form `2 * (s - v) * norm`, e.g. `2 * (K * K - 1) * norm` (biquad-design.hpp:112). -/
def twice (s v norm : T) : Res T := do
  CNum.mul (← CNum.mul (← CLit.lit 2) (← CNum.sub s v)) norm

/-- `biquad_design_method<low_pass>::design` (biquad-design.hpp:101-117). -/
def low_pass (f fs Q : T) : Res (Coeff T) := do
  let K ← prewarp M f fs
  let d ← CNum.div K Q
  let s ← CNum.mul K K
  let norm ← CNum.div CNum.one (← plus CNum.one d s)
  let b0 ← CNum.mul s norm
  let b1 ← CNum.mul (← CLit.lit 2) b0
  let a1 ← twice s CNum.one norm
  let a2 ← CNum.mul (← minus CNum.one d s) norm
  .ok ⟨⟨b0, b1, b0⟩, ⟨a1, a2⟩⟩

/-- `biquad_design_method<high_pass>::design` (biquad-design.hpp:121-137). -/
def high_pass (f fs Q : T) : Res (Coeff T) := do
  let K ← prewarp M f fs
  let d ← CNum.div K Q
  let s ← CNum.mul K K
  let norm ← CNum.div CNum.one (← plus CNum.one d s)
  let b0 ← CNum.mul CNum.one norm
  let b1 ← CNum.mul (← CLit.lit (-2)) b0
  let a1 ← twice s CNum.one norm
  let a2 ← CNum.mul (← minus CNum.one d s) norm
  .ok ⟨⟨b0, b1, b0⟩, ⟨a1, a2⟩⟩

/-- `biquad_design_method<band_pass>::design` (biquad-design.hpp:141-157). -/
def band_pass (f fs Q : T) : Res (Coeff T) := do
  let K ← prewarp M f fs
  let d ← CNum.div K Q
  let s ← CNum.mul K K
  let norm ← CNum.div CNum.one (← plus CNum.one d s)
  let b0 ← CNum.mul d norm
  let b1 := CNum.zero
  let b2 ← CNum.neg b0
  let a1 ← twice s CNum.one norm
  let a2 ← CNum.mul (← minus CNum.one d s) norm
  .ok ⟨⟨b0, b1, b2⟩, ⟨a1, a2⟩⟩

/-- `biquad_design_method<band_stop>::design` (biquad-design.hpp:161-177). -/
def band_stop (f fs Q : T) : Res (Coeff T) := do
  let K ← prewarp M f fs
  let d ← CNum.div K Q
  let s ← CNum.mul K K
  let norm ← CNum.div CNum.one (← plus CNum.one d s)
  let b0 ← CNum.mul (← CNum.add CNum.one s) norm
  let b1 ← twice s CNum.one norm
  let a2 ← CNum.mul (← minus CNum.one d s) norm
  .ok ⟨⟨b0, b1, b0⟩, ⟨b1, a2⟩⟩

/-- `biquad_design_method<low_shelf>::design` (biquad-design.hpp:181-212). -/
def low_shelf (dbGain f fs : T) : Res (Coeff T) := do
  let V ← dbV_factor M dbGain
  let K ← prewarp M f fs
  let d ← CNum.mul (← M.sqrt (← CLit.lit 2)) K
  let s ← CNum.mul K K
  let dV ← CNum.mul (← M.sqrt (← CNum.mul (← CLit.lit 2) V)) K
  let sV ← CNum.mul (← CNum.mul V K) K
  if M.nonneg dbGain then do
    let norm ← CNum.div CNum.one (← plus CNum.one d s)
    let b0 ← CNum.mul (← plus CNum.one dV sV) norm
    let b1 ← twice sV CNum.one norm
    let b2 ← CNum.mul (← minus CNum.one dV sV) norm
    let a1 ← twice s CNum.one norm
    let a2 ← CNum.mul (← minus CNum.one d s) norm
    .ok ⟨⟨b0, b1, b2⟩, ⟨a1, a2⟩⟩
  else do
    let norm ← CNum.div CNum.one (← plus CNum.one dV sV)
    let b0 ← CNum.mul (← plus CNum.one d s) norm
    let b1 ← twice s CNum.one norm
    let b2 ← CNum.mul (← minus CNum.one d s) norm
    let a1 ← twice sV CNum.one norm
    let a2 ← CNum.mul (← minus CNum.one dV sV) norm
    .ok ⟨⟨b0, b1, b2⟩, ⟨a1, a2⟩⟩

/-- `biquad_design_method<high_shelf>::design` (biquad-design.hpp:216-247). -/
def high_shelf (dbGain f fs : T) : Res (Coeff T) := do
  let V ← dbV_factor M dbGain
  let K ← prewarp M f fs
  let d ← CNum.mul (← M.sqrt (← CLit.lit 2)) K
  let s ← CNum.mul K K
  let dV ← CNum.mul (← M.sqrt (← CNum.mul (← CLit.lit 2) V)) K
  if M.nonneg dbGain then do
    let norm ← CNum.div CNum.one (← plus CNum.one d s)
    let b0 ← CNum.mul (← plus V dV s) norm
    let b1 ← twice s V norm
    let b2 ← CNum.mul (← minus V dV s) norm
    let a1 ← twice s CNum.one norm
    let a2 ← CNum.mul (← minus CNum.one d s) norm
    .ok ⟨⟨b0, b1, b2⟩, ⟨a1, a2⟩⟩
  else do
    let norm ← CNum.div CNum.one (← plus V dV s)
    let b0 ← CNum.mul (← plus CNum.one d s) norm
    let b1 ← twice s CNum.one norm
    let b2 ← CNum.mul (← minus CNum.one d s) norm
    let a1 ← twice s V norm
    let a2 ← CNum.mul (← minus V dV s) norm
    .ok ⟨⟨b0, b1, b2⟩, ⟨a1, a2⟩⟩

/-- `biquad_design_method<peak_band_eq>::design` (biquad-design.hpp:251-282). -/
def peak_band_eq (dbGain f fs Q : T) : Res (Coeff T) := do
  let V ← dbV_factor M dbGain
  let K ← prewarp M f fs
  let d ← CNum.mul (← CNum.div CNum.one Q) K
  let dV ← CNum.mul (← CNum.div V Q) K
  let s ← CNum.mul K K
  if M.nonneg dbGain then do
    let norm ← CNum.div CNum.one (← plus CNum.one d s)
    let b0 ← CNum.mul (← plus CNum.one dV s) norm
    let b1 ← twice s CNum.one norm
    let b2 ← CNum.mul (← minus CNum.one dV s) norm
    let a2 ← CNum.mul (← minus CNum.one d s) norm
    .ok ⟨⟨b0, b1, b2⟩, ⟨b1, a2⟩⟩
  else do
    let norm ← CNum.div CNum.one (← plus CNum.one dV s)
    let b0 ← CNum.mul (← plus CNum.one d s) norm
    let b1 ← twice s CNum.one norm
    let b2 ← CNum.mul (← minus CNum.one d s) norm
    let a2 ← CNum.mul (← minus CNum.one dV s) norm
    .ok ⟨⟨b0, b1, b2⟩, ⟨b1, a2⟩⟩

/-- `biquad_design<R>( dbGain, f, fs, Q )` (biquad-design.hpp:286-300). -/
def biquad_design (R : Design.Kind) (dbGain f fs Q : T) : Res (Coeff T) :=
  match R with
  | .low_pass => low_pass M f fs Q
  | .high_pass => high_pass M f fs Q
  | .band_pass => band_pass M f fs Q
  | .band_stop => band_stop M f fs Q
  | .low_shelf => low_shelf M dbGain f fs
  | .high_shelf => high_shelf M dbGain f fs
  | .peak_band_eq => peak_band_eq M dbGain f fs Q

omit [CLit T] in
/-- `make_biquad( coeff )` (biquad-design.hpp:304-308). -/
def make_biquad (coeff : Coeff T) : Biquad T := Biquad.ofBA coeff.b coeff.a

omit [CLit T] in
/-- `onepole_design_method<low_pass>::design( f, fs )` (onepole-design.hpp:73-83): `(b0, a1)`. -/
def onepoleLowPass (f fs : T) : Res (T × T) := do
  let m1 ← CNum.neg CNum.one
  let a1 ← CNum.neg (← M.exp (← CNum.div (← CNum.mul (← CNum.mul m1 M.pi) f) fs))
  let b0 ← CNum.sub CNum.one (← M.abs a1)
  .ok (b0, a1)

omit [CLit T] in
/-- `onepole_design_method<high_pass>::design( f, fs )` (onepole-design.hpp:87-97): `(b0, a1)`.  `half` is `T{0.5}`. -/
def onepoleHighPass (half f fs : T) : Res (T × T) := do
  let m1 ← CNum.neg CNum.one
  let a1 ← M.exp (← CNum.mul (← CNum.mul m1 M.pi) (← CNum.sub half (← CNum.div f fs)))
  let b0 ← CNum.sub CNum.one (← M.abs a1)
  .ok (b0, a1)

end Verif.DesignFloat
