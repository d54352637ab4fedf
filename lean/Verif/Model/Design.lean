import Verif.Model.Biquad
import Verif.Model.Cascade
import Verif.Model.RealFun

/-
Model of include/dsp/filter-design.hpp, include/dsp/biquad-design.hpp, include/dsp/filter.hpp and
include/dsp/chebyshev-design.hpp over the real numbers.

Not modelled: the choice of the common type of mixed arguments; the
band-stop Chebyshev design, which returns no sections (256-267).  The informational values `AlgoInfoT` (chebyshev-design.hpp:59-63), which do not influence
the coefficients, are in ChebyshevInfo.lean.
-/

namespace Verif.Design

/-! ### include/dsp/filter-design.hpp -/

/-- `prewarp( f, fs )` (filter-design.hpp:20-26). -/
noncomputable def prewarp (f fs : ℝ) : Res ℝ := do
  RealFun.tan (← RealFun.div (Real.pi * f) fs)

/-- `dbP( vout, vin )` (filter-design.hpp:30-36). -/
noncomputable def dbP (vout vin : ℝ) : Res ℝ := do
  .ok (10 * (← RealFun.log10 (← RealFun.div vout vin)))

/-- `dbP_factor( dbv )` (filter-design.hpp:40-44). -/
noncomputable def dbP_factor (dbv : ℝ) : ℝ := RealFun.pow10 (|dbv| / 10)

/-- `dbV( vout, vin )` (filter-design.hpp:48-52). -/
noncomputable def dbV (vout vin : ℝ) : Res ℝ := do .ok (2 * (← dbP vout vin))

/-- `dbV_factor( dbv )` (filter-design.hpp:56-60). -/
noncomputable def dbV_factor (dbv : ℝ) : ℝ := dbP_factor dbv / 2

/-! ### include/dsp/biquad-design.hpp -/

/-- `BiquadCoeffT<T>` (biquad-design.hpp:80-92). -/
structure Coeff where
  b : BqB ℝ
  a : BqA ℝ

/-- `FilterResponse` (biquad-design.hpp:27-37), without `all_pass`, which has no design method. -/
inductive Kind where
  | low_pass | high_pass | band_pass | band_stop | low_shelf | high_shelf | peak_band_eq
deriving DecidableEq

/-- `biquad_design_method<low_pass>::design` (biquad-design.hpp:101-117). -/
noncomputable def low_pass (f fs Q : ℝ) : Res Coeff := do
  let K ← prewarp f fs
  let KQ ← RealFun.div K Q
  let norm ← RealFun.div 1 (1 + KQ + K * K)
  let b0 := K * K * norm
  let b1 := 2 * b0
  let b2 := b0
  let a1 := 2 * (K * K - 1) * norm
  let a2 := (1 - KQ + K * K) * norm
  .ok ⟨⟨b0, b1, b2⟩, ⟨a1, a2⟩⟩

/-- `biquad_design_method<high_pass>::design` (biquad-design.hpp:121-137). -/
noncomputable def high_pass (f fs Q : ℝ) : Res Coeff := do
  let K ← prewarp f fs
  let KQ ← RealFun.div K Q
  let norm ← RealFun.div 1 (1 + KQ + K * K)
  let b0 := 1 * norm
  let b1 := -2 * b0
  let b2 := b0
  let a1 := 2 * (K * K - 1) * norm
  let a2 := (1 - KQ + K * K) * norm
  .ok ⟨⟨b0, b1, b2⟩, ⟨a1, a2⟩⟩

/-- `biquad_design_method<band_pass>::design` (biquad-design.hpp:141-157). -/
noncomputable def band_pass (f fs Q : ℝ) : Res Coeff := do
  let K ← prewarp f fs
  let KQ ← RealFun.div K Q
  let norm ← RealFun.div 1 (1 + KQ + K * K)
  let b0 := KQ * norm
  let b1 := 0
  let b2 := -b0
  let a1 := 2 * (K * K - 1) * norm
  let a2 := (1 - KQ + K * K) * norm
  .ok ⟨⟨b0, b1, b2⟩, ⟨a1, a2⟩⟩

/-- `biquad_design_method<band_stop>::design` (biquad-design.hpp:161-177). -/
noncomputable def band_stop (f fs Q : ℝ) : Res Coeff := do
  let K ← prewarp f fs
  let KQ ← RealFun.div K Q
  let norm ← RealFun.div 1 (1 + KQ + K * K)
  let b0 := (1 + K * K) * norm
  let b1 := 2 * (K * K - 1) * norm
  let b2 := b0
  let a1 := b1
  let a2 := (1 - KQ + K * K) * norm
  .ok ⟨⟨b0, b1, b2⟩, ⟨a1, a2⟩⟩

open Classical in
/-- `biquad_design_method<low_shelf>::design` (biquad-design.hpp:181-212). -/
noncomputable def low_shelf (dbGain f fs : ℝ) : Res Coeff := do
  let V := dbV_factor dbGain
  let K ← prewarp f fs
  let r2 ← RealFun.sqrt 2
  let r2V ← RealFun.sqrt (2 * V)
  if dbGain ≥ 0 then
    let norm ← RealFun.div 1 (1 + r2 * K + K * K)
    let b0 := (1 + r2V * K + V * K * K) * norm
    let b1 := 2 * (V * K * K - 1) * norm
    let b2 := (1 - r2V * K + V * K * K) * norm
    let a1 := 2 * (K * K - 1) * norm
    let a2 := (1 - r2 * K + K * K) * norm
    .ok ⟨⟨b0, b1, b2⟩, ⟨a1, a2⟩⟩
  else
    let norm ← RealFun.div 1 (1 + r2V * K + V * K * K)
    let b0 := (1 + r2 * K + K * K) * norm
    let b1 := 2 * (K * K - 1) * norm
    let b2 := (1 - r2 * K + K * K) * norm
    let a1 := 2 * (V * K * K - 1) * norm
    let a2 := (1 - r2V * K + V * K * K) * norm
    .ok ⟨⟨b0, b1, b2⟩, ⟨a1, a2⟩⟩

open Classical in
/-- `biquad_design_method<high_shelf>::design` (biquad-design.hpp:216-247). -/
noncomputable def high_shelf (dbGain f fs : ℝ) : Res Coeff := do
  let V := dbV_factor dbGain
  let K ← prewarp f fs
  let r2 ← RealFun.sqrt 2
  let r2V ← RealFun.sqrt (2 * V)
  if dbGain ≥ 0 then
    let norm ← RealFun.div 1 (1 + r2 * K + K * K)
    let b0 := (V + r2V * K + K * K) * norm
    let b1 := 2 * (K * K - V) * norm
    let b2 := (V - r2V * K + K * K) * norm
    let a1 := 2 * (K * K - 1) * norm
    let a2 := (1 - r2 * K + K * K) * norm
    .ok ⟨⟨b0, b1, b2⟩, ⟨a1, a2⟩⟩
  else
    let norm ← RealFun.div 1 (V + r2V * K + K * K)
    let b0 := (1 + r2 * K + K * K) * norm
    let b1 := 2 * (K * K - 1) * norm
    let b2 := (1 - r2 * K + K * K) * norm
    let a1 := 2 * (K * K - V) * norm
    let a2 := (V - r2V * K + K * K) * norm
    .ok ⟨⟨b0, b1, b2⟩, ⟨a1, a2⟩⟩

open Classical in
/-- `biquad_design_method<peak_band_eq>::design` (biquad-design.hpp:251-282). -/
noncomputable def peak_band_eq (dbGain f fs Q : ℝ) : Res Coeff := do
  let V := dbV_factor dbGain
  let K ← prewarp f fs
  let Q1 ← RealFun.div 1 Q
  let QV ← RealFun.div V Q
  if dbGain ≥ 0 then
    let norm ← RealFun.div 1 (1 + Q1 * K + K * K)
    let b0 := (1 + QV * K + K * K) * norm
    let b1 := 2 * (K * K - 1) * norm
    let b2 := (1 - QV * K + K * K) * norm
    let a1 := b1
    let a2 := (1 - Q1 * K + K * K) * norm
    .ok ⟨⟨b0, b1, b2⟩, ⟨a1, a2⟩⟩
  else
    let norm ← RealFun.div 1 (1 + QV * K + K * K)
    let b0 := (1 + Q1 * K + K * K) * norm
    let b1 := 2 * (K * K - 1) * norm
    let b2 := (1 - Q1 * K + K * K) * norm
    let a1 := b1
    let a2 := (1 - QV * K + K * K) * norm
    .ok ⟨⟨b0, b1, b2⟩, ⟨a1, a2⟩⟩

/-- `biquad_design<R>( dbGain, f, fs, Q )` (biquad-design.hpp:286-300). -/
noncomputable def biquad_design (R : Kind) (dbGain f fs Q : ℝ) : Res Coeff :=
  match R with
  | .low_pass => low_pass f fs Q
  | .high_pass => high_pass f fs Q
  | .band_pass => band_pass f fs Q
  | .band_stop => band_stop f fs Q
  | .low_shelf => low_shelf dbGain f fs
  | .high_shelf => high_shelf dbGain f fs
  | .peak_band_eq => peak_band_eq dbGain f fs Q

/-- `make_biquad( coeff )` (biquad-design.hpp:304-308). -/
noncomputable def make_biquad [CNum ℝ] (coeff : Coeff) : Biquad ℝ := Biquad.ofBA coeff.b coeff.a

/-! ### include/dsp/filter.hpp -/

/-- `Lpf( f3db, fs, Q )` (filter.hpp:17-38); `operator()` is `step` of the biquad. -/
noncomputable def Lpf [CNum ℝ] (f3db fs Q : ℝ) : Res (Biquad ℝ) := do
  .ok (make_biquad (← biquad_design .low_pass 0 f3db fs Q))

/-- `Hpf( f3db, fs, Q )` (filter.hpp:42-63). -/
noncomputable def Hpf [CNum ℝ] (f3db fs Q : ℝ) : Res (Biquad ℝ) := do
  .ok (make_biquad (← biquad_design .high_pass 0 f3db fs Q))

/-! ### include/dsp/chebyshev-design.hpp -/

/-- `DigitalCoeffT<T>` (chebyshev-design.hpp:67-87): the coefficients of the sections, and of the
information the order `N`. -/
structure Digital where
  b : List (BqB ℝ)
  a : List (BqA ℝ)
  N : ℤ

/-- `A.emplace_back( … ); B.emplace_back( … )` (e.g. chebyshev-design.hpp:133-134). -/
def Digital.push (d : Digital) (b : BqB ℝ) (a : BqA ℝ) : Digital :=
  { d with b := d.b ++ [b], a := d.a ++ [a] }

/-- `std::pow( x, s )` with `s` = 1 (`low = true`) or -1 (chebyshev-design.hpp:107-108). -/
noncomputable def powSign (low : Bool) (x : ℝ) : Res ℝ :=
  if low then .ok x else RealFun.div 1 x

open Classical in
/-- The common beginning of the type 1 and type 2 designs (chebyshev-design.hpp:98-119, 174-195): the
checked `Wpass`, `Wstop`, `epass`, `estop`, `N`.  `low`: `kind == FilterResponse::low_pass`, otherwise
high pass (other kinds fail the assertion). -/
noncomputable def chebyshev_order (low : Bool) (fs fpass fstop Apass Astop : ℝ) :
    Res (ℝ × ℝ × ℝ × ℝ × ℤ) := do
  if ¬ (fpass < fs / 2) then .error .assertFail
  else if ¬ (fstop < fs / 2) then .error .assertFail
  else
    let Wpass ← powSign low (← prewarp fpass fs)
    let Wstop ← powSign low (← prewarp fstop fs)
    let epass ← RealFun.sqrt (RealFun.pow10 (Apass / 10) - 1)
    let estop ← RealFun.sqrt (RealFun.pow10 (Astop / 10) - 1)
    let Nex ← RealFun.div (← RealFun.acosh (← RealFun.div estop epass))
      (← RealFun.acosh (← RealFun.div Wstop Wpass))
    let N ← RealFun.ceilInt Nex
    .ok (Wpass, Wstop, epass, estop, N)

/-- `s` (chebyshev-design.hpp:105, 181). -/
def sgn (low : Bool) : ℝ := if low then 1 else -1

/-- `for ( auto i : core::range( 1, K+1 ) )` (chebyshev-design.hpp:137): the body for i = 1, …, K. -/
noncomputable def forOneTo (K : ℤ) (body : ℤ → Digital → Res Digital) (d : Digital) : Res Digital :=
  forRange K.toNat (fun k d => body (k + 1) d) d

/-- `th` (chebyshev-design.hpp:139, 214); the `int` arithmetic overflows for an order of 2^30 or more. -/
noncomputable def angle (N i : ℤ) : Res ℝ :=
  if 2 * N ≤ 2147483647 then RealFun.div (Real.pi * (N - 1 + 2 * i)) (2 * N)
  else .error .overflow

/-- The first-order section, if the order is odd (chebyshev-design.hpp:129-135, 205-211). -/
noncomputable def firstOrder (r : ℤ) (s W0 : ℝ) (coeff : Digital) : Res Digital :=
  if r = 1 then do
    let G ← RealFun.div 1 (1 + W0)
    .ok (coeff.push ⟨G, s * G, 0⟩ ⟨s * (2 * G - 1), 0⟩)
  else .ok coeff

/-- `chebyshev1_lp_hp_impl` (chebyshev-design.hpp:96-151).  `core::range( 1, K+1 )` needs `K >= 0`, which
holds because `N >= 0`. -/
noncomputable def chebyshev1_lp_hp_impl (low : Bool) (fs fpass fstop Apass Astop : ℝ) :
    Res Digital := do
  let (Wpass, _Wstop, _epass, estop, N) ← chebyshev_order low fs fpass fstop Apass Astop
  let s := sgn low
  let r := N % 2
  let K := (N - r) / 2
  let a ← RealFun.div (Real.arsinh estop) N
  let W0 := Real.sinh a * Wpass
  let coeff : Digital := ⟨[], [], N⟩
  let coeff ← firstOrder r s W0 coeff
  forOneTo K (fun i coeff => do
    let th ← angle N i
    let Wi := Wpass * Real.sin th
    let D := 1 - 2 * W0 * Real.cos th + W0 * W0 + Wi * Wi
    let G ← RealFun.div (W0 * W0 + Wi * Wi) D
    let a1 ← RealFun.div (2 * (W0 * W0 + Wi * Wi - 1)) D
    let a2 ← RealFun.div (1 + 2 * W0 * Real.cos th + W0 * W0 + Wi * Wi) D
    .ok (coeff.push ⟨G, G * s * 2, G⟩ ⟨s * a1, a2⟩)) coeff

/-- `chebyshev2_lp_hp_impl` (chebyshev-design.hpp:172-226). -/
noncomputable def chebyshev2_lp_hp_impl (low : Bool) (fs fpass fstop Apass Astop : ℝ) :
    Res Digital := do
  let (_Wpass, Wstop, _epass, estop, N) ← chebyshev_order low fs fpass fstop Apass Astop
  let s := sgn low
  let r := N % 2
  let K := (N - r) / 2
  let a ← RealFun.div (Real.arsinh estop) N
  let W0 ← RealFun.div (Real.sinh a) Wstop
  let coeff : Digital := ⟨[], [], N⟩
  let coeff ← firstOrder r s W0 coeff
  forOneTo K (fun i coeff => do
    let th ← angle N i
    let Wi ← RealFun.div (Real.sin th) Wstop
    let D := 1 - 2 * W0 * Real.cos th + W0 * W0 + Wi * Wi
    let G ← RealFun.div (1 + Wi * Wi) D
    let b1 ← RealFun.div (2 * (1 - Wi * Wi)) (1 + Wi * Wi)
    let a1 ← RealFun.div (2 * (1 - W0 * W0 - Wi * Wi)) D
    let a2 ← RealFun.div (1 + 2 * W0 * Real.cos th + W0 * W0 + Wi * Wi) D
    .ok (coeff.push ⟨G, G * s * b1, G⟩ ⟨s * a1, a2⟩)) coeff

/-- `chebyshev1_lp_hp` (chebyshev-design.hpp:155-162). -/
noncomputable def chebyshev1_lp_hp (low : Bool) (fs fpass fstop Apass Astop : ℝ) : Res Digital :=
  chebyshev1_lp_hp_impl low fs fpass fstop (max Apass 0.01) (max Astop 0.01)

/-- `chebyshev2_lp_hp` (chebyshev-design.hpp:239-246). -/
noncomputable def chebyshev2_lp_hp (low : Bool) (fs fpass fstop Apass Astop : ℝ) : Res Digital :=
  chebyshev2_lp_hp_impl low fs fpass fstop (max Apass 0.01) (max Astop 0.01)

/-- `chebyshev2_bs` (chebyshev-design.hpp:256-267, 320-327): asserts, then returns no sections. -/
noncomputable def chebyshev2_bs (fs fpa fpb : ℝ) : Res Digital := by
  classical
  exact if ¬ (fpa < fs / 2) then .error .assertFail
    else if ¬ (fpb < fs / 2) then .error .assertFail
    else .ok ⟨[], [], 0⟩

/-- `bqc.append( { { coeff.b[i] }, { coeff.a[i] } } )` (chebyshev-design.hpp:338); an index past the end
is undefined. -/
noncomputable def appendSection [CNum ℝ] {n : ℕ} (coeff : Digital) (i : ℕ) (bqc : Cascade ℝ n) :
    Res (Cascade ℝ n) :=
  match coeff.b[i]?, coeff.a[i]? with
  | some b, some a => bqc.append (Biquad.ofBA b a)
  | _, _ => .error .outOfBounds

/-- `make_biquad_cascade<N>( coeff )` (chebyshev-design.hpp:331-342): `core::indices( coeff )` are the
indices of `coeff.b` (`size()`, 77-80). -/
noncomputable def make_biquad_cascade [CNum ℝ] (n : ℕ) (coeff : Digital) : Res (Cascade ℝ n) :=
  forRange coeff.b.length (appendSection coeff) (Cascade.ofList [] (Nat.zero_le n))

end Verif.Design
