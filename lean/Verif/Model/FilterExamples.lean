import Verif.Model.Algorithm
import Verif.Model.ChebyshevInfo
import Verif.Model.Design
import Verif.Model.FloatRange
import Verif.Model.Output

/-
Model of the filter examples: example/desktop/biquad.e.cpp, biquad-cascade.e.cpp, biquad-design.e.cpp,
chebyshev-design.e.cpp, onepole.e.cpp, onepole-design.e.cpp.

The output is the text written to `std::cout`.  The frequencies are the `double` numbers of the sweeps
(`Model/FloatRange.lean`); the filters and their responses are over the real numbers (simplification: no rounding,
and arguments such as `0.8f` are the decimal numbers), with the output `elem` of a real number as parameter.
-/

namespace Verif.FilterExamples
open Output

/-- The frequencies a range visits. -/
abbrev Sweep := List (Flt Ieee.binary64)

section
variable [CNum ℝ] (elem : ℝ → Text)

/-- `for ( auto fn : rng ) std::cout << fn << " ";` (biquad.e.cpp:32-35 and the like). -/
def frequencies (rng : Sweep) : Text := rng.foldl (fun os fn => os ++ float fn ++ [' ']) []

/-- `for ( auto fn : rng ) std::cout << abs( response( bq, fn ) ) << " ";` (biquad.e.cpp:41-44 and the like). -/
noncomputable def magnitudes (response : ℝ → Res ℂ) (rng : Sweep) : Res Text :=
  rng.foldlM (fun os fn => do
    let h ← response fn.val
    .ok (os ++ elem ‖h‖ ++ [' '])) []

/-- `for ( auto fn : rng ) std::cout << dsp::dbV( abs( response( bq, fn ) ), 1 ) << " ";` (biquad.e.cpp:50-53 and the
like). -/
noncomputable def decibels (response : ℝ → Res ℂ) (rng : Sweep) : Res Text :=
  rng.foldlM (fun os fn => do
    let h ← response fn.val
    let v ← Design.dbV ‖h‖ 1
    .ok (os ++ elem v ++ [' '])) []

/-- The part of the output common to all examples (biquad.e.cpp:28-57, biquad-cascade.e.cpp:31-60,
biquad-design.e.cpp:24-61, chebyshev-design.e.cpp:48-88 and 150-192, onepole.e.cpp:28-57,
onepole-design.e.cpp:24-61). -/
noncomputable def listing (response : ℝ → Res ℂ) (rng : Sweep) : Res Text := do
  let line ← Text.line 65 '-'
  let ys ← magnitudes elem response rng
  let ds ← decibels elem response rng
  .ok ("\n% ".toList ++ line ++ "\n% Matlab/Octave filter magnitude response for normalized frequency:\n".toList ++
    "\nfn = [".toList ++ frequencies rng ++ "];\n".toList ++ "\ny = [".toList ++ ys ++ "];\n".toList ++
    "\nydbV = [".toList ++ ds ++ "];\n".toList ++ "\nplotyy(fn, y, fn, ydbV);\n".toList)

/-- `print` of the examples other than chebyshev-design.e.cpp: `title` follows the line, `filter` is the output of the
filter, `code` the Matlab code shown, `result` the line after it. -/
noncomputable def report (title : Text) (filter : Res Text) (response : ℝ → Res ℂ) (rng : Sweep) (code result : Text) :
    Res Text := do
  let double ← Text.line 115 '='
  let bq ← filter
  let mid ← listing elem response rng
  let single ← Text.line 42 '-'
  .ok ("\n".toList ++ double ++ "\n".toList ++ title ++ bq ++ mid ++ "\n% ".toList ++ single ++
    "\n% Corresponding Matlab/Octave filter design:\n".toList ++ "\npkg load signal\n".toList ++ code ++ result ++
    "\nfreqz(b,a);\n".toList)

/-- `print` (biquad.e.cpp:22-65). -/
noncomputable def printBiquad (rng : Sweep) (text design : Text) (bq : Biquad ℝ) : Res Text :=
  report elem (text ++ " ".toList ++ design ++ ":\n".toList) (biquad elem bq) bq.response rng design
    "\nbq = tf2sos(b,a)".toList

/-- `print` (biquad-cascade.e.cpp:29-72); `bytes` is `sizeof` of the cascade. -/
noncomputable def printCascade {N : ℕ} (bytes : ℕ) (rng : Sweep) (text design : Text) (bqc : Cascade ℝ N) : Res Text :=
  report elem (text ++ " ".toList ++ design ++ ":\n".toList) (cascade elem bytes bqc) bqc.response rng design
    "\nbqc = tf2sos(b,a)".toList

/-- `print` (onepole.e.cpp:22-65). -/
noncomputable def printOnePole (rng : Sweep) (text design : Text) (op : OnePole ℝ) : Res Text :=
  report elem (text ++ " ".toList ++ design ++ ":\n".toList) (onepole elem op) op.response rng design
    "\nbq = tf2sos(b,a)".toList

/-- `matlab_design` (biquad-design.e.cpp:54-58). -/
def biquadMatlab (design : Text) : Text :=
  Text.replaced (Text.replaced (Text.replaced design
    "(dsp::biquad_design<FilterResponse::".toList "".toList)
    ">(".toList "(".toList)
    "))".toList ")".toList

/-- `matlab_design` (onepole-design.e.cpp:54-58). -/
def onepoleMatlab (design : Text) : Text :=
  Text.replaced (Text.replaced (Text.replaced design
    "(dsp::onepole_design<FilterResponse::".toList "".toList)
    ">(".toList "(".toList)
    "))".toList ")".toList

/-- `matlab_design` of `print_pass` (chebyshev-design.e.cpp:76-82). -/
def passMatlab (design : Text) : Text :=
  Text.replaced (Text.replaced (Text.replaced (Text.replaced (Text.replaced design
    "dsp::".toList "".toList)
    "chebyshev1_lp_hp".toList "lhcheb1".toList)
    "chebyshev2_lp_hp".toList "lhcheb2".toList)
    "FilterResponse::low_pass".toList "1".toList)
    "FilterResponse::high_pass".toList "-1".toList

/-- `matlab_design` of `print_band` (chebyshev-design.e.cpp:186-188). -/
def bandMatlab (design : Text) : Text :=
  Text.replaced (Text.replaced design
    "dsp::".toList "".toList)
    "chebyshev2_bs".toList "bscheb2".toList

/-- `print` (biquad-design.e.cpp:16-71). -/
noncomputable def printBiquadDesign (rng : Sweep) (text design : Text) (coeff : Design.Coeff) : Res Text :=
  let bq := Design.make_biquad coeff
  report elem (text ++ " '".toList ++ design ++ "':\n".toList) (biquad elem bq) bq.response rng (biquadMatlab design)
    "\nbq = tf2sos(b,a)".toList

/-- `print` (onepole-design.e.cpp:16-71). -/
noncomputable def printOnePoleDesign (rng : Sweep) (text design : Text) (coeff : ℝ × ℝ) : Res Text :=
  let op := OnePole.make_onepole coeff
  report elem (text ++ " '".toList ++ design ++ "':\n".toList) (onepole elem op) op.response rng (onepoleMatlab design)
    "\nbq = tf2sos(b,a)".toList

/-- The first half of the output of `print_pass` and `print_band` (chebyshev-design.e.cpp:38-48, 140-150): `os << coeff.b`
and `os << coeff.a` are outputs of vectors. -/
noncomputable def coefficients (ai : Design.AlgoInfo) (coeff : Design.Digital) (title : Text) (filter : Res Text) :
    Res Text := do
  let double ← Text.line 115 '='
  let single ← Text.line 115 '-'
  let bqc ← filter
  .ok ("\n".toList ++ double ++ "\nai: ".toList ++ algoInfo elem ai ++ "\nb: ".toList ++ vector (bqB elem) coeff.b ++
    "\na: ".toList ++ vector (bqA elem) coeff.a ++ "\n".toList ++ single ++ "\n".toList ++ "\n".toList ++ title ++ bqc)

/-- `print_pass` (chebyshev-design.e.cpp:31-106), `bytes` is `sizeof` of the cascade. -/
noncomputable def printPass (bytes : ℕ) (rng : Sweep) (text design : Text) (ai : Design.AlgoInfo) (coeff : Design.Digital) :
    Res Text := do
  let bqc ← Design.make_biquad_cascade 7 coeff
  let head ← coefficients elem ai coeff (text ++ " '".toList ++ design ++ "':\n".toList) (cascade elem bytes bqc)
  let mid ← listing elem bqc.response rng
  let single ← Text.line 42 '-'
  .ok (head ++ mid ++ "\n% ".toList ++ single ++ "\n% Corresponding Matlab/Octave filter design:".toList ++ "\n".toList ++
    "\n[A,B,P] = ".toList ++ passMatlab design ++
    ("\n% p.1  : s (1:lowpass,-1:highpass)" ++
      "\n% p.2-4: fs, fpass, fstop" ++
      "\n% p.5,6: Apass, Astop amplitude in dB" ++
      "\n% A: matrix of bi-quad a coefficients" ++
      "\n% B: matrix of bi-quad b coefficients" ++
      "\n% P: algorithm internal information" ++
      "\n" ++
      "\n% Concatenate horizontally, convert and plot:" ++
      "\nsos = cat(2,B,A)" ++
      "\n[b,a] = sos2tf(sos)" ++
      "\nfreqz(b,a);\n").toList)

/-- The cascade of `print_band` (chebyshev-design.e.cpp:142-146), which does not depend on the arguments. -/
noncomputable def bandCascade : Res (Cascade ℝ 7) := do
  let bqc : Cascade ℝ 7 := Cascade.ofList [] (Nat.zero_le 7)
  let bqc ← bqc.append (Biquad.ofBA ⟨0.95, 0, 0⟩ ⟨0, 0⟩)
  let bqc ← bqc.append (Biquad.ofBA ⟨0.81607, -1.17714, 0.81607⟩ ⟨-1.25009, 0.92530⟩)
  let bqc ← bqc.append (Biquad.ofBA ⟨0.40166, -0.71712, 0.40166⟩ ⟨-0.81244, 0.61293⟩)
  let bqc ← bqc.append (Biquad.ofBA ⟨0.81607, 0.77782, 0.81607⟩ ⟨0.69654, 0.90931⟩)
  bqc.append (Biquad.ofBA ⟨0.40166, 0.62596, 0.40166⟩ ⟨0.25300, 0.56966⟩)

/-- `print_band` (chebyshev-design.e.cpp:108-199). -/
noncomputable def printBand (bytes : ℕ) (rng : Sweep) (text design : Text) (ai : Design.AlgoInfo) (coeff : Design.Digital) :
    Res Text := do
  let bqc ← bandCascade
  let head ← coefficients elem ai coeff (text ++ " '".toList ++ design ++ "':\n".toList) (cascade elem bytes bqc)
  let mid ← listing elem bqc.response rng
  let single ← Text.line 42 '-'
  .ok (head ++ mid ++ "\n% ".toList ++ single ++ "\n".toList ++ "\n[A,B,P] = ".toList ++ bandMatlab design ++
    ("\n% Corresponding Matlab/Octave filter design:" ++ "\n...TBD...").toList)

/-- A call of `print` in `main` of biquad-design.e.cpp. -/
noncomputable def callBiquad (rng : Sweep) (R : Design.Kind) (dbGain f fs Q : ℝ) (design : String) : Res Text := do
  printBiquadDesign elem rng "Bi-quad filter design".toList design.toList (← Design.biquad_design R dbGain f fs Q)

/-- The outputs of the calls of `print` in `main` (biquad-design.e.cpp:99-176), where `outer` is
`range( Flo, Fhi + Fstep, Fstep )` and `inner` is `range( Flo + Fstep, Fhi, Fstep )`.  The designs as text are those of
the macros (76-86) after `STRINGIFY` (72-73), which adds parentheses and reduces white space. -/
noncomputable def biquadMain (outer inner : Sweep) : List (Res Text) :=
  [ callBiquad elem outer .low_pass 0 25 100 0.8 "(dsp::biquad_design<FilterResponse::low_pass >( 0, 25, 100, 0.8f ))",
    callBiquad elem outer .high_pass 0 25 100 0.8 "(dsp::biquad_design<FilterResponse::high_pass >( 0, 25, 100, 0.8f ))",
    callBiquad elem outer .low_shelf 6 25 100 3 "(dsp::biquad_design<FilterResponse::low_shelf >(+6, 25, 100, 3 ))",
    callBiquad elem outer .low_shelf (-6) 25 100 3 "(dsp::biquad_design<FilterResponse::low_shelf >(-6, 25, 100, 3 ))",
    callBiquad elem outer .high_shelf 6 25 100 3 "(dsp::biquad_design<FilterResponse::high_shelf>(+6, 25, 100, 3 ))",
    callBiquad elem outer .high_shelf (-6) 25 100 3 "(dsp::biquad_design<FilterResponse::high_shelf>(-6, 25, 100, 3 ))",
    callBiquad elem inner .band_pass 0 25 100 3 "(dsp::biquad_design<FilterResponse::band_pass >( 0, 25, 100, 3 ))",
    callBiquad elem inner .band_stop 0 25 100 3 "(dsp::biquad_design<FilterResponse::band_stop >( 0, 25, 100, 3 ))",
    callBiquad elem outer .peak_band_eq 6 25 100 3 "(dsp::biquad_design<FilterResponse::peak_band_eq>(+6, 25, 100, 3 ))",
    callBiquad elem outer .peak_band_eq (-6) 25 100 3
      "(dsp::biquad_design<FilterResponse::peak_band_eq>(-6, 25, 100, 3 ))" ]

/-- The outputs of the calls of `print` in `main` (onepole-design.e.cpp:89-103), with the macros (76-77). -/
noncomputable def onepoleDesignMain (outer : Sweep) : List (Res Text) :=
  [ do printOnePoleDesign elem outer "Bi-quad filter design".toList
        "(dsp::onepole_design<FilterResponse::low_pass >( 2, 100 ))".toList (← OnePole.designLowPass 2 100),
    do printOnePoleDesign elem outer "Bi-quad filter design".toList
        "(dsp::onepole_design<FilterResponse::high_pass >( 48, 100 ))".toList (← OnePole.designHighPass 48 100) ]

/-- The outputs of the calls of `print` in `main` (onepole.e.cpp:77-78). -/
noncomputable def onepoleMain (outer : Sweep) : List (Res Text) :=
  [ printOnePole elem outer "One-pole filter design".toList "OnePole{ { 0.05 }, { -0.95 } }".toList (OnePole.ofBA 0.05 (-0.95)),
    printOnePole elem outer "One-pole filter design".toList "OnePole{ { 0.05 }, { +0.95 } } ".toList (OnePole.ofBA 0.05 0.95) ]

/-- The outputs of the calls of `print_pass` in `main` (chebyshev-design.e.cpp:243-255), with the macros (206-212);
`low` is `CONFIG_USE_LOWPASS`. -/
noncomputable def passMain (low : Bool) (bytes : ℕ) (outer : Sweep) : List (Res Text) :=
  if low then
    [ do printPass elem bytes outer "Bi-quad filter design".toList
          "dsp::chebyshev1_lp_hp( dsp::FilterResponse::low_pass, 100, 20, 24, 1, 10 )".toList
          (← Design.chebyshev1_info true 100 20 24 1 10) (← Design.chebyshev1_lp_hp true 100 20 24 1 10),
      do printPass elem bytes outer "Bi-quad filter design".toList
          "dsp::chebyshev2_lp_hp( dsp::FilterResponse::low_pass, 100, 20, 24, 1, 10 )".toList
          (← Design.chebyshev2_info true 100 20 24 1 10) (← Design.chebyshev2_lp_hp true 100 20 24 1 10) ]
  else
    [ do printPass elem bytes outer "Bi-quad filter design".toList
          "dsp::chebyshev1_lp_hp( dsp::FilterResponse::high_pass, 100, 24, 20, 1, 10 )".toList
          (← Design.chebyshev1_info false 100 24 20 1 10) (← Design.chebyshev1_lp_hp false 100 24 20 1 10),
      do printPass elem bytes outer "Bi-quad filter design".toList
          "dsp::chebyshev2_lp_hp( dsp::FilterResponse::high_pass, 100, 24, 20, 1, 10 )".toList
          (← Design.chebyshev2_info false 100 24 20 1 10) (← Design.chebyshev2_lp_hp false 100 24 20 1 10) ]

end
end Verif.FilterExamples
