import Mathlib.Analysis.SpecialFunctions.Pow.Real
import Mathlib.Analysis.SpecialFunctions.Trigonometric.Arctan
import Verif.Model.Design
import Verif.Model.Output

/-
Model of the information reported by the Chebyshev designs (include/dsp/chebyshev-design.hpp), over the real numbers, and of
its output (include/dsp/chebyshev-design-io.hpp).
-/

namespace Verif.Design

/-- `AlgoInfoT<T>` (chebyshev-design.hpp:59-63). -/
structure AlgoInfo where
  Wpass : ℝ
  Wstop : ℝ
  epass : ℝ
  estop : ℝ
  Nex : ℝ
  N : ℤ
  f3 : ℝ
  a : ℝ

/-- `std::acosh( z )` of a complex number, principal value; `std::sqrt` is the power 1/2. -/
noncomputable def cacosh (z : ℂ) : ℂ := Complex.log (z + (z + 1) ^ (1 / 2 : ℂ) * (z - 1) ^ (1 / 2 : ℂ))

open Classical in
/-- `a / b` of complex numbers. -/
noncomputable def cdiv (a b : ℂ) : Res ℂ := if b = 0 then .error .divByZero else .ok (a / b)

/-- `f3` (chebyshev-design.hpp:123, 199). -/
noncomputable def corner (low : Bool) (fs W3 : ℝ) : Res ℝ := do
  .ok (fs / Real.pi * Real.arctan (← powSign low W3))

/-- `Nex` (chebyshev-design.hpp:116, 192). -/
noncomputable def exactOrder (Wpass Wstop epass estop : ℝ) : Res ℝ := do
  RealFun.div (← RealFun.acosh (← RealFun.div estop epass)) (← RealFun.acosh (← RealFun.div Wstop Wpass))

/-- The member `info` of the result of `chebyshev1_lp_hp_impl` (chebyshev-design.hpp:107-126). -/
noncomputable def chebyshev1_info_impl (low : Bool) (fs fpass fstop Apass Astop : ℝ) : Res AlgoInfo := do
  let (Wpass, Wstop, epass, estop, N) ← chebyshev_order low fs fpass fstop Apass Astop
  let Nex ← exactOrder Wpass Wstop epass estop
  let a ← RealFun.div (Real.arsinh estop) N
  let W3 := (Wpass * Complex.cosh (← cdiv (cacosh (← cdiv 1 epass)) N)).re
  let f3 ← corner low fs W3
  .ok ⟨Wpass, Wstop, epass, estop, Nex, N, f3, a⟩

/-- The member `info` of the result of `chebyshev2_lp_hp_impl` (chebyshev-design.hpp:183-202). -/
noncomputable def chebyshev2_info_impl (low : Bool) (fs fpass fstop Apass Astop : ℝ) : Res AlgoInfo := do
  let (Wpass, Wstop, epass, estop, N) ← chebyshev_order low fs fpass fstop Apass Astop
  let Nex ← exactOrder Wpass Wstop epass estop
  let a ← RealFun.div (Real.arsinh estop) N
  let W3 := (← cdiv Wstop (Complex.cosh (← cdiv (cacosh estop) N))).re
  let f3 ← corner low fs W3
  .ok ⟨Wpass, Wstop, epass, estop, Nex, N, f3, a⟩

/-- `info` of the result of `chebyshev1_lp_hp` (chebyshev-design.hpp:155-162). -/
noncomputable def chebyshev1_info (low : Bool) (fs fpass fstop Apass Astop : ℝ) : Res AlgoInfo :=
  chebyshev1_info_impl low fs fpass fstop (max Apass 0.01) (max Astop 0.01)

/-- `info` of the result of `chebyshev2_lp_hp` (chebyshev-design.hpp:239-246). -/
noncomputable def chebyshev2_info (low : Bool) (fs fpass fstop Apass Astop : ℝ) : Res AlgoInfo :=
  chebyshev2_info_impl low fs fpass fstop (max Apass 0.01) (max Astop 0.01)

end Verif.Design

namespace Verif.Output

/-- The output of an `int`. -/
def integer (n : ℤ) : Text := (if n < 0 then ['-'] else []) ++ natural n.natAbs

/-- `operator<<( std::ostream &, AlgoInfoT )` (chebyshev-design-io.hpp:18-31). -/
def algoInfo (elem : ℝ → Text) (ai : Design.AlgoInfo) : Text :=
  "[I Wpass:".toList ++ elem ai.Wpass ++ " Wstop:".toList ++ elem ai.Wstop ++ " epass:".toList ++ elem ai.epass ++
    " estop:".toList ++ elem ai.estop ++ " Nex:".toList ++ elem ai.Nex ++ " N:".toList ++ integer ai.N ++
    " f3:".toList ++ elem ai.f3 ++ " a:".toList ++ elem ai.a ++ " ]".toList

end Verif.Output
