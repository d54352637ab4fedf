import Verif.Lemmas.KalmanFloat
import Verif.Model.Cascade
import Verif.Validation.FixedPointTests

/-
The cases of test/biquad.t.cpp and test/biquad-cascade.t.cpp that use no complex numbers, evaluated in the model
in `float`: evidence that the model is one of the code, not a property.
-/

namespace Verif.Validation
open Ieee

private abbrev float := Flt binary32
private def x (v : ℚ) : Res float := Flt.ofRat binary32 v
private def b (b0 b1 b2 : ℚ) : Res (BqB float) := do .ok ⟨← x b0, ← x b1, ← x b2⟩
private def a (a1 a2 : ℚ) : Res (BqA float) := do .ok ⟨← x a1, ← x a2⟩
private def bq (b0 b1 b2 : ℚ) : Res (Biquad float) := do .ok (Biquad.ofB (← b b0 b1 b2))

/-- `n` steps with the same input: the last output and the filter. -/
private def steps (f : Biquad float → float → Res (float × Biquad float)) : ℕ → Biquad float → ℚ → Res (float × Biquad float)
  | 0, q, _ => do .ok (← x 0, q)
  | n + 1, q, v => do
    let (y, q) ← f q (← x v)
    if n = 0 then .ok (y, q) else steps f n q v

-- biquad.t.cpp:19-30
example : let q : Biquad float := Biquad.default
    q.coeff_a.a1.val = 0 ∧ q.coeff_a.a2.val = 0 ∧ q.coeff_b.b0.val = 0 ∧ q.coeff_b.b1.val = 0 ∧ q.coeff_b.b2.val = 0 ∧
      q.state.v1.val = 0 ∧ q.state.v2.val = 0 := by decide +kernel
-- 32-39
example : Res.yields (bq 1 2 3) (fun q => decide (q.coeff_b.b0.val = 1 ∧ q.coeff_b.b1.val = 2 ∧ q.coeff_b.b2.val = 3)) =
    true := by decide +kernel
-- 41-50, 78-93
example : Res.yields (do .ok (Biquad.ofBA (← b 1 2 3) (← a 4 5))) (fun q => decide (q.coeff_b.b0.val = 1 ∧
    q.coeff_b.b1.val = 2 ∧ q.coeff_b.b2.val = 3 ∧ q.coeff_a.a1.val = 4 ∧ q.coeff_a.a2.val = 5)) = true := by decide +kernel
-- 95-110
example : Res.yields (do steps Biquad.step 8 (← bq 7 0 0) (123 / 100)) (fun r => approx r.1.val (7 * (123 / 100)) &&
    approx r.2.state.v1.val (123 / 100) && approx r.2.state.v2.val (123 / 100)) = true := by decide +kernel
-- 143-159
example : Res.yields (do .ok (← steps Biquad.step 7 (← bq 7 0 0) (123 / 100)).2) (fun q => !approx q.state.v1.val 0 &&
    !approx q.state.v2.val 0 && approx q.reset.state.v1.val 0 && approx q.reset.state.v2.val 0) = true := by
  decide +kernel
-- 168-190
example : ∀ f ∈ [Biquad.step, Biquad.step_df2, Biquad.step_df2_transposed (T := float)],
    Res.yields (do
      let (y0, q) ← f (← bq 7 0 0) (← x 0)
      .ok (y0, (← f q (← x 1)).1)) (fun r => approx r.1.val 0 && approx r.2.val 7) = true := by
  simp only [List.forall_mem_cons]
  exact ⟨by decide +kernel, by decide +kernel, by decide +kernel, by simp⟩

/-- The cascade of most cases. -/
private def three (N : ℕ) (h : 3 ≤ N) : Res (Cascade float N) := do
  .ok (Cascade.ofList [← bq 1 0 0, ← bq 2 0 0, ← bq 3 0 0] h)
private def b0 {N : ℕ} (c : Cascade float N) (i : Int) : Res ℚ := do .ok (← c.coeff_b i).b0.val

-- biquad-cascade.t.cpp:18-26
example : (Cascade.ofList [] (by decide) : Cascade float 7).size = 0 ∧
    (Cascade.ofList [] (by decide) : Cascade float 7).reserved = 7 := by decide +kernel
-- 28-46, 198-212
example : (do
    let c ← three 3 (by decide)
    .ok (c.size, c.reserved, ← b0 c 0, ← b0 c 1, ← b0 c 2)) = .ok (3, 3, 1, 2, 3) := by decide +kernel
-- 78-84
example : (Cascade.ofList (List.replicate 5 Biquad.default) (by decide) : Cascade float 7).size = 5 := by decide +kernel
-- 86-102
example : (do
    let c ← (Cascade.ofList [] (by decide) : Cascade float 3).append (← bq 1 0 0)
    let d ← c.append (← bq 2 0 0)
    .ok (c.size, ← b0 c 0, d.size, ← b0 d 0, ← b0 d 1)) = .ok (1, 1, 2, 1, 2) := by decide +kernel
-- 104-123
example : (do
    let c ← (← three 4 (by decide)).insert 1 (← bq 7 0 0)
    .ok (c.size, ← b0 c 0, ← b0 c 1, ← b0 c 2)) = .ok (4, 1, 7, 2) := by decide +kernel
-- 125-142
example : (do
    let (prv, c) ← (← three 3 (by decide)).replace 1 (← bq 7 0 0)
    .ok (prv.coeff_b.b0.val, ← b0 c 0, ← b0 c 1, ← b0 c 2)) = .ok (2, 1, 7, 3) := by decide +kernel
-- 144-162
example : (do
    let c ← (← three 3 (by decide)).remove 0
    .ok (c.size, ← b0 c 0, ← b0 c 1)) = .ok (2, 2, 3) := by decide +kernel
-- 164-180
example : (do .ok (← three 3 (by decide)).clear.size) = .ok 0 := by decide +kernel
-- 182-196
example : (do
    let z ← b 0 0 0
    let c : Cascade float 3 := Cascade.ofList [Biquad.ofBA z (← a (-1) (-11)), Biquad.ofBA z (← a (-2) (-22)),
      Biquad.ofBA z (← a (-3) (-33))] (by simp)
    .ok ((← c.coeff_a 0).a1.val, (← c.coeff_a 0).a2.val, (← c.coeff_a 2).a1.val, (← c.coeff_a 2).a2.val)) =
      .ok (-1, -11, -3, -33) := by decide +kernel

private def csteps {N : ℕ} : ℕ → Cascade float N → ℚ → Res (Cascade float N)
  | 0, c, _ => .ok c
  | n + 1, c, v => do csteps n (← c.step (← x v)).2 v

-- 214-235, 280-303
example : Res.yields (do
    let c ← three 3 (by decide)
    let d ← csteps 7 c (123 / 100)
    .ok (← c.state 1, ← d.state 1, ← (← d.reset).state 1)) (fun r => decide (r.1.v1.val = 0 ∧ r.1.v2.val = 0 ∧
      r.2.1.v1.val ≠ 0 ∧ r.2.1.v2.val ≠ 0 ∧ r.2.2.v1.val = 0 ∧ r.2.2.v2.val = 0)) = true := by decide +kernel
-- 319-362
example : ∀ f ∈ [Cascade.step, Cascade.step_df2, Cascade.step_df2_transposed (T := float) (N := 3)], (do
      let (y0, c) ← f (← three 3 (by decide)) (← x 0)
      .ok (y0.val, (← f c (← x 1)).1.val)) = .ok (0, 6) := by
  simp only [List.forall_mem_cons]
  exact ⟨by decide +kernel, by decide +kernel, by decide +kernel, by simp⟩

end Verif.Validation
