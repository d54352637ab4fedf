import Verif.Lemmas.RoundingTransposed
import Verif.Props.Rounding
import Verif.Props.Cascade

/-
Property C114: the transposed form and cascades computed with rounding.
-/

namespace Verif
open Sig
variable {T : Type} [CNum T] {val : T → ℝ} {u η M : ℝ}

/-- **C114** The transposed form of a second-order section with poles inside the unit circle, computed with
rounding, accepts every input of modulus at most `X` without ever leaving the range of the numbers, and its output
stays for ever within a fixed distance of the output of the exact filter. -/
theorem C114_transposed (R : Rounding T val u η M) (b : BqB T) (a : BqA T) (x : ℕ → T) {X Y V1 V2 E0 E1 E2 : ℝ}
    (hx : ∀ n, |val (x n)| ≤ X)
    -- the poles
    (p0 p1 : ℂ) (s1 : p0 + p1 = -(val a.a1 : ℂ)) (s2 : p0 * p1 = (val a.a2 : ℂ))
    (h0 : ‖p0‖ < 1) (h1 : ‖p1‖ < 1)
    (hY0 : 0 ≤ Y)
    -- `E0`, `E1` and `E2` bound the errors made in one step, `V1` and `V2` the state, `Y` the output
    (hE0 : ((1 + u) ^ 3 - 1) * (|val b.b0| * X + V1) + (1 + u) ^ 3 * η ≤ E0)
    (hE1 : ((1 + u) ^ 3 - 1) * (|val b.b1| * X + |val a.a1| * Y + V2) + 2 * (1 + u) ^ 3 * η ≤ E1)
    (hE2 : ((1 + u) ^ 3 - 1) * (|val b.b2| * X + |val a.a2| * Y) + 2 * (1 + u) ^ 3 * η ≤ E2)
    (hV1 : |val b.b1| * X + |val a.a1| * Y + V2 + E1 ≤ V1)
    (hV2 : |val b.b2| * X + |val a.a2| * Y + E2 ≤ V2)
    (hY : ((|val b.b0| + |val b.b1| + |val b.b2|) * X + (E0 + E1 + E2)) / ((1 - ‖p0‖) * (1 - ‖p1‖)) ≤ Y)
    -- intermediate results are in range
    (hM0 : |val b.b0| * X + V1 + E0 ≤ M)
    -- the exact filter
    (y : ℕ → ℝ)
    (hy : DiffEq (val b.b0) (val b.b1) (val b.b2) (val a.a1) (val a.a2) (fun n => val (x n)) y) :
    ∃ y' : ℕ → T, Runs Biquad.step_df2_transposed (Biquad.ofBA b a) x y' ∧ ∀ n, |val (y' n) - y n| ≤
      (E0 + E1 + E2) / ((1 - ‖p0‖) * (1 - ‖p1‖)) := by
  have hu := R.u_nonneg
  have hη := R.η_nonneg
  have hX : 0 ≤ X := (abs_nonneg _).trans (hx 0)
  have d1 : 0 < 1 - ‖p1‖ := by linarith
  have d0 : 0 < 1 - ‖p0‖ := by linarith
  have k3 : 1 ≤ (1 + u) ^ 3 := one_le_pow₀ (by linarith)
  have dm (z : ℝ) : z / (1 - ‖p1‖) / (1 - ‖p0‖) = z / ((1 - ‖p0‖) * (1 - ‖p1‖)) := by
    rw [div_div, mul_comm (1 - ‖p1‖)]
  have g0 : 0 ≤ (1 + u) ^ 3 - 1 := by linarith
  have hη3 : 0 ≤ (1 + u) ^ 3 * η := by positivity
  have c0 : 0 ≤ |val b.b0| * X := by positivity
  have c1 : 0 ≤ |val b.b1| * X := by positivity
  have c2 : 0 ≤ |val b.b2| * X := by positivity
  have c3 : 0 ≤ |val a.a1| * Y := by positivity
  have c4 : 0 ≤ |val a.a2| * Y := by positivity
  have hE2' : 0 ≤ E2 := by
    have := mul_nonneg g0 (add_nonneg c2 c4)
    linarith
  have hV2' : 0 ≤ V2 := by linarith
  have hE1' : 0 ≤ E1 := by
    have := mul_nonneg g0 (add_nonneg (add_nonneg c1 c3) hV2')
    linarith
  have hV1' : 0 ≤ V1 := by linarith
  have hE0' : 0 ≤ E0 := by
    have := mul_nonneg g0 (add_nonneg c0 hV1')
    linarith
  have e0 : ((1 + u) ^ 3 - 1) * (|val b.b0| * X + V1) + (1 : ℕ) * (1 + u) ^ 3 * η ≤ E0 := by
    push_cast; linarith
  have e1 : ((1 + u) ^ 3 - 1) * (|val b.b1| * X + |val a.a1| * Y + V2) + (2 : ℕ) * (1 + u) ^ 3 * η ≤ E1 := by
    push_cast; linarith
  have e2 : ((1 + u) ^ 3 - 1) * (|val b.b2| * X + |val a.a2| * Y) + (2 : ℕ) * (1 + u) ^ 3 * η ≤ E2 := by
    push_cast; linarith
  let xs : ℕ → ℝ := fun n => val (x n)
  have hxs : ∀ n k, |past xs n k| ≤ X := Rounding.past_le (x := xs) hx
  set V : ℝ := E0 + E1 + E2 with hV
  set U : ℝ := (|val b.b0| + |val b.b1| + |val b.b2|) * X + V with hU
  -- what is kept: state in terms of the last outputs and inputs
  let Inv (n : ℕ) (q : Biquad T) : Prop := q.a = a ∧ q.b = b ∧ |val q.w.v1| ≤ V1 ∧ |val q.w.v2| ≤ V2 ∧
    ∃ y1 y2 r1 r2 : ℝ, |r1| ≤ E1 + E2 ∧ |r2| ≤ E2 ∧
      val q.w.v1 = val b.b1 * past xs n 1 + val b.b2 * past xs n 2 - val a.a1 * y1 - val a.a2 * y2 + r1 ∧
      val q.w.v2 = val b.b2 * past xs n 1 - val a.a2 * y1 + r2 ∧
      ‖(y1 : ℂ) - p0 * y2‖ ≤ U / (1 - ‖p1‖) ∧ |y1| ≤ Y ∧
      ‖((y1 - past y n 1 : ℝ) : ℂ) - p0 * ((y2 - past y n 2 : ℝ) : ℂ)‖ ≤ V / (1 - ‖p1‖) ∧
      |y1 - past y n 1| ≤ V / ((1 - ‖p0‖) * (1 - ‖p1‖))
  have key : ∀ n q, Inv n q → ∃ o q', q.step_df2_transposed (x n) = .ok (o, q') ∧ Inv (n + 1) q' ∧
      |val o - y n| ≤ V / ((1 - ‖p0‖) * (1 - ‖p1‖)) := by
    rintro n q ⟨ha, hb, i1, i2, y1, y2, r1, r2, hr1, hr2, f1, f2, k1, k2, j1, j2⟩
    -- an output that is near keeps the bounds
    have keepY (o : T) (ho : |val o - (val b.b0 * val (x n) + val q.w.v1)| ≤ E0) :
        (‖((val o : ℝ) : ℂ) - p0 * y1‖ ≤ U / (1 - ‖p1‖) ∧ |val o| ≤ Y) ∧
        ‖((val o - y n : ℝ) : ℂ) - p0 * ((y1 - past y n 1 : ℝ) : ℂ)‖ ≤ V / (1 - ‖p1‖) ∧
          |val o - y n| ≤ V / ((1 - ‖p0‖) * (1 - ‖p1‖)) := by
      set ε := val o - (val b.b0 * val (x n) + val q.w.v1) with hε
      have hv : |r1 + ε| ≤ V := by
        refine (abs_add_le _ _).trans ?_
        linarith
      have hw : |val b.b0 * xs n + val b.b1 * past xs n 1 + val b.b2 * past xs n 2 + (r1 + ε)| ≤ U := by
        refine (abs_add_le _ _).trans (add_le_add ((abs_add_three _ _ _).trans ?_) hv)
        rw [abs_mul, abs_mul, abs_mul, add_mul, add_mul]
        exact add_le_add (add_le_add (mul_le_mul_of_nonneg_left (hx n) (abs_nonneg _))
          (mul_le_mul_of_nonneg_left (hxs n 1) (abs_nonneg _))) (mul_le_mul_of_nonneg_left (hxs n 2) (abs_nonneg _))
      have A := Rounding.keep_bounded s1 s2 h0 h1 (V := U) (by rw [dm]; exact hY) hw k1 k2
      have B := Rounding.keep_bounded s1 s2 h0 h1 (V := V) (le_of_eq (dm V)) hv j1 j2
      have ea : val b.b0 * xs n + val b.b1 * past xs n 1 + val b.b2 * past xs n 2 + (r1 + ε) - val a.a1 * y1 -
          val a.a2 * y2 = val o := by
        rw [hε, f1]; ring
      have eb : r1 + ε - val a.a1 * (y1 - past y n 1) - val a.a2 * (y2 - past y n 2) = val o - y n := by
        rw [hε, f1, hy n]; ring
      rw [ea] at A
      rw [eb] at B
      exact ⟨A, B⟩
    obtain ⟨o, v1, v2, e, eo, ev1, ev2⟩ := R.transposed_step q (x n) (Y := Y) (hx n) i1 i2
      (by rw [hb]; linarith) (by rw [hb, ha]; linarith) (by rw [hb, ha]; linarith)
      (fun o ho => by rw [hb] at ho; exact (keepY o (ho.trans e0)).1.2)
    rw [hb] at eo
    rw [ha, hb] at ev1 ev2
    replace eo := eo.trans e0
    replace ev1 := ev1.trans e1
    replace ev2 := ev2.trans e2
    obtain ⟨⟨A1, A2⟩, B1, B2⟩ := keepY o eo
    have hxn : |val b.b1 * val (x n)| ≤ |val b.b1| * X := by
      rw [abs_mul]; exact mul_le_mul_of_nonneg_left (hx n) (abs_nonneg _)
    have hxn2 : |val b.b2 * val (x n)| ≤ |val b.b2| * X := by
      rw [abs_mul]; exact mul_le_mul_of_nonneg_left (hx n) (abs_nonneg _)
    have hon : |val a.a1 * val o| ≤ |val a.a1| * Y := by
      rw [abs_mul]; exact mul_le_mul_of_nonneg_left A2 (abs_nonneg _)
    have hon2 : |val a.a2 * val o| ≤ |val a.a2| * Y := by
      rw [abs_mul]; exact mul_le_mul_of_nonneg_left A2 (abs_nonneg _)
    refine ⟨o, _, e, ⟨ha, hb, ?_, ?_, val o, y1, (val v1 - (val b.b1 * val (x n) - val a.a1 * val o + val q.w.v2)) + r2,
      val v2 - (val b.b2 * val (x n) - val a.a2 * val o), ?_, ev2, ?_, ?_, A1, A2, ?_, ?_⟩, B2⟩
    · show |val v1| ≤ V1
      rw [abs_le] at ev1 hxn hon i2 ⊢
      constructor <;> linarith [ev1.1, ev1.2, hxn.1, hxn.2, hon.1, hon.2, i2.1, i2.2]
    · show |val v2| ≤ V2
      rw [abs_le] at ev2 hxn2 hon2 ⊢
      constructor <;> linarith [ev2.1, ev2.2, hxn2.1, hxn2.2, hon2.1, hon2.2]
    · exact (abs_add_le _ _).trans (add_le_add ev1 hr2)
    · rw [Rounding.past_succ_two', past_succ_one, f2]
      show val v1 = val b.b1 * val (x n) + _ - _ - _ + _
      ring
    · rw [past_succ_one]
      show val v2 = val b.b2 * val (x n) - _ + _
      ring
    · rw [Rounding.past_succ_two', past_succ_one]; exact B1
    · rw [past_succ_one]; exact B2
  have inv : ∀ n, ∃ q : Biquad T, after Biquad.step_df2_transposed (Biquad.ofBA b a) x n = .ok q ∧ Inv n q := by
    intro n
    induction n with
    | zero =>
      have hz : (Biquad.ofBA b a).w = ⟨CNum.zero, CNum.zero⟩ := rfl
      have a1 : 0 ≤ V / (1 - ‖p1‖) := by positivity
      have a2 : 0 ≤ V / ((1 - ‖p0‖) * (1 - ‖p1‖)) := by positivity
      have a3 : 0 ≤ U / (1 - ‖p1‖) := by positivity
      refine ⟨_, rfl, rfl, rfl, ?_, ?_, 0, 0, 0, 0, ?_, ?_, ?_, ?_, ?_, ?_, ?_, ?_⟩ <;>
        simp [hz, R.zero] <;> first | assumption | linarith
    | succ n ih =>
      obtain ⟨q, e, hq⟩ := ih
      obtain ⟨o, q', e', hq', -⟩ := key n q hq
      refine ⟨q', ?_, hq'⟩
      rw [after_succ, e, bind_ok, e', bind_ok]
  have hex : ∀ n, ∃ o, out Biquad.step_df2_transposed (Biquad.ofBA b a) x n = .ok o ∧ |val o - y n| ≤
      V / ((1 - ‖p0‖) * (1 - ‖p1‖)) := by
    intro n
    obtain ⟨q, e, hq⟩ := inv n
    obtain ⟨o, q', e', -, ho⟩ := key n q hq
    refine ⟨o, ?_, ho⟩
    rw [out_def, e, bind_ok, e', bind_ok]
  choose y' g1 g2 using hex
  exact ⟨y', g1, g2⟩

/-- **C114** The transposed form in fixed point: no overflow, provided the state has the stated room, and the output
stays for ever within `5 / ((1 - |p0|) (1 - |p1|))` units in the last place of that of the exact filter, whatever
`b0`, `b1` and `b2` are (compare C85). -/
theorem C114_transposed_fixed (p : Platform) (w : Width) (F : ℕ) (hF : F < w.promote) (b : BqB (Fx w F))
    (a : BqA (Fx w F)) (x : ℕ → Fx w F) {X Y : ℝ} (hx : ∀ n, |((x n).val : ℝ)| ≤ X)
    (p0 p1 : ℂ) (s1 : p0 + p1 = -((a.a1.val : ℝ) : ℂ)) (s2 : p0 * p1 = ((a.a2.val : ℝ) : ℂ))
    (h0 : ‖p0‖ < 1) (h1 : ‖p1‖ < 1)
    (hY : ((|(b.b0.val : ℝ)| + |(b.b1.val : ℝ)| + |(b.b2.val : ℝ)|) * X + 5 * (Fx.ulp F : ℚ)) /
      ((1 - ‖p0‖) * (1 - ‖p1‖)) ≤ Y)
    (hM : (|(b.b0.val : ℝ)| + |(b.b1.val : ℝ)| + |(b.b2.val : ℝ)|) * X +
      (|(a.a1.val : ℝ)| + |(a.a2.val : ℝ)|) * Y + 5 * (Fx.ulp F : ℚ) ≤ (Fx.max w F).val)
    (y : ℕ → ℝ) (hy : DiffEq (b.b0.val : ℝ) b.b1.val b.b2.val a.a1.val a.a2.val (fun n => ((x n).val : ℝ)) y) :
    letI := Fx.cnum p w F
    ∃ y' : ℕ → Fx w F, Runs Biquad.step_df2_transposed (Biquad.ofBA b a) x y' ∧
      ∀ n, |((y' n).val : ℝ) - y n| ≤ 5 / ((1 - ‖p0‖) * (1 - ‖p1‖)) * (Fx.ulp F : ℚ) := by
  let _ := Fx.cnum p w F
  have R := C85_rounding p w F hF
  have hη := R.η_nonneg
  have d1 : 0 < 1 - ‖p1‖ := by linarith
  have d0 : 0 < 1 - ‖p0‖ := by linarith
  have hX : 0 ≤ X := (abs_nonneg _).trans (hx 0)
  have hY0 : 0 ≤ Y := le_trans (by positivity) hY
  obtain ⟨y', r, e⟩ := C114_transposed R b a x (Y := Y) (E0 := (Fx.ulp F : ℚ)) (E1 := 2 * (Fx.ulp F : ℚ))
    (E2 := 2 * (Fx.ulp F : ℚ))
    (V1 := |(b.b1.val : ℝ)| * X + |(a.a1.val : ℝ)| * Y + (|(b.b2.val : ℝ)| * X + |(a.a2.val : ℝ)| * Y +
      2 * (Fx.ulp F : ℚ)) + 2 * (Fx.ulp F : ℚ))
    (V2 := |(b.b2.val : ℝ)| * X + |(a.a2.val : ℝ)| * Y + 2 * (Fx.ulp F : ℚ)) hx p0 p1 s1 s2 h0 h1 hY0
    (by simp) (by simp) (by simp) le_rfl le_rfl (le_trans (le_of_eq (by ring)) hY) (le_trans (le_of_eq (by ring)) hM)
    y hy
  refine ⟨y', r, fun n => (e n).trans (le_of_eq ?_)⟩
  ring

/-- Hypotheses met by the section of `exBq` in a 16-bit representation with 8 fractional bits: inputs up to 4; the
error is at most 14 units in the last place (37 in C85). -/
example : ∃ (b : BqB (Fx .w16 8)) (a : BqA (Fx .w16 8)),
    (b.b0.val, b.b1.val, b.b2.val) = (1, 2, 1) ∧ (a.a1.val, a.a2.val) = (-1 / 4, -1 / 8) ∧
    ((1 / 2 : ℝ) : ℂ) + ((-1 / 4 : ℝ) : ℂ) = -((a.a1.val : ℝ) : ℂ) ∧
    ((1 / 2 : ℝ) : ℂ) * ((-1 / 4 : ℝ) : ℂ) = ((a.a2.val : ℝ) : ℂ) ∧
    ‖((1 / 2 : ℝ) : ℂ)‖ < 1 ∧ ‖((-1 / 4 : ℝ) : ℂ)‖ < 1 ∧
    ((|(b.b0.val : ℝ)| + |(b.b1.val : ℝ)| + |(b.b2.val : ℝ)|) * 4 + 5 * ((Fx.ulp 8 : ℚ) : ℝ)) /
      ((1 - ‖((1 / 2 : ℝ) : ℂ)‖) * (1 - ‖((-1 / 4 : ℝ) : ℂ)‖)) ≤ 44 ∧
    (|(b.b0.val : ℝ)| + |(b.b1.val : ℝ)| + |(b.b2.val : ℝ)|) * 4 + (|(a.a1.val : ℝ)| + |(a.a2.val : ℝ)|) * 44 +
      5 * ((Fx.ulp 8 : ℚ) : ℝ) ≤ ((Fx.max .w16 8).val : ℚ) ∧
    5 / ((1 - ‖((1 / 2 : ℝ) : ℂ)‖) * (1 - ‖((-1 / 4 : ℝ) : ℂ)‖)) ≤ 14 := by
  have v (k : ℤ) (h : -Fx.half .w16 ≤ k) (h' : k < Fx.half .w16) :
      (Fx.narrow .w16 8 k).val = (k : ℚ) / 2 ^ 8 := Fx.val_narrow h h'
  have v0 := v 256 (by decide) (by decide)
  have v1 := v 512 (by decide) (by decide)
  have v2 := v (-64) (by decide) (by decide)
  have v3 := v (-32) (by decide) (by decide)
  have n0 : ‖((1 / 2 : ℝ) : ℂ)‖ = 1 / 2 := by rw [Complex.norm_real, Real.norm_eq_abs, abs_of_pos (by norm_num)]
  have n1 : ‖((-1 / 4 : ℝ) : ℂ)‖ = 1 / 4 := by
    rw [Complex.norm_real, Real.norm_eq_abs, abs_of_neg] <;> norm_num
  have hm : (Fx.max .w16 8).val = 32767 / 256 := by
    rw [Fx.max_val, show Fx.half .w16 = 32768 from rfl]; norm_num
  refine ⟨⟨.narrow .w16 8 256, .narrow .w16 8 512, .narrow .w16 8 256⟩,
    ⟨.narrow .w16 8 (-64), .narrow .w16 8 (-32)⟩, ?_, ?_, ?_, ?_, ?_, ?_, ?_, ?_, ?_⟩
  all_goals simp only [v0, v1, v2, v3, n0, n1, hm, Fx.ulp]
  all_goals norm_num [abs_of_neg]

/-! ### Cascades -/

/-- The same filter with real numbers. -/
def Biquad.real (val : T → ℝ) (q : Biquad T) : Biquad ℝ :=
  ⟨⟨val q.a.a1, val q.a.a2⟩, ⟨val q.b.b0, val q.b.b1, val q.b.b2⟩, ⟨val q.w.v1, val q.w.v2⟩⟩

/-- A section accepts all inputs up to `X` with an error of at most `δ` (which C84, C85 and C114 provide). -/
def Accepts (step : Biquad T → T → Res (T × Biquad T)) (val : T → ℝ) (q : Biquad T) (X δ : ℝ) : Prop :=
  ∀ x : ℕ → T, (∀ n, |val (x n)| ≤ X) → ∀ y : ℕ → ℝ,
    DiffEq (val q.b.b0) (val q.b.b1) (val q.b.b2) (val q.a.a1) (val q.a.a2) (fun n => val (x n)) y →
    ∃ y' : ℕ → T, Runs step q x y' ∧ ∀ n, |val (y' n) - y n| ≤ δ

/-- A bound for the amplification of bounded inputs by the exact filter. -/
def Amplifies (val : T → ℝ) (q : Biquad T) (g : ℝ) : Prop :=
  ∃ p0 p1 : ℂ, p0 + p1 = -(val q.a.a1 : ℂ) ∧ p0 * p1 = (val q.a.a2 : ℂ) ∧ ‖p0‖ < 1 ∧ ‖p1‖ < 1 ∧
    g = (|val q.b.b0| + |val q.b.b1| + |val q.b.b2|) / ((1 - ‖p0‖) * (1 - ‖p1‖))

omit [CNum T] in
theorem Amplifies.nonneg {q : Biquad T} {g : ℝ} (h : Amplifies val q g) : 0 ≤ g := by
  obtain ⟨p0, p1, -, -, h0, h1, rfl⟩ := h
  have d1 : 0 < 1 - ‖p1‖ := by linarith
  have d0 : 0 < 1 - ‖p0‖ := by linarith
  positivity

omit [CNum T] in
theorem Amplifies.bound {q : Biquad T} {g : ℝ} (h : Amplifies val q g) {x y : ℕ → ℝ} {X : ℝ} (hx : ∀ n, |x n| ≤ X)
    (hy : DiffEq (val q.b.b0) (val q.b.b1) (val q.b.b2) (val q.a.a1) (val q.a.a2) x y) (n : ℕ) : |y n| ≤ g * X := by
  obtain ⟨p0, p1, s1, s2, h0, h1, rfl⟩ := h
  have d1 : 0 < 1 - ‖p1‖ := by linarith
  have d0 : 0 < 1 - ‖p0‖ := by linarith
  have hX : 0 ≤ X := (abs_nonneg _).trans (hx 0)
  set V : ℝ := (|val q.b.b0| + |val q.b.b1| + |val q.b.b2|) * X with hV
  have dm : V / (1 - ‖p1‖) / (1 - ‖p0‖) = (|val q.b.b0| + |val q.b.b1| + |val q.b.b2|) /
      ((1 - ‖p0‖) * (1 - ‖p1‖)) * X := by
    rw [div_div, mul_comm (1 - ‖p1‖), hV]; ring
  have step : ∀ n, ‖((past y n 1 : ℝ) : ℂ) - p0 * past y n 2‖ ≤ V / (1 - ‖p1‖) →
      |past y n 1| ≤ V / (1 - ‖p1‖) / (1 - ‖p0‖) →
      ‖((y n : ℝ) : ℂ) - p0 * past y n 1‖ ≤ V / (1 - ‖p1‖) ∧ |y n| ≤ V / (1 - ‖p1‖) / (1 - ‖p0‖) := by
    intro n i1 i2
    have hv : |val q.b.b0 * x n + val q.b.b1 * past x n 1 + val q.b.b2 * past x n 2| ≤ V := by
      refine (abs_add_three _ _ _).trans ?_
      rw [abs_mul, abs_mul, abs_mul, hV, add_mul, add_mul]
      exact add_le_add (add_le_add (mul_le_mul_of_nonneg_left (hx n) (abs_nonneg _))
        (mul_le_mul_of_nonneg_left (Rounding.past_le hx n 1) (abs_nonneg _)))
        (mul_le_mul_of_nonneg_left (Rounding.past_le hx n 2) (abs_nonneg _))
    have := Rounding.keep_bounded s1 s2 h0 h1 (V := V) le_rfl hv i1 i2
    rwa [← hy n] at this
  have all : ∀ n, ‖((past y n 1 : ℝ) : ℂ) - p0 * past y n 2‖ ≤ V / (1 - ‖p1‖) ∧
      |past y n 1| ≤ V / (1 - ‖p1‖) / (1 - ‖p0‖) := by
    intro n
    induction n with
    | zero =>
      have a1 : 0 ≤ V / (1 - ‖p1‖) := by positivity
      have a2 : 0 ≤ V / (1 - ‖p1‖) / (1 - ‖p0‖) := by positivity
      simpa using ⟨a1, a2⟩
    | succ n ih =>
      rw [Rounding.past_succ_two', past_succ_one]
      exact step n ih.1 ih.2
  rw [← dm]
  exact (step n (all n).1 (all n).2).2

theorem past_sub (x y : ℕ → ℝ) (n k : ℕ) : past (fun m => x m - y m) n k = past x n k - past y n k := by
  unfold past
  split_ifs <;> simp

omit [CNum T] in
/-- Sections one after the other. -/
theorem series_rounding (step : Biquad T → T → Res (T × Biquad T)) :
    ∀ (l : List (Biquad T)) (X e δ g : ℕ → ℝ), (∀ k (hk : k < l.length), Accepts step val l[k] (X k) (δ k)) →
    (∀ k (hk : k < l.length), Amplifies val l[k] (g k)) →
    (∀ k < l.length, g k * X k + δ k ≤ X (k + 1)) → (∀ k < l.length, g k * e k + δ k ≤ e (k + 1)) →
    (∀ q ∈ l, q.real val = Biquad.ofBA (q.real val).b (q.real val).a) →
    ∀ (x : ℕ → T) (x' z : ℕ → ℝ), (∀ n, |val (x n)| ≤ X 0) → (∀ n, |val (x n) - x' n| ≤ e 0) →
    Series Biquad.step (l.map (Biquad.real val)) x' z →
    ∃ z' : ℕ → T, Series step l x z' ∧ ∀ n, |val (z' n) - z n| ≤ e l.length := by
  intro l
  induction l with
  | nil =>
    intro X e δ g _ _ _ _ _ x x' z _ he hz
    have hz' : z = x' := hz
    subst hz'
    exact ⟨x, rfl, he⟩
  | cons q qs ih =>
    intro X e δ g hA hG hX he hr x x' z hx hxe hz
    obtain ⟨y, hy, hz⟩ := hz
    have hA0 := hA 0 (by simp)
    have hG0 := hG 0 (by simp)
    simp only [List.getElem_cons_zero] at hA0 hG0
    rw [hr q (by simp)] at hy
    replace hy := (C32_step _ _ _ _).1 hy
    obtain ⟨yx, hyx⟩ := Biquad.runs_df2_exists (Biquad.ofBA (q.real val).b (q.real val).a) (fun n => val (x n))
    have hyx' := (C32_step _ _ _ _).1 (show Runs Biquad.step _ _ _ from hyx)
    obtain ⟨y', hy', hye⟩ := hA0 x hx yx hyx'
    have hb := hG0.bound (x := fun n => val (x n)) hx hyx'
    have hd : ∀ n, |yx n - y n| ≤ g 0 * e 0 := by
      refine hG0.bound (x := fun n => val (x n) - x' n) (y := fun n => yx n - y n) hxe ?_
      intro n
      have h1 := hyx' n
      have h2 := hy n
      simp only [past_sub]
      rw [h1, h2]
      show _ = val q.b.b0 * _ + val q.b.b1 * _ + val q.b.b2 * _ - val q.a.a1 * _ - val q.a.a2 * _
      simp only [Biquad.real]
      ring
    have hX0 := hX 0 (by simp)
    have he0 := he 0 (by simp)
    obtain ⟨z', hz', hze⟩ := ih (fun k => X (k + 1)) (fun k => e (k + 1)) (fun k => δ (k + 1)) (fun k => g (k + 1))
      (fun k hk => hA (k + 1) (by simp; omega)) (fun k hk => hG (k + 1) (by simp; omega))
      (fun k hk => hX (k + 1) (by simp; omega)) (fun k hk => he (k + 1) (by simp; omega))
      (fun p hp => hr p (by simp [hp])) y' y z
      (fun n => by
        have h1 := hye n
        have h2 := hb n
        have : val (y' n) = (val (y' n) - yx n) + yx n := by ring
        rw [this]
        refine (abs_add_le _ _).trans ?_
        show _ ≤ X (0 + 1)
        linarith)
      (fun n => by
        have h1 := hye n
        have h2 := hd n
        have : val (y' n) - y n = (val (y' n) - yx n) + (yx n - y n) := by ring
        rw [this]
        refine (abs_add_le _ _).trans ?_
        show _ ≤ e (0 + 1)
        linarith) hz
    refine ⟨z', ⟨y', hy', hz'⟩, fun n => ?_⟩
    simpa using hze n

/-- **C114** A cascade computed with rounding, in either form: if section `k` accepts inputs up to `X k` with an error
of at most `δ k`, and amplifies bounded inputs by at most `g k`, the cascade accepts every input up to `X 0`, and its
output stays for ever within `e` of that of the exact cascade, `e` being the errors amplified by the sections that
follow. -/
theorem C114_cascade {N : ℕ} (R : Rounding T val u η M) (step : Biquad T → T → Res (T × Biquad T)) (c : Cascade T N)
    (hc : c.WF) (hr : c.AtRest) (d : Cascade ℝ N) (hd : d.WF) (hcd : d.toList = c.toList.map (Biquad.real val))
    (X e δ g : ℕ → ℝ) (hA : ∀ k (hk : k < c.toList.length), Accepts step val c.toList[k] (X k) (δ k))
    (hG : ∀ k (hk : k < c.toList.length), Amplifies val c.toList[k] (g k))
    (hX : ∀ k < c.size, g k * X k + δ k ≤ X (k + 1)) (he0 : e 0 = 0)
    (he : ∀ k < c.size, e (k + 1) = g k * e k + δ k)
    (x : ℕ → T) (hx : ∀ n, |val (x n)| ≤ X 0) (z : ℕ → ℝ) (hz : Runs Cascade.step d (fun n => val (x n)) z) :
    ∃ z' : ℕ → T, Runs (Cascade.stepWith step) c x z' ∧ ∀ n, |val (z' n) - z n| ≤ e c.size := by
  rw [(C41_step_forms d hd _ _).1, hcd] at hz
  have hs : c.toList.length = c.size := Cascade.length_toList hc
  obtain ⟨z', h1, h2⟩ := series_rounding step c.toList X e δ g hA hG (fun k hk => hX k (by omega))
    (fun k hk => (he k (by omega)).ge) (fun q hq => by
      have := hr q hq
      unfold Biquad.real Biquad.ofBA
      rw [this]
      simp [Biquad.zeroW, R.zero]
      rfl) x _ z hx (fun n => by simp [he0]) hz
  exact ⟨z', (C41_series step c hc x z').2 h1, by rw [← hs]; exact h2⟩

/-- Two sections `exBq` in double precision, transposed: for inputs up to 1000 the output differs from that of the exact
cascade by less than `10^-8` for ever. -/
example (x : ℕ → Flt Ieee.binary64) (hx : ∀ n, |((x n).val : ℝ)| ≤ 1000) (z : ℕ → ℝ)
    (hz : Runs Cascade.step (Cascade.ofList (N := 3) [Biquad.ofBA ⟨1, 2, 1⟩ ⟨-1 / 4, -1 / 8⟩,
      Biquad.ofBA ⟨1, 2, 1⟩ ⟨-1 / 4, -1 / 8⟩] (by decide)) (fun n => ((x n).val : ℝ)) z) :
    ∃ z', Runs Cascade.step_df2_transposed (Cascade.ofList (N := 3) [Biquad.ofBA exBqB exBqA,
      Biquad.ofBA exBqB exBqA] (by decide)) x z' ∧ ∀ n, |((z' n).val : ℝ) - z n| ≤ 1 / 10 ^ 8 := by
  have n0 : ‖((1 / 2 : ℝ) : ℂ)‖ = 1 / 2 := by rw [Complex.norm_real, Real.norm_eq_abs, abs_of_pos (by norm_num)]
  have n1 : ‖((-1 / 4 : ℝ) : ℂ)‖ = 1 / 4 := by
    rw [Complex.norm_real, Real.norm_eq_abs, abs_of_neg] <;> norm_num
  have b0 : ((exBqB.b0.val : ℚ) : ℝ) = 1 := by norm_num [exBqB, Flt.lit]
  have b1 : ((exBqB.b1.val : ℚ) : ℝ) = 2 := by norm_num [exBqB, Flt.lit]
  have b2 : ((exBqB.b2.val : ℚ) : ℝ) = 1 := by norm_num [exBqB, Flt.lit]
  have a1 : ((exBqA.a1.val : ℚ) : ℝ) = -1 / 4 := by norm_num [exBqA, Flt.lit]
  have a2 : ((exBqA.a2.val : ℚ) : ℝ) = -1 / 8 := by norm_num [exBqA, Flt.lit]
  have hM : (10 ^ 6 : ℝ) ≤ (Ieee.binary64.max : ℚ) := by
    have : (10 ^ 6 : ℚ) ≤ Ieee.binary64.max := by decide +kernel
    exact_mod_cast this
  have hη : (2 : ℝ) ^ Ieee.binary64.q / 2 ≤ 1 / 10 ^ 30 := by
    have : (2 : ℚ) ^ Ieee.binary64.q / 2 ≤ 1 / 10 ^ 30 := by decide +kernel
    have h2 : ((2 ^ Ieee.binary64.q / 2 : ℚ) : ℝ) ≤ ((1 / 10 ^ 30 : ℚ) : ℝ) := Rat.cast_le.2 this
    push_cast at h2
    exact h2
  have hp : (1 : ℝ) / 2 ^ Ieee.binary64.p = 1 / 2 ^ 53 := rfl
  have R := Flt.rounding Ieee.binary64
  have s1 : ((1 / 2 : ℝ) : ℂ) + ((-1 / 4 : ℝ) : ℂ) = -(((exBqA.a1.val : ℚ) : ℝ) : ℂ) := by rw [a1]; push_cast; ring
  have s2 : ((1 / 2 : ℝ) : ℂ) * ((-1 / 4 : ℝ) : ℂ) = (((exBqA.a2.val : ℚ) : ℝ) : ℂ) := by rw [a2]; push_cast; ring
  have acc : ∀ s : ℝ, 1 ≤ s → s ≤ 20 → Accepts Biquad.step_df2_transposed (fun v : Flt Ieee.binary64 => (v.val : ℝ))
      (Biquad.ofBA exBqB exBqA) (1000 * s) (8 / 10 ^ 11 * s) := by
    intro s hs1 hs2 x hx y hy
    obtain ⟨y', r, e⟩ := C114_transposed R exBqB exBqA x (Y := 10700 * s) (V1 := 7200 * s) (V2 := 2400 * s)
      (E0 := s / 10 ^ 11) (E1 := s / 10 ^ 11) (E2 := s / 10 ^ 11) hx _ _ s1 s2
      (by rw [n0]; norm_num) (by rw [n1]; norm_num) (by positivity)
      (by rw [b0, hp]; norm_num at hη ⊢; linarith)
      (by rw [b1, a1, hp]; norm_num [abs_of_neg] at hη ⊢; linarith)
      (by rw [b2, a2, hp]; norm_num [abs_of_neg] at hη ⊢; linarith)
      (by rw [b1, a1]; norm_num [abs_of_neg]; linarith)
      (by rw [b2, a2]; norm_num [abs_of_neg]; linarith)
      (by rw [n0, n1, b0, b1, b2]; norm_num; linarith)
      (by refine le_trans ?_ hM; rw [b0]; norm_num; linarith)
      y hy
    refine ⟨y', r, fun n => (e n).trans ?_⟩
    rw [n0, n1]
    norm_num
    linarith
  have amp : Amplifies (fun v : Flt Ieee.binary64 => (v.val : ℝ)) (Biquad.ofBA exBqB exBqA) (32 / 3) := by
    refine ⟨_, _, s1, s2, by rw [n0]; norm_num, by rw [n1]; norm_num, ?_⟩
    show _ = (|((exBqB.b0.val : ℚ) : ℝ)| + |((exBqB.b1.val : ℚ) : ℝ)| + |((exBqB.b2.val : ℚ) : ℝ)|) / _
    rw [n0, n1, b0, b1, b2]
    norm_num
  have real : (Biquad.ofBA exBqB exBqA).real (fun v : Flt Ieee.binary64 => (v.val : ℝ)) =
      Biquad.ofBA ⟨1, 2, 1⟩ ⟨-1 / 4, -1 / 8⟩ := by
    unfold Biquad.real
    simp only [Biquad.ofBA, a1, a2, b0, b1, b2, Biquad.zeroW, R.zero]
    rfl
  obtain ⟨z', h1, h2⟩ := C114_cascade (N := 3) R Biquad.step_df2_transposed
    (Cascade.ofList [Biquad.ofBA exBqB exBqA, Biquad.ofBA exBqB exBqA] (by decide)) (show 2 ≤ 3 by decide)
    (by
      intro q hq
      replace hq : q ∈ [Biquad.ofBA exBqB exBqA, Biquad.ofBA exBqB exBqA] := hq
      have : q = Biquad.ofBA exBqB exBqA := by simpa using hq
      rw [this]; rfl)
    (Cascade.ofList [Biquad.ofBA ⟨1, 2, 1⟩ ⟨-1 / 4, -1 / 8⟩, Biquad.ofBA ⟨1, 2, 1⟩ ⟨-1 / 4, -1 / 8⟩] (by decide))
    (show 2 ≤ 3 by decide) (by rw [← real]; rfl)
    (fun k => if k = 0 then 1000 else if k = 1 then 10700 else 10 ^ 6)
    (fun k => if k = 0 then 0 else if k = 1 then 8 / 10 ^ 11 else 32 / 3 * (8 / 10 ^ 11) + 8 / 10 ^ 11 * (107 / 10))
    (fun k => if k = 0 then 8 / 10 ^ 11 else 8 / 10 ^ 11 * (107 / 10)) (fun _ => 32 / 3)
    (by
      intro k hk
      have hk' : k < 2 := hk
      rcases (by omega : k = 0 ∨ k = 1) with rfl | rfl
      · have := acc 1 le_rfl (by norm_num)
        norm_num at this ⊢
        exact this
      · have := acc (107 / 10) (by norm_num) (by norm_num)
        norm_num at this ⊢
        exact this)
    (by
      intro k hk
      have hk' : k < 2 := hk
      rcases (by omega : k = 0 ∨ k = 1) with rfl | rfl <;> exact amp)
    (by
      intro k hk
      have hk' : k < 2 := hk
      rcases (by omega : k = 0 ∨ k = 1) with rfl | rfl <;> norm_num)
    rfl
    (by
      intro k hk
      have hk' : k < 2 := hk
      rcases (by omega : k = 0 ∨ k = 1) with rfl | rfl <;> norm_num)
    x hx z hz
  refine ⟨z', h1, fun n => (h2 n).trans ?_⟩
  show (if (2 : ℕ) = 0 then _ else if (2 : ℕ) = 1 then _ else _ : ℝ) ≤ _
  norm_num

end Verif
