import Verif.Lemmas.RoundingFilter
import Verif.Lemmas.Ieee
import Verif.Lemmas.RoundingMatrix
import Verif.Props.Biquad
import Verif.Props.OnePole
import Verif.Props.FixedPoint

/-
Properties C84-C88: filters and products computed with rounding, in floating point or in fixed point.

`Rounding T val u η M`: in the arithmetic of `T` every result of modulus at most `M` has a relative
error of at most `u`, products in addition an absolute error of at most `η`.
-/

namespace Verif
open Sig
variable {T : Type} [CNum T] {val : T → ℝ} {u η M : ℝ}

/-! ### C84 second-order sections -/

/-- **C84** A second-order section with poles inside the unit circle, computed with rounding, accepts
every input of modulus at most `X` without ever leaving the range of the numbers, and its output
stays for ever within a fixed distance of the output of the exact filter. -/
theorem C84_biquad (R : Rounding T val u η M) (b : BqB T) (a : BqA T) (x : ℕ → T) {X W D E : ℝ}
    (hx : ∀ n, |val (x n)| ≤ X)
    -- the poles
    (p0 p1 : ℂ) (s1 : p0 + p1 = -(val a.a1 : ℂ)) (s2 : p0 * p1 = (val a.a2 : ℂ))
    (h0 : ‖p0‖ < 1) (h1 : ‖p1‖ < 1)
    (hW0 : 0 ≤ W)
    -- `D` and `E` bound the errors made in one step, `W` the state
    (hD : ((1 + u) ^ 3 - 1) * (X + (|val a.a1| + |val a.a2|) * W) + 2 * (1 + u) ^ 3 * η ≤ D)
    (hE : ((1 + u) ^ 3 - 1) * ((|val b.b0| + |val b.b1| + |val b.b2|) * W) + 3 * (1 + u) ^ 3 * η ≤ E)
    (hW : (X + D) / ((1 - ‖p0‖) * (1 - ‖p1‖)) ≤ W)
    -- intermediate results are in range
    (hMw : X + (|val a.a1| + |val a.a2|) * W + D ≤ M)
    (hMy : (|val b.b0| + |val b.b1| + |val b.b2|) * W + E ≤ M)
    -- the exact filter
    (y : ℕ → ℝ)
    (hy : DiffEq (val b.b0) (val b.b1) (val b.b2) (val a.a1) (val a.a2) (fun n => val (x n)) y) :
    ∃ y' : ℕ → T, Runs Biquad.step (Biquad.ofBA b a) x y' ∧ ∀ n, |val (y' n) - y n| ≤
      (|val b.b0| + |val b.b1| + |val b.b2|) * (D / ((1 - ‖p0‖) * (1 - ‖p1‖))) + E := by
  obtain ⟨st, hst0, hst⟩ := ((C32_step ⟨val b.b0, val b.b1, val b.b2⟩ ⟨val a.a1, val a.a2⟩ _ y).2 hy).states
  simp only [Biquad.step, Biquad.step_df2_exact, Except.ok.injEq, Prod.mk.injEq] at hst
  have hu := R.u_nonneg
  have hη := R.η_nonneg
  have hX : 0 ≤ X := (abs_nonneg _).trans (hx 0)
  have d1 : 0 < 1 - ‖p1‖ := by linarith
  have d0 : 0 < 1 - ‖p0‖ := by linarith
  have k3 : 1 ≤ (1 + u) ^ 3 := one_le_pow₀ (by linarith)
  have dm (z : ℝ) : z / (1 - ‖p1‖) / (1 - ‖p0‖) = z / ((1 - ‖p0‖) * (1 - ‖p1‖)) := by
    rw [div_div, mul_comm (1 - ‖p1‖)]
  have hab : 0 ≤ |val a.a1| + |val a.a2| := by positivity
  have hbb : 0 ≤ |val b.b0| + |val b.b1| + |val b.b2| := by positivity
  have hD0 : 0 ≤ D := by
    refine le_trans ?_ hD
    have : 0 ≤ ((1 + u) ^ 3 - 1) := by linarith
    positivity
  have hwn : ((1 + u) ^ 3 - 1) * (X + |val a.a1| * W + |val a.a2| * W) + (2 : ℕ) * (1 + u) ^ 3 * η ≤ D := by
    refine le_trans (le_of_eq ?_) hD
    push_cast; ring
  have hyn : ((1 + u) ^ 3 - 1) * (|val b.b0| * W + |val b.b1| * W + |val b.b2| * W)
      + (3 : ℕ) * (1 + u) ^ 3 * η ≤ E := by
    refine le_trans (le_of_eq ?_) hE
    push_cast; ring
  have hc : ∀ n, (st n).a = ⟨val a.a1, val a.a2⟩ ∧ (st n).b = ⟨val b.b0, val b.b1, val b.b2⟩ := by
    intro n
    induction n with
    | zero => rw [hst0]; exact ⟨rfl, rfl⟩
    | succ n ih => rw [← (hst n).2]; exact ih
  -- one step, from any state in the invariant set
  have key : ∀ n (q : Biquad T), q.a = a → q.b = b →
      ‖((val q.w.v1 : ℝ) : ℂ) - p0 * val q.w.v2‖ ≤ (X + D) / (1 - ‖p1‖) → |val q.w.v1| ≤ W →
      |val q.w.v2| ≤ W →
      ‖((val q.w.v1 - (st n).w.v1 : ℝ) : ℂ) - p0 * ((val q.w.v2 - (st n).w.v2 : ℝ) : ℂ)‖ ≤ D / (1 - ‖p1‖) →
      |val q.w.v1 - (st n).w.v1| ≤ D / ((1 - ‖p0‖) * (1 - ‖p1‖)) →
      |val q.w.v2 - (st n).w.v2| ≤ D / ((1 - ‖p0‖) * (1 - ‖p1‖)) →
      ∃ o q', q.step (x n) = .ok (o, q') ∧ q'.a = a ∧ q'.b = b ∧
        ‖((val q'.w.v1 : ℝ) : ℂ) - p0 * val q'.w.v2‖ ≤ (X + D) / (1 - ‖p1‖) ∧ |val q'.w.v1| ≤ W ∧
        |val q'.w.v2| ≤ W ∧
        ‖((val q'.w.v1 - (st (n + 1)).w.v1 : ℝ) : ℂ) -
          p0 * ((val q'.w.v2 - (st (n + 1)).w.v2 : ℝ) : ℂ)‖ ≤ D / (1 - ‖p1‖) ∧
        |val q'.w.v1 - (st (n + 1)).w.v1| ≤ D / ((1 - ‖p0‖) * (1 - ‖p1‖)) ∧
        |val q'.w.v2 - (st (n + 1)).w.v2| ≤ D / ((1 - ‖p0‖) * (1 - ‖p1‖)) ∧
        |val o - y n| ≤ (|val b.b0| + |val b.b1| + |val b.b2|) * (D / ((1 - ‖p0‖) * (1 - ‖p1‖))) + E := by
    intro n q ha hb i1 i2 i3 j1 j2 j3
    -- the state kept by the recurrence
    have keepW (w : T) (hw : |val w - (val (x n) - val a.a1 * val q.w.v1 - val a.a2 * val q.w.v2)| ≤ D) :
        ‖((val w : ℝ) : ℂ) - p0 * val q.w.v1‖ ≤ (X + D) / (1 - ‖p1‖) ∧ |val w| ≤ W := by
      have := Rounding.keep_bounded s1 s2 h0 h1 (V := X + D) (by rw [dm]; exact hW)
        (v := val (x n) + (val w - (val (x n) - val a.a1 * val q.w.v1 - val a.a2 * val q.w.v2)))
        ((abs_add_le _ _).trans (add_le_add (hx n) hw)) i1 i2
      have e : val (x n) + (val w - (val (x n) - val a.a1 * val q.w.v1 - val a.a2 * val q.w.v2))
          - val a.a1 * val q.w.v1 - val a.a2 * val q.w.v2 = val w := by ring
      rwa [e] at this
    obtain ⟨o, w0, e, ew, ey⟩ := R.biquad_step q (x n) (hx n) i2 i3
      (by rw [ha]; refine le_trans ?_ hMw; linarith)
      (by rw [hb]; refine le_trans ?_ hMy; linarith)
      (fun w hw => by rw [ha] at hw; exact (keepW w (hw.trans hwn)).2)
    rw [ha] at ew
    rw [hb] at ey
    have ew' := ew.trans hwn
    have ey' := ey.trans hyn
    obtain ⟨hs1, hs2⟩ := hst n
    obtain ⟨c1, c2⟩ := hc n
    rw [c1] at hs1 hs2
    rw [c2] at hs1
    have w1 : (st (n + 1)).w.v1 = val (x n) - val a.a1 * (st n).w.v1 - val a.a2 * (st n).w.v2 := by
      rw [← hs2]
    have w2 : (st (n + 1)).w.v2 = (st n).w.v1 := by rw [← hs2]
    have kd := Rounding.keep_bounded s1 s2 h0 h1 (V := D) (le_of_eq (dm D)) ew' j1 j2
    have ed : val w0 - (val (x n) - val a.a1 * val q.w.v1 - val a.a2 * val q.w.v2) -
        val a.a1 * (val q.w.v1 - (st n).w.v1) - val a.a2 * (val q.w.v2 - (st n).w.v2) =
        val w0 - (st (n + 1)).w.v1 := by rw [w1]; ring
    rw [ed] at kd
    refine ⟨o, _, e, ha, hb, (keepW w0 ew').1, (keepW w0 ew').2, i2, ?_, kd.2, ?_, ?_⟩
    · rw [w2]; exact kd.1
    · rw [w2]; exact j2
    · rw [← w1] at hs1
      have eo : val o - y n = (val o - (val b.b0 * val w0 + val b.b1 * val q.w.v1 + val b.b2 * val q.w.v2))
          + (val b.b0 * (val w0 - (st (n + 1)).w.v1) + val b.b1 * (val q.w.v1 - (st n).w.v1)
          + val b.b2 * (val q.w.v2 - (st n).w.v2)) := by rw [← hs1]; ring
      rw [eo, add_comm]
      refine (abs_add_le _ _).trans (add_le_add ?_ ey')
      refine (abs_add_three _ _ _).trans ?_
      rw [abs_mul, abs_mul, abs_mul, add_mul, add_mul]
      exact add_le_add (add_le_add (mul_le_mul_of_nonneg_left kd.2 (abs_nonneg _))
        (mul_le_mul_of_nonneg_left j2 (abs_nonneg _))) (mul_le_mul_of_nonneg_left j3 (abs_nonneg _))
  have z0 : (st 0).w.v1 = 0 ∧ (st 0).w.v2 = 0 := by
    rw [hst0]
    exact ⟨rfl, rfl⟩
  have inv : ∀ n, ∃ q : Biquad T, after Biquad.step (Biquad.ofBA b a) x n = .ok q ∧ q.a = a ∧ q.b = b ∧
      ‖((val q.w.v1 : ℝ) : ℂ) - p0 * val q.w.v2‖ ≤ (X + D) / (1 - ‖p1‖) ∧ |val q.w.v1| ≤ W ∧
      |val q.w.v2| ≤ W ∧
      ‖((val q.w.v1 - (st n).w.v1 : ℝ) : ℂ) - p0 * ((val q.w.v2 - (st n).w.v2 : ℝ) : ℂ)‖ ≤ D / (1 - ‖p1‖) ∧
      |val q.w.v1 - (st n).w.v1| ≤ D / ((1 - ‖p0‖) * (1 - ‖p1‖)) ∧
      |val q.w.v2 - (st n).w.v2| ≤ D / ((1 - ‖p0‖) * (1 - ‖p1‖)) := by
    intro n
    induction n with
    | zero =>
      refine ⟨_, rfl, rfl, rfl, ?_⟩
      have hz : (Biquad.ofBA b a).w = ⟨CNum.zero, CNum.zero⟩ := rfl
      simp only [hz, R.zero, z0.1, z0.2, sub_zero, abs_zero, Complex.ofReal_zero, mul_zero, norm_zero]
      have a1 : 0 ≤ (X + D) / (1 - ‖p1‖) := by positivity
      have a2 : 0 ≤ D / (1 - ‖p1‖) := by positivity
      have a3 : 0 ≤ D / ((1 - ‖p0‖) * (1 - ‖p1‖)) := by positivity
      exact ⟨a1, hW0, hW0, a2, a3, a3⟩
    | succ n ih =>
      obtain ⟨q, e, ha, hb, i1, i2, i3, j1, j2, j3⟩ := ih
      obtain ⟨o, q', e', ha', hb', r1, r2, r3, r4, r5, r6, -⟩ := key n q ha hb i1 i2 i3 j1 j2 j3
      refine ⟨q', ?_, ha', hb', r1, r2, r3, r4, r5, r6⟩
      rw [after_succ, e, bind_ok, e', bind_ok]
  have hex : ∀ n, ∃ o, out Biquad.step (Biquad.ofBA b a) x n = .ok o ∧ |val o - y n| ≤
      (|val b.b0| + |val b.b1| + |val b.b2|) * (D / ((1 - ‖p0‖) * (1 - ‖p1‖))) + E := by
    intro n
    obtain ⟨q, e, ha, hb, i1, i2, i3, j1, j2, j3⟩ := inv n
    obtain ⟨o, q', e', -, -, -, -, -, -, -, -, ho⟩ := key n q ha hb i1 i2 i3 j1 j2 j3
    refine ⟨o, ?_, ho⟩
    rw [out_def, e, bind_ok, e', bind_ok]
  choose y' h1' h2' using hex
  exact ⟨y', h1', h2'⟩

/-- Coefficients of `exBq` in double precision. -/
def exBqB : BqB (Flt Ieee.binary64) :=
  ⟨.lit _ 1 0 (by decide +kernel), .lit _ 2 0 (by decide +kernel), .lit _ 1 0 (by decide +kernel)⟩
/-- Coefficients of `exBq` in double precision. -/
def exBqA : BqA (Flt Ieee.binary64) := ⟨.lit _ (-1) (-2) (by decide +kernel), .lit _ (-1) (-3) (by decide +kernel)⟩

/-- The section of `exBq` in double precision: the output for inputs up to 1000 differs from the exact one
by less than `10^-10` for ever. -/
example (x : ℕ → Flt Ieee.binary64) (hx : ∀ n, |((x n).val : ℝ)| ≤ 1000) (y : ℕ → ℝ)
    (hy : DiffEq 1 2 1 (-1 / 4) (-1 / 8) (fun n => ((x n).val : ℝ)) y) :
    ∃ y' : ℕ → Flt Ieee.binary64, Runs Biquad.step (Biquad.ofBA exBqB exBqA) x y' ∧
      ∀ n, |((y' n).val : ℝ) - y n| ≤ 1 / 10 ^ 10 := by
  have n0 : ‖((1 / 2 : ℝ) : ℂ)‖ = 1 / 2 := by rw [Complex.norm_real, Real.norm_eq_abs, abs_of_pos (by norm_num)]
  have n1 : ‖((-1 / 4 : ℝ) : ℂ)‖ = 1 / 4 := by
    rw [Complex.norm_real, Real.norm_eq_abs, abs_of_neg] <;> norm_num
  have b0 : ((exBqB.b0.val : ℚ) : ℝ) = 1 := by norm_num [exBqB, Flt.lit]
  have b1 : ((exBqB.b1.val : ℚ) : ℝ) = 2 := by norm_num [exBqB, Flt.lit]
  have b2 : ((exBqB.b2.val : ℚ) : ℝ) = 1 := by norm_num [exBqB, Flt.lit]
  have a1 : ((exBqA.a1.val : ℚ) : ℝ) = -1 / 4 := by norm_num [exBqA, Flt.lit]
  have a2 : ((exBqA.a2.val : ℚ) : ℝ) = -1 / 8 := by norm_num [exBqA, Flt.lit]
  have hM : (10 ^ 6 : ℝ) ≤ (Ieee.binary64.max : ℚ) := by
    have : (10 ^ 6 : ℚ) ≤ Ieee.binary64.max := by decide +kernel
    exact_mod_cast this
  have hη : (2 : ℝ) ^ Ieee.binary64.q / 2 ≤ 1 / 10 ^ 30 := by
    have : (2 : ℚ) ^ Ieee.binary64.q / 2 ≤ 1 / 10 ^ 30 := by decide +kernel
    have h2 : ((2 ^ Ieee.binary64.q / 2 : ℚ) : ℝ) ≤ ((1 / 10 ^ 30 : ℚ) : ℝ) := Rat.cast_le.2 this
    push_cast at h2
    exact h2
  have hp : (1 : ℝ) / 2 ^ Ieee.binary64.p = 1 / 2 ^ 53 := rfl
  obtain ⟨y', r, e⟩ := C84_biquad (Flt.rounding Ieee.binary64) exBqB exBqA x
    (X := 1000) (W := 3000) (D := 1 / 10 ^ 12) (E := 1 / 10 ^ 11) hx ((1 / 2 : ℝ) : ℂ) ((-1 / 4 : ℝ) : ℂ)
    (by rw [a1]; push_cast; ring) (by rw [a2]; push_cast; ring) (by rw [n0]; norm_num) (by rw [n1]; norm_num)
    (by norm_num)
    (by
      rw [a1, a2, hp]
      norm_num [abs_of_neg] at hη ⊢
      linarith)
    (by
      rw [b0, b1, b2, hp]
      norm_num at hη ⊢
      linarith)
    (by rw [n0, n1]; norm_num)
    (by
      refine le_trans ?_ hM
      rw [a1, a2]
      norm_num [abs_of_neg])
    (by
      refine le_trans ?_ hM
      rw [b0, b1, b2]
      norm_num)
    y (by rw [b0, b1, b2, a1, a2]; exact hy)
  refine ⟨y', r, fun n => (e n).trans ?_⟩
  rw [n0, n1, b0, b1, b2]
  norm_num

/-! ### C85 fixed point -/

/-- **C85** The fixed-point numbers have arithmetic with rounding: sums and differences are exact, products
have an error of less than one unit in the last place. -/
theorem C85_rounding (p : Platform) (w : Width) (F : ℕ) (hF : F < w.promote) :
    letI := Fx.cnum p w F
    Rounding (Fx w F) (fun x => (x.val : ℝ)) 0 (Fx.ulp F : ℚ) ((Fx.max w F).val : ℚ) := by
  let _ := Fx.cnum p w F
  have hmin : (Fx.min w F).val ≤ -(Fx.max w F).val := by
    rw [Fx.min_val, Fx.max_val, ← neg_div]
    apply div_le_div_of_nonneg_right _ (by positivity)
    push_cast; linarith
  refine ⟨le_rfl, ?_, ?_, ?_, ?_, ?_⟩
  · have : 0 ≤ Fx.ulp F := by unfold Fx.ulp; positivity
    exact_mod_cast this
  · have : (Fx.narrow w F 0).val = 0 := by
      rw [Fx.val_narrow (by have := Fx.half_pos w; omega) (Fx.half_pos w)]; simp
    have h : (Fx.narrow w F 0).val = (0 : ℚ) := this
    show (((Fx.narrow w F 0).val : ℚ) : ℝ) = 0
    rw [h, Rat.cast_zero]
  · intro a b h
    have h' : |a.val + b.val| ≤ (Fx.max w F).val := by exact_mod_cast h
    obtain ⟨l, r⟩ := abs_le.1 h'
    obtain ⟨c, hc, e⟩ := C24_add_exact p a b (hmin.trans l) r
    refine ⟨c, hc, ?_⟩
    rw [e]; push_cast; simp
  · intro a b h
    have h' : |a.val - b.val| ≤ (Fx.max w F).val := by exact_mod_cast h
    obtain ⟨l, r⟩ := abs_le.1 h'
    obtain ⟨c, hc, e⟩ := C24_sub_exact p a b (hmin.trans l) r
    refine ⟨c, hc, ?_⟩
    rw [e]; push_cast; simp
  · intro a b h
    have h' : |a.val * b.val| ≤ (Fx.max w F).val := by exact_mod_cast h
    obtain ⟨l, r⟩ := abs_le.1 h'
    have hu : 0 < Fx.ulp F := by unfold Fx.ulp; positivity
    obtain ⟨c, hc, e1, e2⟩ := C25_mul_rounds_down p hF a b (hmin.trans l) (by linarith)
    refine ⟨c, hc, ?_⟩
    have : |c.val - a.val * b.val| ≤ Fx.ulp F := by rw [abs_le]; constructor <;> linarith
    rw [zero_mul, zero_add]
    exact_mod_cast this

/-- **C85** A second-order section in fixed point with poles inside the unit circle never overflows,
provided the state has the stated room, and its output stays for ever within
`(2 (|b0| + |b1| + |b2|) / ((1 - |p0|) (1 - |p1|)) + 3)` units in the last place of the output of the
exact filter. -/
theorem C85_biquad (p : Platform) (w : Width) (F : ℕ) (hF : F < w.promote) (b : BqB (Fx w F))
    (a : BqA (Fx w F)) (x : ℕ → Fx w F) {X W : ℝ} (hx : ∀ n, |((x n).val : ℝ)| ≤ X)
    (p0 p1 : ℂ) (s1 : p0 + p1 = -((a.a1.val : ℝ) : ℂ)) (s2 : p0 * p1 = ((a.a2.val : ℝ) : ℂ))
    (h0 : ‖p0‖ < 1) (h1 : ‖p1‖ < 1)
    (hW : (X + 2 * (Fx.ulp F : ℚ)) / ((1 - ‖p0‖) * (1 - ‖p1‖)) ≤ W)
    (hMw : X + (|(a.a1.val : ℝ)| + |(a.a2.val : ℝ)|) * W + 2 * (Fx.ulp F : ℚ) ≤ (Fx.max w F).val)
    (hMy : (|(b.b0.val : ℝ)| + |(b.b1.val : ℝ)| + |(b.b2.val : ℝ)|) * W + 3 * (Fx.ulp F : ℚ) ≤ (Fx.max w F).val)
    (y : ℕ → ℝ) (hy : DiffEq (b.b0.val : ℝ) b.b1.val b.b2.val a.a1.val a.a2.val (fun n => ((x n).val : ℝ)) y) :
    letI := Fx.cnum p w F
    ∃ y' : ℕ → Fx w F, Runs Biquad.step (Biquad.ofBA b a) x y' ∧ ∀ n, |((y' n).val : ℝ) - y n| ≤
      (2 * (|(b.b0.val : ℝ)| + |(b.b1.val : ℝ)| + |(b.b2.val : ℝ)|) / ((1 - ‖p0‖) * (1 - ‖p1‖)) + 3) *
        (Fx.ulp F : ℚ) := by
  let _ := Fx.cnum p w F
  have R := C85_rounding p w F hF
  have hη := R.η_nonneg
  have d1 : 0 < 1 - ‖p1‖ := by linarith
  have d0 : 0 < 1 - ‖p0‖ := by linarith
  have hX : 0 ≤ X := (abs_nonneg _).trans (hx 0)
  have hW0 : 0 ≤ W := le_trans (by positivity) hW
  obtain ⟨y', r, e⟩ := C84_biquad R b a x hx p0 p1 s1 s2 h0 h1 hW0 (D := 2 * (Fx.ulp F : ℚ))
    (E := 3 * (Fx.ulp F : ℚ)) (by simp) (by simp) hW hMw hMy y hy
  refine ⟨y', r, fun n => (e n).trans (le_of_eq ?_)⟩
  ring

/-- Hypotheses met by the section of `exBq`, poles `1/2` and `-1/4`, in a 16-bit representation with 8
fractional bits: inputs up to 4. -/
example : ∃ (b : BqB (Fx .w16 8)) (a : BqA (Fx .w16 8)),
    (b.b0.val, b.b1.val, b.b2.val) = (1, 2, 1) ∧ (a.a1.val, a.a2.val) = (-1 / 4, -1 / 8) ∧
    ((1 / 2 : ℝ) : ℂ) + ((-1 / 4 : ℝ) : ℂ) = -((a.a1.val : ℝ) : ℂ) ∧
    ((1 / 2 : ℝ) : ℂ) * ((-1 / 4 : ℝ) : ℂ) = ((a.a2.val : ℝ) : ℂ) ∧
    ‖((1 / 2 : ℝ) : ℂ)‖ < 1 ∧ ‖((-1 / 4 : ℝ) : ℂ)‖ < 1 ∧
    (4 + 2 * ((Fx.ulp 8 : ℚ) : ℝ)) / ((1 - ‖((1 / 2 : ℝ) : ℂ)‖) * (1 - ‖((-1 / 4 : ℝ) : ℂ)‖)) ≤ 11 ∧
    4 + (|(a.a1.val : ℝ)| + |(a.a2.val : ℝ)|) * 11 + 2 * ((Fx.ulp 8 : ℚ) : ℝ) ≤ ((Fx.max .w16 8).val : ℚ) ∧
    (|(b.b0.val : ℝ)| + |(b.b1.val : ℝ)| + |(b.b2.val : ℝ)|) * 11 + 3 * ((Fx.ulp 8 : ℚ) : ℝ) ≤
      ((Fx.max .w16 8).val : ℚ) := by
  have v (k : ℤ) (h : -Fx.half .w16 ≤ k) (h' : k < Fx.half .w16) :
      (Fx.narrow .w16 8 k).val = (k : ℚ) / 2 ^ 8 := Fx.val_narrow h h'
  have v0 := v 256 (by decide) (by decide)
  have v1 := v 512 (by decide) (by decide)
  have v2 := v (-64) (by decide) (by decide)
  have v3 := v (-32) (by decide) (by decide)
  have n0 : ‖((1 / 2 : ℝ) : ℂ)‖ = 1 / 2 := by rw [Complex.norm_real, Real.norm_eq_abs, abs_of_pos (by norm_num)]
  have n1 : ‖((-1 / 4 : ℝ) : ℂ)‖ = 1 / 4 := by
    rw [Complex.norm_real, Real.norm_eq_abs, abs_of_neg] <;> norm_num
  have hm : (Fx.max .w16 8).val = 32767 / 256 := by
    rw [Fx.max_val, show Fx.half .w16 = 32768 from rfl]; norm_num
  refine ⟨⟨.narrow .w16 8 256, .narrow .w16 8 512, .narrow .w16 8 256⟩,
    ⟨.narrow .w16 8 (-64), .narrow .w16 8 (-32)⟩, ?_, ?_, ?_, ?_, ?_, ?_, ?_, ?_, ?_⟩
  all_goals simp only [v0, v1, v2, v3, n0, n1, hm, Fx.ulp]
  all_goals norm_num [abs_of_neg]

/-! ### C86 one-pole filters -/

/-- **C86** A one-pole filter with `|a1| < 1`, computed with rounding, accepts every input of modulus
at most `X` without leaving the range of the numbers, and its output stays for ever within `D / (1 - |a1|)`
of the output of the exact filter, `D` being the error made in one step. -/
theorem C86_onepole (R : Rounding T val u η M) (b0 a1 : T) (x : ℕ → T) {X W D : ℝ}
    (hx : ∀ n, |val (x n)| ≤ X) (ha : |val a1| < 1) (hW0 : 0 ≤ W)
    (hD : ((1 + u) ^ 2 - 1) * (|val b0| * X + |val a1| * W) + 2 * (1 + u) ^ 2 * η ≤ D)
    (hW : (|val b0| * X + D) / (1 - |val a1|) ≤ W)
    (hM : |val b0| * X + |val a1| * W + D ≤ M)
    (y : ℕ → ℝ) (hy : ∀ n, y n = val b0 * val (x n) - val a1 * past y n 1) :
    ∃ y' : ℕ → T, Runs OnePole.step (OnePole.ofBA b0 a1) x y' ∧
      ∀ n, |val (y' n) - y n| ≤ D / (1 - |val a1|) := by
  have hu := R.u_nonneg
  have hη := R.η_nonneg
  have hX : 0 ≤ X := (abs_nonneg _).trans (hx 0)
  have d : 0 < 1 - |val a1| := by linarith
  have hD0 : 0 ≤ D := by
    refine le_trans ?_ hD
    have : 0 ≤ ((1 + u) ^ 2 - 1) := by
      have : 1 ≤ (1 + u) ^ 2 := one_le_pow₀ (by linarith)
      linarith
    positivity
  have key : ∀ n (q : OnePole T), q.a1 = a1 → q.b0 = b0 → |val q.v1| ≤ W →
      |val q.v1 - past y n 1| ≤ D / (1 - |val a1|) →
      ∃ o, q.step (x n) = .ok (o, ⟨a1, b0, o⟩) ∧ |val o| ≤ W ∧ |val o - y n| ≤ D / (1 - |val a1|) := by
    intro n q e1 e2 i1 i2
    obtain ⟨m1, f1, r1⟩ := R.near_mul (x n) b0 (m := |val b0| * X)
      (by rw [mul_comm]; exact mul_le_mul_of_nonneg_left (hx n) (abs_nonneg _)) (by nlinarith [abs_nonneg (val a1)])
    obtain ⟨m2, f2, r2⟩ := R.near_mul q.v1 a1 (m := |val a1| * W)
      (by rw [mul_comm]; exact mul_le_mul_of_nonneg_left i1 (abs_nonneg _)) (by nlinarith [abs_nonneg (val b0)])
    have hu2 : 1 + u ≤ (1 + u) ^ 2 := by nlinarith
    obtain ⟨o, f3, r3⟩ := R.near_sub r1 r2 (by
      refine le_trans ?_ hM
      have k1 : 0 ≤ |val b0| * X + |val a1| * W := by positivity
      have k2 := mul_le_mul_of_nonneg_right hu2 k1
      have k3 := mul_le_mul_of_nonneg_right hu2 hη
      rw [pow_one]
      push_cast
      nlinarith)
    have r3' : |val o - (val (x n) * val b0 - val q.v1 * val a1)| ≤ D := by
      refine r3.2.trans (le_trans (le_of_eq ?_) hD)
      push_cast; ring
    refine ⟨o, ?_, ?_, ?_⟩
    · unfold OnePole.step
      rw [e1, e2]
      simp only [f1, f2, f3, bind_ok]
    · have t : |val o| ≤ |val o - (val (x n) * val b0 - val q.v1 * val a1)| +
          (|val (x n) * val b0| + |val q.v1 * val a1|) := by
        have q1 := abs_add_le (val o - (val (x n) * val b0 - val q.v1 * val a1)) (val (x n) * val b0 - val q.v1 * val a1)
        have q2 := abs_sub (val (x n) * val b0) (val q.v1 * val a1)
        rw [sub_add_cancel] at q1
        linarith
      have t2 : |val (x n) * val b0| ≤ |val b0| * X := by
        rw [abs_mul, mul_comm]; exact mul_le_mul_of_nonneg_left (hx n) (abs_nonneg _)
      have t3 : |val q.v1 * val a1| ≤ |val a1| * W := by
        rw [abs_mul, mul_comm]; exact mul_le_mul_of_nonneg_left i1 (abs_nonneg _)
      have t4 := (div_le_iff₀ d).1 hW
      nlinarith
    · have e : val o - y n = (val o - (val (x n) * val b0 - val q.v1 * val a1))
          - val a1 * (val q.v1 - past y n 1) := by rw [hy n]; ring
      rw [e]
      have q2 := abs_sub (val o - (val (x n) * val b0 - val q.v1 * val a1)) (val a1 * (val q.v1 - past y n 1))
      have t3 : |val a1 * (val q.v1 - past y n 1)| ≤ |val a1| * (D / (1 - |val a1|)) := by
        rw [abs_mul]; exact mul_le_mul_of_nonneg_left i2 (abs_nonneg _)
      have t4 : D / (1 - |val a1|) = D + |val a1| * (D / (1 - |val a1|)) := by field_simp; ring
      rw [t4]
      linarith
  have inv : ∀ n, ∃ q : OnePole T, after OnePole.step (OnePole.ofBA b0 a1) x n = .ok q ∧ q.a1 = a1 ∧
      q.b0 = b0 ∧ |val q.v1| ≤ W ∧ |val q.v1 - past y n 1| ≤ D / (1 - |val a1|) := by
    intro n
    induction n with
    | zero =>
      refine ⟨_, rfl, rfl, rfl, ?_, ?_⟩
      · show |val CNum.zero| ≤ W
        rw [R.zero, abs_zero]; exact hW0
      · show |val CNum.zero - 0| ≤ _
        rw [R.zero, sub_zero, abs_zero]; positivity
    | succ n ih =>
      obtain ⟨q, e, h1, h2, h3, h4⟩ := ih
      obtain ⟨o, e', r1, r2⟩ := key n q h1 h2 h3 h4
      refine ⟨⟨a1, b0, o⟩, ?_, rfl, rfl, r1, ?_⟩
      · rw [after_succ, e, bind_ok, e', bind_ok]
      · simpa [past] using r2
  have hex : ∀ n, ∃ o, out OnePole.step (OnePole.ofBA b0 a1) x n = .ok o ∧
      |val o - y n| ≤ D / (1 - |val a1|) := by
    intro n
    obtain ⟨q, e, h1, h2, h3, h4⟩ := inv n
    obtain ⟨o, e', r1, r2⟩ := key n q h1 h2 h3 h4
    refine ⟨o, ?_, r2⟩
    rw [out_def, e, bind_ok, e', bind_ok]
  choose y' g1 g2 using hex
  exact ⟨y', g1, g2⟩

/-- **C86** In fixed point: no overflow, and at most `2 / (1 - |a1|)` units in the last place from the
exact filter. -/
theorem C86_fixed_point (p : Platform) (w : Width) (F : ℕ) (hF : F < w.promote) (b0 a1 : Fx w F)
    (x : ℕ → Fx w F) {X : ℝ} (hx : ∀ n, |((x n).val : ℝ)| ≤ X) (ha : |(a1.val : ℝ)| < 1)
    (hM : |(b0.val : ℝ)| * X + |(a1.val : ℝ)| * ((|(b0.val : ℝ)| * X + 2 * (Fx.ulp F : ℚ)) / (1 - |(a1.val : ℝ)|))
      + 2 * (Fx.ulp F : ℚ) ≤ (Fx.max w F).val)
    (y : ℕ → ℝ) (hy : ∀ n, y n = b0.val * (x n).val - a1.val * past y n 1) :
    letI := Fx.cnum p w F
    ∃ y' : ℕ → Fx w F, Runs OnePole.step (OnePole.ofBA b0 a1) x y' ∧
      ∀ n, |((y' n).val : ℝ) - y n| ≤ 2 / (1 - |(a1.val : ℝ)|) * (Fx.ulp F : ℚ) := by
  let _ := Fx.cnum p w F
  have R := C85_rounding p w F hF
  have hη := R.η_nonneg
  have d : 0 < 1 - |(a1.val : ℝ)| := by linarith
  have hX : 0 ≤ X := (abs_nonneg _).trans (hx 0)
  obtain ⟨y', r, e⟩ := C86_onepole R b0 a1 x hx ha (D := 2 * (Fx.ulp F : ℚ)) (by positivity) (by simp)
    le_rfl hM y hy
  exact ⟨y', r, fun n => (e n).trans (le_of_eq (by ring))⟩

/-- Hypotheses met: a 16-bit representation with 8 fractional bits, smoothing by `1/8`, inputs up to 50. -/
example : ∃ b0 a1 : Fx .w16 8, b0.val = 1 / 8 ∧ a1.val = -7 / 8 ∧ |(a1.val : ℝ)| < 1 ∧
    |(b0.val : ℝ)| * 50 + |(a1.val : ℝ)| * ((|(b0.val : ℝ)| * 50 + 2 * ((Fx.ulp 8 : ℚ) : ℝ)) / (1 - |(a1.val : ℝ)|))
      + 2 * ((Fx.ulp 8 : ℚ) : ℝ) ≤ ((Fx.max .w16 8).val : ℚ) := by
  have v (k : ℤ) (h : -Fx.half .w16 ≤ k) (h' : k < Fx.half .w16) :
      (Fx.narrow .w16 8 k).val = (k : ℚ) / 2 ^ 8 := Fx.val_narrow h h'
  have v0 := v 32 (by decide) (by decide)
  have v1 := v (-224) (by decide) (by decide)
  have hm : (Fx.max .w16 8).val = 32767 / 256 := by
    rw [Fx.max_val, show Fx.half .w16 = 32768 from rfl]; norm_num
  refine ⟨.narrow .w16 8 32, .narrow .w16 8 (-224), ?_, ?_, ?_, ?_⟩
  all_goals simp only [v0, v1, hm, Fx.ulp]
  all_goals norm_num [abs_of_neg]

/-! ### C87 dead band -/

/-- **C87** In fixed point a one-pole low-pass filter never comes to rest: with `-1 ≤ a1 < 0` and no
more input, every positive state below `ulp / (1 + a1)` is repeated for ever. -/
theorem C87_dead_band (p : Platform) (w : Width) (F : ℕ) (hF : F < w.promote) (b0 a1 v : Fx w F)
    (ha : -1 ≤ a1.val) (hv : 0 < v.val) (h : v.val * (1 + a1.val) < Fx.ulp F) :
    letI := Fx.cnum p w F
    Runs OnePole.step ⟨a1, b0, v⟩ (fun _ => CNum.zero) (fun _ => v) := by
  let _ := Fx.cnum p w F
  have hz : (Fx.narrow w F 0).val = 0 := by
    rw [Fx.val_narrow (by have := Fx.half_pos w; omega) (Fx.half_pos w)]; simp
  have hu : 0 < Fx.ulp F := by unfold Fx.ulp; positivity
  obtain ⟨b1, b2⟩ := Fx.val_bounds v
  have hmin : (Fx.min w F).val = -(Fx.max w F).val - Fx.ulp F := by
    rw [Fx.min_val, Fx.max_val]; unfold Fx.ulp; push_cast; ring
  have e1 : Fx.mul p (Fx.narrow w F 0) b0 = .ok (Fx.narrow w F 0) := C25_mul_exact p hF _ _ _ (by rw [hz]; ring)
  obtain ⟨c, e2, l, r⟩ := C25_mul_rounds_down p hF v a1 (by nlinarith) (by nlinarith)
  have hc : c.val = -v.val := by
    have r1 : v.val * a1.val < -v.val + Fx.ulp F := by linarith
    have l1 : -v.val ≤ v.val * a1.val := by nlinarith
    have g1 : c.val < -v.val + Fx.ulp F := by linarith
    have g2 : -v.val < c.val + Fx.ulp F := by linarith
    unfold Fx.val Fx.ulp at g1 g2
    unfold Fx.val
    have t : (0 : ℚ) < 2 ^ F := by positivity
    rw [← neg_div, ← add_div, div_lt_div_iff_of_pos_right t] at g1 g2
    rw [← neg_div]
    congr 1
    have g1' : c.storage.toInt < -v.storage.toInt + 1 := by exact_mod_cast g1
    have g2' : -v.storage.toInt < c.storage.toInt + 1 := by exact_mod_cast g2
    have : c.storage.toInt = -v.storage.toInt := by omega
    exact_mod_cast this
  obtain ⟨o, e3, ho⟩ := C24_sub_exact p (Fx.narrow w F 0) c (by rw [hz, hc]; linarith) (by rw [hz, hc]; linarith)
  have hov : o = v := Fx.val_inj (by rw [ho, hz, hc]; ring)
  subst hov
  refine (runs_of_states (fun _ => (⟨a1, b0, o⟩ : OnePole (Fx w F))) rfl fun n => ?_).1
  show (do
    let y ← Fx.sub p (← Fx.mul p (Fx.narrow w F 0) b0) (← Fx.mul p o a1)
    Except.ok (y, (⟨a1, b0, y⟩ : OnePole (Fx w F)))) = _
  rw [e1, e2, bind_ok, bind_ok, e3, bind_ok]

/-- Smoothing by `1/8` with 8 fractional bits: a rest of `7/256` stays. -/
example : ∃ a1 v : Fx .w16 8, -1 ≤ a1.val ∧ v.val = 7 / 256 ∧ v.val * (1 + a1.val) < Fx.ulp 8 := by
  have v (k : ℤ) (h : -Fx.half .w16 ≤ k) (h' : k < Fx.half .w16) :
      (Fx.narrow .w16 8 k).val = (k : ℚ) / 2 ^ 8 := Fx.val_narrow h h'
  have v0 := v 7 (by decide) (by decide)
  have v1 := v (-224) (by decide) (by decide)
  refine ⟨.narrow .w16 8 (-224), .narrow .w16 8 7, ?_, ?_, ?_⟩
  all_goals simp only [v0, v1, Fx.ulp]
  all_goals norm_num

/-- **C87** In exact arithmetic the same filter comes to rest from every state. -/
theorem C87_exact_decays (b0 a1 v : ℝ) (ha : |a1| < 1) (y : ℕ → ℝ)
    (h : Runs OnePole.step ⟨a1, b0, v⟩ (fun _ => 0) y) :
    Filter.Tendsto y Filter.atTop (nhds 0) := by
  rw [C45_step_any_state] at h
  obtain ⟨h0, h⟩ := h
  have e : ∀ n, y n = (-a1) ^ (n + 1) * v := by
    intro n
    induction n with
    | zero => rw [h0]; show b0 * 0 - a1 * v = _; ring
    | succ n ih => rw [h, ih]; show b0 * 0 - a1 * _ = _; ring
  have t := ((tendsto_pow_atTop_nhds_zero_of_abs_lt_one (r := -a1) (by rwa [abs_neg])).comp
    (Filter.tendsto_add_atTop_nat 1)).mul_const v
  rw [zero_mul] at t
  exact t.congr fun n => (e n).symm

/-! ### C88 products of vectors and matrices -/

/-- **C88** A dot product computed with rounding differs from the exact one by at most the relative error
`(1 + u)^(N+1) - 1` of the sum of the moduli, plus the absolute errors of the `N` products. -/
theorem C88_dot (R : Rounding T val u η M) {N : ℕ} (a : RowVec T N) (b : ColVec T N)
    (hM : (1 + u) ^ (N + 1) * (∑ i, |val (a.rget i)| * |val (b.vget i)|) + N * (1 + u) ^ (N + 1) * η ≤ M) :
    ∃ c, a.dot b = .ok c ∧ |val c - ∑ i, val (a.rget i) * val (b.vget i)| ≤
      ((1 + u) ^ (N + 1) - 1) * (∑ i, |val (a.rget i)| * |val (b.vget i)|) + N * (1 + u) ^ (N + 1) * η := by
  obtain ⟨c, e, h⟩ := a.dot_acc b (acc := fun k v => ∃ hk : k ≤ N, Near u η (val v)
      (∑ i : Fin k, val (a.rget ⟨i, by omega⟩) * val (b.vget ⟨i, by omega⟩))
      (∑ i : Fin k, |val (a.rget ⟨i, by omega⟩)| * |val (b.vget ⟨i, by omega⟩)|) (k + 1) k)
    ⟨Nat.zero_le _, by
      rw [R.zero]
      simpa using (Near.refl (u := u) (η := η) (v := 0) (m := 0) (by simp)).mono R.u_nonneg R.η_nonneg
        (Nat.zero_le 1) le_rfl le_rfl⟩
    (by
      rintro k hk v ⟨_, hv⟩
      obtain ⟨p, s, e1, e2, e3⟩ := R.near_sum a.rget b.vget hk hM v hv
      exact ⟨p, s, e1, e2, hk, e3⟩)
  obtain ⟨_, h⟩ := h
  exact ⟨c, e, h.2⟩

/-- **C88** Likewise for every element of a product of square matrices. -/
theorem C88_mul (R : Rounding T val u η M) {N : ℕ} (A B : Mat T N N)
    (hM : ∀ i j, (1 + u) ^ (N + 1) * (∑ k, |val (A.get i k)| * |val (B.get k j)|) +
      N * (1 + u) ^ (N + 1) * η ≤ M) :
    ∃ C, A.mul B = .ok C ∧ ∀ i j, |val (C.get i j) - ∑ k, val (A.get i k) * val (B.get k j)| ≤
      ((1 + u) ^ (N + 1) - 1) * (∑ k, |val (A.get i k)| * |val (B.get k j)|) +
        N * (1 + u) ^ (N + 1) * η := by
  obtain ⟨C, e, h⟩ := A.mul_acc B (acc := fun i j k v => ∃ hk : k ≤ N, Near u η (val v)
      (∑ n : Fin k, val (A.get i ⟨n, by omega⟩) * val (B.get ⟨n, by omega⟩ j))
      (∑ n : Fin k, |val (A.get i ⟨n, by omega⟩)| * |val (B.get ⟨n, by omega⟩ j)|) (k + 1) k)
    (fun i j => ⟨Nat.zero_le _, by
      rw [R.zero]
      simpa using (Near.refl (u := u) (η := η) (v := 0) (m := 0) (by simp)).mono R.u_nonneg R.η_nonneg
        (Nat.zero_le 1) le_rfl le_rfl⟩)
    (by
      rintro i j k hk v ⟨_, hv⟩
      obtain ⟨p, s, e1, e2, e3⟩ := R.near_sum (A.get i) (fun n => B.get n j) hk (hM i j) v hv
      exact ⟨p, s, e1, e2, hk, e3⟩)
  refine ⟨C, e, fun i j => ?_⟩
  obtain ⟨_, h⟩ := h i j
  exact h.2

/-- Fixed point: three products, each at most one unit off. -/
example (p : Platform) (a : RowVec (Fx .w16 8) 3) (b : ColVec (Fx .w16 8) 3)
    (ha : ∀ i, |((a.rget i).val : ℝ)| ≤ 6) (hb : ∀ i, |((b.vget i).val : ℝ)| ≤ 7) :
    letI := Fx.cnum p .w16 8
    ∃ c, a.dot b = .ok c ∧ |(c.val : ℝ) - ∑ i, ((a.rget i).val : ℝ) * ((b.vget i).val : ℝ)| ≤ 3 / 256 := by
  let _ := Fx.cnum p .w16 8
  have hm : (Fx.max .w16 8).val = 32767 / 256 := by
    rw [Fx.max_val, show Fx.half .w16 = 32768 from rfl]; norm_num
  have hs : ∑ i, |((a.rget i).val : ℝ)| * |((b.vget i).val : ℝ)| ≤ 126 := by
    refine (Finset.sum_le_sum (g := fun _ => (42 : ℝ)) fun i _ => ?_).trans (by simp; norm_num)
    exact (mul_le_mul (ha i) (hb i) (abs_nonneg _) (by norm_num)).trans (by norm_num)
  obtain ⟨c, e, h⟩ := C88_dot (C85_rounding p .w16 8 (by decide)) a b (by
    rw [hm]
    unfold Fx.ulp
    norm_num
    linarith)
  refine ⟨c, e, h.trans ?_⟩
  unfold Fx.ulp
  norm_num

end Verif
