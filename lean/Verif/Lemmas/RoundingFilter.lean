import Verif.Lemmas.Rounding
import Verif.Lemmas.Biquad
import Verif.Lemmas.BiquadAnalysis
import Verif.Lemmas.Filter
import Verif.Model.OnePole
import Verif.Lemmas.FixedPoint

/- Filters computed with rounding. -/

namespace Verif
open Sig
namespace Rounding
variable {T : Type} [CNum T] {val : T → ℝ} {u η M : ℝ}

theorem pow_le_three (R : Rounding T val u η M) {k : ℕ} (hk : k ≤ 3) : (1 + u) ^ k ≤ (1 + u) ^ 3 :=
  pow_le_pow_right₀ (by linarith [R.u_nonneg]) hk

/-- Range condition for an intermediate result. -/
theorem range_le (R : Rounding T val u η M) {m m' : ℝ} {k j j' : ℕ} (hk : k ≤ 3) (hj : j ≤ j')
    (hm0 : 0 ≤ m) (hm : m ≤ m')
    (h : (1 + u) ^ 3 * m' + j' * (1 + u) ^ 3 * η ≤ M) : (1 + u) ^ k * m + j * (1 + u) ^ k * η ≤ M := by
  have h1 := R.pow_le_three hk
  have hu := R.u_nonneg
  have h0 : (0 : ℝ) ≤ (1 + u) ^ k := by positivity
  have hj' : (j : ℝ) ≤ j' := by exact_mod_cast hj
  have h2 : (1 + u) ^ k * m ≤ (1 + u) ^ 3 * m' := mul_le_mul h1 hm hm0 (by positivity)
  have h3 : (j : ℝ) * (1 + u) ^ k * η ≤ j' * (1 + u) ^ 3 * η :=
    mul_le_mul_of_nonneg_right (mul_le_mul hj' h1 h0 (by positivity)) R.η_nonneg
  linarith

/-- One step of direct form 2. -/
theorem biquad_step (R : Rounding T val u η M) (q : Biquad T) (x : T) {X W : ℝ}
    (hx : |val x| ≤ X) (h1 : |val q.w.v1| ≤ W) (h2 : |val q.w.v2| ≤ W)
    (hMw : (1 + u) ^ 3 * (X + |val q.a.a1| * W + |val q.a.a2| * W) + (2 : ℕ) * (1 + u) ^ 3 * η ≤ M)
    (hMy : (1 + u) ^ 3 * (|val q.b.b0| * W + |val q.b.b1| * W + |val q.b.b2| * W)
      + (3 : ℕ) * (1 + u) ^ 3 * η ≤ M)
    (hW : ∀ w, |val w - (val x - val q.a.a1 * val q.w.v1 - val q.a.a2 * val q.w.v2)| ≤
      ((1 + u) ^ 3 - 1) * (X + |val q.a.a1| * W + |val q.a.a2| * W) + (2 : ℕ) * (1 + u) ^ 3 * η →
        |val w| ≤ W) :
    ∃ y w0, q.step x = .ok (y, { q with w := { v1 := w0, v2 := q.w.v1 } }) ∧
      |val w0 - (val x - val q.a.a1 * val q.w.v1 - val q.a.a2 * val q.w.v2)| ≤
        ((1 + u) ^ 3 - 1) * (X + |val q.a.a1| * W + |val q.a.a2| * W) + (2 : ℕ) * (1 + u) ^ 3 * η ∧
      |val y - (val q.b.b0 * val w0 + val q.b.b1 * val q.w.v1 + val q.b.b2 * val q.w.v2)| ≤
        ((1 + u) ^ 3 - 1) * (|val q.b.b0| * W + |val q.b.b1| * W + |val q.b.b2| * W) +
          (3 : ℕ) * (1 + u) ^ 3 * η := by
  have hu := R.u_nonneg
  have hη := R.η_nonneg
  have hX : 0 ≤ X := (abs_nonneg _).trans hx
  have hW0 : 0 ≤ W := (abs_nonneg _).trans h1
  have n1 : 0 ≤ |val q.a.a1| * W := by positivity
  have n2 : 0 ≤ |val q.a.a2| * W := by positivity
  have m0 : 0 ≤ |val q.b.b0| * W := by positivity
  have m1 : 0 ≤ |val q.b.b1| * W := by positivity
  have m2 : 0 ≤ |val q.b.b2| * W := by positivity
  have top {m m' : ℝ} {j : ℕ} (h0 : 0 ≤ m) (hm : m ≤ m')
      (h : (1 + u) ^ 3 * m' + j * (1 + u) ^ 3 * η ≤ M) : m ≤ M := by
    have := R.range_le (k := 0) (j := 0) (by norm_num) (Nat.zero_le j) h0 hm h
    simpa using this
  obtain ⟨p1, e1, r1⟩ := R.near_mul q.a.a1 q.w.v1 (mul_le_mul_of_nonneg_left h1 (abs_nonneg _))
    (top n1 (by linarith) hMw)
  obtain ⟨t, e2, r2⟩ := R.near_sub (k := 1) ((Near.refl hx).mono hu hη (by norm_num) le_rfl le_rfl) r1
    (R.range_le (by norm_num) (by norm_num) (by linarith) (by linarith) hMw)
  obtain ⟨p2, e3, r3⟩ := R.near_mul q.a.a2 q.w.v2 (mul_le_mul_of_nonneg_left h2 (abs_nonneg _))
    (top n2 (by linarith) hMw)
  obtain ⟨w0, e4, r4⟩ := R.near_sub r2 (r3.mono hu hη (k' := 2) (by norm_num) le_rfl le_rfl)
    (R.range_le (by norm_num) (by norm_num) (by linarith) (by linarith) hMw)
  have hw0 := hW w0 r4.2
  obtain ⟨s0, e5, r5⟩ := R.near_mul q.b.b0 w0 (mul_le_mul_of_nonneg_left hw0 (abs_nonneg _))
    (top m0 (by linarith) hMy)
  obtain ⟨s1, e6, r6⟩ := R.near_mul q.b.b1 q.w.v1 (mul_le_mul_of_nonneg_left h1 (abs_nonneg _))
    (top m1 (by linarith) hMy)
  obtain ⟨s2, e7, r7⟩ := R.near_mul q.b.b2 q.w.v2 (mul_le_mul_of_nonneg_left h2 (abs_nonneg _))
    (top m2 (by linarith) hMy)
  obtain ⟨s, e8, r8⟩ := R.near_add r5 r6
    (R.range_le (by norm_num) (by norm_num) (by linarith) (by linarith) hMy)
  obtain ⟨y, e9, r9⟩ := R.near_add r8 (r7.mono hu hη (k' := 2) (by norm_num) le_rfl le_rfl)
    (R.range_le (by norm_num) (by norm_num) (by linarith) (by linarith) hMy)
  refine ⟨y, w0, ?_, r4.2, r9.2⟩
  unfold Biquad.step Biquad.step_df2
  simp only [e1, e2, e3, e4, e5, e6, e7, e8, e9, bind_ok]

/-- A recurrence with characteristic roots `p0`, `p1` keeps the pair of the last two values in a
bounded set. -/
theorem keep_bounded {p0 p1 : ℂ} {a1 a2 : ℝ} (s1 : p0 + p1 = -(a1 : ℂ)) (s2 : p0 * p1 = (a2 : ℂ))
    (h0 : ‖p0‖ < 1) (h1 : ‖p1‖ < 1) {V W : ℝ} (hW : V / (1 - ‖p1‖) / (1 - ‖p0‖) ≤ W) {v1 v2 v : ℝ}
    (hv : |v| ≤ V) (i1 : ‖(v1 : ℂ) - p0 * v2‖ ≤ V / (1 - ‖p1‖)) (i2 : |v1| ≤ W) :
    ‖((v - a1 * v1 - a2 * v2 : ℝ) : ℂ) - p0 * v1‖ ≤ V / (1 - ‖p1‖) ∧ |v - a1 * v1 - a2 * v2| ≤ W := by
  have d1 : 0 < 1 - ‖p1‖ := by linarith
  have d0 : 0 < 1 - ‖p0‖ := by linarith
  have e : ((v - a1 * v1 - a2 * v2 : ℝ) : ℂ) - p0 * v1 = v + p1 * ((v1 : ℂ) - p0 * v2) := by
    push_cast
    linear_combination -(v1 : ℂ) * s1 + (v2 : ℂ) * s2
  have b1 : ‖((v - a1 * v1 - a2 * v2 : ℝ) : ℂ) - p0 * v1‖ ≤ V / (1 - ‖p1‖) := by
    rw [e]
    have q : V / (1 - ‖p1‖) = V + ‖p1‖ * (V / (1 - ‖p1‖)) := by field_simp; ring
    rw [q]
    refine (norm_add_le _ _).trans (add_le_add ?_ ?_)
    · rwa [Complex.norm_real]
    · rw [norm_mul]; exact mul_le_mul_of_nonneg_left i1 (norm_nonneg _)
  refine ⟨b1, ?_⟩
  have hB : V / (1 - ‖p1‖) ≤ W * (1 - ‖p0‖) := (div_le_iff₀ d0).1 hW
  have h3 : |v - a1 * v1 - a2 * v2| ≤ ‖((v - a1 * v1 - a2 * v2 : ℝ) : ℂ) - p0 * v1‖ + ‖p0 * (v1 : ℂ)‖ := by
    have := norm_add_le (((v - a1 * v1 - a2 * v2 : ℝ) : ℂ) - p0 * v1) (p0 * v1)
    rw [sub_add_cancel, Complex.norm_real] at this
    exact this
  have h4 : ‖p0 * (v1 : ℂ)‖ ≤ ‖p0‖ * W := by
    rw [norm_mul, Complex.norm_real]
    exact mul_le_mul_of_nonneg_left i2 (norm_nonneg _)
  nlinarith

end Rounding
end Verif
