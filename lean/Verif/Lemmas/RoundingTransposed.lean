import Verif.Lemmas.RoundingFilter

/- The transposed direct form computed with rounding. -/

namespace Verif
open Sig
namespace Rounding
variable {T : Type} [CNum T] {val : T → ℝ} {u η M : ℝ}

/-- One step of the transposed direct form 2. -/
theorem transposed_step (R : Rounding T val u η M) (q : Biquad T) (x : T) {X Y V1 V2 : ℝ}
    (hx : |val x| ≤ X) (h1 : |val q.w.v1| ≤ V1) (h2 : |val q.w.v2| ≤ V2)
    (hM0 : (1 + u) ^ 3 * (|val q.b.b0| * X + V1) + (1 : ℕ) * (1 + u) ^ 3 * η ≤ M)
    (hM1 : (1 + u) ^ 3 * (|val q.b.b1| * X + |val q.a.a1| * Y + V2) + (2 : ℕ) * (1 + u) ^ 3 * η ≤ M)
    (hM2 : (1 + u) ^ 3 * (|val q.b.b2| * X + |val q.a.a2| * Y) + (2 : ℕ) * (1 + u) ^ 3 * η ≤ M)
    (hY : ∀ y, |val y - (val q.b.b0 * val x + val q.w.v1)| ≤
      ((1 + u) ^ 3 - 1) * (|val q.b.b0| * X + V1) + (1 : ℕ) * (1 + u) ^ 3 * η → |val y| ≤ Y) :
    ∃ y v1 v2, q.step_df2_transposed x = .ok (y, { q with w := { v1 := v1, v2 := v2 } }) ∧
      |val y - (val q.b.b0 * val x + val q.w.v1)| ≤
        ((1 + u) ^ 3 - 1) * (|val q.b.b0| * X + V1) + (1 : ℕ) * (1 + u) ^ 3 * η ∧
      |val v1 - (val q.b.b1 * val x - val q.a.a1 * val y + val q.w.v2)| ≤
        ((1 + u) ^ 3 - 1) * (|val q.b.b1| * X + |val q.a.a1| * Y + V2) + (2 : ℕ) * (1 + u) ^ 3 * η ∧
      |val v2 - (val q.b.b2 * val x - val q.a.a2 * val y)| ≤
        ((1 + u) ^ 3 - 1) * (|val q.b.b2| * X + |val q.a.a2| * Y) + (2 : ℕ) * (1 + u) ^ 3 * η := by
  have hu := R.u_nonneg
  have hη := R.η_nonneg
  have hX : 0 ≤ X := (abs_nonneg _).trans hx
  have hV1 : 0 ≤ V1 := (abs_nonneg _).trans h1
  have hV2 : 0 ≤ V2 := (abs_nonneg _).trans h2
  have m0 : 0 ≤ |val q.b.b0| * X := by positivity
  have m1 : 0 ≤ |val q.b.b1| * X := by positivity
  have m2 : 0 ≤ |val q.b.b2| * X := by positivity
  have top {m m' : ℝ} {j : ℕ} (h0 : 0 ≤ m) (hm : m ≤ m')
      (h : (1 + u) ^ 3 * m' + j * (1 + u) ^ 3 * η ≤ M) : m ≤ M := by
    have := R.range_le (k := 0) (j := 0) (by norm_num) (Nat.zero_le j) h0 hm h
    simpa using this
  obtain ⟨s0, e1, r1⟩ := R.near_mul q.b.b0 x (mul_le_mul_of_nonneg_left hx (abs_nonneg _))
    (top m0 (by linarith) hM0)
  obtain ⟨y, e2, r2⟩ := R.near_add r1 ((Near.refl h1).mono hu hη (k' := 1) (j' := 0) (by norm_num) le_rfl le_rfl)
    (R.range_le (by norm_num) (by norm_num) (by linarith) (by linarith) hM0)
  have r2' := (r2.mono hu hη (k' := 3) (j' := 1) (by norm_num) le_rfl le_rfl)
  have hy := hY y r2'.2
  have hY0 : 0 ≤ Y := (abs_nonneg _).trans hy
  have n1 : 0 ≤ |val q.a.a1| * Y := by positivity
  have n2 : 0 ≤ |val q.a.a2| * Y := by positivity
  obtain ⟨s1, e3, r3⟩ := R.near_mul q.b.b1 x (mul_le_mul_of_nonneg_left hx (abs_nonneg _))
    (top m1 (by linarith) hM1)
  obtain ⟨t1, e4, r4⟩ := R.near_mul q.a.a1 y (mul_le_mul_of_nonneg_left hy (abs_nonneg _))
    (top n1 (by linarith) hM1)
  obtain ⟨d1, e5, r5⟩ := R.near_sub r3 r4
    (R.range_le (by norm_num) (by norm_num) (by linarith) (by linarith) hM1)
  obtain ⟨v1, e6, r6⟩ := R.near_add r5 ((Near.refl h2).mono hu hη (k' := 2) (j' := 0) (by norm_num) le_rfl le_rfl)
    (R.range_le (by norm_num) (by norm_num) (by linarith) (by linarith) hM1)
  obtain ⟨s2, e7, r7⟩ := R.near_mul q.b.b2 x (mul_le_mul_of_nonneg_left hx (abs_nonneg _))
    (top m2 (by linarith) hM2)
  obtain ⟨t2, e8, r8⟩ := R.near_mul q.a.a2 y (mul_le_mul_of_nonneg_left hy (abs_nonneg _))
    (top n2 (by linarith) hM2)
  obtain ⟨v2, e9, r9⟩ := R.near_sub r7 r8
    (R.range_le (by norm_num) (by norm_num) (by linarith) (by linarith) hM2)
  refine ⟨y, v1, v2, ?_, r2'.2, r6.2, (r9.mono hu hη (k' := 3) (j' := 2) (by norm_num) le_rfl le_rfl).2⟩
  unfold Biquad.step_df2_transposed
  simp only [e1, e2, e3, e4, e5, e6, e7, e8, e9, bind_ok]

theorem past_succ_two' (x : ℕ → ℝ) (n : ℕ) : past x (n + 1) 2 = past x n 1 := by
  cases n with
  | zero => rfl
  | succ n => simp

theorem past_le {x : ℕ → ℝ} {X : ℝ} (hx : ∀ n, |x n| ≤ X) (n k : ℕ) : |past x n k| ≤ X := by
  unfold past
  split_ifs
  · exact hx _
  · rw [abs_zero]; exact (abs_nonneg _).trans (hx 0)

end Rounding
end Verif
