import Mathlib.LinearAlgebra.Matrix.PosDef
import Mathlib.LinearAlgebra.Matrix.Notation
import Mathlib.Algebra.Order.Star.Real
import Mathlib.Tactic.Linarith
import Mathlib.Tactic.Positivity
import Mathlib.Tactic.FieldSimp
import Mathlib.Tactic.LinearCombination
import Mathlib.Tactic.FinCases

/- Positive (semi)definite matrices with two rows. -/

namespace Verif.KF
open Matrix

variable {M : Matrix (Fin 2) (Fin 2) ℝ}

theorem quad2 (x : Fin 2 → ℝ) : star x ⬝ᵥ (M *ᵥ x) =
    M 0 0 * x 0 ^ 2 + (M 0 1 + M 1 0) * (x 0 * x 1) + M 1 1 * x 1 ^ 2 := by
  simp only [dotProduct, Matrix.mulVec, Fin.sum_univ_two, star_trivial, Pi.star_apply]
  ring

theorem herm2 (h : M 1 0 = M 0 1) : M.IsHermitian := by
  ext i j
  fin_cases i <;> fin_cases j <;> simp [h]

theorem psd2 (h : M 1 0 = M 0 1) (h0 : 0 ≤ M 0 0) (h1 : 0 ≤ M 1 1)
    (hd : M 0 1 ^ 2 ≤ M 0 0 * M 1 1) : M.PosSemidef := by
  refine .of_dotProduct_mulVec_nonneg (herm2 h) fun x => ?_
  rw [quad2, h]
  rcases h0.eq_or_lt with h0 | h0
  · rw [← h0] at hd ⊢
    have hb : M 0 1 = 0 := by
      have : M 0 1 ^ 2 = 0 := le_antisymm (by simpa using hd) (sq_nonneg _)
      exact pow_eq_zero_iff (by norm_num) |>.1 this
    rw [hb]
    have := mul_nonneg h1 (sq_nonneg (x 1))
    linarith
  · have e : M 0 0 * (M 0 0 * x 0 ^ 2 + (M 0 1 + M 0 1) * (x 0 * x 1) + M 1 1 * x 1 ^ 2) =
        (M 0 0 * x 0 + M 0 1 * x 1) ^ 2 + (M 0 0 * M 1 1 - M 0 1 ^ 2) * x 1 ^ 2 := by ring
    have : 0 ≤ M 0 0 * (M 0 0 * x 0 ^ 2 + (M 0 1 + M 0 1) * (x 0 * x 1) + M 1 1 * x 1 ^ 2) := by
      rw [e]
      have := mul_nonneg (sub_nonneg.2 hd) (sq_nonneg (x 1))
      positivity
    exact nonneg_of_mul_nonneg_right this h0

theorem posDef2 (h : M 1 0 = M 0 1) (h0 : 0 < M 0 0) (hd : M 0 1 ^ 2 < M 0 0 * M 1 1) :
    M.PosDef := by
  refine .of_dotProduct_mulVec_pos (herm2 h) fun x hx => ?_
  rw [quad2, h]
  have e : M 0 0 * (M 0 0 * x 0 ^ 2 + (M 0 1 + M 0 1) * (x 0 * x 1) + M 1 1 * x 1 ^ 2) =
      (M 0 0 * x 0 + M 0 1 * x 1) ^ 2 + (M 0 0 * M 1 1 - M 0 1 ^ 2) * x 1 ^ 2 := by ring
  have : 0 < M 0 0 * (M 0 0 * x 0 ^ 2 + (M 0 1 + M 0 1) * (x 0 * x 1) + M 1 1 * x 1 ^ 2) := by
    rw [e]
    have hD := sub_pos.2 hd
    by_cases hy : x 1 = 0
    · have hx0 : x 0 ≠ 0 := by
        intro h0
        exact hx (by ext i; fin_cases i <;> assumption)
      rw [hy]
      have : 0 < (M 0 0 * x 0) ^ 2 := by positivity
      simpa using this
    · have : 0 < (M 0 0 * M 1 1 - M 0 1 ^ 2) * x 1 ^ 2 := mul_pos hD (by positivity)
      positivity
  exact pos_of_mul_pos_right this h0.le

theorem symm2 (h : M.PosSemidef) : M 1 0 = M 0 1 := by
  have := h.isHermitian.apply 0 1
  simpa using this

theorem det2_of_posDef (h : M.PosDef) : 0 < M 0 0 ∧ 0 < M 1 1 ∧ M 0 1 ^ 2 < M 0 0 * M 1 1 := by
  have h0 := h.diag_pos (i := 0)
  have h1 := h.diag_pos (i := 1)
  refine ⟨h0, h1, ?_⟩
  have hs := symm2 h.posSemidef
  have := h.dotProduct_mulVec_pos (x := ![-M 0 1, M 0 0]) (by
    intro he
    have := congrFun he 1
    simp at this
    exact h0.ne' this)
  rw [quad2, hs] at this
  simp only [Matrix.cons_val_zero, Matrix.cons_val_one] at this
  have e : M 0 0 * (M 0 0 * M 1 1 - M 0 1 ^ 2) > 0 := by nlinarith
  have := pos_of_mul_pos_right e h0.le
  linarith

theorem det2_of_psd (h : M.PosSemidef) : M 0 1 ^ 2 ≤ M 0 0 * M 1 1 := by
  have hs := symm2 h
  have h0 := h.diag_nonneg (i := 0)
  have q (a b : ℝ) : 0 ≤ M 0 0 * a ^ 2 + (M 0 1 + M 0 1) * (a * b) + M 1 1 * b ^ 2 := by
    have := h.dotProduct_mulVec_nonneg ![a, b]
    rw [quad2, hs] at this
    simpa using this
  rcases h0.eq_or_lt with h0 | h0
  · have h1 := h.diag_nonneg (i := 1)
    rw [← h0]
    by_contra hc
    rw [zero_mul, not_le] at hc
    have h4 := q (-(M 1 1 + 1) / M 0 1) 1
    have hb : M 0 1 ≠ 0 := by rintro hb; rw [hb] at hc; simp at hc
    rw [← h0] at h4
    have : (M 0 1 + M 0 1) * (-(M 1 1 + 1) / M 0 1 * 1) = -2 * (M 1 1 + 1) := by field_simp; ring
    rw [this] at h4
    linarith
  · have := q (-M 0 1) (M 0 0)
    have e : 0 ≤ M 0 0 * (M 0 0 * M 1 1 - M 0 1 ^ 2) := by nlinarith
    have := nonneg_of_mul_nonneg_right e h0
    linarith

/-- A positive definite matrix is bounded below by a multiple of the identity. -/
theorem posDef_lower (h : M.PosDef) : ∃ c : ℝ, 0 < c ∧ (M - c • 1).PosSemidef := by
  obtain ⟨h0, h1, hd⟩ := det2_of_posDef h
  have hs := symm2 h.posSemidef
  refine ⟨(M 0 0 * M 1 1 - M 0 1 ^ 2) / (M 0 0 + M 1 1), div_pos (by linarith) (by linarith), ?_⟩
  have hc0 : (M 0 0 * M 1 1 - M 0 1 ^ 2) / (M 0 0 + M 1 1) ≤ M 0 0 := by
    rw [div_le_iff₀ (by linarith)]; nlinarith [sq_nonneg (M 0 1), sq_nonneg (M 0 0)]
  have hc1 : (M 0 0 * M 1 1 - M 0 1 ^ 2) / (M 0 0 + M 1 1) ≤ M 1 1 := by
    rw [div_le_iff₀ (by linarith)]; nlinarith [sq_nonneg (M 0 1), sq_nonneg (M 1 1)]
  have e : (M 0 0 * M 1 1 - M 0 1 ^ 2) / (M 0 0 + M 1 1) * (M 0 0 + M 1 1) =
      M 0 0 * M 1 1 - M 0 1 ^ 2 := by field_simp
  generalize (M 0 0 * M 1 1 - M 0 1 ^ 2) / (M 0 0 + M 1 1) = c at *
  apply psd2
  · simp [hs]
  · simpa using hc0
  · simpa using hc1
  · simp only [Matrix.sub_apply, Matrix.smul_apply, smul_eq_mul, Matrix.one_apply]
    simp only [Fin.isValue, zero_ne_one, if_true, if_false, mul_one, mul_zero, sub_zero]
    nlinarith [sq_nonneg c]

/-- A positive semidefinite matrix is bounded above by a multiple of the identity. -/
theorem psd_upper (h : M.PosSemidef) : ((M 0 0 + M 1 1) • 1 - M).PosSemidef := by
  have h0 := h.diag_nonneg (i := 0)
  have h1 := h.diag_nonneg (i := 1)
  have hs := symm2 h
  have hd := det2_of_psd h
  apply psd2
  · simp [hs]
  · simpa using h1
  · simpa using h0
  · simp only [Matrix.sub_apply, Matrix.smul_apply, smul_eq_mul, Matrix.one_apply]
    simp only [Fin.isValue, zero_ne_one, if_true, if_false, mul_one, mul_zero, zero_sub]
    nlinarith

end Verif.KF
