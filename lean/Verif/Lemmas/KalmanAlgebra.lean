import Mathlib.LinearAlgebra.Matrix.NonsingularInverse
import Mathlib.LinearAlgebra.Matrix.PosDef
import Mathlib.Algebra.Order.Star.Real
import Mathlib.Tactic.Abel
import Mathlib.Tactic.NoncommRing

/- Matrix identities behind the Kalman filter, any dimensions. -/

namespace Verif.KF
open Matrix
variable {F n m : Type} [Fintype n] [Fintype m] [DecidableEq n] [DecidableEq m]

section field
variable [Field F] {P : Matrix n n F} {H : Matrix m n F} {R : Matrix m m F}

/-- Innovation covariance. -/
def innov (P : Matrix n n F) (H : Matrix m n F) (R : Matrix m m F) : Matrix m m F :=
  H * P * Hᵀ + R

/-- Gain. -/
noncomputable def gain (P : Matrix n n F) (H : Matrix m n F) (R : Matrix m m F) : Matrix n m F :=
  P * Hᵀ * (innov P H R)⁻¹

omit [Fintype m] [DecidableEq n] [DecidableEq m] in
theorem innov_symm (hP : Pᵀ = P) (hR : Rᵀ = R) : (innov P H R)ᵀ = innov P H R := by
  unfold innov
  rw [Matrix.transpose_add, Matrix.transpose_mul, Matrix.transpose_mul, Matrix.transpose_transpose,
    hP, hR, Matrix.mul_assoc]

omit [DecidableEq n] in
theorem gain_transpose (hP : Pᵀ = P) (hR : Rᵀ = R) :
    (gain P H R)ᵀ = (innov P H R)⁻¹ * H * P := by
  unfold gain
  rw [Matrix.transpose_mul, Matrix.transpose_mul, Matrix.transpose_transpose, hP,
    Matrix.transpose_nonsing_inv, innov_symm hP hR, Matrix.mul_assoc]

/-- No invertibility needed: with Mathlib's convention a singular matrix has inverse 0. -/
theorem post_symm (hP : Pᵀ = P) (hR : Rᵀ = R) :
    ((1 - gain P H R * H) * P)ᵀ = (1 - gain P H R * H) * P := by
  rw [Matrix.transpose_mul, Matrix.transpose_sub, Matrix.transpose_mul, gain_transpose hP hR,
    Matrix.transpose_one, hP]
  simp only [Matrix.mul_sub, Matrix.sub_mul, Matrix.mul_one, Matrix.one_mul, gain, Matrix.mul_assoc]

omit [DecidableEq n] in
theorem gain_mul_innov (h : IsUnit (innov P H R).det) : gain P H R * innov P H R = P * Hᵀ := by
  rw [gain, Matrix.mul_assoc, Matrix.nonsing_inv_mul _ h, Matrix.mul_one]

omit [DecidableEq n] in
theorem innov_mul_gain (hP : Pᵀ = P) (hR : Rᵀ = R) (h : IsUnit (innov P H R).det) :
    innov P H R * (gain P H R)ᵀ = H * P := by
  have := congrArg Matrix.transpose (gain_mul_innov h)
  rwa [Matrix.transpose_mul, innov_symm hP hR, Matrix.transpose_mul, Matrix.transpose_transpose,
    hP] at this

/-- The error covariance with an arbitrary gain `G` is the optimal one plus a congruence of `S`. -/
theorem joseph (hP : Pᵀ = P) (hR : Rᵀ = R) (h : IsUnit (innov P H R).det) (G : Matrix n m F) :
    (1 - G * H) * P * (1 - G * H)ᵀ + G * R * Gᵀ =
      (1 - gain P H R * H) * P +
        (G - gain P H R) * innov P H R * (G - gain P H R)ᵀ := by
  have h1 := gain_mul_innov h
  have h2 := innov_mul_gain hP hR h
  have e1 : (G - gain P H R) * innov P H R * (G - gain P H R)ᵀ =
      G * innov P H R * Gᵀ - G * (H * P) - P * Hᵀ * Gᵀ + gain P H R * H * P := by
    rw [Matrix.transpose_sub, Matrix.sub_mul, h1, Matrix.mul_sub, Matrix.sub_mul, Matrix.sub_mul,
      Matrix.mul_assoc G _ (gain P H R)ᵀ, h2, ← h1, Matrix.mul_assoc (gain P H R) _ (gain P H R)ᵀ, h2]
    simp only [Matrix.mul_assoc]
    abel
  have e2 : G * innov P H R * Gᵀ = G * (H * P * Hᵀ) * Gᵀ + G * R * Gᵀ := by
    rw [innov, Matrix.mul_add, Matrix.add_mul]
  rw [e1, e2, Matrix.transpose_sub, Matrix.transpose_one, Matrix.transpose_mul]
  simp only [Matrix.mul_sub, Matrix.sub_mul, Matrix.mul_one, Matrix.one_mul, Matrix.mul_assoc]
  abel

theorem joseph_gain (hP : Pᵀ = P) (hR : Rᵀ = R) (h : IsUnit (innov P H R).det) :
    (1 - gain P H R * H) * P =
      (1 - gain P H R * H) * P * (1 - gain P H R * H)ᵀ + gain P H R * R * (gain P H R)ᵀ := by
  rw [joseph hP hR h, sub_self, Matrix.zero_mul, Matrix.zero_mul, add_zero]

theorem post_mul_HT (h : IsUnit (innov P H R).det) :
    (1 - gain P H R * H) * P * Hᵀ = gain P H R * R := by
  have h1 := gain_mul_innov h
  rw [Matrix.sub_mul, Matrix.sub_mul, Matrix.one_mul, ← h1, innov, Matrix.mul_add]
  simp only [Matrix.mul_assoc]
  abel

/-- Measured variance after the correction. -/
theorem measured_var (h : IsUnit (innov P H R).det) :
    R - H * ((1 - gain P H R * H) * P) * Hᵀ = R * (innov P H R)⁻¹ * R := by
  rw [Matrix.mul_assoc, post_mul_HT h]
  have e : H * P * Hᵀ = innov P H R - R := by rw [innov, add_sub_cancel_right]
  have : H * (gain P H R * R) = (innov P H R - R) * (innov P H R)⁻¹ * R := by
    rw [← e, gain]; simp only [Matrix.mul_assoc]
  rw [this, Matrix.sub_mul, Matrix.mul_nonsing_inv _ h, Matrix.sub_mul, Matrix.one_mul, sub_sub_cancel]

/-- Information form: `K = P' Hᵀ R⁻¹`. -/
theorem gain_info (h : IsUnit (innov P H R).det) (hR : IsUnit R.det) :
    gain P H R = (1 - gain P H R * H) * P * Hᵀ * R⁻¹ := by
  rw [post_mul_HT h, Matrix.mul_assoc, Matrix.mul_nonsing_inv _ hR, Matrix.mul_one]

/-- Information form: `P'⁻¹ = P⁻¹ + Hᵀ R⁻¹ H`. -/
theorem post_info (h : IsUnit (innov P H R).det) (hR : IsUnit R.det) (hP : IsUnit P.det) :
    ((1 - gain P H R * H) * P) * (P⁻¹ + Hᵀ * R⁻¹ * H) = 1 := by
  rw [Matrix.mul_add, Matrix.mul_assoc, Matrix.mul_nonsing_inv _ hP, Matrix.mul_one,
    ← Matrix.mul_assoc, ← Matrix.mul_assoc, ← gain_info h hR, sub_add_cancel]

end field

section real
variable {P : Matrix n n ℝ} {H : Matrix m n ℝ} {R : Matrix m m ℝ}

omit [Fintype n] [DecidableEq n] in
theorem symm_of_psd {A : Matrix n n ℝ} (h : A.PosSemidef) : Aᵀ = A := by
  have := h.isHermitian
  rwa [Matrix.IsHermitian, Matrix.conjTranspose_eq_transpose_of_trivial] at this

omit [DecidableEq n] [DecidableEq m] in
theorem psd_congr (hP : P.PosSemidef) (G : Matrix m n ℝ) : (G * P * Gᵀ).PosSemidef := by
  have := hP.mul_mul_conjTranspose_same G
  rwa [Matrix.conjTranspose_eq_transpose_of_trivial] at this

omit [DecidableEq n] [DecidableEq m] in
theorem innov_posDef (hP : P.PosSemidef) (hR : R.PosDef) : (innov P H R).PosDef :=
  Matrix.PosDef.posSemidef_add (psd_congr hP H) hR

theorem posDef_det {A : Matrix n n ℝ} (h : A.PosDef) : IsUnit A.det :=
  (Matrix.isUnit_iff_isUnit_det A).1 h.isUnit

theorem post_psd (hP : P.PosSemidef) (hR : R.PosDef) : ((1 - gain P H R * H) * P).PosSemidef := by
  rw [joseph_gain (symm_of_psd hP) (symm_of_psd hR.posSemidef) (posDef_det (innov_posDef hP hR))]
  exact (psd_congr hP _).add (psd_congr hR.posSemidef _)

theorem post_le (hP : P.PosSemidef) (hR : R.PosDef) :
    (P - (1 - gain P H R * H) * P).PosSemidef := by
  have hS := innov_posDef (H := H) hP hR
  have h2 := innov_mul_gain (H := H) (symm_of_psd hP) (symm_of_psd hR.posSemidef) (posDef_det hS)
  have : P - (1 - gain P H R * H) * P = gain P H R * innov P H R * (gain P H R)ᵀ := by
    rw [Matrix.mul_assoc, h2, Matrix.sub_mul, Matrix.one_mul, Matrix.mul_assoc, sub_sub_cancel]
  rw [this]
  exact psd_congr hS.posSemidef _

theorem measured_le (hP : P.PosSemidef) (hR : R.PosDef) :
    (R - H * ((1 - gain P H R * H) * P) * Hᵀ).PosSemidef := by
  have hS := innov_posDef (H := H) hP hR
  rw [measured_var (posDef_det hS)]
  have := psd_congr hS.inv.posSemidef R
  rwa [symm_of_psd hR.posSemidef] at this

theorem optimal (hP : P.PosSemidef) (hR : R.PosDef) (G : Matrix n m ℝ) :
    ((1 - G * H) * P * (1 - G * H)ᵀ + G * R * Gᵀ - (1 - gain P H R * H) * P).PosSemidef := by
  have hS := innov_posDef (H := H) hP hR
  rw [joseph (symm_of_psd hP) (symm_of_psd hR.posSemidef) (posDef_det hS), add_sub_cancel_left]
  exact psd_congr hS.posSemidef _

omit [Fintype n] [DecidableEq n] [DecidableEq m] in
/-- A congruence `X S Xᵀ` of a positive definite matrix vanishes only for `X = 0`. -/
theorem congr_eq_zero {S : Matrix m m ℝ} (hS : S.PosDef) {X : Matrix n m ℝ} (h : X * S * Xᵀ = 0) :
    X = 0 := by
  ext i j
  by_contra hne
  have hx : X i ≠ 0 := fun h0 => hne (by rw [h0]; rfl)
  have hpos := hS.dotProduct_mulVec_pos hx
  have h0 : (X * S * Xᵀ) i i = 0 := by rw [h]; rfl
  have : star (X i) ⬝ᵥ (S *ᵥ X i) = (X * S * Xᵀ) i i := by
    rw [Matrix.mul_assoc, Matrix.mul_apply]
    simp only [dotProduct, Matrix.mulVec, Matrix.mul_apply, star_trivial, Pi.star_apply,
      Matrix.transpose_apply]
  rw [this, h0] at hpos
  exact lt_irrefl _ hpos

theorem optimal_unique (hP : P.PosSemidef) (hR : R.PosDef) (G : Matrix n m ℝ)
    (h : (1 - G * H) * P * (1 - G * H)ᵀ + G * R * Gᵀ = (1 - gain P H R * H) * P) :
    G = gain P H R := by
  have hS := innov_posDef (H := H) hP hR
  rw [joseph (symm_of_psd hP) (symm_of_psd hR.posSemidef) (posDef_det hS)] at h
  have h0 : (G - gain P H R) * innov P H R * (G - gain P H R)ᵀ = 0 := by
    have := congrArg (fun X => X - (1 - gain P H R * H) * P) h
    simpa using this
  exact sub_eq_zero.1 (congr_eq_zero hS h0)

end real
end Verif.KF
