import Verif.Lemmas.KalmanSkew
import Verif.Lemmas.KalmanStable
import Verif.Lemmas.KalmanSkewRun
import Verif.Props.Kalman

/-
C147: what becomes of an asymmetry of the covariance, such as rounding leaves behind.
-/

namespace Verif
open Matrix Kalman Skew

variable {u : Dim}

/-- **C147** With two measurements, for all models and all covariances: the asymmetry is multiplied by `det A` by the prediction and by
`(det R - 2 det N + 2 w²) / (det (N + R) + w²)` by the correction, where `N = H M Hᵀ` belongs to the symmetric part of the predicted
covariance and `w` to its asymmetry.  With precise measurements the second factor is near `-2`. -/
theorem C147_asymmetry {k k' : Kalman ℝ .two u} {v z} (h : k.update v z = .ok k') (hQ : k.Q.toMatrixᵀ = k.Q.toMatrix)
    (hR : k.R.toMatrixᵀ = k.R.toMatrix) {N : Matrix (Fin 2) (Fin 2) ℝ} {w : ℝ}
    (hN : N = k.H.toMatrix * (k.A.toMatrix * sym k.P.toMatrix * k.A.toMatrixᵀ + k.Q.toMatrix) * k.H.toMatrixᵀ)
    (hw : w = k.H.toMatrix.det * (k.A.toMatrix.det * skew k.P.toMatrix)) :
    skew k'.P.toMatrix = k.A.toMatrix.det * skew k.P.toMatrix *
      ((k.R.toMatrix.det - 2 * N.det + 2 * w ^ 2) / ((N + k.R.toMatrix).det + w ^ 2)) := by
  have hd := det_of_update h
  obtain ⟨k₁, h₁, -, eP⟩ := update_skew k v z hd
  rw [h] at h₁
  cases h₁
  have hQ' : k.Q.toMatrix 1 0 = k.Q.toMatrix 0 1 := congrFun (congrFun hQ 0) 1
  have hR' : k.R.toMatrix 1 0 = k.R.toMatrix 0 1 := congrFun (congrFun hR 0) 1
  obtain ⟨e, hs⟩ := pred_bent (A := k.A.toMatrix) hQ' k.P.toMatrix
  rw [Kalman.Sm, Kalman.Pm, e] at hd
  have hd' := hd
  erw [det_innov hs hR'] at hd'
  rw [eP, Skew.step, e]
  subst hN hw
  exact post_skew hs hR' hd'

/-- With the inverse of the textbook instead of its transpose, the second factor would be `det R / (det (N + R) + w²)`, which is at
most one. -/
theorem C147_textbook {A Q H R P N : Matrix (Fin 2) (Fin 2) ℝ} {w : ℝ} (hQ : Q.PosSemidef) (hR : R.PosDef)
    (hP : (sym P).PosSemidef) (hN : N = H * (A * sym P * Aᵀ + Q) * Hᵀ) (hw : w = H.det * (A.det * skew P)) :
    skew ((1 - (A * P * Aᵀ + Q) * Hᵀ * (H * (A * P * Aᵀ + Q) * Hᵀ + R)⁻¹ * H) * (A * P * Aᵀ + Q)) =
      A.det * skew P * (R.det / ((N + R).det + w ^ 2)) ∧
    0 < R.det / ((N + R).det + w ^ 2) ∧ R.det / ((N + R).det + w ^ 2) ≤ 1 := by
  obtain ⟨e, hs⟩ := pred_bent (A := A) (KF.symm2 hQ) P
  have hM := KF.pred_psd (A := A) hP hQ
  rw [KF.pred] at hM
  subst hN hw
  obtain ⟨hS, hΔ⟩ := innov_det_pos (H := H) hM hR (A.det * skew P)
  refine ⟨?_, div_pos (Skew.det_pos hR) hΔ, ?_⟩
  · rw [e]
    exact textbook_skew hs (KF.symm2 hR.posSemidef) hΔ.ne'
  · rw [div_le_one hΔ]
    have := det_mono (Y := H * (A * sym P * Aᵀ + Q) * Hᵀ + R) hR.posSemidef (by
      rw [add_sub_cancel_right]; exact KF.psd_congr hM H)
    nlinarith [sq_nonneg (H.det * (A.det * skew P))]

/-- With one measurement the second factor is `R / (H M Hᵀ + R)`. -/
theorem C147_one_measurement {k k' : Kalman ℝ .one u} {v z} (h : k.update v z = .ok k') (hQ : k.Q.toMatrixᵀ = k.Q.toMatrix)
    {M : Matrix (Fin 2) (Fin 2) ℝ} (hM : M = k.A.toMatrix * sym k.P.toMatrix * k.A.toMatrixᵀ + k.Q.toMatrix)
    (hS : (k.H.toMatrix * M * k.H.toMatrixᵀ + k.R.toMatrix).det ≠ 0) :
    skew k'.P.toMatrix = k.A.toMatrix.det * skew k.P.toMatrix *
      (k.R.toMatrix.det / (k.H.toMatrix * M * k.H.toMatrixᵀ + k.R.toMatrix).det) := by
  obtain ⟨k₁, G, h₁, -, eG, -, eP, -⟩ := update_any k v z (.inl rfl)
  rw [h] at h₁
  cases h₁
  have hQ' : k.Q.toMatrix 1 0 = k.Q.toMatrix 0 1 := congrFun (congrFun hQ 0) 1
  obtain ⟨e, hs⟩ := pred_bent (A := k.A.toMatrix) hQ' k.P.toMatrix
  rw [eP, eG, Kalman.Sm, Kalman.Pm, e, ← hM]
  rw [← hM] at hs
  exact one_skew hs hS _

/-- **C147** If the noise of the measurements is a quarter of the process noise or less, and the system does not contract, then from
every covariance that is not symmetric, however slightly, the asymmetry grows until it is at least of the order of the process noise;
its symmetric part remains a covariance. -/
theorem C147_grows (avr : Bool) (dt : ℝ) (A : Mat ℝ 2 2) (B : Mat ℝ 2 u.val) (H Q R P : Mat ℝ 2 2) (xhat : ColVec ℝ 2)
    (hQ : Q.toMatrix.PosSemidef) (hR : R.toMatrix.PosDef) (hA : 1 ≤ |A.toMatrix.det|)
    (hRQ : (H.toMatrix * Q.toMatrix * H.toMatrixᵀ - (4 : ℝ) • R.toMatrix).PosSemidef)
    (hP : (sym P.toMatrix).PosSemidef) (hs : skew P.toMatrix ≠ 0) :
    ∃ n, ∀ ds, ds.length = n → ∃ k', (Kalman.init avr dt A B H Q R P xhat : Kalman ℝ .two u).run ds = .ok k' ∧
      (sym k'.P.toMatrix).PosSemidef ∧ Q.toMatrix.det < 16 * (A.toMatrix.det * skew k'.P.toMatrix) ^ 2 := by
  obtain ⟨n, hn⟩ := exists_large (H := H.toMatrix) hQ hR hA hRQ hP hs
  refine ⟨n, fun ds hds => ?_⟩
  obtain ⟨k', h, hp, eP⟩ := run_skew (Kalman.init avr dt A B H Q R P xhat : Kalman ℝ .two u) ds hQ hR hP
  refine ⟨k', h, hp, ?_⟩
  rw [eP, hds]
  exact hn

/-- A model that `C147_grows` applies to: constant velocity, both states measured, and an asymmetry of any size. -/
example (ε : ℝ) (hε : ε ≠ 0) : ∃ A Q R P : Mat ℝ 2 2, Q.toMatrix.PosSemidef ∧ R.toMatrix.PosDef ∧ 1 ≤ |A.toMatrix.det| ∧
    ((1 : Matrix (Fin 2) (Fin 2) ℝ) * Q.toMatrix * 1ᵀ - (4 : ℝ) • R.toMatrix).PosSemidef ∧
    (sym P.toMatrix).PosSemidef ∧ skew P.toMatrix = ε ∧ skew P.toMatrix ≠ 0 := by
  have eI : (Mat.mk22 1 0 0 1 : Mat ℝ 2 2).toMatrix = 1 := by
    rw [Mat.toMatrix_mk22, Matrix.one_fin_two]
  have eR : (Mat.mk22 (1 / 4) 0 0 (1 / 4) : Mat ℝ 2 2).toMatrix = (1 / 4 : ℝ) • 1 := by
    rw [Mat.toMatrix_mk22, Matrix.one_fin_two]
    ext i j; fin_cases i <;> fin_cases j <;> simp
  refine ⟨Mat.mk22 1 1 0 1, Mat.mk22 1 0 0 1, Mat.mk22 (1 / 4) 0 0 (1 / 4), Mat.mk22 1 ε (-ε) 1, ?_⟩
  rw [eI, eR, Mat.toMatrix_mk22, Mat.toMatrix_mk22]
  have hs : skew !![1, ε; -ε, 1] = ε := by simp [skew]
  refine ⟨.one, Matrix.PosDef.one.smul (by norm_num), by simp [Matrix.det_fin_two], ?_, ?_, hs, by rw [hs]; exact hε⟩
  · have e : (1 : Matrix (Fin 2) (Fin 2) ℝ) * 1 * 1ᵀ - (4 : ℝ) • (1 / 4 : ℝ) • 1 = 0 := by
      rw [smul_smul]; norm_num
    rw [e]; exact .zero
  · have e : sym !![1, ε; -ε, 1] = 1 := by
      ext i j; fin_cases i <;> fin_cases j <;> simp [sym] <;> norm_num
    rw [e]; exact .one

/-- The values of a matrix of `double`s. -/
abbrev Skew.vals {n m : Nat} (X : Mat (Flt Ieee.binary64) n m) : Matrix (Fin n) (Fin m) ℚ := fun i j => (X.get i j).val

/-- **C147** In `double`: an estimator for constant velocity whose numbers are all multiples of 1/64, started with a symmetric covariance.
After 57 updates, whatever the data, the covariance is nowhere near a symmetric matrix and the gain is wrong. -/
theorem C147_double : ∃ k : Kalman (Flt Ieee.binary64) .two .one,
    vals k.A = !![1, 1; 0, 1] ∧ vals k.H = !![1, 0; 0, 1] ∧ vals k.Q = !![1, 1 / 2; 1 / 2, 1] ∧
    vals k.R = !![1 / 64, 0; 0, 1 / 64] ∧ vals k.P = !![1, 1 / 2; 1 / 2, 1] ∧
    (∃ ds k', ds.length = 57 ∧ k.run ds = .ok k') ∧
    ∀ ds k', ds.length = 57 → k.run ds = .ok k' →
      1 / 3 < vals k'.estimation_error_covariance 0 1 ∧ vals k'.estimation_error_covariance 1 0 < -1 / 5 ∧
      ∃ G, k'.kalman_gain = .ok G ∧ 11 / 10 < vals G 0 0 ∧ vals G 0 1 < -1 / 3 ∧ 1 / 3 < vals G 1 0 := by
  obtain ⟨k, k₁, hk, hr, ha⟩ := SkewRun.run
  obtain ⟨k₂, hk₂, h⟩ := Res.of_yields SkewRun.last_ok
  rw [hk] at hk₂
  cases hk₂
  obtain ⟨k₃, hk₃, h⟩ := Res.of_yields h
  rw [ha] at hk₃
  cases hk₃
  obtain ⟨h1, h2, h3, h4, h5, h6, h7, G, h8, h9, h10, h11⟩ := of_decide_eq_true h
  refine ⟨k, h1, h2, h3, h4, h5, ⟨_, k₁, List.length_replicate, hr⟩, fun ds k' hl hd => ?_⟩
  obtain ⟨eK, eP, -⟩ := C13_data_independent k k k' k₁ ds _ rfl rfl rfl rfl rfl rfl rfl rfl
    (hl.trans List.length_replicate.symm) hd hr
  rw [eP, eK]
  exact ⟨h6, h7, G, by rw [kalman_gain, h8], h9, h10, h11⟩

/-- The same model in exact arithmetic: the covariance is symmetric and no element exceeds 1/64, the gain is symmetric and its
diagonal at most 1. -/
theorem C147_exact {k : Kalman ℝ .two u} (hH : k.H.toMatrix = 1) (hQ : k.Q.toMatrix = !![1, 1 / 2; 1 / 2, 1])
    (hR : k.R.toMatrix = (1 / 64 : ℝ) • (1 : Matrix (Fin 2) (Fin 2) ℝ)) (hP : k.P.toMatrix = !![1, 1 / 2; 1 / 2, 1])
    {ds} (hd : ds ≠ []) :
    ∃ k' G, k.run ds = .ok k' ∧ k'.estimation_error_covariance.toMatrixᵀ = k'.estimation_error_covariance.toMatrix ∧
      (∀ i j, |k'.estimation_error_covariance.toMatrix i j| ≤ 1 / 64) ∧
      k'.kalman_gain = .ok G ∧ G.toMatrixᵀ = G.toMatrix ∧ ∀ i, 0 ≤ G.toMatrix i i ∧ G.toMatrix i i ≤ 1 := by
  have hQ' : k.Q.toMatrix.PosSemidef := by
    rw [hQ]
    exact KF.psd2 (by simp) (by simp) (by simp) (by simp; norm_num)
  have hP' : k.P.toMatrix.PosSemidef := by rw [hP, ← hQ]; exact hQ'
  have hR' : k.R.toMatrix.PosDef := by rw [hR]; exact Matrix.PosDef.one.smul (by norm_num)
  obtain ⟨ds, d, rfl⟩ := ds.eq_nil_or_concat.resolve_left hd
  obtain ⟨k₁, h₁, hs, eP, -⟩ := run_ricc k ds hP' hQ' hR'
  have hP₁ : k₁.P.toMatrix.PosSemidef := by rw [eP]; exact KF.riccSeq_psd hP' hQ' hR' _
  obtain ⟨k', G, h, -, hK, eP', eG, -⟩ := update_ricc k₁ d.1 d.2 hP₁ (by rw [hs.Q]; exact hQ') (by rw [hs.R]; exact hR')
  rw [hs.H, hs.R, hs.Q] at eP'
  rw [hs.H, hs.R] at eG
  have hpsd : k'.P.toMatrix.PosSemidef := by rw [eP']; exact KF.ricc_psd hP₁ hQ' hR'
  have hle : (k.R.toMatrix - k.H.toMatrix * k'.P.toMatrix * k.H.toMatrixᵀ).PosSemidef := by
    rw [eP']; exact KF.measured_le (KF.pred_psd hP₁ hQ') hR'
  have hG : G.toMatrix = (64 : ℝ) • k'.P.toMatrix := by
    have e : ((1 / 64 : ℝ) • (1 : Matrix (Fin 2) (Fin 2) ℝ))⁻¹ = (64 : ℝ) • 1 :=
      Matrix.inv_eq_right_inv (by rw [Matrix.smul_mul, Matrix.one_mul, smul_smul]; norm_num)
    rw [eG, hH, hR]
    erw [e]
    rw [Matrix.transpose_one, Matrix.mul_one, Matrix.mul_smul, Matrix.mul_one]
  rw [hH, hR] at hle
  erw [Matrix.one_mul, Matrix.transpose_one, Matrix.mul_one] at hle
  have hsym := KF.symm_of_psd hpsd
  have d0 (i) := hpsd.diag_nonneg (i := i)
  have d1 (i) : k'.P.toMatrix i i ≤ 1 / 64 := by
    have := hle.diag_nonneg (i := i)
    simp only [Matrix.sub_apply, Matrix.smul_apply, Matrix.one_apply_eq, smul_eq_mul] at this
    linarith
  refine ⟨k', G, by rw [List.concat_eq_append]; exact run_snoc h₁ h, hsym, ?_, by rw [kalman_gain, hK], by rw [hG, Matrix.transpose_smul, hsym], fun i => ?_⟩
  · have hoff : |k'.P.toMatrix 0 1| ≤ 1 / 64 := by
      refine abs_le_of_sq_le_sq ?_ (by norm_num)
      have := KF.det2_of_psd hpsd
      nlinarith [d0 0, d0 1, d1 0, d1 1]
    intro i j
    show |k'.P.toMatrix i j| ≤ _
    fin_cases i <;> fin_cases j
    · show |k'.P.toMatrix 0 0| ≤ _
      rw [abs_of_nonneg (d0 0)]; exact d1 0
    · exact hoff
    · show |k'.P.toMatrix 1 0| ≤ _
      rw [KF.symm2 hpsd]; exact hoff
    · show |k'.P.toMatrix 1 1| ≤ _
      rw [abs_of_nonneg (d0 1)]; exact d1 1
  · rw [hG, Matrix.smul_apply, smul_eq_mul]
    constructor <;> linarith [d0 i, d1 i]

end Verif
