import Verif.Lemmas.KalmanUnits
import Verif.Lemmas.KalmanSteady
import Verif.Lemmas.Psd2
import Verif.Spec.KalmanSkew

/-
The correction of a covariance that is not symmetric, with two measurements.
-/

namespace Verif.Skew
open Matrix

/-- The covariance after the correction, with the transposed inverse that the code computes. -/
noncomputable def post (M H R : Matrix (Fin 2) (Fin 2) ℝ) : Matrix (Fin 2) (Fin 2) ℝ :=
  (1 - M * Hᵀ * ((H * M * Hᵀ + R)⁻¹)ᵀ * H) * M

theorem post_eq (M H R : Matrix (Fin 2) (Fin 2) ℝ) : post M H R =
    M - (H * M * Hᵀ + R).det⁻¹ • (M * Hᵀ * ((H * M * Hᵀ + R).adjugate)ᵀ * H * M) := by
  rw [post, Matrix.inv_def, Ring.inverse_eq_inv', Matrix.transpose_smul, Matrix.sub_mul, Matrix.one_mul, Matrix.mul_smul,
    Matrix.smul_mul, Matrix.smul_mul]

variable {M H R : Matrix (Fin 2) (Fin 2) ℝ}

/-- A symmetric matrix with an asymmetry `w` added. -/
def bent (M : Matrix (Fin 2) (Fin 2) ℝ) (w : ℝ) : Matrix (Fin 2) (Fin 2) ℝ := !![M 0 0, M 0 1 + w; M 1 0 - w, M 1 1]

theorem bent00 (w : ℝ) : bent M w 0 0 = M 0 0 := rfl
theorem bent01 (w : ℝ) : bent M w 0 1 = M 0 1 + w := rfl
theorem bent10 (w : ℝ) : bent M w 1 0 = M 1 0 - w := rfl
theorem bent11 (w : ℝ) : bent M w 1 1 = M 1 1 := rfl
theorem adj00 (X : Matrix (Fin 2) (Fin 2) ℝ) : X.adjugate 0 0 = X 1 1 := by rw [Matrix.adjugate_fin_two]; rfl
theorem adj01 (X : Matrix (Fin 2) (Fin 2) ℝ) : X.adjugate 0 1 = -X 0 1 := by rw [Matrix.adjugate_fin_two]; rfl
theorem adj10 (X : Matrix (Fin 2) (Fin 2) ℝ) : X.adjugate 1 0 = -X 1 0 := by rw [Matrix.adjugate_fin_two]; rfl
theorem adj11 (X : Matrix (Fin 2) (Fin 2) ℝ) : X.adjugate 1 1 = X 0 0 := by rw [Matrix.adjugate_fin_two]; rfl

theorem det_innov (hM : M 1 0 = M 0 1) (hR : R 1 0 = R 0 1) (w : ℝ) :
    (H * bent M w * Hᵀ + R).det = (H * M * Hᵀ + R).det + (H.det * w) ^ 2 := by
  simp only [Matrix.det_fin_two, Matrix.mul_apply, Fin.sum_univ_two, Matrix.add_apply, Matrix.transpose_apply,
    bent00, bent01, bent10, bent11, hM, hR]
  ring

theorem skew_core (hM : M 1 0 = M 0 1) (hR : R 1 0 = R 0 1) (w : ℝ) :
    skew (bent M w * Hᵀ * ((H * bent M w * Hᵀ + R).adjugate)ᵀ * H * bent M w) =
    w * ((H * M * Hᵀ + R).det - R.det + 2 * (H * M * Hᵀ).det - (H.det * w) ^ 2) := by
  simp only [skew, Matrix.det_fin_two, Matrix.mul_apply, Fin.sum_univ_two, Matrix.add_apply, Matrix.transpose_apply,
    adj00, adj01, adj10, adj11, bent00, bent01, bent10, bent11, hM, hR]
  ring

theorem sym_core (hM : M 1 0 = M 0 1) (hR : R 1 0 = R 0 1) (w : ℝ) :
    sym (bent M w * Hᵀ * ((H * bent M w * Hᵀ + R).adjugate)ᵀ * H * bent M w) =
    M * Hᵀ * (H * M * Hᵀ + R).adjugate * H * M -
      w ^ 2 • ((3 * H.det ^ 2) • M + H.adjugate * R * H.adjugateᵀ) := by
  ext i j
  fin_cases i <;> fin_cases j <;>
    simp only [Fin.zero_eta, Fin.mk_one, sym, Matrix.det_fin_two, Matrix.mul_apply, Fin.sum_univ_two, Matrix.add_apply, Matrix.transpose_apply,
      Matrix.sub_apply, Matrix.smul_apply, smul_eq_mul, adj00, adj01, adj10, adj11, bent00, bent01, bent10, bent11, hM, hR] <;> ring

theorem skew_core_textbook (hM : M 1 0 = M 0 1) (hR : R 1 0 = R 0 1) (w : ℝ) :
    skew (bent M w * Hᵀ * (H * bent M w * Hᵀ + R).adjugate * H * bent M w) =
    w * ((H * M * Hᵀ + R).det - R.det + (H.det * w) ^ 2) := by
  simp only [skew, Matrix.det_fin_two, Matrix.mul_apply, Fin.sum_univ_two, Matrix.add_apply, Matrix.transpose_apply,
    adj00, adj01, adj10, adj11, bent00, bent01, bent10, bent11, hM, hR]
  ring

theorem skew_sub (X Y : Matrix (Fin 2) (Fin 2) ℝ) : skew (X - Y) = skew X - skew Y := by
  simp only [skew, Matrix.sub_apply]; ring

theorem skew_smul (c : ℝ) (X : Matrix (Fin 2) (Fin 2) ℝ) : skew (c • X) = c * skew X := by
  simp only [skew, Matrix.smul_apply, smul_eq_mul]; ring

theorem skew_bent (hM : M 1 0 = M 0 1) (w : ℝ) : skew (bent M w) = w := by
  rw [skew, bent01, bent10, hM]; ring

theorem sym_sub (X Y : Matrix (Fin 2) (Fin 2) ℝ) : sym (X - Y) = sym X - sym Y := by
  simp only [sym, Matrix.transpose_sub, ← smul_sub]
  congr 1; abel

theorem sym_smul (c : ℝ) (X : Matrix (Fin 2) (Fin 2) ℝ) : sym (c • X) = c • sym X := by
  simp only [sym, Matrix.transpose_smul, ← smul_add]
  exact smul_comm _ _ _

theorem sym_bent (hM : M 1 0 = M 0 1) (w : ℝ) : sym (bent M w) = M := by
  ext i j
  fin_cases i <;> fin_cases j <;>
    simp only [Fin.zero_eta, Fin.mk_one, sym, Matrix.smul_apply, Matrix.add_apply, Matrix.transpose_apply, smul_eq_mul,
      bent00, bent01, bent10, bent11, hM] <;> ring

/-- A prediction with an asymmetric covariance. -/
theorem pred_bent {A Q : Matrix (Fin 2) (Fin 2) ℝ} (hQ : Q 1 0 = Q 0 1) (P : Matrix (Fin 2) (Fin 2) ℝ) :
    A * P * Aᵀ + Q = bent (A * sym P * Aᵀ + Q) (A.det * skew P) ∧
      (A * sym P * Aᵀ + Q) 1 0 = (A * sym P * Aᵀ + Q) 0 1 := by
  constructor
  · ext i j
    fin_cases i <;> fin_cases j <;>
      simp only [Fin.zero_eta, Fin.mk_one, sym, skew, Matrix.det_fin_two, Matrix.mul_apply, Fin.sum_univ_two, Matrix.add_apply,
        Matrix.transpose_apply, Matrix.smul_apply, smul_eq_mul, bent00, bent01, bent10, bent11, hQ] <;> ring
  · simp only [sym, Matrix.mul_apply, Fin.sum_univ_two, Matrix.add_apply,
        Matrix.transpose_apply, Matrix.smul_apply, smul_eq_mul, hQ]
    ring

/-- The asymmetry after the correction. -/
theorem post_skew (hM : M 1 0 = M 0 1) (hR : R 1 0 = R 0 1) {w : ℝ}
    (hd : (H * M * Hᵀ + R).det + (H.det * w) ^ 2 ≠ 0) :
    skew (post (bent M w) H R) = w * ((R.det - 2 * (H * M * Hᵀ).det + 2 * (H.det * w) ^ 2) /
      ((H * M * Hᵀ + R).det + (H.det * w) ^ 2)) := by
  rw [post_eq, skew_sub, skew_smul, skew_bent hM, skew_core hM hR, det_innov hM hR]
  generalize (H * M * Hᵀ + R).det = S at *
  generalize (H.det * w) ^ 2 = W at *
  field_simp
  ring

/-- The asymmetry after the textbook's correction. -/
theorem textbook_skew (hM : M 1 0 = M 0 1) (hR : R 1 0 = R 0 1) {w : ℝ}
    (hd : (H * M * Hᵀ + R).det + (H.det * w) ^ 2 ≠ 0) :
    skew ((1 - bent M w * Hᵀ * (H * bent M w * Hᵀ + R)⁻¹ * H) * bent M w) = w * (R.det /
      ((H * M * Hᵀ + R).det + (H.det * w) ^ 2)) := by
  rw [Matrix.inv_def, Ring.inverse_eq_inv', Matrix.sub_mul, Matrix.one_mul, Matrix.mul_smul,
    Matrix.smul_mul, Matrix.smul_mul, skew_sub, skew_smul, skew_bent hM, skew_core_textbook hM hR, det_innov hM hR]
  generalize (H * M * Hᵀ + R).det = S at *
  generalize (H.det * w) ^ 2 = W at *
  field_simp
  ring

/-- The asymmetry after the correction with one measurement. -/
theorem one_skew {H : Matrix (Fin 1) (Fin 2) ℝ} {R : Matrix (Fin 1) (Fin 1) ℝ} (hM : M 1 0 = M 0 1)
    (hd : (H * M * Hᵀ + R).det ≠ 0) (w : ℝ) :
    skew ((1 - bent M w * Hᵀ * ((H * bent M w * Hᵀ + R)⁻¹)ᵀ * H) * bent M w) = w * (R.det / (H * M * Hᵀ + R).det) := by
  have e : H * bent M w * Hᵀ + R = H * M * Hᵀ + R := by
    ext i j
    fin_cases i; fin_cases j
    simp only [Fin.zero_eta, Matrix.mul_apply, Fin.sum_univ_two, Matrix.add_apply, Matrix.transpose_apply,
      bent00, bent01, bent10, bent11, hM]
    ring
  have eS : (H * M * Hᵀ + R).det =
      H 0 0 * (M 0 0 * H 0 0 + M 0 1 * H 0 1) + H 0 1 * (M 0 1 * H 0 0 + M 1 1 * H 0 1) + R.det := by
    simp only [Matrix.det_fin_one, Matrix.mul_apply, Fin.sum_univ_two, Matrix.add_apply, Matrix.transpose_apply, hM]
    ring
  rw [e, Matrix.inv_def, Ring.inverse_eq_inv', Matrix.adjugate_fin_one, Matrix.sub_mul, Matrix.one_mul,
    Matrix.transpose_smul, Matrix.transpose_one, Matrix.mul_smul, Matrix.mul_one,
    Matrix.smul_mul, Matrix.smul_mul, skew_sub, skew_smul, skew_bent hM]
  have ec : skew (bent M w * Hᵀ * H * bent M w) = w * ((H * M * Hᵀ + R).det - R.det) := by
    rw [eS]
    simp only [skew, Matrix.mul_apply, Fin.sum_univ_two, Fin.sum_univ_one, Matrix.transpose_apply,
      bent00, bent01, bent10, bent11, hM]
    ring
  rw [ec]
  generalize (H * M * Hᵀ + R).det = S at *
  field_simp
  ring

theorem det_pos (h : M.PosDef) : 0 < M.det := by
  obtain ⟨-, -, hd⟩ := KF.det2_of_posDef h
  rw [Matrix.det_fin_two, KF.symm2 h.posSemidef]
  linarith

theorem det_nonneg (h : M.PosSemidef) : 0 ≤ M.det := by
  have hd := KF.det2_of_psd h
  rw [Matrix.det_fin_two, KF.symm2 h]
  linarith

theorem innov_det_pos (hM : M.PosSemidef) (hR : R.PosDef) (w : ℝ) : 0 < (H * M * Hᵀ + R).det ∧
    0 < (H * M * Hᵀ + R).det + (H.det * w) ^ 2 := by
  have : 0 < (H * M * Hᵀ + R).det := det_pos (KF.innov_posDef (H := H) hM hR)
  exact ⟨this, add_pos_of_pos_of_nonneg this (sq_nonneg _)⟩

/-- The symmetric part remains a covariance. -/
theorem post_sym_psd (hM : M.PosSemidef) (hR : R.PosDef) (w : ℝ) : (sym (post (bent M w) H R)).PosSemidef := by
  have hm := KF.symm2 hM
  have hr := KF.symm2 hR.posSemidef
  obtain ⟨hS, hΔ⟩ := innov_det_pos (H := H) hM hR w
  have e : sym (post (bent M w) H R) = ((H * M * Hᵀ + R).det + (H.det * w) ^ 2)⁻¹ •
      ((H * M * Hᵀ + R).det • ((1 - KF.gain M H R * H) * M) + w ^ 2 • ((4 * H.det ^ 2) • M + H.adjugate * R * H.adjugateᵀ)) := by
    have e1 : (H * M * Hᵀ + R).det • ((1 - KF.gain M H R * H) * M) =
        (H * M * Hᵀ + R).det • M - M * Hᵀ * (H * M * Hᵀ + R).adjugate * H * M := by
      rw [KF.gain, KF.innov, Matrix.inv_def, Ring.inverse_eq_inv', Matrix.sub_mul, Matrix.one_mul, Matrix.mul_smul,
        Matrix.smul_mul, Matrix.smul_mul, smul_sub, smul_smul, mul_inv_cancel₀ hS.ne', one_smul]
    rw [post_eq, sym_sub, sym_smul, sym_bent hm, sym_core hm hr, det_innov hm hr, e1]
    rw [eq_inv_smul_iff₀ hΔ.ne', smul_sub, smul_smul, mul_inv_cancel₀ hΔ.ne', one_smul]
    module
  rw [e]
  refine Matrix.PosSemidef.smul ?_ (by positivity)
  exact ((KF.post_psd hM hR).smul hS.le).add (((hM.smul (by positivity)).add (KF.psd_congr hR.posSemidef _)).smul (sq_nonneg _))

/-- The determinant increases with the matrix. -/
theorem det_mono {X Y : Matrix (Fin 2) (Fin 2) ℝ} (hX : X.PosSemidef) (hY : (Y - X).PosSemidef) : X.det ≤ Y.det := by
  obtain ⟨Z, rfl⟩ : ∃ Z, Y = X + Z := ⟨Y - X, by abel⟩
  rw [add_sub_cancel_left] at hY
  have x0 := hX.diag_nonneg (i := 0)
  have x1 := hX.diag_nonneg (i := 1)
  have z0 := hY.diag_nonneg (i := 0)
  have z1 := hY.diag_nonneg (i := 1)
  have xd := KF.det2_of_psd hX
  have zd := KF.det2_of_psd hY
  have key : X 0 1 * Z 0 1 * 2 ≤ X 0 0 * Z 1 1 + X 1 1 * Z 0 0 := by
    have h : (X 0 1 * Z 0 1 * 2) ^ 2 ≤ (X 0 0 * Z 1 1 + X 1 1 * Z 0 0) ^ 2 := by
      have := mul_le_mul xd zd (sq_nonneg _) (mul_nonneg x0 x1)
      nlinarith [sq_nonneg (X 0 0 * Z 1 1 - X 1 1 * Z 0 0)]
    exact (le_abs_self _).trans (abs_le_of_sq_le_sq h (add_nonneg (mul_nonneg x0 z1) (mul_nonneg x1 z0)))
  rw [Matrix.det_fin_two, Matrix.det_fin_two]
  simp only [Matrix.add_apply, KF.symm2 hX, KF.symm2 hY]
  nlinarith

variable {A Q : Matrix (Fin 2) (Fin 2) ℝ}

/-- One step of the code's covariance. -/
noncomputable def step (A H Q R P : Matrix (Fin 2) (Fin 2) ℝ) : Matrix (Fin 2) (Fin 2) ℝ := post (A * P * Aᵀ + Q) H R

theorem step_psd (hQ : Q.PosSemidef) (hR : R.PosDef) {P : Matrix (Fin 2) (Fin 2) ℝ} (hP : (sym P).PosSemidef) :
    (sym (step A H Q R P)).PosSemidef := by
  rw [step, (pred_bent (A := A) (KF.symm2 hQ) P).1]
  exact post_sym_psd (KF.pred_psd hP hQ) hR _

theorem step_grows (hQ : Q.PosSemidef) (hR : R.PosDef) (hA : 1 ≤ |A.det|) (hRQ : (H * Q * Hᵀ - (4 : ℝ) • R).PosSemidef)
    {P : Matrix (Fin 2) (Fin 2) ℝ} (hP : (sym P).PosSemidef) (hw : 16 * (A.det * skew P) ^ 2 ≤ Q.det) :
    (29 / 26) ^ 2 * (A.det * skew P) ^ 2 ≤ (A.det * skew (step A H Q R P)) ^ 2 := by
  obtain ⟨e, hs⟩ := pred_bent (A := A) (KF.symm2 hQ) P
  have hM := KF.pred_psd (A := A) hP hQ
  rw [KF.pred] at hM
  have eM : A * sym P * Aᵀ + Q - Q = A * sym P * Aᵀ := by abel
  have hMQ : (H * (A * sym P * Aᵀ + Q) * Hᵀ - H * Q * Hᵀ).PosSemidef := by
    rw [← Matrix.sub_mul, ← Matrix.mul_sub, eM]
    exact KF.psd_congr (KF.psd_congr hP A) H
  generalize A * sym P * Aᵀ + Q = M at e hs hM hMQ
  generalize A.det * skew P = w at e hw
  rw [step, e, post_skew hs (KF.symm2 hR.posSemidef) (innov_det_pos hM hR w).2.ne']
  obtain ⟨hS, hΔ⟩ := innov_det_pos (H := H) hM hR w
  have hN := KF.psd_congr hM H
  have h1 : H.det ^ 2 * Q.det ≤ (H * M * Hᵀ).det := by
    have := det_mono (KF.psd_congr hQ H) hMQ
    rw [Matrix.det_mul, Matrix.det_mul, Matrix.det_transpose] at this
    linarith
  have hNR : (H * M * Hᵀ - (4 : ℝ) • R).PosSemidef := by
    have := hMQ.add hRQ
    rwa [sub_add_sub_cancel] at this
  have h2 : 16 * R.det ≤ (H * M * Hᵀ).det := by
    have := det_mono (hR.posSemidef.smul (by norm_num : (0 : ℝ) ≤ 4)) hNR
    rw [Matrix.det_smul, Fintype.card_fin] at this
    linarith
  have h3 : (H * M * Hᵀ + R).det ≤ 25 / 16 * (H * M * Hᵀ).det := by
    have := det_mono (Y := (5 / 4 : ℝ) • (H * M * Hᵀ)) (KF.innov_posDef (H := H) hM hR).posSemidef (by
      have e : (5 / 4 : ℝ) • (H * M * Hᵀ) - KF.innov M H R = (1 / 4 : ℝ) • (H * M * Hᵀ - (4 : ℝ) • R) := by
        rw [KF.innov]; module
      rw [e]
      exact hNR.smul (by norm_num))
    rw [Matrix.det_smul, Fintype.card_fin, KF.innov] at this
    linarith
  have h4 : 16 * (H.det * w) ^ 2 ≤ (H * M * Hᵀ).det := by
    nlinarith [mul_le_mul_of_nonneg_left hw (sq_nonneg H.det)]
  have hRp := det_pos hR
  generalize (H * M * Hᵀ).det = N at *
  generalize (H * M * Hᵀ + R).det = S at *
  generalize (H.det * w) ^ 2 = W at *
  generalize R.det = ρ at *
  have hf : 29 / 26 ≤ |(ρ - 2 * N + 2 * W) / (S + W)| := by
    rw [abs_div, abs_of_pos hΔ, le_div_iff₀ hΔ, abs_of_nonpos (by linarith)]
    linarith
  have hf2 : (29 / 26) ^ 2 ≤ ((ρ - 2 * N + 2 * W) / (S + W)) ^ 2 := by
    rw [← sq_abs ((ρ - 2 * N + 2 * W) / (S + W))]
    exact pow_le_pow_left₀ (by norm_num) hf 2
  have hA2 : 1 ≤ A.det ^ 2 := by
    rw [← sq_abs]; nlinarith
  have hw2 := sq_nonneg w
  calc (29 / 26 : ℝ) ^ 2 * w ^ 2 ≤ ((ρ - 2 * N + 2 * W) / (S + W)) ^ 2 * w ^ 2 := by gcongr
    _ ≤ A.det ^ 2 * (((ρ - 2 * N + 2 * W) / (S + W)) ^ 2 * w ^ 2) := le_mul_of_one_le_left (by positivity) hA2
    _ = _ := by ring

/-- Sooner or later the asymmetry is large. -/
theorem exists_large (hQ : Q.PosSemidef) (hR : R.PosDef) (hA : 1 ≤ |A.det|) (hRQ : (H * Q * Hᵀ - (4 : ℝ) • R).PosSemidef)
    {P : Matrix (Fin 2) (Fin 2) ℝ} (hP : (sym P).PosSemidef) (hs : skew P ≠ 0) :
    ∃ n, Q.det < 16 * (A.det * skew ((step A H Q R)^[n] P)) ^ 2 := by
  by_contra hc
  push Not at hc
  have hpsd (n : ℕ) : (sym ((step A H Q R)^[n] P)).PosSemidef := by
    induction n with
    | zero => exact hP
    | succ n ih => rw [Function.iterate_succ_apply']; exact step_psd hQ hR ih
  have hg (n : ℕ) : ((29 / 26) ^ 2) ^ n * (A.det * skew P) ^ 2 ≤ (A.det * skew ((step A H Q R)^[n] P)) ^ 2 := by
    induction n with
    | zero => simp
    | succ n ih =>
      rw [Function.iterate_succ_apply']
      refine le_trans ?_ (step_grows hQ hR hA hRQ (hpsd n) (hc n))
      rw [pow_succ]
      nlinarith
  have hA0 : A.det ≠ 0 := fun h => by rw [h] at hA; norm_num at hA
  have hw : 0 < (A.det * skew P) ^ 2 := by positivity
  obtain ⟨n, hn⟩ := pow_unbounded_of_one_lt (Q.det / (A.det * skew P) ^ 2) (by norm_num : (1 : ℝ) < (29 / 26) ^ 2)
  rw [div_lt_iff₀ hw] at hn
  have h0 := det_nonneg hQ
  linarith [hc n, hg n, sq_nonneg (A.det * skew ((step A H Q R)^[n] P))]

end Verif.Skew

namespace Verif.Kalman
open Matrix
variable {u : Dim}

/-- The covariance after one update with two measurements, symmetric or not. -/
theorem update_skew (k : Kalman ℝ .two u) (v z) (hd : k.Sm.det ≠ 0) : ∃ k', k.update v z = .ok k' ∧ SameModel k k' ∧
    k'.P.toMatrix = Skew.step k.A.toMatrix k.H.toMatrix k.Q.toMatrix k.R.toMatrix k.P.toMatrix := by
  obtain ⟨k', G, h, -, eG, -, eP, -⟩ := update_any k v z (.inr hd)
  refine ⟨k', h, update_same h, ?_⟩
  rw [eP, eG]
  rfl

/-- The covariance after a run. -/
theorem run_skew (k : Kalman ℝ .two u) (ds) (hQ : k.Q.toMatrix.PosSemidef) (hR : k.R.toMatrix.PosDef)
    (hP : (Skew.sym k.P.toMatrix).PosSemidef) : ∃ k', k.run ds = .ok k' ∧ (Skew.sym k'.P.toMatrix).PosSemidef ∧
    k'.P.toMatrix = (Skew.step k.A.toMatrix k.H.toMatrix k.Q.toMatrix k.R.toMatrix)^[ds.length] k.P.toMatrix := by
  induction ds generalizing k with
  | nil => exact ⟨k, rfl, hP, rfl⟩
  | cons d ds ih =>
    have hd : k.Sm.det ≠ 0 := by
      obtain ⟨e, hs⟩ := Skew.pred_bent (A := k.A.toMatrix) (KF.symm2 hQ) k.P.toMatrix
      have := Skew.innov_det_pos (H := k.H.toMatrix) (KF.pred_psd (A := k.A.toMatrix) hP hQ) hR
        (k.A.toMatrix.det * Skew.skew k.P.toMatrix)
      rw [Kalman.Sm, Kalman.Pm, e]
      erw [Skew.det_innov hs (KF.symm2 hR.posSemidef)]
      exact this.2.ne'
    obtain ⟨k₁, h, hs, eP⟩ := update_skew k d.1 d.2 hd
    obtain ⟨k', h', hp, e⟩ := ih k₁ (by rw [hs.Q]; exact hQ) (by rw [hs.R]; exact hR)
      (by rw [eP]; exact Skew.step_psd hQ hR hP)
    refine ⟨k', run_cons.2 ⟨k₁, h, h'⟩, hp, ?_⟩
    rw [e, hs.A, hs.H, hs.Q, hs.R, eP, List.length_cons, Function.iterate_succ_apply]

end Verif.Kalman
