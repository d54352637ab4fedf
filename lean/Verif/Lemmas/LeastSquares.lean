import Verif.Lemmas.KalmanRun

/- Completing the square: the recursive estimate of a constant is the least squares estimate. -/

namespace Verif
open Matrix

namespace LS
variable {n m : Type} [Fintype n] [Fintype m] [DecidableEq n] [DecidableEq m]

/-- The quadratic form `vᵀ W v` on one-column matrices. -/
noncomputable def quad (W : Matrix n n ℝ) (v : Matrix n (Fin 1) ℝ) : ℝ := (vᵀ * W * v) 0 0

omit [DecidableEq n] in
theorem quad_pos {W : Matrix n n ℝ} (hW : W.PosDef) {v : Matrix n (Fin 1) ℝ} (hv : v ≠ 0) :
    0 < quad W v := by
  have hx : (fun i => v i 0) ≠ 0 := by
    intro h
    apply hv
    ext i j
    have : j = 0 := Subsingleton.elim _ _
    subst this
    exact congrFun h i
  have := hW.dotProduct_mulVec_pos hx
  have e : quad W v = star (fun i => v i 0) ⬝ᵥ (W *ᵥ fun i => v i 0) := by
    unfold quad
    rw [Matrix.mul_assoc, Matrix.mul_apply]
    simp only [dotProduct, Matrix.mulVec, Matrix.mul_apply, star_trivial, Pi.star_apply,
      Matrix.transpose_apply]
  rw [e]
  exact this

/-- One correction step completes the square. -/
theorem step {P : Matrix n n ℝ} {H : Matrix m n ℝ} {R : Matrix m m ℝ} (hP : P.PosDef)
    (hR : R.PosDef) (xh : Matrix n (Fin 1) ℝ) (z : Matrix m (Fin 1) ℝ) :
    ∃ c, ∀ x, quad P⁻¹ (x - xh) + quad R⁻¹ (z - H * x) =
      quad ((1 - KF.gain P H R * H) * P)⁻¹ (x - (xh + KF.gain P H R * (z - H * xh))) + c := by
  have hS := KF.innov_posDef (H := H) hP.posSemidef hR
  have hSu := KF.posDef_det hS
  have hRu := KF.posDef_det hR
  have hPu := KF.posDef_det hP
  have hinfo := KF.post_info (H := H) hSu hRu hPu
  have hg := KF.gain_info (H := H) hSu hRu
  generalize hK : KF.gain P H R = K at *
  generalize hP' : (1 - K * H) * P = P' at *
  have hinv : P'⁻¹ = P⁻¹ + Hᵀ * R⁻¹ * H := Matrix.inv_eq_right_inv hinfo
  have hJK : P'⁻¹ * K = Hᵀ * R⁻¹ := by
    have hu : IsUnit P'.det := Matrix.isUnit_det_of_right_inverse hinfo
    rw [hg, ← Matrix.mul_assoc, ← Matrix.mul_assoc, Matrix.nonsing_inv_mul _ hu, Matrix.one_mul]
  have hRs : (R⁻¹)ᵀ = R⁻¹ := KF.symm_of_psd hR.inv.posSemidef
  have hJs : (P'⁻¹)ᵀ = P'⁻¹ := by
    rw [hinv, Matrix.transpose_add, KF.symm_of_psd hP.inv.posSemidef, Matrix.transpose_mul,
      Matrix.transpose_mul, Matrix.transpose_transpose, hRs, Matrix.mul_assoc]
  have hKJ : Kᵀ * P'⁻¹ = R⁻¹ * H := by
    have := congrArg Matrix.transpose hJK
    rwa [Matrix.transpose_mul, hJs, Matrix.transpose_mul, Matrix.transpose_transpose, hRs] at this
  refine ⟨quad R⁻¹ (z - H * xh) - quad P'⁻¹ (K * (z - H * xh)), fun x => ?_⟩
  generalize hr : z - H * xh = r
  generalize he : x - xh = e
  have h1 : z - H * x = r - H * e := by
    rw [← hr, ← he, Matrix.mul_sub]; abel
  have h2 : x - (xh + K * r) = e - K * r := by rw [← he]; abel
  rw [h1, h2]
  have key : eᵀ * P⁻¹ * e + (r - H * e)ᵀ * R⁻¹ * (r - H * e) =
      (e - K * r)ᵀ * P'⁻¹ * (e - K * r) +
        (rᵀ * R⁻¹ * r - (K * r)ᵀ * P'⁻¹ * (K * r)) := by
    have a1 : (e - K * r)ᵀ * P'⁻¹ * (e - K * r) =
        eᵀ * P'⁻¹ * e - eᵀ * (P'⁻¹ * K) * r - rᵀ * (Kᵀ * P'⁻¹) * e
          + (K * r)ᵀ * P'⁻¹ * (K * r) := by
      simp only [Matrix.transpose_sub, Matrix.transpose_mul, Matrix.sub_mul, Matrix.mul_sub,
        Matrix.mul_assoc]
      abel
    rw [a1, hJK, hKJ, hinv]
    simp only [Matrix.transpose_sub, Matrix.transpose_mul, Matrix.sub_mul, Matrix.mul_sub,
      Matrix.mul_add, Matrix.add_mul, Matrix.mul_assoc]
    abel
  have := congrFun (congrFun key 0) 0
  simp only [Matrix.add_apply, Matrix.sub_apply] at this
  exact this

end LS

namespace Kalman
variable {m u : Dim}

/-- A run on a constant state, with the cost written as a completed square. -/
theorem static_run (k : Kalman ℝ m u) (ds : List (ColVec ℝ u.val × ColVec ℝ m.val))
    (hA : k.A.toMatrix = 1) (hB : k.B.toMatrix = 0) (hQ : k.Q.toMatrix = 0)
    (hP : k.P.toMatrix.PosDef) (hR : k.R.toMatrix.PosDef) :
    ∃ k', k.run ds = .ok k' ∧ k'.P.toMatrix.PosDef ∧
      k'.P.toMatrix⁻¹ =
        k.P.toMatrix⁻¹ + ds.length • (k.H.toMatrixᵀ * k.R.toMatrix⁻¹ * k.H.toMatrix) ∧
      ∃ c, ∀ x, LS.quad k.P.toMatrix⁻¹ (x - k.xhat.toMatrix) +
          (ds.map fun d => LS.quad k.R.toMatrix⁻¹ (d.2.toMatrix - k.H.toMatrix * x)).sum =
        LS.quad k'.P.toMatrix⁻¹ (x - k'.xhat.toMatrix) + c := by
  induction ds generalizing k with
  | nil => exact ⟨k, rfl, hP, by simp, 0, fun x => by simp⟩
  | cons d ds ih =>
    have hPm : k.Pm = k.P.toMatrix := by
      rw [Pm, hA, hQ, Matrix.transpose_one, Matrix.one_mul, Matrix.mul_one, add_zero]
    have hxm : k.xm d.1 = k.xhat.toMatrix := by
      rw [xm, hA, hB, Matrix.one_mul, Matrix.zero_mul, add_zero]
    have hS := KF.innov_posDef (H := k.H.toMatrix) hP.posSemidef hR
    have hSu := KF.posDef_det hS
    obtain ⟨k1, G, h1, -, eG, eX, eP⟩ := update_symm k d.1 d.2
      (by rw [hPm]; exact KF.symm_of_psd hP.posSemidef) (KF.symm_of_psd hR.posSemidef)
      (.inr (by rw [Sm_eq, hPm]; exact isUnit_iff_ne_zero.1 hSu))
    rw [hPm] at eG eP
    rw [hxm] at eX
    rw [eG] at eP eX
    have hs := update_same h1
    have hinfo := KF.post_info (H := k.H.toMatrix) hSu (KF.posDef_det hR) (KF.posDef_det hP)
    rw [← eP] at hinfo
    have hinv : k1.P.toMatrix⁻¹ =
        k.P.toMatrix⁻¹ + k.H.toMatrixᵀ * k.R.toMatrix⁻¹ * k.H.toMatrix :=
      Matrix.inv_eq_right_inv hinfo
    have hP1 : k1.P.toMatrix.PosDef := by
      rw [← Matrix.posDef_inv_iff, hinv]
      refine hP.inv.add_posSemidef ?_
      have := KF.psd_congr hR.inv.posSemidef k.H.toMatrixᵀ
      rwa [Matrix.transpose_transpose] at this
    obtain ⟨k', h', hp', hi', c', hc'⟩ := ih k1 (by rw [hs.A]; exact hA) (by rw [hs.B]; exact hB)
      (by rw [hs.Q]; exact hQ) hP1 (by rw [hs.R]; exact hR)
    obtain ⟨c, hc⟩ := LS.step (H := k.H.toMatrix) hP hR k.xhat.toMatrix d.2.toMatrix
    refine ⟨k', run_cons.2 ⟨k1, h1, h'⟩, hp', ?_, c' + c, fun x => ?_⟩
    · rw [hi', hinv, hs.H, hs.R, List.length_cons, add_smul, one_smul]
      abel
    · have e1 := hc x
      have e2 := hc' x
      rw [← eP, ← eX] at e1
      rw [hs.R, hs.H] at e2
      rw [List.map_cons, List.sum_cons]
      linarith

end Kalman
end Verif
