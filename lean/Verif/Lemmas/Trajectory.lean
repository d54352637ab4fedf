import Verif.Lemmas.LeastSquares
import Verif.Spec.KalmanStat

/- The recursive estimate as the end of the best-fitting trajectory (dynamic programming). -/

namespace Verif
open Matrix

namespace LS
variable {n m : Type} [Fintype n] [Fintype m] [DecidableEq n] [DecidableEq m]

omit [DecidableEq n] in
theorem quad_nonneg {W : Matrix n n ℝ} (hW : W.PosDef) (v : Matrix n (Fin 1) ℝ) : 0 ≤ quad W v := by
  by_cases h : v = 0
  · subst h; simp [quad]
  · exact (quad_pos hW h).le

theorem post_posDef {P : Matrix n n ℝ} {H : Matrix m n ℝ} {R : Matrix m m ℝ} (hP : P.PosDef)
    (hR : R.PosDef) : ((1 - KF.gain P H R * H) * P).PosDef := by
  have hS := KF.innov_posDef (H := H) hP.posSemidef hR
  have hinfo := KF.post_info (H := H) (KF.posDef_det hS) (KF.posDef_det hR) (KF.posDef_det hP)
  rw [← Matrix.posDef_inv_iff, Matrix.inv_eq_right_inv hinfo]
  refine hP.inv.add_posSemidef ?_
  have := KF.psd_congr hR.inv.posSemidef Hᵀ
  rwa [Matrix.transpose_transpose] at this

/-- The constant that `step` leaves: the squared innovation. -/
theorem step_exact {P : Matrix n n ℝ} {H : Matrix m n ℝ} {R : Matrix m m ℝ} (hP : P.PosDef)
    (hR : R.PosDef) (xh x : Matrix n (Fin 1) ℝ) (z : Matrix m (Fin 1) ℝ) :
    quad P⁻¹ (x - xh) + quad R⁻¹ (z - H * x) =
      quad ((1 - KF.gain P H R * H) * P)⁻¹ (x - (xh + KF.gain P H R * (z - H * xh))) +
        quad (KF.innov P H R)⁻¹ (z - H * xh) := by
  obtain ⟨c, hc⟩ := step (H := H) hP hR xh z
  rw [hc x]
  congr 1
  have h := hc (xh + KF.gain P H R * (z - H * xh))
  rw [sub_self] at h
  have h0 : quad ((1 - KF.gain P H R * H) * P)⁻¹ 0 = 0 := by simp [quad]
  rw [h0, zero_add, add_sub_cancel_left] at h
  rw [← h]
  have hS := KF.innov_posDef (H := H) hP.posSemidef hR
  have hSu := KF.posDef_det hS
  have hPu := KF.posDef_det hP
  have hRu := KF.posDef_det hR
  have hSs : ((KF.innov P H R)⁻¹)ᵀ = (KF.innov P H R)⁻¹ := KF.symm_of_psd hS.inv.posSemidef
  have hPs := KF.symm_of_psd hP.posSemidef
  have hRs := KF.symm_of_psd hR.posSemidef
  generalize hr : z - H * xh = r
  have e1 : z - H * (xh + KF.gain P H R * r) = R * (KF.innov P H R)⁻¹ * r := by
    have : H * KF.gain P H R = 1 - R * (KF.innov P H R)⁻¹ := by
      have e : H * P * Hᵀ = KF.innov P H R - R := by rw [KF.innov, add_sub_cancel_right]
      rw [KF.gain, ← Matrix.mul_assoc, ← Matrix.mul_assoc, e, Matrix.sub_mul,
        Matrix.mul_nonsing_inv _ hSu]
    rw [Matrix.mul_add, ← Matrix.mul_assoc, this, ← hr, Matrix.sub_mul, Matrix.one_mul]
    abel
  rw [e1]
  have key : (KF.gain P H R * r)ᵀ * P⁻¹ * (KF.gain P H R * r) +
      (R * (KF.innov P H R)⁻¹ * r)ᵀ * R⁻¹ * (R * (KF.innov P H R)⁻¹ * r) =
      rᵀ * (KF.innov P H R)⁻¹ * r := by
    have a1 : (KF.gain P H R * r)ᵀ * P⁻¹ * (KF.gain P H R * r) =
        rᵀ * (KF.innov P H R)⁻¹ * (H * P * Hᵀ) * (KF.innov P H R)⁻¹ * r := by
      rw [Matrix.transpose_mul, KF.gain_transpose hPs hRs, KF.gain]
      have : P * P⁻¹ = 1 := Matrix.mul_nonsing_inv _ hPu
      calc _ = rᵀ * ((KF.innov P H R)⁻¹ * H * (P * P⁻¹)) * (P * Hᵀ * (KF.innov P H R)⁻¹ * r) := by
            simp only [Matrix.mul_assoc]
        _ = _ := by rw [this, Matrix.mul_one]; simp only [Matrix.mul_assoc]
    have a2 : (R * (KF.innov P H R)⁻¹ * r)ᵀ * R⁻¹ * (R * (KF.innov P H R)⁻¹ * r) =
        rᵀ * (KF.innov P H R)⁻¹ * R * (KF.innov P H R)⁻¹ * r := by
      rw [Matrix.transpose_mul, Matrix.transpose_mul, hSs, hRs]
      have : R * R⁻¹ = 1 := Matrix.mul_nonsing_inv _ hRu
      calc _ = rᵀ * ((KF.innov P H R)⁻¹ * (R * R⁻¹)) * (R * (KF.innov P H R)⁻¹ * r) := by
            simp only [Matrix.mul_assoc]
        _ = _ := by rw [this, Matrix.mul_one]; simp only [Matrix.mul_assoc]
    rw [a1, a2, ← Matrix.add_mul, ← Matrix.add_mul, ← Matrix.mul_add]
    have : H * P * Hᵀ + R = KF.innov P H R := rfl
    rw [this, Matrix.mul_assoc rᵀ, Matrix.nonsing_inv_mul _ hSu, Matrix.mul_one]
  have := congrFun (congrFun key 0) 0
  simp only [Matrix.add_apply] at this
  exact this

end LS

namespace Kalman
variable {m u : Dim}

/-- The total misfit is at least a completed square around the estimate, and that bound is attained by
some trajectory to every end state. -/
theorem trajectory_run (k : Kalman ℝ m u) (ds : List (ColVec ℝ u.val × ColVec ℝ m.val))
    (hP : k.P.toMatrix.PosDef) (hQ : k.Q.toMatrix.PosDef) (hR : k.R.toMatrix.PosDef) :
    ∃ k', k.run ds = .ok k' ∧ k'.P.toMatrix.PosDef ∧
      ∃ c, (∀ x l, l.map Prod.fst = ds →
          LS.quad k'.P.toMatrix⁻¹ (lastState x l - k'.xhat.toMatrix) + c ≤
            LS.quad k.P.toMatrix⁻¹ (x - k.xhat.toMatrix) +
              misfit k.A.toMatrix k.B.toMatrix k.H.toMatrix k.Q.toMatrix k.R.toMatrix x l) ∧
        (∀ y, ∃ x l, l.map Prod.fst = ds ∧ lastState x l = y ∧
          LS.quad k.P.toMatrix⁻¹ (x - k.xhat.toMatrix) +
              misfit k.A.toMatrix k.B.toMatrix k.H.toMatrix k.Q.toMatrix k.R.toMatrix x l =
            LS.quad k'.P.toMatrix⁻¹ (y - k'.xhat.toMatrix) + c) := by
  induction ds generalizing k with
  | nil =>
    refine ⟨k, rfl, hP, 0, fun x l hl => ?_, fun y => ⟨y, [], rfl, rfl, rfl⟩⟩
    obtain rfl : l = [] := by simpa using hl
    exact le_refl _
  | cons d ds ih =>
    have hPm : k.Pm.PosDef := hQ.posSemidef_add (KF.psd_congr hP.posSemidef k.A.toMatrix)
    have hS := KF.innov_posDef (H := k.H.toMatrix) hPm.posSemidef hR
    obtain ⟨k1, G, h1, -, eG, eX, eP⟩ := update_symm k d.1 d.2
      (KF.symm_of_psd hPm.posSemidef) (KF.symm_of_psd hR.posSemidef)
      (.inr (by rw [Sm_eq]; exact isUnit_iff_ne_zero.1 (KF.posDef_det hS)))
    rw [eG] at eX eP
    have hs := update_same h1
    have hP1 : k1.P.toMatrix.PosDef := by rw [eP]; exact LS.post_posDef hPm hR
    obtain ⟨k', h', hP', c, hlow, hatt⟩ := ih k1 hP1 (by rw [hs.Q]; exact hQ) (by rw [hs.R]; exact hR)
    rw [hs.A, hs.B, hs.H, hs.Q, hs.R] at hlow hatt
    -- prediction: the best previous state for a given next state
    have pred (x y : State) : LS.quad k.P.toMatrix⁻¹ (x - k.xhat.toMatrix) +
        LS.quad k.Q.toMatrix⁻¹ (y - (k.A.toMatrix * x + k.B.toMatrix * d.1.toMatrix)) =
        LS.quad ((1 - KF.gain k.P.toMatrix k.A.toMatrix k.Q.toMatrix * k.A.toMatrix) *
          k.P.toMatrix)⁻¹ (x - (k.xhat.toMatrix + KF.gain k.P.toMatrix k.A.toMatrix k.Q.toMatrix *
            (y - k.B.toMatrix * d.1.toMatrix - k.A.toMatrix * k.xhat.toMatrix))) +
          LS.quad k.Pm⁻¹ (y - k.xm d.1) := by
      have := LS.step_exact (H := k.A.toMatrix) hP hQ k.xhat.toMatrix x
        (y - k.B.toMatrix * d.1.toMatrix)
      have e1 : y - (k.A.toMatrix * x + k.B.toMatrix * d.1.toMatrix) =
          y - k.B.toMatrix * d.1.toMatrix - k.A.toMatrix * x := by abel
      have e2 : y - k.xm d.1 = y - k.B.toMatrix * d.1.toMatrix - k.A.toMatrix * k.xhat.toMatrix := by
        unfold xm; abel
      rw [e1, e2, this]
      rfl
    -- correction
    have corr (y : State) : LS.quad k.Pm⁻¹ (y - k.xm d.1) +
        LS.quad k.R.toMatrix⁻¹ (d.2.toMatrix - k.H.toMatrix * y) =
        LS.quad k1.P.toMatrix⁻¹ (y - k1.xhat.toMatrix) +
          LS.quad k.Sm⁻¹ (d.2.toMatrix - k.H.toMatrix * k.xm d.1) := by
      rw [eX, eP]
      exact LS.step_exact hPm hR (k.xm d.1) y d.2.toMatrix
    refine ⟨k', run_cons.2 ⟨k1, h1, h'⟩, hP',
      c + LS.quad k.Sm⁻¹ (d.2.toMatrix - k.H.toMatrix * k.xm d.1), fun x l hl => ?_, fun y => ?_⟩
    · cases l with
      | nil => simp at hl
      | cons a l =>
        obtain ⟨⟨v, z⟩, y⟩ := a
        obtain ⟨rfl, hl2⟩ : (v, z) = d ∧ l.map Prod.fst = ds := by simpa using hl
        have h2 := hlow y l hl2
        have h3 := pred x y
        have h4 := corr y
        have h5 := LS.quad_nonneg (LS.post_posDef (H := k.A.toMatrix) hP hQ).inv
          (x - (k.xhat.toMatrix + KF.gain k.P.toMatrix k.A.toMatrix k.Q.toMatrix *
            (y - k.B.toMatrix * v.toMatrix - k.A.toMatrix * k.xhat.toMatrix)))
        show LS.quad _ (lastState y l - _) + _ ≤ LS.quad _ _ + (LS.quad _ _ + LS.quad _ _ + _)
        linarith
    · obtain ⟨y1, l, hl, hy, he⟩ := hatt y
      refine ⟨k.xhat.toMatrix + KF.gain k.P.toMatrix k.A.toMatrix k.Q.toMatrix *
        (y1 - k.B.toMatrix * d.1.toMatrix - k.A.toMatrix * k.xhat.toMatrix), (d, y1) :: l,
        by simp [hl], hy, ?_⟩
      have h3 := pred (k.xhat.toMatrix + KF.gain k.P.toMatrix k.A.toMatrix k.Q.toMatrix *
        (y1 - k.B.toMatrix * d.1.toMatrix - k.A.toMatrix * k.xhat.toMatrix)) y1
      rw [sub_self, show ∀ W : Matrix (Fin 2) (Fin 2) ℝ, LS.quad W 0 = 0 from
        fun W => by simp [LS.quad]] at h3
      have h4 := corr y1
      show LS.quad _ _ + (LS.quad _ _ + LS.quad _ _ + _) = _
      linarith

end Kalman
end Verif
