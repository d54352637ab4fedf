import Verif.Lemmas.Riccati
import Verif.Lemmas.KalmanRun

/- The covariance of a run of the estimator is the iterated covariance recursion. -/

namespace Verif
open Matrix Filter Topology

namespace KF
variable {n m : Type} [Fintype n] [Fintype m] [DecidableEq n] [DecidableEq m]
  {A Q P : Matrix n n ℝ} {H : Matrix m n ℝ} {R : Matrix m m ℝ}

theorem riccSeq_succ' (k : Nat) :
    riccSeq A H Q R P (k + 1) = riccSeq A H Q R (ricc A H Q R P) k := by
  rw [Nat.add_comm, riccSeq_add]; rfl

theorem transition_succ' (k : Nat) :
    transition A H Q R P (k + 1) = transition A H Q R (ricc A H Q R P) k * closed A H Q R P := by
  induction k with
  | zero => simp [transition, riccSeq]
  | succ k ih =>
    rw [transition, ih, riccSeq_succ', transition, Matrix.mul_assoc]

/-- The gain in terms of the covariance after the correction. -/
theorem gain_post (hP : P.PosSemidef) (hQ : Q.PosSemidef) (hR : R.PosDef) :
    gain (pred A Q P) H R = ricc A H Q R P * Hᵀ * R⁻¹ :=
  gain_info (innov_unit hP hQ hR) (posDef_det hR)

theorem closed_post (hP : P.PosSemidef) (hQ : Q.PosSemidef) (hR : R.PosDef) :
    closed A H Q R P = (1 - ricc A H Q R P * Hᵀ * R⁻¹ * H) * A := by
  rw [closed, gain_post hP hQ hR]

end KF

namespace Kalman
variable {m u : Dim}

theorem update_ricc (k : Kalman ℝ m u) (v : ColVec ℝ u.val) (z : ColVec ℝ m.val)
    (hP : k.P.toMatrix.PosSemidef) (hQ : k.Q.toMatrix.PosSemidef) (hR : k.R.toMatrix.PosDef) :
    ∃ k' G, k.update v z = .ok k' ∧ SameModel k k' ∧ k'.K = some G ∧
      k'.P.toMatrix = KF.ricc k.A.toMatrix k.H.toMatrix k.Q.toMatrix k.R.toMatrix k.P.toMatrix ∧
      G.toMatrix = k'.P.toMatrix * k.H.toMatrixᵀ * k.R.toMatrix⁻¹ ∧
      k'.xhat.toMatrix = k.xm v + G.toMatrix * (z.toMatrix - k.H.toMatrix * k.xm v) ∧
      G.toMatrix = KF.gain k.Pm k.H.toMatrix k.R.toMatrix := by
  have hPm : k.Pmᵀ = k.Pm := Pm_symm (KF.symm_of_psd hP) (KF.symm_of_psd hQ)
  have hu := KF.innov_unit (A := k.A.toMatrix) (H := k.H.toMatrix) hP hQ hR
  obtain ⟨k', G, h, hK, eG, ex, eP⟩ := update_symm k v z hPm (KF.symm_of_psd hR.posSemidef)
    (.inr (isUnit_iff_ne_zero.1 hu))
  have eP' : k'.P.toMatrix =
      KF.ricc k.A.toMatrix k.H.toMatrix k.Q.toMatrix k.R.toMatrix k.P.toMatrix := by
    rw [eP, eG]; rfl
  refine ⟨k', G, h, update_same h, hK, eP', ?_, ex, eG⟩
  rw [eP', eG]
  exact KF.gain_post hP hQ hR

/-- Covariance and gain after a run. -/
theorem run_ricc (k : Kalman ℝ m u) (ds)
    (hP : k.P.toMatrix.PosSemidef) (hQ : k.Q.toMatrix.PosSemidef) (hR : k.R.toMatrix.PosDef) :
    ∃ k', k.run ds = .ok k' ∧ SameModel k k' ∧
      k'.P.toMatrix = KF.riccSeq k.A.toMatrix k.H.toMatrix k.Q.toMatrix k.R.toMatrix k.P.toMatrix
        ds.length ∧
      (ds ≠ [] → ∃ G, k'.K = some G ∧
        G.toMatrix = k'.P.toMatrix * k.H.toMatrixᵀ * k.R.toMatrix⁻¹) := by
  induction ds generalizing k with
  | nil => exact ⟨k, rfl, SameModel.rfl' k, rfl, fun h => absurd rfl h⟩
  | cons d ds ih =>
    obtain ⟨k1, G, h1, hs, hK, eP, eG, -⟩ := update_ricc k d.1 d.2 hP hQ hR
    have hP1 : k1.P.toMatrix.PosSemidef := by rw [eP]; exact KF.ricc_psd hP hQ hR
    obtain ⟨k', h2, hs', e2, e3⟩ := ih k1 hP1 (by rw [hs.Q]; exact hQ) (by rw [hs.R]; exact hR)
    refine ⟨k', run_cons.2 ⟨k1, h1, h2⟩, hs.trans hs', ?_, fun _ => ?_⟩
    · rw [e2, hs.A, hs.H, hs.Q, hs.R, eP, List.length_cons, KF.riccSeq_succ']
    · cases ds with
      | nil =>
        cases h2
        exact ⟨G, hK, eG⟩
      | cons e es =>
        obtain ⟨G', hK', eG'⟩ := e3 (by simp)
        exact ⟨G', hK', by rw [eG', hs.H, hs.R]⟩

/-- The difference of the estimates of two runs on the same data. -/
theorem run_diff (k k2 : Kalman ℝ m u) (ds)
    (hP : k.P.toMatrix.PosSemidef) (hQ : k.Q.toMatrix.PosSemidef) (hR : k.R.toMatrix.PosDef)
    (hm : SameModel k k2) (hPP : k2.P = k.P) :
    ∃ k' k2', k.run ds = .ok k' ∧ k2.run ds = .ok k2' ∧
      k'.xhat.toMatrix - k2'.xhat.toMatrix =
        KF.transition k.A.toMatrix k.H.toMatrix k.Q.toMatrix k.R.toMatrix k.P.toMatrix ds.length *
          (k.xhat.toMatrix - k2.xhat.toMatrix) := by
  induction ds generalizing k k2 with
  | nil => exact ⟨k, k2, rfl, rfl, by simp [KF.transition]⟩
  | cons d ds ih =>
    obtain ⟨k1, G, h1, hs, hK, eP, -, ex, eG⟩ := update_ricc k d.1 d.2 hP hQ hR
    obtain ⟨k3, G', h3, hs3, hK3, eP3, -, ex3, eG3⟩ := update_ricc k2 d.1 d.2 (by rw [hPP]; exact hP)
      (by rw [hm.Q]; exact hQ) (by rw [hm.R]; exact hR)
    have hGG : G' = G := by
      obtain ⟨t, x, P, K, x', P', -, -, p1, p2, -, -, e⟩ := update_inv h1
      obtain ⟨t3, x3, P3, K3, x3', P3', -, -, q1, q2, -, -, e3⟩ := update_inv h3
      rw [hm.A, hPP, hm.Q, p1] at q1
      cases q1
      rw [hm.H, hm.R, p2] at q2
      cases q2
      rw [e] at hK
      rw [e3] at hK3
      cases hK
      cases hK3
      rfl
    have hP13 : k3.P = k1.P := by
      obtain ⟨t, x, P, K, x', P', -, -, p1, p2, -, p3, e⟩ := update_inv h1
      obtain ⟨t3, x3, P3, K3, x3', P3', -, -, q1, q2, -, q3, e3⟩ := update_inv h3
      rw [hm.A, hPP, hm.Q, p1] at q1
      cases q1
      rw [hm.H, hm.R, p2] at q2
      cases q2
      rw [hm.H, p3] at q3
      cases q3
      rw [e, e3]
    have hP1 : k1.P.toMatrix.PosSemidef := by rw [eP]; exact KF.ricc_psd hP hQ hR
    have hm13 : SameModel k1 k3 :=
      ⟨by rw [hs3.A, hm.A, hs.A], by rw [hs3.B, hm.B, hs.B], by rw [hs3.H, hm.H, hs.H],
        by rw [hs3.Q, hm.Q, hs.Q], by rw [hs3.R, hm.R, hs.R], by rw [hs3.dt, hm.dt, hs.dt]⟩
    obtain ⟨k', k2', r1, r2, e⟩ := ih k1 k3 hP1 (by rw [hs.Q]; exact hQ) (by rw [hs.R]; exact hR)
      hm13 hP13
    refine ⟨k', k2', run_cons.2 ⟨k1, h1, r1⟩, run_cons.2 ⟨k3, h3, r2⟩, ?_⟩
    rw [e, hs.A, hs.H, hs.Q, hs.R, eP, List.length_cons, KF.transition_succ', Matrix.mul_assoc]
    congr 1
    rw [ex, ex3, hGG, xm, xm, hm.A, hm.B, hm.H, eG]
    unfold KF.closed
    show _ = (1 - KF.gain k.Pm k.H.toMatrix k.R.toMatrix * k.H.toMatrix) * k.A.toMatrix * _
    simp only [Matrix.mul_sub, Matrix.sub_mul, Matrix.mul_add, Matrix.one_mul, Matrix.mul_assoc]
    abel

end Kalman
end Verif
