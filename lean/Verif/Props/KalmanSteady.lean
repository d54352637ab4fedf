import Verif.Spec.KalmanSteady
import Verif.Lemmas.RiccatiExist
import Verif.Lemmas.KalmanSteady
import Verif.Props.Kalman

/- C95, C96, C98, C146: the gain as a function of the covariance, and the steady state. -/

namespace Verif
open Matrix Kalman Filter

variable {m u : Dim}

/-! ## C95 The gain follows from the covariance that `update` stores -/

/-- C95: after every update the gain times the measurement covariance is the stored covariance times
`Hᵀ`. -/
theorem C95_gain_covariance (k : Kalman ℝ m u) (v : ColVec ℝ u.val) (z : ColVec ℝ m.val)
    (hP : k.P.toMatrix.PosSemidef) (hQ : k.Q.toMatrix.PosSemidef) (hR : k.R.toMatrix.PosDef) :
    ∃ k' G, k.update v z = .ok k' ∧ k'.kalman_gain = .ok G ∧
      G.toMatrix * k.R.toMatrix = k'.estimation_error_covariance.toMatrix * k.H.toMatrixᵀ := by
  obtain ⟨k', G, h, -, hK, -, eG, -⟩ := update_ricc k v z hP hQ hR
  refine ⟨k', G, h, by rw [kalman_gain, hK], ?_⟩
  rw [eG, Matrix.mul_assoc, Matrix.nonsing_inv_mul _ (KF.posDef_det hR), Matrix.mul_one]
  rfl

example : ∃ k : Kalman ℝ .one .one, k.P.toMatrix.PosSemidef ∧ k.Q.toMatrix.PosSemidef ∧
    k.R.toMatrix.PosDef := ⟨exK, exK_psd⟩

/-! ## C96 The covariance and the gain settle -/

section
variable {A Q : Matrix (Fin 2) (Fin 2) ℝ} {H : Matrix (Fin m.val) (Fin 2) ℝ}
  {R : Matrix (Fin m.val) (Fin m.val) ℝ}

theorem steady_iff {L : Matrix (Fin 2) (Fin 2) ℝ} :
    Steady.Cov A H Q R L ↔ L.PosSemidef ∧ KF.ricc A H Q R L = L := by
  rw [Steady.Cov, KF.ricc, KF.gain, KF.innov, KF.pred, Matrix.sub_mul, Matrix.one_mul]
  simp only [Matrix.mul_assoc]

theorem close_of_tendsto {a b : Type} [Finite a] [Finite b] {f : Nat → Matrix a b ℝ} {L : Matrix a b ℝ}
    (h : ∀ i j, Tendsto (fun k => f k i j) atTop (nhds (L i j))) {ε : ℝ} (hε : 0 < ε) :
    ∃ N, ∀ k, N ≤ k → Steady.Close ε (f k) L := by
  have : ∀ᶠ k in atTop, ∀ i j, |f k i j - L i j| < ε := by
    rw [eventually_all]; intro i
    rw [eventually_all]; intro j
    have := (Metric.tendsto_nhds.1 (h i j)) ε hε
    simpa only [Real.dist_eq] using this
  exact eventually_atTop.1 this

theorem tendsto_mul_const {a b c : Type} [Fintype b] {f : Nat → Matrix a b ℝ} {L : Matrix a b ℝ}
    (h : ∀ i j, Tendsto (fun k => f k i j) atTop (nhds (L i j))) (X : Matrix b c ℝ) (i : a) (j : c) :
    Tendsto (fun k => (f k * X) i j) atTop (nhds ((L * X) i j)) := by
  simp only [Matrix.mul_apply]
  exact tendsto_finsetSum _ fun a _ => (h i a).mul_const _

end

/-- C146: let the process noise reach every state within two steps, and let some fixed gain keep the
error bounded.  Then there is exactly one steady covariance `L`, and for every estimator constructed with
these matrices, whatever its initial covariance and whatever the data, the covariance tends to `L` and
the gain to `L Hᵀ R⁻¹`, at a rate that does not depend on the data. -/
theorem C146_steady_state (A : Mat ℝ 2 2) (H : Mat ℝ m.val 2) (Q : Mat ℝ 2 2) (R : Mat ℝ m.val m.val)
    (hQ : Q.toMatrix.PosSemidef)
    (hC : Steady.Reaches A.toMatrix Q.toMatrix) (hR : R.toMatrix.PosDef)
    (hb : Steady.Bounded A.toMatrix H.toMatrix Q.toMatrix R.toMatrix) :
    ∃ L, L.PosDef ∧ Steady.Cov A.toMatrix H.toMatrix Q.toMatrix R.toMatrix L ∧
      (∀ L', Steady.Cov A.toMatrix H.toMatrix Q.toMatrix R.toMatrix L' → L' = L) ∧
      ∀ P : Mat ℝ 2 2, P.toMatrix.PosSemidef → ∀ ε : ℝ, 0 < ε → ∃ N : Nat,
        ∀ (avr : Bool) (dt : ℝ) (B : Mat ℝ 2 u.val) (x : ColVec ℝ 2) (ds), N ≤ ds.length →
          ∃ k' G, (init avr dt A B H Q R P x : Kalman ℝ m u).run ds = .ok k' ∧
            k'.kalman_gain = .ok G ∧
            Steady.Close ε k'.estimation_error_covariance.toMatrix L ∧
            Steady.Close ε G.toMatrix (L * H.toMatrixᵀ * R.toMatrix⁻¹) := by
  obtain ⟨G, Y, hY, hG⟩ := hb
  obtain ⟨L, hL, hfix, hfresh⟩ := KF.steady_exists (A := A.toMatrix) (H := H.toMatrix) hQ hC hR hY hG
  have hconv {P : Matrix (Fin 2) (Fin 2) ℝ} (hP : P.PosSemidef) :=
    KF.riccSeq_tendsto_psd (A := A.toMatrix) (H := H.toMatrix) hP hL hQ hC hR hfix
  refine ⟨L, hL, steady_iff.2 ⟨hL.posSemidef, hfix⟩, fun L' hL' => ?_, fun P hP ε hε => ?_⟩
  · obtain ⟨hp, hf⟩ := steady_iff.1 hL'
    ext i j
    have e (k : Nat) : KF.riccSeq A.toMatrix H.toMatrix Q.toMatrix R.toMatrix L' k = L' := by
      induction k with
      | zero => rfl
      | succ k ih => rw [KF.riccSeq, ih, hf]
    have := hconv hp i j
    simp only [e] at this
    exact tendsto_nhds_unique tendsto_const_nhds this
  · obtain ⟨N1, h1⟩ := close_of_tendsto (hconv hP) hε
    obtain ⟨N2, h2⟩ := close_of_tendsto
      (tendsto_mul_const (hconv hP) (H.toMatrixᵀ * R.toMatrix⁻¹)) hε
    refine ⟨max (max N1 N2) 1, fun avr dt B x ds hd => ?_⟩
    obtain ⟨k', hr, -, eP, hK⟩ := run_ricc (init avr dt A B H Q R P x : Kalman ℝ m u) ds hP
      hQ hR
    obtain ⟨G', hG', eG'⟩ := hK (by rintro rfl; simp at hd)
    refine ⟨k', G', hr, by rw [kalman_gain, hG'], ?_, ?_⟩
    · rw [estimation_error_covariance, eP]
      exact h1 _ (by omega)
    · rw [eG', eP, Matrix.mul_assoc, Matrix.mul_assoc L]
      exact h2 _ (by omega)

/-- C96: let the process noise act on every state, and let some fixed gain keep the error bounded.  Then
there is exactly one steady covariance `L`, and for every estimator constructed with these matrices,
whatever its initial covariance and whatever the data, the covariance tends to `L` and the gain to
`L Hᵀ R⁻¹`, at a rate that does not depend on the data. -/
theorem C96_steady_state (A : Mat ℝ 2 2) (H : Mat ℝ m.val 2) (Q : Mat ℝ 2 2) (R : Mat ℝ m.val m.val)
    (hQ : Q.toMatrix.PosDef) (hR : R.toMatrix.PosDef)
    (hb : Steady.Bounded A.toMatrix H.toMatrix Q.toMatrix R.toMatrix) :
    ∃ L, L.PosDef ∧ Steady.Cov A.toMatrix H.toMatrix Q.toMatrix R.toMatrix L ∧
      (∀ L', Steady.Cov A.toMatrix H.toMatrix Q.toMatrix R.toMatrix L' → L' = L) ∧
      ∀ P : Mat ℝ 2 2, P.toMatrix.PosSemidef → ∀ ε : ℝ, 0 < ε → ∃ N : Nat,
        ∀ (avr : Bool) (dt : ℝ) (B : Mat ℝ 2 u.val) (x : ColVec ℝ 2) (ds), N ≤ ds.length →
          ∃ k' G, (init avr dt A B H Q R P x : Kalman ℝ m u).run ds = .ok k' ∧
            k'.kalman_gain = .ok G ∧
            Steady.Close ε k'.estimation_error_covariance.toMatrix L ∧
            Steady.Close ε G.toMatrix (L * H.toMatrixᵀ * R.toMatrix⁻¹) :=
  C146_steady_state A H Q R hQ.posSemidef (KF.reach_of_posDef hQ) hR hb

/-- C96: one measurement suffices if it and its prediction one step ahead are independent functions of
the state. -/
theorem C96_bounded_of_observable (A : Mat ℝ 2 2) (H : Mat ℝ 1 2) (Q : Mat ℝ 2 2) (R : Mat ℝ 1 1)
    (hQ : Q.toMatrix.PosSemidef) (hR : R.toMatrix.PosSemidef)
    (hO : H.toMatrix 0 0 * (H.toMatrix * A.toMatrix) 0 1 -
      H.toMatrix 0 1 * (H.toMatrix * A.toMatrix) 0 0 ≠ 0) :
    Steady.Bounded A.toMatrix H.toMatrix Q.toMatrix R.toMatrix :=
  KF.bound_of_observable hQ hR hO

/-- C96: two measurements suffice if they determine the state. -/
theorem C96_bounded_of_invertible (A H Q R : Mat ℝ 2 2) (hQ : Q.toMatrix.PosSemidef)
    (hR : R.toMatrix.PosSemidef) (hH : H.toMatrix.det ≠ 0) :
    Steady.Bounded A.toMatrix H.toMatrix Q.toMatrix R.toMatrix :=
  KF.bound_of_invertible hQ hR (isUnit_iff_ne_zero.2 hH)

/-- C96: boundedness is also necessary. -/
theorem C96_bounded_of_steady {n k : Type} [Fintype n] [Fintype k] [DecidableEq n] [DecidableEq k]
    (A : Matrix n n ℝ) (H : Matrix k n ℝ) (Q : Matrix n n ℝ) (R : Matrix k k ℝ)
    (hQ : Q.PosSemidef) (hR : R.PosDef) (L : Matrix n n ℝ)
    (hL : Steady.Cov A H Q R L) : Steady.Bounded A H Q R := by
  obtain ⟨hp, hf⟩ := hL
  refine ⟨KF.gain (KF.pred A Q L) H R, L, hp, ?_⟩
  have hj := KF.joseph_gain (H := H) (KF.pred_symm (A := A) (KF.symm_of_psd hp) (KF.symm_of_psd hQ))
    (KF.symm_of_psd hR.posSemidef) (KF.innov_unit hp hQ hR)
  have e : (1 - KF.gain (KF.pred A Q L) H R * H) * KF.pred A Q L = L := by
    nth_rewrite 3 [← hf]
    rw [KF.gain, KF.innov, KF.pred, Matrix.sub_mul, Matrix.one_mul]
    simp only [Matrix.mul_assoc]
  rw [show A * L * Aᵀ + Q = KF.pred A Q L from rfl, ← hj, e, sub_self]
  exact Matrix.PosSemidef.zero

theorem exK_steady : exK.Q.toMatrix.PosDef ∧ exK.R.toMatrix.PosDef ∧
    exK.H.toMatrix 0 0 * (exK.H.toMatrix * exK.A.toMatrix) 0 1 -
      exK.H.toMatrix 0 1 * (exK.H.toMatrix * exK.A.toMatrix) 0 0 ≠ 0 := by
  refine ⟨?_, exK_psd.2.2, ?_⟩
  · show (Mat.mk22 (1 : ℝ) 0 0 1).toMatrix.PosDef
    rw [one22]; exact Matrix.PosDef.one
  · rw [Matrix.mul_apply, Matrix.mul_apply, Fin.sum_univ_two, Fin.sum_univ_two]
    show (1 : ℝ) * (1 * 1 + 0 * 1) - 0 * (1 * 1 + 0 * 0) ≠ 0
    norm_num

/-! ## C98 The initial estimate is forgotten -/

/-- C146: two estimators that differ in their initial state only agree in the long run, on the same data
whatever they are, if the process noise reaches every state within two steps. -/
theorem C146_initial_state_forgotten (A : Mat ℝ 2 2) (H : Mat ℝ m.val 2) (Q : Mat ℝ 2 2)
    (R : Mat ℝ m.val m.val) (hQ : Q.toMatrix.PosSemidef)
    (hC : Steady.Reaches A.toMatrix Q.toMatrix) (hR : R.toMatrix.PosDef)
    (hb : Steady.Bounded A.toMatrix H.toMatrix Q.toMatrix R.toMatrix)
    (P : Mat ℝ 2 2) (hP : P.toMatrix.PosSemidef) (x y : ColVec ℝ 2) (ε : ℝ) (hε : 0 < ε) :
    ∃ N : Nat, ∀ (avr : Bool) (dt : ℝ) (B : Mat ℝ 2 u.val) (ds), N ≤ ds.length →
      ∃ kx ky, (init avr dt A B H Q R P x : Kalman ℝ m u).run ds = .ok kx ∧
        (init avr dt A B H Q R P y : Kalman ℝ m u).run ds = .ok ky ∧
        Steady.Close ε kx.system_state.toMatrix ky.system_state.toMatrix := by
  obtain ⟨G, Y, hY, hG⟩ := hb
  obtain ⟨L, hL, hfix, -⟩ := KF.steady_exists (A := A.toMatrix) (H := H.toMatrix) hQ hC hR hY hG
  have ht := KF.transition_tendsto_psd (A := A.toMatrix) (H := H.toMatrix) hP hL hQ hC hR hfix
  obtain ⟨N, hN⟩ := close_of_tendsto (L := 0) (KF.tendsto_mul_right ht (x.toMatrix - y.toMatrix)) hε
  refine ⟨N, fun avr dt B ds hd => ?_⟩
  obtain ⟨kx, ky, h1, h2, e⟩ := run_diff (init avr dt A B H Q R P x : Kalman ℝ m u)
    (init avr dt A B H Q R P y) ds hP hQ hR ⟨rfl, rfl, rfl, rfl, rfl, rfl⟩ rfl
  refine ⟨kx, ky, h1, h2, fun i j => ?_⟩
  have := hN ds.length hd i j
  rw [Matrix.zero_apply, sub_zero] at this
  show |kx.xhat.toMatrix i j - ky.xhat.toMatrix i j| < ε
  rw [← Matrix.sub_apply, e]
  exact this

/-- C98: two estimators that differ in their initial state only agree in the long run, on the same data
whatever they are. -/
theorem C98_initial_state_forgotten (A : Mat ℝ 2 2) (H : Mat ℝ m.val 2) (Q : Mat ℝ 2 2)
    (R : Mat ℝ m.val m.val) (hQ : Q.toMatrix.PosDef) (hR : R.toMatrix.PosDef)
    (hb : Steady.Bounded A.toMatrix H.toMatrix Q.toMatrix R.toMatrix)
    (P : Mat ℝ 2 2) (hP : P.toMatrix.PosSemidef) (x y : ColVec ℝ 2) (ε : ℝ) (hε : 0 < ε) :
    ∃ N : Nat, ∀ (avr : Bool) (dt : ℝ) (B : Mat ℝ 2 u.val) (ds), N ≤ ds.length →
      ∃ kx ky, (init avr dt A B H Q R P x : Kalman ℝ m u).run ds = .ok kx ∧
        (init avr dt A B H Q R P y : Kalman ℝ m u).run ds = .ok ky ∧
        Steady.Close ε kx.system_state.toMatrix ky.system_state.toMatrix :=
  C146_initial_state_forgotten A H Q R hQ.posSemidef (KF.reach_of_posDef hQ) hR hb P hP x y ε hε

example : ∃ (A Q P : Mat ℝ 2 2) (H : Mat ℝ 1 2) (R : Mat ℝ 1 1), Q.toMatrix.PosDef ∧ R.toMatrix.PosDef ∧
    P.toMatrix.PosSemidef ∧ Steady.Bounded A.toMatrix H.toMatrix Q.toMatrix R.toMatrix :=
  ⟨exK.A, exK.Q, exK.P, exK.H, exK.R, exK_steady.1, exK_steady.2.1, exK_psd.1,
    C96_bounded_of_observable _ _ _ _ exK_psd.2.1 exK_psd.2.2.posSemidef exK_steady.2.2⟩

end Verif
