import Verif.Lemmas.KalmanStable
import Verif.Props.KalmanSteady
import Verif.Props.KalmanSim

/- C115: the estimator is stable: bounded disturbances lead to a bounded error, and everything about the
start is forgotten. -/

namespace Verif
open Matrix Kalman

variable {m u : Dim}

theorem settles {A : Mat ℝ 2 2} {H : Mat ℝ m.val 2} {Q : Mat ℝ 2 2} {R : Mat ℝ m.val m.val}
    (hQ : Q.toMatrix.PosSemidef) (hC : Steady.Reaches A.toMatrix Q.toMatrix) (hR : R.toMatrix.PosDef)
    (hb : Steady.Bounded A.toMatrix H.toMatrix Q.toMatrix R.toMatrix) :
    ∃ L, ∀ P : Mat ℝ 2 2, P.toMatrix.PosSemidef →
      KF.Settles A.toMatrix H.toMatrix Q.toMatrix R.toMatrix P.toMatrix L := by
  obtain ⟨G, Y, hY, hG⟩ := hb
  obtain ⟨L, hL, hfix, hfresh⟩ := KF.steady_exists (A := A.toMatrix) (H := H.toMatrix) hQ hC hR hY hG
  exact ⟨L, fun P hP => ⟨hP, hL, hQ, hR, hfix, hfresh,
    KF.riccSeq_tendsto_psd (A := A.toMatrix) (H := H.toMatrix) hP hL hQ hC hR hfix⟩⟩

/-- C146: let the process noise reach every state within two steps, and let some fixed gain keep the error bounded.
There are a factor `C` and a rate `γ < 1` such that in every run, if the real system deviates from the
model by disturbances of at most `D` per step and the measurements are wrong by at most `D`, the error of
the estimate after `n` steps is at most `C (γⁿ E + D)`, where `E` bounds the initial error.  In
particular it stays bounded for ever, and without disturbances it vanishes exponentially. -/
theorem C146_bounded_error (A : Mat ℝ 2 2) (H : Mat ℝ m.val 2) (Q : Mat ℝ 2 2) (R : Mat ℝ m.val m.val)
    (hQ : Q.toMatrix.PosSemidef) (hC : Steady.Reaches A.toMatrix Q.toMatrix) (hR : R.toMatrix.PosDef)
    (hb : Steady.Bounded A.toMatrix H.toMatrix Q.toMatrix R.toMatrix)
    (P : Mat ℝ 2 2) (hP : P.toMatrix.PosSemidef) :
    ∃ C γ : ℝ, 0 ≤ C ∧ 0 ≤ γ ∧ γ < 1 ∧ ∀ (avr : Bool) (dt : ℝ) (B : Mat ℝ 2 u.val) (xhat : ColVec ℝ 2)
      (x : Matrix (Fin 2) (Fin 1) ℝ) (E D : ℝ), 0 ≤ E → 0 ≤ D → (∀ i, |x i 0 - xhat.toMatrix i 0| ≤ E) →
      ∀ (ds : List (ColVec ℝ u.val × ColVec ℝ m.val)) (x' : Matrix (Fin 2) (Fin 1) ℝ),
        Disturbed A.toMatrix B.toMatrix H.toMatrix D x ds x' →
        ∃ k', (init avr dt A B H Q R P xhat : Kalman ℝ m u).run ds = .ok k' ∧
          ∀ i, |x' i 0 - k'.system_state.toMatrix i 0| ≤ C * (γ ^ ds.length * E + D) := by
  obtain ⟨L, hL⟩ := settles hQ hC hR hb
  obtain ⟨C, γ, hC, h0, h1, h⟩ := run_stable (u := u) (hL P hP)
  exact ⟨C, γ, hC, h0, h1, fun avr dt B xhat x E D hE hD hx ds x' hd =>
    h (init avr dt A B H Q R P xhat) rfl rfl rfl rfl rfl x E D hE hD hx ds x' hd⟩

/-- C115: let the process noise act on every state, and let some fixed gain keep the error bounded.
There are a factor `C` and a rate `γ < 1` such that in every run, if the real system deviates from the
model by disturbances of at most `D` per step and the measurements are wrong by at most `D`, the error of
the estimate after `n` steps is at most `C (γⁿ E + D)`, where `E` bounds the initial error.  In
particular it stays bounded for ever, and without disturbances it vanishes exponentially. -/
theorem C115_bounded_error (A : Mat ℝ 2 2) (H : Mat ℝ m.val 2) (Q : Mat ℝ 2 2) (R : Mat ℝ m.val m.val)
    (hQ : Q.toMatrix.PosDef) (hR : R.toMatrix.PosDef)
    (hb : Steady.Bounded A.toMatrix H.toMatrix Q.toMatrix R.toMatrix)
    (P : Mat ℝ 2 2) (hP : P.toMatrix.PosSemidef) :
    ∃ C γ : ℝ, 0 ≤ C ∧ 0 ≤ γ ∧ γ < 1 ∧ ∀ (avr : Bool) (dt : ℝ) (B : Mat ℝ 2 u.val) (xhat : ColVec ℝ 2)
      (x : Matrix (Fin 2) (Fin 1) ℝ) (E D : ℝ), 0 ≤ E → 0 ≤ D → (∀ i, |x i 0 - xhat.toMatrix i 0| ≤ E) →
      ∀ (ds : List (ColVec ℝ u.val × ColVec ℝ m.val)) (x' : Matrix (Fin 2) (Fin 1) ℝ),
        Disturbed A.toMatrix B.toMatrix H.toMatrix D x ds x' →
        ∃ k', (init avr dt A B H Q R P xhat : Kalman ℝ m u).run ds = .ok k' ∧
          ∀ i, |x' i 0 - k'.system_state.toMatrix i 0| ≤ C * (γ ^ ds.length * E + D) :=
  C146_bounded_error A H Q R hQ.posSemidef (KF.reach_of_posDef hQ) hR hb P hP

/-- C146: on the measurements of a system such as in `C146_bounded_error` two estimators that differ in their initial state and in
their initial covariance agree in the long run. -/
theorem C146_start_forgotten (A : Mat ℝ 2 2) (H : Mat ℝ m.val 2) (Q : Mat ℝ 2 2) (R : Mat ℝ m.val m.val)
    (hQ : Q.toMatrix.PosSemidef) (hC : Steady.Reaches A.toMatrix Q.toMatrix) (hR : R.toMatrix.PosDef)
    (hb : Steady.Bounded A.toMatrix H.toMatrix Q.toMatrix R.toMatrix)
    (P1 P2 : Mat ℝ 2 2) (hP1 : P1.toMatrix.PosSemidef) (hP2 : P2.toMatrix.PosSemidef)
    (E D ε : ℝ) (hE : 0 ≤ E) (hD : 0 ≤ D) (hε : 0 < ε) :
    ∃ N : Nat, ∀ (avr : Bool) (dt : ℝ) (B : Mat ℝ 2 u.val) (xhat1 xhat2 : ColVec ℝ 2)
      (x : Matrix (Fin 2) (Fin 1) ℝ), (∀ i, |x i 0 - xhat1.toMatrix i 0| ≤ E) →
      (∀ i, |x i 0 - xhat2.toMatrix i 0| ≤ E) →
      ∀ (ds : List (ColVec ℝ u.val × ColVec ℝ m.val)) (x' : Matrix (Fin 2) (Fin 1) ℝ),
        Disturbed A.toMatrix B.toMatrix H.toMatrix D x ds x' → N ≤ ds.length →
        ∃ k1 k2, (init avr dt A B H Q R P1 xhat1 : Kalman ℝ m u).run ds = .ok k1 ∧
          (init avr dt A B H Q R P2 xhat2 : Kalman ℝ m u).run ds = .ok k2 ∧
          Steady.Close ε k1.system_state.toMatrix k2.system_state.toMatrix := by
  obtain ⟨L, hL⟩ := settles hQ hC hR hb
  obtain ⟨N, h⟩ := run_forget (u := u) (hL P1 hP1) (hL P2 hP2) E D ε hE hD hε
  exact ⟨N, fun avr dt B xhat1 xhat2 x hx1 hx2 ds x' hd hN =>
    h (init avr dt A B H Q R P1 xhat1) (init avr dt A B H Q R P2 xhat2) rfl rfl rfl rfl rfl rfl
      ⟨rfl, rfl, rfl, rfl, rfl, rfl⟩ x hx1 hx2 ds x' hd hN⟩

/-- C115: on the measurements of such a system two estimators that differ in their initial state and in
their initial covariance agree in the long run. -/
theorem C115_start_forgotten (A : Mat ℝ 2 2) (H : Mat ℝ m.val 2) (Q : Mat ℝ 2 2) (R : Mat ℝ m.val m.val)
    (hQ : Q.toMatrix.PosDef) (hR : R.toMatrix.PosDef)
    (hb : Steady.Bounded A.toMatrix H.toMatrix Q.toMatrix R.toMatrix)
    (P1 P2 : Mat ℝ 2 2) (hP1 : P1.toMatrix.PosSemidef) (hP2 : P2.toMatrix.PosSemidef)
    (E D ε : ℝ) (hE : 0 ≤ E) (hD : 0 ≤ D) (hε : 0 < ε) :
    ∃ N : Nat, ∀ (avr : Bool) (dt : ℝ) (B : Mat ℝ 2 u.val) (xhat1 xhat2 : ColVec ℝ 2)
      (x : Matrix (Fin 2) (Fin 1) ℝ), (∀ i, |x i 0 - xhat1.toMatrix i 0| ≤ E) →
      (∀ i, |x i 0 - xhat2.toMatrix i 0| ≤ E) →
      ∀ (ds : List (ColVec ℝ u.val × ColVec ℝ m.val)) (x' : Matrix (Fin 2) (Fin 1) ℝ),
        Disturbed A.toMatrix B.toMatrix H.toMatrix D x ds x' → N ≤ ds.length →
        ∃ k1 k2, (init avr dt A B H Q R P1 xhat1 : Kalman ℝ m u).run ds = .ok k1 ∧
          (init avr dt A B H Q R P2 xhat2 : Kalman ℝ m u).run ds = .ok k2 ∧
          Steady.Close ε k1.system_state.toMatrix k2.system_state.toMatrix :=
  C146_start_forgotten A H Q R hQ.posSemidef (KF.reach_of_posDef hQ) hR hb P1 P2 hP1 hP2 E D ε hE hD hε

/-- The example estimator meets the hypotheses, with a system that is disturbed and measured wrongly. -/
example : ∃ (A Q P : Mat ℝ 2 2) (B : Mat ℝ 2 1) (H : Mat ℝ 1 2) (R : Mat ℝ 1 1), Q.toMatrix.PosDef ∧
    R.toMatrix.PosDef ∧ P.toMatrix.PosSemidef ∧
    Steady.Bounded A.toMatrix H.toMatrix Q.toMatrix R.toMatrix ∧
    Disturbed (m := .one) (u := .one) A.toMatrix B.toMatrix H.toMatrix (1 / 2) 0
      [(⟨#v[0]⟩, ⟨#v[1]⟩)] !![1 / 2; 1 / 2] := by
  refine ⟨exK.A, exK.Q, exK.P, exK.B, exK.H, exK.R, exK_steady.1, exK_steady.2.1, exK_psd.1,
    C96_bounded_of_observable _ _ _ _ exK_psd.2.1 exK_psd.2.2.posSemidef exK_steady.2.2, ?_⟩
  have hv : (⟨#v[0]⟩ : ColVec ℝ 1).toMatrix = 0 := by
    ext i j
    fin_cases i; fin_cases j
    rfl
  have h := Disturbed.snoc (m := .one) (u := .one) (A := exK.A.toMatrix) (B := exK.B.toMatrix)
    (H := exK.H.toMatrix) (D := 1 / 2) (x := 0) [] 0 ⟨#v[0]⟩ ⟨#v[1]⟩ !![1 / 2; 1 / 2] !![1 / 2] .nil
    (by intro i; fin_cases i <;> norm_num)
    (by intro i; obtain rfl : i = 0 := Subsingleton.elim _ _; norm_num)
    (by
      rw [hv]
      ext i j
      fin_cases i; fin_cases j
      simp only [Matrix.mul_zero, zero_add, Matrix.add_apply, Matrix.mul_apply, Fin.sum_univ_two]
      show (1 : ℝ) = 1 * (1 / 2) + 0 * (1 / 2) + 1 / 2
      norm_num)
  rw [hv] at h
  simpa using h

/-- C115: the condition that some gain keeps the error bounded cannot be dropped: along a direction the
measurement does not see and the system expands, the error grows, even without disturbances. -/
theorem C115_unobservable (k : Kalman ℝ m u) (hP : k.P.toMatrix.PosSemidef)
    (hQ : k.Q.toMatrix.PosSemidef) (hR : k.R.toMatrix.PosDef) (d : Matrix (Fin 2) (Fin 1) ℝ) (r : ℝ)
    (hA : k.A.toMatrix * d = r • d) (hH : k.H.toMatrix * d = 0) (ds) (x')
    (hd : Disturbed k.A.toMatrix k.B.toMatrix k.H.toMatrix 0 (k.system_state.toMatrix + d) ds x') :
    ∃ k', k.run ds = .ok k' ∧ x' - k'.system_state.toMatrix = r ^ ds.length • d := by
  induction hd with
  | nil => exact ⟨k, rfl, by simp⟩
  | snoc ds y v z w n _ hw hn hz ih =>
    obtain ⟨k1, h1, e⟩ := ih
    obtain ⟨k1', hr, hs, eP, -⟩ := run_ricc k ds hP hQ hR
    rw [h1] at hr
    cases hr
    obtain ⟨k2, G, h2, -, -, -, -, ex, -⟩ := update_ricc k1 v z
      (by rw [eP]; exact KF.riccSeq_psd hP hQ hR _) (by rw [hs.Q]; exact hQ) (by rw [hs.R]; exact hR)
    refine ⟨k2, run_snoc h1 h2, ?_⟩
    have hw0 : w = 0 := by
      ext i j
      obtain rfl : j = 0 := Subsingleton.elim _ _
      exact abs_nonpos_iff.1 (hw i)
    have hn0 : n = 0 := by
      ext i j
      obtain rfl : j = 0 := Subsingleton.elim _ _
      exact abs_nonpos_iff.1 (hn i)
    subst hw0 hn0
    have ey : y = k1.xhat.toMatrix + r ^ ds.length • d := by
      rw [← e, system_state]; abel
    show _ - k2.xhat.toMatrix = _
    rw [ex, hz, xm, hs.A, hs.B, hs.H, ey]
    have hHd : k.H.toMatrix * (k.A.toMatrix * d) = 0 := by rw [hA, Matrix.mul_smul, hH, smul_zero]
    simp only [Matrix.mul_add, Matrix.mul_smul, hHd, smul_zero, add_zero, sub_self, Matrix.mul_zero]
    rw [hA, smul_smul, List.length_append, List.length_singleton, pow_succ]
    abel

/-- Such an estimator: the second state doubles in every step and is not measured. -/
example : ∃ k : Kalman ℝ .one .one, k.P.toMatrix.PosSemidef ∧ k.Q.toMatrix.PosSemidef ∧
    k.R.toMatrix.PosDef ∧ k.A.toMatrix * (!![0; 1] : Matrix (Fin 2) (Fin 1) ℝ) =
      (2 : ℝ) • (!![0; 1] : Matrix (Fin 2) (Fin 1) ℝ) ∧
    k.H.toMatrix * (!![0; 1] : Matrix (Fin 2) (Fin 1) ℝ) = 0 := by
  refine ⟨{ exK with A := Mat.mk22 1 0 0 2 }, exK_psd.1, exK_psd.2.1, exK_psd.2.2, ?_, ?_⟩
  · ext i j
    obtain rfl : j = 0 := Subsingleton.elim _ _
    rw [Matrix.mul_apply, Fin.sum_univ_two]
    fin_cases i
    · show (1 : ℝ) * 0 + 0 * 1 = 2 * 0
      norm_num
    · show (0 : ℝ) * 0 + 2 * 1 = 2 * 1
      norm_num
  · ext i j
    obtain rfl : j = 0 := Subsingleton.elim _ _
    rw [Matrix.mul_apply, Fin.sum_univ_two]
    fin_cases i
    show (1 : ℝ) * 0 + 0 * 1 = 0
    norm_num

/-! ### The simulation -/

section
open KalmanSim

theorem settles_sim (p : Params ℝ) (hd : 0 < p.dt) (hs : 0 < p.measnoise) (ha : 0 < p.accelnoise) :
    ∃ L, ∀ P : Mat ℝ 2 2, P.toMatrix.PosSemidef →
      KF.Settles (mA p).toMatrix mH.toMatrix (mQ p).toMatrix (mR p).toMatrix P.toMatrix L := by
  obtain ⟨h0, h1, h2⟩ := damping_index hd hs ha
  exact ⟨_, fun P hP => ⟨hP, steady_posDef hd hs h0 h1, mQ_psd p, mR_posDef p hs.ne',
    steady_fix hd hs h0 h2, KF.spread_of_fresh (steady_fresh hd hs h0 h1 h2), covSeq_tendsto hd hs ha hP⟩⟩

/-- C115: the same holds for the estimator of the simulation, although its process noise covariance is
singular. -/
theorem C115_simulation (p : Params ℝ) (hd : 0 < p.dt) (hs : 0 < p.measnoise) (ha : 0 < p.accelnoise)
    (A B H Q R) (hA : sysA p = .ok A) (hB : sysB p = .ok B) (hH : sysH = .ok H) (hQ : sysQ p = .ok Q)
    (hR : sysR p = .ok R) (P : Mat ℝ 2 2) (hP : P.toMatrix.PosSemidef) :
    ∃ C γ : ℝ, 0 ≤ C ∧ 0 ≤ γ ∧ γ < 1 ∧ ∀ (avr : Bool) (xhat : ColVec ℝ 2) (x : Matrix (Fin 2) (Fin 1) ℝ)
      (E D : ℝ), 0 ≤ E → 0 ≤ D → (∀ i, |x i 0 - xhat.toMatrix i 0| ≤ E) →
      ∀ (ds : List (ColVec ℝ 1 × ColVec ℝ 1)) (x' : Matrix (Fin 2) (Fin 1) ℝ),
        Disturbed (m := .one) (u := .one) A.toMatrix B.toMatrix H.toMatrix D x ds x' →
        ∃ k', (init avr p.dt A B H Q R P xhat : Kalman ℝ .one .one).run ds = .ok k' ∧
          ∀ i, |x' i 0 - k'.system_state.toMatrix i 0| ≤ C * (γ ^ ds.length * E + D) := by
  rw [sysA_eq] at hA; cases hA
  rw [sysB_eq] at hB; cases hB
  rw [sysH_eq] at hH; cases hH
  rw [sysQ_eq] at hQ; cases hQ
  rw [sysR_eq] at hR; cases hR
  obtain ⟨L, hL⟩ := settles_sim p hd hs ha
  obtain ⟨C, γ, hC, h0, h1, h⟩ := run_stable (m := .one) (u := .one) (hL P hP)
  exact ⟨C, γ, hC, h0, h1, fun avr xhat x E D hE hD hx ds x' hd =>
    h (init avr p.dt (mA p) (mB p) mH (mQ p) (mR p) P xhat) rfl rfl rfl rfl rfl x E D hE hD hx ds x' hd⟩

/-- C115: the initial state and the initial covariance are forgotten in the simulation as well. -/
theorem C115_simulation_forgets (p : Params ℝ) (hd : 0 < p.dt) (hs : 0 < p.measnoise)
    (ha : 0 < p.accelnoise) (A B H Q R) (hA : sysA p = .ok A) (hB : sysB p = .ok B) (hH : sysH = .ok H)
    (hQ : sysQ p = .ok Q) (hR : sysR p = .ok R) (P1 P2 : Mat ℝ 2 2) (hP1 : P1.toMatrix.PosSemidef)
    (hP2 : P2.toMatrix.PosSemidef) (E D ε : ℝ) (hE : 0 ≤ E) (hD : 0 ≤ D) (hε : 0 < ε) :
    ∃ N : Nat, ∀ (avr : Bool) (xhat1 xhat2 : ColVec ℝ 2) (x : Matrix (Fin 2) (Fin 1) ℝ),
      (∀ i, |x i 0 - xhat1.toMatrix i 0| ≤ E) → (∀ i, |x i 0 - xhat2.toMatrix i 0| ≤ E) →
      ∀ (ds : List (ColVec ℝ 1 × ColVec ℝ 1)) (x' : Matrix (Fin 2) (Fin 1) ℝ),
        Disturbed (m := .one) (u := .one) A.toMatrix B.toMatrix H.toMatrix D x ds x' → N ≤ ds.length →
        ∃ k1 k2, (init avr p.dt A B H Q R P1 xhat1 : Kalman ℝ .one .one).run ds = .ok k1 ∧
          (init avr p.dt A B H Q R P2 xhat2 : Kalman ℝ .one .one).run ds = .ok k2 ∧
          Steady.Close ε k1.system_state.toMatrix k2.system_state.toMatrix := by
  rw [sysA_eq] at hA; cases hA
  rw [sysB_eq] at hB; cases hB
  rw [sysH_eq] at hH; cases hH
  rw [sysQ_eq] at hQ; cases hQ
  rw [sysR_eq] at hR; cases hR
  obtain ⟨L, hL⟩ := settles_sim p hd hs ha
  obtain ⟨N, h⟩ := run_forget (m := .one) (u := .one) (hL P1 hP1) (hL P2 hP2) E D ε hE hD hε
  exact ⟨N, fun avr xhat1 xhat2 x hx1 hx2 ds x' hd hN =>
    h (init avr p.dt (mA p) (mB p) mH (mQ p) (mR p) P1 xhat1)
      (init avr p.dt (mA p) (mB p) mH (mQ p) (mR p) P2 xhat2) rfl rfl rfl rfl rfl rfl
      ⟨rfl, rfl, rfl, rfl, rfl, rfl⟩ x hx1 hx2 ds x' hd hN⟩

/-- The numbers of the example program, and the covariances zero and one to start with. -/
example : 0 < (⟨1, 10, 1 / 5⟩ : Params ℝ).dt ∧ 0 < (⟨1, 10, 1 / 5⟩ : Params ℝ).measnoise ∧
    0 < (⟨1, 10, 1 / 5⟩ : Params ℝ).accelnoise ∧ (Mat.mk22 (1 : ℝ) 0 0 1).toMatrix.PosSemidef ∧
    (Mat.mk22 (0 : ℝ) 0 0 0).toMatrix.PosSemidef := by
  refine ⟨by norm_num, by norm_num, by norm_num, by rw [one22]; exact .one, ?_⟩
  have : (Mat.mk22 (0 : ℝ) 0 0 0).toMatrix = 0 := by
    ext i j; fin_cases i <;> fin_cases j <;> rfl
  rw [this]; exact .zero

end
end Verif
