import Verif.Lemmas.RunLimit
import Verif.Lemmas.KalmanRobust
import Verif.Props.KalmanRobust

/-
C149: every finite run is computed to every accuracy.
-/

namespace Verif
open Kalman Matrix

variable {m u : Dim}

/-- C149: for every exact run of an estimator with non-negative covariances and every tolerance `ε` there is an accuracy `ω` of the
arithmetic, of the parameters, of the clock and of the data from which on the run succeeds and covariance, gain, estimate and time
are within `ε` of the exact ones, for one measurement and for two. -/
theorem C149_finite_run (k0 : Kalman ℝ m u) (hP : k0.P.toMatrix.PosSemidef) (hQ : k0.Q.toMatrix.PosSemidef)
    (hR : k0.R.toMatrix.PosDef) (ds0 : List (ColVec ℝ u.val × ColVec ℝ m.val)) (ε : ℝ) (hε : 0 < ε) :
    ∃ k0', k0.run ds0 = .ok k0' ∧ ∃ ω : ℝ, 0 < ω ∧ ∀ ω', 0 < ω' → ω' ≤ ω → ∀ (T : Type) [CNum T] (val : T → ℝ)
      (k : Kalman T m u), Accurate T val ω' → k.Near val ω' k0 → |val k.t - k0.t| ≤ ω' → |val k.dt - k0.dt| ≤ ω' →
      ∀ ds, List.Forall₂ (fun d d0 => d.1.Near val ω' d0.1.toMatrix ∧ d.2.Near val ω' d0.2.toMatrix) ds ds0 →
      ∃ k', k.run ds = .ok k' ∧
        k'.estimation_error_covariance.Near val ε k0'.estimation_error_covariance.toMatrix ∧
        k'.system_state.Near val ε k0'.system_state.toMatrix ∧ |val k'.time - k0'.time| ≤ ε ∧
        (ds0 ≠ [] → ∃ g g0, k'.kalman_gain = .ok g ∧ k0'.kalman_gain = .ok g0 ∧ g.Near val ε g0.toMatrix) := by
  obtain ⟨k0', hr, -⟩ := run_ricc k0 ds0 hP hQ hR
  obtain ⟨ω, h0, h⟩ := Trial.limit
    (fun k => k.P.toMatrix.PosSemidef ∧ k.Q.toMatrix.PosSemidef ∧ k.R.toMatrix.PosDef)
    (fun k hk => by
      cases m
      · exact KF.innov_ne hk.1 hk.2.1 hk.2.2
      · trivial)
    (fun k v z k' hk e => by
      obtain ⟨k1, G, e1, s, -, e2, -⟩ := update_ricc k v z hk.1 hk.2.1 hk.2.2
      rw [e1] at e
      cases e
      rw [e2, s.Q, s.R]
      exact ⟨KF.ricc_psd hk.1 hk.2.1 hk.2.2, hk.2⟩)
    ⟨hP, hQ, hR⟩ hr hε
  refine ⟨k0', hr, ω, h0, fun ω' h1 h2 T _ val k hacc hk ht hdt ds hds => ?_⟩
  obtain ⟨k', e, n1, n2, n3, n4⟩ := h ⟨T, _, val, ω', h1, hacc, k, hk, ht, hdt, ds, hds⟩ h2
  refine ⟨k', e, n1, n2, n3, fun hne => ?_⟩
  obtain ⟨g, g0, e1, e2, n⟩ := n4 hne
  exact ⟨g, g0, by rw [kalman_gain, e1], by rw [kalman_gain, e2], n⟩

/-- C149: with two measurements whatever the covariances are, also those without a meaning, as long as the exact run succeeds. -/
theorem C149_two (k0 k0' : Kalman ℝ .two u) (ds0 : List (ColVec ℝ u.val × ColVec ℝ 2)) (hr : k0.run ds0 = .ok k0')
    (ε : ℝ) (hε : 0 < ε) :
    ∃ ω : ℝ, 0 < ω ∧ ∀ ω', 0 < ω' → ω' ≤ ω → ∀ (T : Type) [CNum T] (val : T → ℝ)
      (k : Kalman T .two u), Accurate T val ω' → k.Near val ω' k0 → |val k.t - k0.t| ≤ ω' → |val k.dt - k0.dt| ≤ ω' →
      ∀ ds, List.Forall₂ (fun d d0 => d.1.Near val ω' d0.1.toMatrix ∧ d.2.Near val ω' d0.2.toMatrix) ds ds0 →
      ∃ k', k.run ds = .ok k' ∧
        k'.estimation_error_covariance.Near val ε k0'.estimation_error_covariance.toMatrix ∧
        k'.system_state.Near val ε k0'.system_state.toMatrix ∧ |val k'.time - k0'.time| ≤ ε ∧
        (ds0 ≠ [] → ∃ g g0, k'.kalman_gain = .ok g ∧ k0'.kalman_gain = .ok g0 ∧ g.Near val ε g0.toMatrix) := by
  obtain ⟨ω, h0, h⟩ := Trial.limit (m := .two) (fun _ => True) (fun _ _ => trivial) (fun _ _ _ _ _ _ => trivial) trivial hr hε
  refine ⟨ω, h0, fun ω' h1 h2 T _ val k hacc hk ht hdt ds hds => ?_⟩
  obtain ⟨k', e, n1, n2, n3, n4⟩ := h ⟨T, _, val, ω', h1, hacc, k, hk, ht, hdt, ds, hds⟩ h2
  refine ⟨k', e, n1, n2, n3, fun hne => ?_⟩
  obtain ⟨g, g0, e1, e2, n⟩ := n4 hne
  exact ⟨g, g0, by rw [kalman_gain, e1], by rw [kalman_gain, e2], n⟩

/-- C149: in every binary floating point format with enough digits and exponents. -/
theorem C149_float (k0 : Kalman ℝ m u) (hP : k0.P.toMatrix.PosSemidef) (hQ : k0.Q.toMatrix.PosSemidef)
    (hR : k0.R.toMatrix.PosDef) (ds0 : List (ColVec ℝ u.val × ColVec ℝ m.val)) (ε : ℝ) (hε : 0 < ε) :
    ∃ k0', k0.run ds0 = .ok k0' ∧ ∃ n : ℕ, ∀ f : Ieee.Format, n ≤ f.p → f.q ≤ -n → n ≤ f.top → ∀ k : Kalman (Flt f) m u,
      k.Near (fun x => (x.val : ℝ)) (1 / 2 ^ n) k0 → |(k.t.val : ℝ) - k0.t| ≤ 1 / 2 ^ n → |(k.dt.val : ℝ) - k0.dt| ≤ 1 / 2 ^ n →
      ∀ ds, List.Forall₂ (fun d d0 => d.1.Near (fun x => (x.val : ℝ)) (1 / 2 ^ n) d0.1.toMatrix ∧
        d.2.Near (fun x => (x.val : ℝ)) (1 / 2 ^ n) d0.2.toMatrix) ds ds0 →
      ∃ k', k.run ds = .ok k' ∧
        k'.estimation_error_covariance.Near (fun x => (x.val : ℝ)) ε k0'.estimation_error_covariance.toMatrix ∧
        k'.system_state.Near (fun x => (x.val : ℝ)) ε k0'.system_state.toMatrix ∧ |(k'.time.val : ℝ) - k0'.time| ≤ ε ∧
        (ds0 ≠ [] → ∃ g g0, k'.kalman_gain = .ok g ∧ k0'.kalman_gain = .ok g0 ∧
          g.Near (fun x => (x.val : ℝ)) ε g0.toMatrix) := by
  obtain ⟨k0', hr, ω, h0, h⟩ := C149_finite_run k0 hP hQ hR ds0 ε hε
  obtain ⟨n, hn⟩ := exists_pow_lt_of_lt_one h0 (show (1 / 2 : ℝ) < 1 by norm_num)
  rw [div_pow, one_pow] at hn
  exact ⟨k0', hr, n, fun f hp hq ht k hk htk hdt ds hds =>
    h _ (by positivity) hn.le (Flt f) _ k (Flt.accurate_bits hp hq ht) hk htk hdt ds hds⟩

/-- The hypotheses of `C149_finite_run` and `C149_float` hold for a system with two integrators. -/
example : exK.P.toMatrix.PosSemidef ∧ exK.Q.toMatrix.PosSemidef ∧ exK.R.toMatrix.PosDef := exK_psd

/-- The exact run of `C149_two` exists. -/
example : ∃ k', exK2.run [(⟨#v[0]⟩, ⟨#v[1, 2]⟩)] = .ok k' := by
  obtain ⟨k', h, -⟩ := run_ricc exK2 [(⟨#v[0]⟩, ⟨#v[1, 2]⟩)] (by rw [show exK2.P = Mat.mk22 1 0 0 1 from rfl, one22]; exact .one)
    (by rw [show exK2.Q = Mat.mk22 0 0 0 0 from rfl, Mat.toMatrix_mk22]
        rw [show !![(0 : ℝ), 0; 0, 0] = 0 by ext i j; fin_cases i <;> fin_cases j <;> rfl]; exact .zero)
    (by rw [show exK2.R = Mat.mk22 1 0 0 1 from rfl, one22]; exact .one)
  exact ⟨k', h⟩

/-! ### Without measurement noise -/

/-- A constant state whose first component is measured without noise, known up to the variance `p`. -/
noncomputable def certain (p : ℝ) : Kalman ℝ .one .one :=
  init false 1 (Mat.mk22 1 0 0 1) ⟨#v[0, 0]⟩ ⟨#v[1, 0]⟩ (Mat.mk22 0 0 0 0) ⟨#v[0]⟩ (Mat.mk22 p 0 0 0) ⟨#v[0, 0]⟩

/-- C149: measurement noise is needed: without it the smallest change of the covariance may decide between an estimate that
ignores the measurement and one that adopts it. -/
theorem C149_needs_noise : (certain 0).P.toMatrix.PosSemidef ∧ (certain 0).Q.toMatrix.PosSemidef ∧
    (certain 0).R.toMatrix.PosSemidef ∧ ∀ ω : ℝ, 0 < ω → (certain ω).Near id ω (certain 0) ∧
      ∃ k0' k', (certain 0).run [(⟨#v[0]⟩, ⟨#v[1]⟩)] = .ok k0' ∧ (certain ω).run [(⟨#v[0]⟩, ⟨#v[1]⟩)] = .ok k' ∧
        k0'.system_state.get 0 0 = 0 ∧ k'.system_state.get 0 0 = 1 := by
  have step (p : ℝ) : ∃ k', (certain p).run [(⟨#v[0]⟩, ⟨#v[1]⟩)] = .ok k' ∧ k'.system_state.get 0 0 = p * p⁻¹ := by
    have e : (certain p).Pm = !![p, 0; 0, 0] := by
      unfold Pm
      show (Mat.mk22 (1 : ℝ) 0 0 1).toMatrix * (Mat.mk22 p 0 0 0).toMatrix * (Mat.mk22 (1 : ℝ) 0 0 1).toMatrixᵀ +
        (Mat.mk22 (0 : ℝ) 0 0 0).toMatrix = _
      rw [one22, Mat.toMatrix_mk22, Mat.toMatrix_mk22]
      ext i j
      fin_cases i <;> fin_cases j <;> simp
    obtain ⟨k', G, h, -, eG, ex, -⟩ := update_symm (certain p) ⟨#v[0]⟩ ⟨#v[1]⟩ (by
      rw [e]; ext i j; fin_cases i <;> fin_cases j <;> rfl) (by ext i j; rw [Subsingleton.elim i j]; rfl) (.inl rfl)
    refine ⟨k', run_cons.2 ⟨k', h, rfl⟩, ?_⟩
    have hH : (certain p).H.toMatrix = !![1, 0] := by ext i j; fin_cases i; fin_cases j <;> rfl
    have hR : (certain p).R.toMatrix = 0 := by ext i j; fin_cases i; fin_cases j; rfl
    have hB : (certain p).B.toMatrix = 0 := by ext i j; fin_cases j; fin_cases i <;> rfl
    have hx : (certain p).xhat.toMatrix = 0 := by ext i j; fin_cases j; fin_cases i <;> rfl
    have hz : (⟨#v[1]⟩ : ColVec ℝ 1).toMatrix = 1 := by ext i j; fin_cases i; fin_cases j; rfl
    have hm : (certain p).xm ⟨#v[0]⟩ = 0 := by
      unfold xm
      rw [hx, hB, Matrix.mul_zero, Matrix.zero_mul, add_zero]
    have eS : (!![(1 : ℝ), 0] * !![p, 0; 0, 0] * !![(1 : ℝ), 0]ᵀ + (0 : Matrix (Fin 1) (Fin 1) ℝ)) 0 0 = p := by
      rw [Matrix.add_apply, Matrix.mul_apply, Fin.sum_univ_two]
      simp [Matrix.transpose_apply]
    rw [hm, Matrix.mul_zero, sub_zero, zero_add, hz, Matrix.mul_one, eG, e, hH, hR, KF.gain_scalar, eS] at ex
    have : k'.system_state.get 0 0 = k'.xhat.toMatrix 0 0 := rfl
    rw [this, ex, Matrix.smul_apply, Matrix.mul_apply, Fin.sum_univ_two]
    simp [Matrix.transpose_apply, mul_comm]
  have zero (p : ℝ) (h : p = 0) : (Mat.mk22 p 0 0 0).toMatrix.PosSemidef := by
    subst h
    rw [Mat.toMatrix_mk22, show !![(0 : ℝ), 0; 0, 0] = 0 by ext i j; fin_cases i <;> fin_cases j <;> rfl]
    exact .zero
  refine ⟨zero 0 rfl, zero 0 rfl, ?_, fun ω hω => ⟨?_, ?_⟩⟩
  · rw [show (certain 0).R.toMatrix = 0 by ext i j; fin_cases i; fin_cases j; rfl]
    exact .zero
  · have same {N M : Nat} (A : Mat ℝ N M) : A.Near id ω A.toMatrix := fun i j => by
      show |A.get i j - A.get i j| ≤ ω
      rw [sub_self, abs_zero]; exact hω.le
    refine ⟨same _, same _, same _, same _, same _, fun i j => ?_, same _⟩
    show |(Mat.mk22 ω 0 0 0).toMatrix i j - (Mat.mk22 (0 : ℝ) 0 0 0).toMatrix i j| ≤ ω
    rw [Mat.toMatrix_mk22, Mat.toMatrix_mk22]
    fin_cases i <;> fin_cases j <;> simp [hω.le, abs_of_pos hω]
  · obtain ⟨k0', h1, e1⟩ := step 0
    obtain ⟨k', h2, e2⟩ := step ω
    exact ⟨k0', k', h1, h2, by rw [e1, zero_mul], by rw [e2, mul_inv_cancel₀ hω.ne']⟩

end Verif
