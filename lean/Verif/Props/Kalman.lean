import Verif.Lemmas.KalmanRun
import Verif.Lemmas.LeastSquares

/-
Properties C10-C23: include/dsp/kalman.hpp and time/avr-kalman-time.cpp.

`Kalman T m u` is the estimator with 2 states, `m` measurements and `u` controls (`Dim.one` or
`Dim.two`).
-/

namespace Verif
open Matrix Kalman
variable {T : Type} {m u : Dim}

/-! ### A concrete estimator for the examples: position and velocity, position measured -/

/-- A position/velocity estimator, one measurement. -/
noncomputable def exK : Kalman ℝ .one .one :=
  init false 1 (Mat.mk22 1 1 0 1) ⟨#v[1/2, 1]⟩ ⟨#v[1, 0]⟩ (Mat.mk22 1 0 0 1) ⟨#v[1]⟩ (Mat.mk22 1 0 0 1)
    ⟨#v[0, 0]⟩

/-- A constant-state estimator, two measurements. -/
noncomputable def exK2 : Kalman ℝ .two .one :=
  init false 1 (Mat.mk22 1 0 0 1) ⟨#v[0, 0]⟩ (Mat.mk22 1 1 0 1) (Mat.mk22 0 0 0 0) (Mat.mk22 1 0 0 1)
    (Mat.mk22 1 0 0 1) ⟨#v[0, 0]⟩

theorem one22 : (Mat.mk22 (1 : ℝ) 0 0 1).toMatrix = 1 := by
  rw [Mat.toMatrix_mk22, Matrix.one_fin_two]

theorem exK_psd : exK.P.toMatrix.PosSemidef ∧ exK.Q.toMatrix.PosSemidef ∧ exK.R.toMatrix.PosDef := by
  refine ⟨?_, ?_, ?_⟩
  · show (Mat.mk22 (1 : ℝ) 0 0 1).toMatrix.PosSemidef
    rw [one22]; exact Matrix.PosSemidef.one
  · show (Mat.mk22 (1 : ℝ) 0 0 1).toMatrix.PosSemidef
    rw [one22]; exact Matrix.PosSemidef.one
  · have : exK.R.toMatrix = 1 := by
      ext i j
      have hi : i = 0 := Subsingleton.elim _ _
      have hj : j = 0 := Subsingleton.elim _ _
      subst hi; subst hj
      rfl
    rw [this]; exact Matrix.PosDef.one

theorem exK2_static : exK2.A.toMatrix = 1 ∧ exK2.B.toMatrix = 0 ∧ exK2.Q.toMatrix = 0 ∧
    exK2.P.toMatrix.PosDef ∧ exK2.R.toMatrix.PosDef := by
  refine ⟨one22, ?_, ?_, ?_, ?_⟩
  · ext i j
    have hj : j = 0 := Subsingleton.elim _ _
    subst hj
    fin_cases i <;> rfl
  · show (Mat.mk22 (0 : ℝ) 0 0 0).toMatrix = 0
    rw [Mat.toMatrix_mk22]
    ext i j
    fin_cases i <;> fin_cases j <;> rfl
  · show (Mat.mk22 (1 : ℝ) 0 0 1).toMatrix.PosDef
    rw [one22]; exact Matrix.PosDef.one
  · show (Mat.mk22 (1 : ℝ) 0 0 1).toMatrix.PosDef
    rw [one22]; exact Matrix.PosDef.one

section field
variable [Field T] [CNum T] [ExactField T]

/-! ## C10 Update implements the textbook equations, one measurement -/

/-- C10: with one measurement and a non-zero innovation variance, the observers after `update` return
exactly the textbook values. -/
theorem C10_textbook (k : Kalman T .one u) (v : ColVec T u.val) (z : ColVec T 1)
    (h : (k.H.toMatrix * (k.A.toMatrix * k.P.toMatrix * k.A.toMatrixᵀ + k.Q.toMatrix) * k.H.toMatrixᵀ
      + k.R.toMatrix) 0 0 ≠ 0) :
    ∃ k' K, k.update v z = .ok k' ∧ k'.kalman_gain = .ok K ∧
      Textbook k.A.toMatrix k.B.toMatrix k.H.toMatrix k.Q.toMatrix k.R.toMatrix
        k.system_state.toMatrix k.estimation_error_covariance.toMatrix v.toMatrix z.toMatrix
        k'.system_state.toMatrix K.toMatrix k'.estimation_error_covariance.toMatrix ∧
      IsUnit (k.H.toMatrix * (k.A.toMatrix * k.P.toMatrix * k.A.toMatrixᵀ + k.Q.toMatrix) *
        k.H.toMatrixᵀ + k.R.toMatrix) := by
  obtain ⟨P, hP, eP⟩ := predictCov_mat k.A k.P k.Q
  obtain ⟨G, hG, eG⟩ := gain_one P k.H k.R
  obtain ⟨k', h', hK, hx, hP', -⟩ := update_of_gain k v z G P hP hG
  refine ⟨k', G, h', by unfold kalman_gain; rw [hK], ⟨?_, hx, hP'⟩, ?_⟩
  · rw [eG, eP]; rfl
  · rw [Matrix.isUnit_iff_isUnit_det, Matrix.det_unique]
    exact isUnit_iff_ne_zero.2 h

example : (exK.H.toMatrix * (exK.A.toMatrix * exK.P.toMatrix * exK.A.toMatrixᵀ + exK.Q.toMatrix) *
    exK.H.toMatrixᵀ + exK.R.toMatrix) 0 0 ≠ 0 := by
  obtain ⟨hP, hQ, hR⟩ := exK_psd
  have := KF.innov_posDef (H := exK.H.toMatrix) ((KF.psd_congr hP exK.A.toMatrix).add hQ) hR
  exact (this.diag_pos (i := 0)).ne'

/-- C10: the constructor stores every argument where `update` uses it: the first update of a new
estimator follows the textbook equations for the constructor's arguments. -/
theorem C10_from_constructor (onAvr : Bool) (dt : T) (A : Mat T 2 2) (B : Mat T 2 u.val) (H : Mat T 1 2)
    (Q : Mat T 2 2) (R : Mat T 1 1) (P : Mat T 2 2) (x : ColVec T 2) (v : ColVec T u.val) (z : ColVec T 1)
    (h : (H.toMatrix * (A.toMatrix * P.toMatrix * A.toMatrixᵀ + Q.toMatrix) * H.toMatrixᵀ
      + R.toMatrix) 0 0 ≠ 0) :
    ∃ k' K, (init (m := .one) onAvr dt A B H Q R P x).update v z = .ok k' ∧ k'.kalman_gain = .ok K ∧
      k'.time = dt ∧
      Textbook A.toMatrix B.toMatrix H.toMatrix Q.toMatrix R.toMatrix x.toMatrix P.toMatrix
        v.toMatrix z.toMatrix k'.system_state.toMatrix K.toMatrix
        k'.estimation_error_covariance.toMatrix := by
  obtain ⟨k', K, h1, h2, h3, -⟩ := C10_textbook (init (m := .one) onAvr dt A B H Q R P x) v z h
  refine ⟨k', K, h1, h2, ?_, h3⟩
  unfold update at h1
  simp only [bind_eq_ok] at h1
  obtain ⟨t, ht, _, _, _, _, _, _, _, _, _, _, h1⟩ := h1
  cases h1
  have e : CNum.add (CNum.zero : T) dt = .ok t := ht
  rw [ExactRing.zero_eq, ExactRing.add_eq, zero_add] at e
  exact (Except.ok.inj e).symm

/-! ## C11 Update implements the textbook equations, two measurements -/

/-- C11: with two measurements the same, provided the innovation covariance is symmetric and
invertible. -/
theorem C11_textbook (k : Kalman T .two u) (v : ColVec T u.val) (z : ColVec T 2)
    (hs : k.Smᵀ = k.Sm) (hd : k.Sm.det ≠ 0) :
    ∃ k' K, k.update v z = .ok k' ∧ k'.kalman_gain = .ok K ∧
      Textbook k.A.toMatrix k.B.toMatrix k.H.toMatrix k.Q.toMatrix k.R.toMatrix
        k.system_state.toMatrix k.estimation_error_covariance.toMatrix v.toMatrix z.toMatrix
        k'.system_state.toMatrix K.toMatrix k'.estimation_error_covariance.toMatrix := by
  obtain ⟨P, hP, eP⟩ := predictCov_mat k.A k.P k.Q
  have hS : k.H.toMatrix * P.toMatrix * k.H.toMatrixᵀ + k.R.toMatrix = k.Sm := by rw [eP]; rfl
  obtain ⟨G, hG, eG⟩ := gain_symm .two P k.H k.R (by rw [hS]; exact hs) (.inr (by rw [hS]; exact hd))
  obtain ⟨k', h', hK, hx, hP', -⟩ := update_of_gain k v z G P hP hG
  refine ⟨k', G, h', by unfold kalman_gain; rw [hK], ⟨?_, hx, hP'⟩⟩
  rw [eG, eP]; rfl

/-- C11: along every run that starts with symmetric `P`, `Q`, `R`, every completed `update` follows
the textbook equations and had an invertible innovation covariance. -/
theorem C11_textbook_runs (k k1 k2 : Kalman T .two u) (ds) (v : ColVec T u.val) (z : ColVec T 2)
    (hP : k.P.toMatrixᵀ = k.P.toMatrix) (hQ : k.Q.toMatrixᵀ = k.Q.toMatrix)
    (hR : k.R.toMatrixᵀ = k.R.toMatrix) (hr : k.run ds = .ok k1) (hu : k1.update v z = .ok k2) :
    k1.Sm.det ≠ 0 ∧ ∃ K, k2.kalman_gain = .ok K ∧
      Textbook k.A.toMatrix k.B.toMatrix k.H.toMatrix k.Q.toMatrix k.R.toMatrix
        k1.system_state.toMatrix k1.estimation_error_covariance.toMatrix v.toMatrix z.toMatrix
        k2.system_state.toMatrix K.toMatrix k2.estimation_error_covariance.toMatrix := by
  have hs := run_same hr
  have hP1 := run_cov_symm hr hP hQ hR
  have hQ1 : k1.Q.toMatrixᵀ = k1.Q.toMatrix := by rw [hs.Q]; exact hQ
  have hR1 : k1.R.toMatrixᵀ = k1.R.toMatrix := by rw [hs.R]; exact hR
  have hd := det_of_update hu
  obtain ⟨k', K, h', hK, ht⟩ := C11_textbook k1 v z
    (by rw [Sm_eq]; exact KF.innov_symm (Pm_symm hP1 hQ1) hR1) hd
  obtain rfl : k2 = k' := by rw [hu] at h'; exact Except.ok.inj h'
  refine ⟨hd, K, hK, ?_⟩
  rw [hs.A, hs.B, hs.H, hs.Q, hs.R] at ht
  exact ht

/-- C11: without symmetry the gain differs from the textbook (a consequence of C08): there are
parameters with invertible innovation covariance for which it is not `P⁻Hᵀ(HP⁻Hᵀ+R)⁻¹`. -/
theorem C11_asymmetric_fails : ∃ (k k' : Kalman ℚ .two .one) (v : ColVec ℚ 1) (z : ColVec ℚ 2)
    (K : Mat ℚ 2 2), k.Sm.det ≠ 0 ∧ k.update v z = .ok k' ∧ k'.kalman_gain = .ok K ∧
      K.toMatrix ≠ k.Pm * k.H.toMatrixᵀ * (k.Sm)⁻¹ := by
  let I : Mat ℚ 2 2 := Mat.mk22 1 0 0 1
  let k : Kalman ℚ .two .one :=
    { A := I, B := ⟨#v[0, 0]⟩, H := I, Q := Mat.mk22 0 0 0 0, R := Mat.mk22 0 1 0 0, K := none,
      P := I, xhat := ⟨#v[0, 0]⟩, t := 0, dt := 1 }
  have hPm : k.Pm = 1 := by
    simp [Pm, k, I, Mat.toMatrix_mk22, Mat.transpose22, Matrix.one_fin_two]
  have hS : k.Sm = !![1, 1; 0, 1] := by
    rw [Sm, hPm]
    simp [k, I, Mat.toMatrix_mk22, Mat.transpose22]
  obtain ⟨P, hP, eP⟩ := predictCov_mat k.A k.P k.Q
  have eP' : P.toMatrix = k.Pm := eP
  have hd : k.Sm.det ≠ 0 := by rw [hS, Matrix.det_fin_two_of]; norm_num
  have hS' : k.H.toMatrix * P.toMatrix * k.H.toMatrixᵀ + k.R.toMatrix = k.Sm := by rw [eP']; rfl
  obtain ⟨G, hG, eG⟩ := (gain_two P k.H k.R).1 (by rw [hS']; exact hd)
  obtain ⟨k', h', hK, -⟩ := update_of_gain k ⟨#v[0]⟩ ⟨#v[0, 0]⟩ G P hP hG
  refine ⟨k, k', ⟨#v[0]⟩, ⟨#v[0, 0]⟩, G, hd, h', by unfold kalman_gain; rw [hK], ?_⟩
  have hH : k.H.toMatrix = 1 := by
    rw [Matrix.one_fin_two]; exact Mat.toMatrix_mk22 1 0 0 1
  have hi : k.Sm⁻¹ = !![1, -1; 0, 1] := by
    apply Matrix.inv_eq_left_inv
    rw [hS, Matrix.mul_fin_two, Matrix.one_fin_two]
    norm_num
  have hS2 : (1 : Matrix (Fin 2) (Fin 2) ℚ) * 1 * 1ᵀ + k.R.toMatrix = k.Sm := by
    rw [← hS', eP', hPm, hH]
  rw [eG, hS', eP', hPm, hH, hi, Matrix.transpose_one, Matrix.one_mul, Matrix.one_mul,
    Mat.transpose22]
  intro hc
  have := congrFun (congrFun hc 0) 1
  simp at this

example : exK2.P.toMatrixᵀ = exK2.P.toMatrix ∧ exK2.Q.toMatrixᵀ = exK2.Q.toMatrix ∧
    exK2.R.toMatrixᵀ = exK2.R.toMatrix ∧ exK2.Smᵀ = exK2.Sm ∧ exK2.Sm.det ≠ 0 := by
  obtain ⟨hA, -, hQ, hP, hR⟩ := exK2_static
  have hPs := KF.symm_of_psd hP.posSemidef
  have hRs := KF.symm_of_psd hR.posSemidef
  have hQs : exK2.Q.toMatrixᵀ = exK2.Q.toMatrix := by rw [hQ, Matrix.transpose_zero]
  refine ⟨hPs, hQs, hRs, KF.innov_symm (Pm_symm hPs hQs) hRs, ?_⟩
  have hPm : exK2.Pm.PosSemidef := (KF.psd_congr hP.posSemidef exK2.A.toMatrix).add
    (by rw [hQ]; exact Matrix.PosSemidef.zero)
  exact isUnit_iff_ne_zero.1 (KF.posDef_det (KF.innov_posDef (H := exK2.H.toMatrix) hPm hR))

/-! ## C12 Elapsed time -/

/-- C12: after `n` updates the time has advanced by `n*dt`, whatever the inputs, and the model
parameters are as before. -/
theorem C12_time (k k' : Kalman T m u) (ds) (h : k.run ds = .ok k') :
    k'.time = k.time + ds.length * k.dt ∧ k'.dt = k.dt ∧
    k'.A = k.A ∧ k'.B = k.B ∧ k'.H = k.H ∧ k'.Q = k.Q ∧ k'.R = k.R := by
  have hs := run_same h
  refine ⟨?_, hs.dt, hs.A, hs.B, hs.H, hs.Q, hs.R⟩
  clear hs
  induction ds generalizing k with
  | nil => cases h; simp
  | cons d ds ih =>
    obtain ⟨k1, h1, h2⟩ := run_cons.1 h
    obtain ⟨P, G, -, -, -, -, -, -, ht⟩ := update_mat h1
    have hs := update_same h1
    have ih := ih k1 h2
    unfold time at ih ⊢
    rw [ih, ht, hs.dt, List.length_cons]
    push_cast
    ring

/-- C12: from a fresh estimator: `n*dt`. -/
theorem C12_time_from_start (avr : Bool) (dt : T) (A : Mat T 2 2) (B : Mat T 2 u.val)
    (H : Mat T m.val 2) (Q : Mat T 2 2) (R : Mat T m.val m.val) (P : Mat T 2 2) (x : ColVec T 2)
    (k' : Kalman T m u) (ds) (h : (init avr dt A B H Q R P x : Kalman T m u).run ds = .ok k') :
    (init avr dt A B H Q R P x : Kalman T m u).time = 0 ∧ k'.time = ds.length * dt := by
  have h0 : (init avr dt A B H Q R P x : Kalman T m u).time = 0 := ExactRing.zero_eq
  refine ⟨h0, ?_⟩
  rw [(C12_time _ _ _ h).1, h0, zero_add]
  rfl

end field

/-- `n`-fold addition of `d`, with the numeric type's own addition. -/
def repeatAdd [CNum T] : Nat → T → T → Res T
  | 0, t, _ => .ok t
  | n + 1, t, d => do repeatAdd n (← CNum.add t d) d

/-- C12 for every numeric type, floating and fixed point included: `time()` is the `n`-fold sum. -/
theorem C12_time_any_type [CNum T] (k k' : Kalman T m u) (ds) (h : k.run ds = .ok k') :
    repeatAdd ds.length k.time k.dt = .ok k'.time := by
  induction ds generalizing k with
  | nil => cases h; rfl
  | cons d ds ih =>
    obtain ⟨k1, h1, h2⟩ := run_cons.1 h
    obtain ⟨t, x, P, K, x', P', ht, -, -, -, -, -, rfl⟩ := update_inv h1
    have := ih _ h2
    show (do repeatAdd ds.length (← CNum.add k.t k.dt) k.dt) = _
    rw [ht, bind_ok]
    exact this

/-! ## C13 Gain and covariance do not depend on data -/

/-- C13: two estimators with the same model and initial covariance, but different initial states,
controls and measurements, report identical gains, covariances and times after equally many updates.
Any numeric type. -/
theorem C13_data_independent [CNum T] (k₁ k₂ k₁' k₂' : Kalman T m u) (ds₁ ds₂)
    (hA : k₁.A = k₂.A) (hH : k₁.H = k₂.H) (hQ : k₁.Q = k₂.Q) (hR : k₁.R = k₂.R) (hP : k₁.P = k₂.P)
    (hK : k₁.K = k₂.K) (ht : k₁.t = k₂.t) (hdt : k₁.dt = k₂.dt)
    (hlen : ds₁.length = ds₂.length)
    (h₁ : k₁.run ds₁ = .ok k₁') (h₂ : k₂.run ds₂ = .ok k₂') :
    k₁'.kalman_gain = k₂'.kalman_gain ∧
    k₁'.estimation_error_covariance = k₂'.estimation_error_covariance ∧
    k₁'.time = k₂'.time := by
  induction ds₁ generalizing k₁ k₂ ds₂ with
  | nil =>
    obtain rfl : ds₂ = [] := by
      cases ds₂ with
      | nil => rfl
      | cons => simp at hlen
    cases h₁; cases h₂
    exact ⟨by unfold kalman_gain; rw [hK], hP, ht⟩
  | cons d ds₁ ih =>
    cases ds₂ with
    | nil => simp at hlen
    | cons e ds₂ =>
      obtain ⟨k1, h1, h1'⟩ := run_cons.1 h₁
      obtain ⟨k2, h2, h2'⟩ := run_cons.1 h₂
      obtain ⟨t, x, P, K, x', P', at1, -, at2, at3, -, at4, rfl⟩ := update_inv h1
      obtain ⟨s, y, S, L, y', S', bt1, -, bt2, bt3, -, bt4, rfl⟩ := update_inv h2
      rw [ht, hdt, bt1] at at1
      cases at1
      rw [hA, hP, hQ, bt2] at at2
      cases at2
      rw [hH, hR, bt3] at at3
      cases at3
      rw [hH, bt4] at at4
      cases at4
      refine ih { k₁ with K := some K, P := P', xhat := x', t := t }
        { k₂ with K := some K, P := P', xhat := y', t := t } ds₂ hA hH hQ hR rfl rfl rfl hdt
        (by simpa using hlen) h1' h2'

/-- C13: whether a run is defined does not depend on the data either (exact arithmetic). -/
theorem C13_definedness [Field T] [CNum T] [ExactField T] (k₁ k₂ k₁' : Kalman T m u) (ds₁ ds₂)
    (hA : k₁.A = k₂.A) (hH : k₁.H = k₂.H) (hQ : k₁.Q = k₂.Q) (hR : k₁.R = k₂.R) (hP : k₁.P = k₂.P)
    (hlen : ds₁.length = ds₂.length) (h₁ : k₁.run ds₁ = .ok k₁') :
    ∃ k₂', k₂.run ds₂ = .ok k₂' := by
  induction ds₁ generalizing k₁ k₂ ds₂ with
  | nil =>
    obtain rfl : ds₂ = [] := by
      cases ds₂ with
      | nil => rfl
      | cons => simp at hlen
    exact ⟨k₂, rfl⟩
  | cons d ds₁ ih =>
    cases ds₂ with
    | nil => simp at hlen
    | cons e ds₂ =>
      obtain ⟨k1, h1, h1'⟩ := run_cons.1 h₁
      obtain ⟨t, x, P, K, x', P', -, -, at2, at3, -, at4, rfl⟩ := update_inv h1
      obtain ⟨y, hy, -⟩ := predictState_mat k₂.A k₂.B k₂.xhat e.1
      obtain ⟨y', hy', -⟩ := correctState_mat m y K k₂.H e.2
      rw [hA, hP, hQ] at at2
      rw [hH, hR] at at3
      rw [hH] at at4
      have h2 := update_intro (k := k₂) (v := e.1) (z := e.2) (ExactRing.add_eq k₂.t k₂.dt)
        hy at2 at3 hy' at4
      obtain ⟨k₂', hr⟩ := ih { k₁ with t := t, xhat := x', P := P', K := some K } { k₂ with t := k₂.t + k₂.dt, xhat := y', P := P', K := some K } ds₂
        hA hH hQ hR rfl (by simpa using hlen) h1'
      exact ⟨k₂', run_cons.2 ⟨_, h2, hr⟩⟩

example : ∃ k', exK.run [(⟨#v[1]⟩, ⟨#v[2]⟩), (⟨#v[0]⟩, ⟨#v[3]⟩)] = .ok k' ∧ k'.time = 2 := by
  obtain ⟨k1, -, h1, -⟩ := update_symm exK ⟨#v[1]⟩ ⟨#v[2]⟩
    (Pm_symm (KF.symm_of_psd exK_psd.1) (KF.symm_of_psd exK_psd.2.1))
    (KF.symm_of_psd exK_psd.2.2.posSemidef) (.inl rfl)
  obtain ⟨P, hP, eP⟩ := predictCov_mat k1.A k1.P k1.Q
  obtain ⟨G, hG, eG⟩ := gain_one P k1.H k1.R
  obtain ⟨k2, h2, -⟩ := update_of_gain k1 ⟨#v[0]⟩ ⟨#v[3]⟩ G P hP hG
  have hr : exK.run [(⟨#v[1]⟩, ⟨#v[2]⟩), (⟨#v[0]⟩, ⟨#v[3]⟩)] = .ok k2 :=
    run_cons.2 ⟨k1, h1, run_cons.2 ⟨k2, h2, rfl⟩⟩
  refine ⟨k2, hr, ?_⟩
  rw [(C12_time_from_start _ _ _ _ _ _ _ _ _ _ _ hr).2]
  norm_num

/-! ## C14 Covariance stays symmetric -/

/-- C14. -/
theorem C14_symmetric [Field T] [CNum T] [ExactField T] (k k' : Kalman T m u) (ds)
    (hP : k.P.toMatrixᵀ = k.P.toMatrix) (hQ : k.Q.toMatrixᵀ = k.Q.toMatrix)
    (hR : k.R.toMatrixᵀ = k.R.toMatrix) (h : k.run ds = .ok k') :
    k'.estimation_error_covariance.toMatrixᵀ = k'.estimation_error_covariance.toMatrix :=
  run_cov_symm h hP hQ hR

/-! ## C15 Covariance stays positive semidefinite -/

/-- C15: with `P`, `Q` positive semidefinite and `R` positive definite every run is defined, and after
it the covariance is positive semidefinite, the variances are non-negative, and the next innovation
covariance is positive definite (so `inverted` never takes its zero branch and never divides by
zero). -/
theorem C15_positive_semidefinite (k : Kalman ℝ m u) (ds)
    (hP : k.P.toMatrix.PosSemidef) (hQ : k.Q.toMatrix.PosSemidef) (hR : k.R.toMatrix.PosDef) :
    ∃ k', k.run ds = .ok k' ∧ k'.estimation_error_covariance.toMatrix.PosSemidef ∧
      (∀ i, 0 ≤ k'.estimation_error_covariance.toMatrix i i) ∧
      (k.H.toMatrix * (k.A.toMatrix * k'.P.toMatrix * k.A.toMatrixᵀ + k.Q.toMatrix) * k.H.toMatrixᵀ
        + k.R.toMatrix).PosDef := by
  induction ds generalizing k with
  | nil =>
    refine ⟨k, rfl, hP, fun i => hP.diag_nonneg, ?_⟩
    exact KF.innov_posDef ((KF.psd_congr hP k.A.toMatrix).add hQ) hR
  | cons d ds ih =>
    have hPm : k.Pm.PosSemidef := (KF.psd_congr hP k.A.toMatrix).add hQ
    have hd := KF.posDef_det (KF.innov_posDef (H := k.H.toMatrix) hPm hR)
    obtain ⟨k1, G, h1, -, eG, -, eP⟩ := update_symm k d.1 d.2 (KF.symm_of_psd hPm)
      (KF.symm_of_psd hR.posSemidef) (.inr (isUnit_iff_ne_zero.1 hd))
    have hs := update_same h1
    obtain ⟨k', h', hp, hv, hi⟩ := ih k1 (by rw [eP, eG]; exact KF.post_psd hPm hR)
      (by rw [hs.Q]; exact hQ) (by rw [hs.R]; exact hR)
    rw [hs.H, hs.A, hs.Q, hs.R] at hi
    exact ⟨k', run_cons.2 ⟨k1, h1, h'⟩, hp, hv, hi⟩

example : ∃ k : Kalman ℝ .one .one, k.P.toMatrix.PosSemidef ∧ k.Q.toMatrix.PosSemidef ∧
    k.R.toMatrix.PosDef := ⟨exK, exK_psd⟩

/-! ## C16 A measurement never adds uncertainty -/

/-- C16: the corrected covariance is at most the predicted one, and the variance of the measured
quantity is at most that of the measurement noise. -/
theorem C16_never_adds_uncertainty (k : Kalman ℝ m u) (v : ColVec ℝ u.val) (z : ColVec ℝ m.val)
    (hP : k.P.toMatrix.PosSemidef) (hQ : k.Q.toMatrix.PosSemidef) (hR : k.R.toMatrix.PosDef) :
    ∃ k', k.update v z = .ok k' ∧
      (k.A.toMatrix * k.P.toMatrix * k.A.toMatrixᵀ + k.Q.toMatrix
        - k'.estimation_error_covariance.toMatrix).PosSemidef ∧
      (k.R.toMatrix - k.H.toMatrix * k'.estimation_error_covariance.toMatrix *
        k.H.toMatrixᵀ).PosSemidef := by
  have hPm : k.Pm.PosSemidef := (KF.psd_congr hP k.A.toMatrix).add hQ
  have hd := KF.posDef_det (KF.innov_posDef (H := k.H.toMatrix) hPm hR)
  obtain ⟨k1, G, h1, -, eG, -, eP⟩ := update_symm k v z (KF.symm_of_psd hPm)
    (KF.symm_of_psd hR.posSemidef) (.inr (isUnit_iff_ne_zero.1 hd))
  refine ⟨k1, h1, ?_, ?_⟩
  · show (k.Pm - k1.P.toMatrix).PosSemidef
    rw [eP, eG]
    exact KF.post_le hPm hR
  · show (k.R.toMatrix - k.H.toMatrix * k1.P.toMatrix * k.H.toMatrixᵀ).PosSemidef
    rw [eP, eG]
    exact KF.measured_le hPm hR

/-! ## C17 The gain is optimal -/

/-- C17: the error covariance that any gain `G` would give is at least the one reported, with
equality only for the computed gain; hence so for every variance and the trace. -/
theorem C17_optimal (k : Kalman ℝ m u) (v : ColVec ℝ u.val) (z : ColVec ℝ m.val)
    (hP : k.P.toMatrix.PosSemidef) (hQ : k.Q.toMatrix.PosSemidef) (hR : k.R.toMatrix.PosDef) :
    ∃ k' K, k.update v z = .ok k' ∧ k'.kalman_gain = .ok K ∧
      ∀ G : Matrix (Fin 2) (Fin m.val) ℝ, ∀ PG : Matrix (Fin 2) (Fin 2) ℝ,
        PG = (1 - G * k.H.toMatrix) *
            (k.A.toMatrix * k.P.toMatrix * k.A.toMatrixᵀ + k.Q.toMatrix) * (1 - G * k.H.toMatrix)ᵀ
          + G * k.R.toMatrix * Gᵀ →
        (PG - k'.estimation_error_covariance.toMatrix).PosSemidef ∧
        (∀ i, k'.estimation_error_covariance.toMatrix i i ≤ PG i i) ∧
        k'.estimation_error_covariance.toMatrix.trace ≤ PG.trace ∧
        (PG = k'.estimation_error_covariance.toMatrix ↔ G = K.toMatrix) := by
  have hPm : k.Pm.PosSemidef := (KF.psd_congr hP k.A.toMatrix).add hQ
  have hd := KF.posDef_det (KF.innov_posDef (H := k.H.toMatrix) hPm hR)
  obtain ⟨k1, K, h1, hK, eK, -, eP⟩ := update_symm k v z (KF.symm_of_psd hPm)
    (KF.symm_of_psd hR.posSemidef) (.inr (isUnit_iff_ne_zero.1 hd))
  refine ⟨k1, K, h1, by unfold kalman_gain; rw [hK], ?_⟩
  intro G PG hPG
  have hPG' : PG = (1 - G * k.H.toMatrix) * k.Pm * (1 - G * k.H.toMatrix)ᵀ +
    G * k.R.toMatrix * Gᵀ := hPG
  have e1 : k1.estimation_error_covariance.toMatrix =
      (1 - KF.gain k.Pm k.H.toMatrix k.R.toMatrix * k.H.toMatrix) * k.Pm := by
    rw [← eK]; exact eP
  have hopt : (PG - k1.estimation_error_covariance.toMatrix).PosSemidef := by
    rw [e1, hPG']
    exact KF.optimal hPm hR G
  refine ⟨hopt, fun i => ?_, ?_, fun h => ?_, fun h => ?_⟩
  · have := hopt.diag_nonneg (i := i)
    rw [Matrix.sub_apply] at this
    linarith
  · have := hopt.trace_nonneg
    rw [Matrix.trace_sub] at this
    linarith
  · rw [eK]
    exact KF.optimal_unique hPm hR G (by rw [← hPG', ← e1]; exact h)
  · rw [hPG', h, e1, eK]
    exact (KF.joseph_gain (KF.symm_of_psd hPm) (KF.symm_of_psd hR.posSemidef) hd).symm

section field
variable [Field T] [CNum T] [ExactField T]

/-! ## C18 Perfect model tracks exactly -/

/-- A system that starts in state `x`, is driven by the controls in the list and is measured without
error by the measurements in the list, ends in state `x'`. -/
inductive PerfectData (A : Matrix (Fin 2) (Fin 2) T) (B : Matrix (Fin 2) (Fin u.val) T)
    (H : Matrix (Fin m.val) (Fin 2) T) :
    Matrix (Fin 2) (Fin 1) T → List (ColVec T u.val × ColVec T m.val) → Matrix (Fin 2) (Fin 1) T → Prop
  | nil (x) : PerfectData A B H x [] x
  | cons (x v z ds x') : z.toMatrix = H * (A * x + B * v.toMatrix) →
      PerfectData A B H (A * x + B * v.toMatrix) ds x' → PerfectData A B H x ((v, z) :: ds) x'

/-- C18: one step of the error: `e' = (1 - K H) A e`. -/
theorem C18_error_dynamics (k k' : Kalman T m u) (v : ColVec T u.val) (z : ColVec T m.val)
    (h : k.update v z = .ok k') (x x' : Matrix (Fin 2) (Fin 1) T)
    (hx : x' = k.A.toMatrix * x + k.B.toMatrix * v.toMatrix) (hz : z.toMatrix = k.H.toMatrix * x') :
    ∃ K, k'.kalman_gain = .ok K ∧
      x' - k'.system_state.toMatrix =
        (1 - K.toMatrix * k.H.toMatrix) * k.A.toMatrix * (x - k.system_state.toMatrix) := by
  obtain ⟨P, G, -, -, -, hK, eX, -⟩ := update_mat h
  refine ⟨G, by unfold kalman_gain; rw [hK], ?_⟩
  have e : x' - k.xm v = k.A.toMatrix * (x - k.xhat.toMatrix) := by
    rw [hx, xm, Matrix.mul_sub]; abel
  have e2 : x' - k'.xhat.toMatrix = (1 - G.toMatrix * k.H.toMatrix) * (x' - k.xm v) := by
    rw [eX, hz, ← Matrix.mul_sub, Matrix.sub_mul, Matrix.one_mul, Matrix.mul_assoc]
    abel
  show x' - k'.xhat.toMatrix = _
  rw [e2, e, ← Matrix.mul_assoc]
  rfl

/-- C18: an exact initial estimate stays exact. -/
theorem C18_tracks_exactly (k k' : Kalman T m u) (ds) (x' : Matrix (Fin 2) (Fin 1) T)
    (hd : PerfectData k.A.toMatrix k.B.toMatrix k.H.toMatrix k.system_state.toMatrix ds x')
    (h : k.run ds = .ok k') : k'.system_state.toMatrix = x' := by
  induction ds generalizing k with
  | nil => cases h; cases hd; rfl
  | cons d ds ih =>
    cases hd with
    | cons _ v z _ _ hz hd =>
      obtain ⟨k1, h1, h2⟩ := run_cons.1 h
      have hs := update_same h1
      obtain ⟨K, -, e⟩ := C18_error_dynamics k k1 v z h1 k.system_state.toMatrix _ rfl hz
      rw [sub_self, Matrix.mul_zero, sub_eq_zero] at e
      rw [e, ← hs.A, ← hs.B, ← hs.H] at hd
      exact ih k1 hd h2

example : PerfectData (m := .one) (u := .one) exK.A.toMatrix exK.B.toMatrix exK.H.toMatrix
    exK.system_state.toMatrix [(⟨#v[2]⟩, ⟨#v[1]⟩)]
    (exK.A.toMatrix * exK.system_state.toMatrix + exK.B.toMatrix * (⟨#v[2]⟩ : ColVec ℝ 1).toMatrix) := by
  refine .cons _ _ _ _ _ ?_ (.nil _)
  have hB (i : Fin 2) : (exK.B.toMatrix * (⟨#v[2]⟩ : ColVec ℝ 1).toMatrix) i 0 =
      exK.B.get i 0 * 2 := by rw [Matrix.mul_apply, Fin.sum_univ_one]; rfl
  have hx : exK.system_state.toMatrix = 0 := by
    ext i j
    have hj : j = 0 := Subsingleton.elim _ _
    subst hj
    fin_cases i <;> rfl
  rw [hx, Matrix.mul_zero, zero_add]
  ext i j
  have hi : i = 0 := Subsingleton.elim _ _
  have hj : j = 0 := Subsingleton.elim _ _
  subst hi; subst hj
  rw [Matrix.mul_apply, Fin.sum_univ_two, hB, hB]
  show (1 : ℝ) = 1 * ((1/2) * 2) + 0 * (1 * 2)
  norm_num

/-! ## C19 Estimate is linear in the data -/

/-- C19: if the data (initial estimate, controls, measurements) of a third run are a linear
combination of those of two other runs, so is the resulting estimate. -/
theorem C19_superposition (a b : T) (k₁ k₂ k₃ k₁' k₂' k₃' : Kalman T m u)
    (ds : List ((ColVec T u.val × ColVec T m.val) × (ColVec T u.val × ColVec T m.val) ×
      (ColVec T u.val × ColVec T m.val)))
    (hA₁ : k₁.A = k₃.A) (hB₁ : k₁.B = k₃.B) (hH₁ : k₁.H = k₃.H) (hQ₁ : k₁.Q = k₃.Q)
    (hR₁ : k₁.R = k₃.R) (hP₁ : k₁.P = k₃.P)
    (hA₂ : k₂.A = k₃.A) (hB₂ : k₂.B = k₃.B) (hH₂ : k₂.H = k₃.H) (hQ₂ : k₂.Q = k₃.Q)
    (hR₂ : k₂.R = k₃.R) (hP₂ : k₂.P = k₃.P)
    (hx : k₃.system_state.toMatrix = a • k₁.system_state.toMatrix + b • k₂.system_state.toMatrix)
    (hds : ∀ d ∈ ds, d.2.2.1.toMatrix = a • d.1.1.toMatrix + b • d.2.1.1.toMatrix ∧
      d.2.2.2.toMatrix = a • d.1.2.toMatrix + b • d.2.1.2.toMatrix)
    (h₁ : k₁.run (ds.map fun d => d.1) = .ok k₁') (h₂ : k₂.run (ds.map fun d => d.2.1) = .ok k₂')
    (h₃ : k₃.run (ds.map fun d => d.2.2) = .ok k₃') :
    k₃'.system_state.toMatrix = a • k₁'.system_state.toMatrix + b • k₂'.system_state.toMatrix := by
  induction ds generalizing k₁ k₂ k₃ with
  | nil => cases h₁; cases h₂; cases h₃; exact hx
  | cons d ds ih =>
    obtain ⟨l1, u1, r1⟩ := run_cons.1 h₁
    obtain ⟨l2, u2, r2⟩ := run_cons.1 h₂
    obtain ⟨l3, u3, r3⟩ := run_cons.1 h₃
    have s1 := update_same u1
    have s2 := update_same u2
    have s3 := update_same u3
    obtain ⟨P1, G1, hp1, -, hg1, -, x1, p1, -⟩ := update_mat u1
    obtain ⟨P2, G2, hp2, -, hg2, -, x2, p2, -⟩ := update_mat u2
    obtain ⟨P3, G3, hp3, -, hg3, -, x3, p3, -⟩ := update_mat u3
    rw [hA₁, hP₁, hQ₁, hp3] at hp1
    cases hp1
    rw [hA₂, hP₂, hQ₂, hp3] at hp2
    cases hp2
    rw [hH₁, hR₁, hg3] at hg1
    cases hg1
    rw [hH₂, hR₂, hg3] at hg2
    cases hg2
    obtain ⟨hv, hz⟩ := hds d (by simp)
    refine ih l1 l2 l3 (by rw [s1.A, s3.A, hA₁]) (by rw [s1.B, s3.B, hB₁]) (by rw [s1.H, s3.H, hH₁])
      (by rw [s1.Q, s3.Q, hQ₁]) (by rw [s1.R, s3.R, hR₁]) ?_ (by rw [s2.A, s3.A, hA₂])
      (by rw [s2.B, s3.B, hB₂]) (by rw [s2.H, s3.H, hH₂]) (by rw [s2.Q, s3.Q, hQ₂])
      (by rw [s2.R, s3.R, hR₂]) ?_ ?_ (fun e he => hds e (by simp [he])) r1 r2 r3
    · apply Mat.toMatrix_inj
      rw [p1, p3, hH₁, Pm, Pm, hA₁, hP₁, hQ₁]
    · apply Mat.toMatrix_inj
      rw [p2, p3, hH₂, Pm, Pm, hA₂, hP₂, hQ₂]
    · have hxm : k₃.xm d.2.2.1 = a • k₁.xm d.1.1 + b • k₂.xm d.2.1.1 := by
        unfold system_state at hx
        unfold xm
        rw [hx, hv, hA₁, hA₂, hB₁, hB₂]
        simp only [Matrix.mul_add, Matrix.mul_smul, smul_add]
        abel
      show l3.xhat.toMatrix = a • l1.xhat.toMatrix + b • l2.xhat.toMatrix
      rw [x1, x2, x3, hxm, hz, hH₁, hH₂]
      simp only [Matrix.mul_add, Matrix.mul_sub, Matrix.mul_smul, smul_add, smul_sub]
      abel

end field

/-! ## C20 Static system: recursive equals batch least squares -/

/-- The regularised least squares cost of a constant state `x`: distance to the prior estimate `x0`
weighted by `P0⁻¹`, plus all squared measurement residuals weighted by `R⁻¹`. -/
noncomputable def lsCost {M : Nat} (P0 : Matrix (Fin 2) (Fin 2) ℝ) (x0 : Matrix (Fin 2) (Fin 1) ℝ)
    (H : Matrix (Fin M) (Fin 2) ℝ) (R : Matrix (Fin M) (Fin M) ℝ) (zs : List (ColVec ℝ M))
    (x : Matrix (Fin 2) (Fin 1) ℝ) : ℝ :=
  ((x - x0)ᵀ * P0⁻¹ * (x - x0)) 0 0 +
    (zs.map fun z => ((z.toMatrix - H * x)ᵀ * R⁻¹ * (z.toMatrix - H * x)) 0 0).sum

/-- C20: for a constant state (`A = 1`, `Q = 0`, `B = 0`) the estimate after any measurements is the
unique minimiser of the cost, and the inverse covariance is `P0⁻¹ + n HᵀR⁻¹H`. -/
theorem C20_batch_least_squares (k : Kalman ℝ m u) (ds)
    (hA : k.A.toMatrix = 1) (hB : k.B.toMatrix = 0) (hQ : k.Q.toMatrix = 0)
    (hP : k.P.toMatrix.PosDef) (hR : k.R.toMatrix.PosDef) :
    ∃ k', k.run ds = .ok k' ∧
      k'.estimation_error_covariance.toMatrix.PosDef ∧
      (k'.estimation_error_covariance.toMatrix)⁻¹ =
        k.P.toMatrix⁻¹ + ds.length • (k.H.toMatrixᵀ * k.R.toMatrix⁻¹ * k.H.toMatrix) ∧
      ∀ x, x ≠ k'.system_state.toMatrix →
        lsCost k.P.toMatrix k.xhat.toMatrix k.H.toMatrix k.R.toMatrix (ds.map (·.2))
          k'.system_state.toMatrix <
        lsCost k.P.toMatrix k.xhat.toMatrix k.H.toMatrix k.R.toMatrix (ds.map (·.2)) x := by
  obtain ⟨k', h', hp, hi, c, hc⟩ := static_run k ds hA hB hQ hP hR
  refine ⟨k', h', hp, hi, fun x hx => ?_⟩
  have e (x) : lsCost k.P.toMatrix k.xhat.toMatrix k.H.toMatrix k.R.toMatrix (ds.map (·.2)) x =
      LS.quad k'.P.toMatrix⁻¹ (x - k'.xhat.toMatrix) + c := by
    rw [← hc x]
    unfold lsCost LS.quad
    rw [List.map_map]
    rfl
  rw [e, e]
  have h0 : LS.quad k'.P.toMatrix⁻¹ (k'.system_state.toMatrix - k'.xhat.toMatrix) = 0 := by
    unfold system_state
    rw [sub_self]
    simp [LS.quad]
  have hpos := LS.quad_pos hp.inv (sub_ne_zero.2 hx)
  unfold system_state at hpos h0 ⊢
  linarith

example : ∃ k : Kalman ℝ .two .one, k.A.toMatrix = 1 ∧ k.B.toMatrix = 0 ∧ k.Q.toMatrix = 0 ∧
    k.P.toMatrix.PosDef ∧ k.R.toMatrix.PosDef := ⟨exK2, exK2_static⟩

/-! ## C21 Benchmark variant agrees with the library -/

section lawfree
variable [CNum T]

/-- C21: every completed run of the library estimator is a completed run of the variant with the same
estimate, gain and covariance; only the time stands still. -/
theorem C21_library_to_variant (k k' : Kalman T m u) (ds) (h : k.run ds = .ok k') :
    k.runVariant true ds = .ok { k' with t := k.t } := by
  induction ds generalizing k with
  | nil => cases h; rfl
  | cons d ds ih =>
    obtain ⟨k1, h1, h2⟩ := run_cons.1 h
    obtain ⟨t, x, P, K, x', P', -, hx, hP, hK, hx', hP', rfl⟩ := update_inv h1
    have hv := updateVariant_true_intro hx hP hK hx' hP'
    show (do runVariant true (← k.updateVariant true d.1 d.2) ds) = _
    rw [hv, bind_ok]
    have h3 := runVariant_time true _ ds k.t ▸ congrArg (Except.map _) (ih _ h2)
    exact h3

/-- C21: and conversely, whenever the library can add up the time. -/
theorem C21_variant_to_library (k k' : Kalman T m u) (ds) (t : T)
    (h : k.runVariant true ds = .ok k') (ht : repeatAdd ds.length k.t k.dt = .ok t) :
    k.run ds = .ok { k' with t := t } := by
  induction ds generalizing k k' with
  | nil => cases h; cases ht; rfl
  | cons d ds ih =>
    obtain ⟨k1, h1, h2⟩ := bind_eq_ok.1 (show (k.updateVariant true d.1 d.2 >>=
      fun k1 => k1.runVariant true ds) = _ from h)
    obtain ⟨t1, ht1, ht2⟩ := bind_eq_ok.1 (show (CNum.add k.t k.dt >>=
      fun t1 => repeatAdd ds.length t1 k.dt) = _ from ht)
    obtain ⟨x, P, K, x', P', hx, hP, hK, hx', hP', rfl⟩ := updateVariant_true_inv h1
    refine run_cons.2 ⟨_, update_intro ht1 hx hP hK hx' hP', ?_⟩
    have h3 := runVariant_time true { k with xhat := x', P := P', K := some K } ds t1
    rw [h2] at h3
    exact ih { k with xhat := x', P := P', K := some K, t := t1 } { k' with t := t1 } h3 ht2

/-- C21: with gain computation off, gain and covariance (and the model) never change. -/
theorem C21_gain_off (k k' : Kalman T m u) (ds) (h : k.runVariant false ds = .ok k') :
    k'.K = k.K ∧ k'.P = k.P ∧ k'.A = k.A ∧ k'.B = k.B ∧ k'.H = k.H := by
  induction ds generalizing k with
  | nil => cases h; exact ⟨rfl, rfl, rfl, rfl, rfl⟩
  | cons d ds ih =>
    obtain ⟨k1, h1, h2⟩ := bind_eq_ok.1 (show (k.updateVariant false d.1 d.2 >>=
      fun k1 => k1.runVariant false ds) = _ from h)
    obtain ⟨x, K, x', -, -, -, rfl⟩ := updateVariant_false_inv h1
    exact ih { k with xhat := x' } h2

end lawfree

/-- C21: gain computation off, exact arithmetic.  A fresh desktop estimator reads its indeterminate
gain; a fresh AVR estimator has gain zero, so that its estimate is the plain prediction and ignores
the measurement. -/
theorem C21_gain_off_fresh [Field T] [CNum T] [ExactField T] (dt : T) (A : Mat T 2 2)
    (B : Mat T 2 u.val) (H : Mat T m.val 2) (Q : Mat T 2 2) (R : Mat T m.val m.val) (P : Mat T 2 2)
    (x : ColVec T 2) (v : ColVec T u.val) (z : ColVec T m.val) :
    (init false dt A B H Q R P x : Kalman T m u).updateVariant false v z = .error .indeterminate ∧
    ∃ k', (init true dt A B H Q R P x : Kalman T m u).updateVariant false v z = .ok k' ∧
      k'.system_state.toMatrix = A.toMatrix * x.toMatrix + B.toMatrix * v.toMatrix := by
  obtain ⟨y, hy, ey⟩ := predictState_mat A B x v
  constructor
  · unfold updateVariant
    simp only [init, hy, bind_ok]
    rfl
  · obtain ⟨w, hw, ew⟩ := correctState_mat m y (Mat.fill 2 m.val CNum.zero) H z
    refine ⟨_, updateVariant_false_intro (k := init true dt A B H Q R P x) hy rfl hw, ?_⟩
    have h0 : (Mat.fill 2 m.val (CNum.zero : T)).toMatrix = 0 := by
      ext i j
      rw [ExactRing.zero_eq]
      exact Mat.get_fill _ _ _
    show w.toMatrix = _
    rw [ew, h0, Matrix.zero_mul, add_zero, ey]

/-! ## C22 Undefined behaviour of update -/

section field
variable [Field T] [CNum T] [ExactField T]

/-- C22: one measurement: `update` is always defined; if the innovation variance is zero the gain is
zero and the estimate and covariance are the plain predictions. -/
theorem C22_one_measurement (k : Kalman T .one u) (v : ColVec T u.val) (z : ColVec T 1) :
    ∃ k' K, k.update v z = .ok k' ∧ k'.kalman_gain = .ok K ∧
      (k.Sm 0 0 = 0 → K.toMatrix = 0 ∧
        k'.system_state.toMatrix = k.A.toMatrix * k.xhat.toMatrix + k.B.toMatrix * v.toMatrix ∧
        k'.estimation_error_covariance.toMatrix =
          k.A.toMatrix * k.P.toMatrix * k.A.toMatrixᵀ + k.Q.toMatrix) := by
  obtain ⟨P, hP, eP⟩ := predictCov_mat k.A k.P k.Q
  obtain ⟨G, hG, eG⟩ := gain_one P k.H k.R
  obtain ⟨k', h', hK, hx, hP', -⟩ := update_of_gain k v z G P hP hG
  refine ⟨k', G, h', by unfold kalman_gain; rw [hK], fun h0 => ?_⟩
  have hS : k.H.toMatrix * P.toMatrix * k.H.toMatrixᵀ + k.R.toMatrix = 0 := by
    rw [eP]
    ext i j
    have hi : i = 0 := Subsingleton.elim _ _
    have hj : j = 0 := Subsingleton.elim _ _
    rw [hi, hj]
    exact h0
  have hG0 : G.toMatrix = 0 := by rw [eG, hS, Matrix.inv_zero, Matrix.mul_zero]
  refine ⟨hG0, ?_, ?_⟩
  · show k'.xhat.toMatrix = _
    rw [hx, hG0, Matrix.zero_mul, add_zero]; rfl
  · show k'.P.toMatrix = _
    rw [hP', hG0, Matrix.zero_mul, sub_zero, Matrix.one_mul]; rfl

/-- C22: two measurements: `update` is defined iff the innovation covariance is invertible, otherwise
it divides by zero. -/
theorem C22_two_measurements (k : Kalman T .two u) (v : ColVec T u.val) (z : ColVec T 2) :
    ((∃ k', k.update v z = .ok k') ↔ k.Sm.det ≠ 0) ∧
    (k.Sm.det = 0 → k.update v z = .error .divByZero) := by
  obtain ⟨P, hP, eP⟩ := predictCov_mat k.A k.P k.Q
  have hS : k.H.toMatrix * P.toMatrix * k.H.toMatrixᵀ + k.R.toMatrix = k.Sm := by rw [eP]; rfl
  refine ⟨⟨fun ⟨k', h⟩ => det_of_update h, fun hd => ?_⟩, fun hd => ?_⟩
  · obtain ⟨G, hG, -⟩ := (gain_two P k.H k.R).1 (by rw [hS]; exact hd)
    obtain ⟨k', h', -⟩ := update_of_gain k v z G P hP hG
    exact ⟨k', h'⟩
  · have hG := (gain_two P k.H k.R).2 (by rw [hS]; exact hd)
    obtain ⟨x, hx, -⟩ := predictState_mat k.A k.B k.xhat v
    unfold update
    rw [ExactRing.add_eq, bind_ok, hx, bind_ok, hP, bind_ok, hG]
    rfl

/-! ## C23 Covariance update equals Joseph form -/

/-- C23: for symmetric covariances and an invertible innovation covariance, the reported covariance
is the Joseph form with the reported gain. -/
theorem C23_joseph (k k' : Kalman T m u) (v : ColVec T u.val) (z : ColVec T m.val)
    (hP : k.P.toMatrixᵀ = k.P.toMatrix) (hQ : k.Q.toMatrixᵀ = k.Q.toMatrix)
    (hR : k.R.toMatrixᵀ = k.R.toMatrix) (hS : k.Sm.det ≠ 0) (h : k.update v z = .ok k') :
    ∃ K, k'.kalman_gain = .ok K ∧ k'.estimation_error_covariance.toMatrix =
      (1 - K.toMatrix * k.H.toMatrix) *
        (k.A.toMatrix * k.P.toMatrix * k.A.toMatrixᵀ + k.Q.toMatrix) *
        (1 - K.toMatrix * k.H.toMatrix)ᵀ + K.toMatrix * k.R.toMatrix * K.toMatrixᵀ := by
  obtain ⟨G, hK, eG, -, eP⟩ := update_symm_inv h (Pm_symm hP hQ) hR
  refine ⟨G, by unfold kalman_gain; rw [hK], ?_⟩
  show k'.P.toMatrix = _
  rw [eP, eG]
  exact KF.joseph_gain (Pm_symm hP hQ) hR (isUnit_iff_ne_zero.2 hS)

end field
end Verif
