import Verif.Spec.KalmanSim
import Verif.Spec.KalmanStat
import Verif.Lemmas.KalmanSim
import Verif.Lemmas.KalmanStat
import Verif.Props.KalmanSteady
import Mathlib.MeasureTheory.Integral.Bochner.Basic
import Mathlib.MeasureTheory.Integral.Bochner.SumMeasure

/-
C95, C97, C99, C100: the simulation of example/desktop/kalman-sim.e.cpp.  The numeric type is the real
numbers.
-/

namespace Verif
open Matrix KalmanSim

/-! ## C95 What the simulation records -/

/-- C95: for every measurement noise other than 0 the simulation is defined and records one row per
time step.  In each row the recorded covariances are the recorded gains times the measurement
variance: the two pairs of columns carry the same information. -/
theorem C95_simulation_columns (avr : Bool) (p : Params ℝ) (hR : p.measnoise ≠ 0) (gs) :
    ∃ rows, main avr p gs = .ok rows ∧ rows.length = gs.length ∧ ∀ r ∈ rows,
      r.posecov = p.measnoise ^ 2 * r.posgain ∧ r.velecov = p.measnoise ^ 2 * r.velgain := by
  obtain ⟨k, -, hk, -, -, e⟩ := main_eq avr p gs
  obtain ⟨rows, h, hl, hr⟩ := loop_rows p hR gs k hk 0 0
  refine ⟨rows, by rw [e, h], hl, fun r hm => ?_⟩
  obtain ⟨i, hi, rfl⟩ := List.getElem_of_mem hm
  obtain ⟨-, -, h1, h2⟩ := hr i hi
  have := pow_ne_zero 2 hR
  rw [h1, h2]
  constructor <;> field_simp

example : (main false (⟨1, 10, 1 / 5⟩ : Params ℚ) [(0, 0, 0), (1, -1, 2)]).map (·.map fun r =>
    (r.posecov, r.posgain, r.velecov, r.velgain)) =
    .ok [(100 / 1001, 1 / 1001, 80 / 1001, 4 / 5005),
      (17501300 / 50225013, 175013 / 50225013, 1000200 / 5580557, 10002 / 5580557)] := by
  decide +kernel

/-- C95: in particular the column that the example names "velocity gain estimation error covariance"
is not the variance of the velocity: `ecov(1)` is the covariance of position and velocity, the element
`P(0,1)`, which differs from `P(1,1)` after the first step already. -/
theorem C95_velecov_wrong : ∃ (p : Params ℝ) (A : Mat ℝ 2 2) (B : Mat ℝ 2 1) (H : Mat ℝ 1 2)
    (k k' : Kalman ℝ .one .one) (x x' : ColVec ℝ 2) (r : Row ℝ), sysA p = .ok A ∧ sysB p = .ok B ∧
      sysH = .ok H ∧ estim false p = .ok k ∧ start = .ok x ∧
      step p A B H k x (0, 0, 0) = .ok (k', x', r) ∧
      r.velecov = k'.estimation_error_covariance.get 0 1 ∧
      r.velecov ≠ k'.estimation_error_covariance.get 1 1 := by
  obtain ⟨k, hk, hg, hP, -⟩ := estim_eq false (⟨1, 10, 1 / 5⟩ : Params ℝ)
  obtain ⟨k', r, h, -, eP, -, -, -, -, -, -, hv, -⟩ := step_ok ⟨1, 10, 1 / 5⟩ (by norm_num) k hg 0 0
    (0, 0, 0)
  refine ⟨⟨1, 10, 1 / 5⟩, mA _, mB _, mH, k, k', vec 0 0, _, r, sysA_eq _, sysB_eq _, sysH_eq, hk,
    start_eq, h, hv, ?_⟩
  show r.velecov ≠ k'.P.toMatrix 1 1
  have e : covSeq ⟨1, 10, 1 / 5⟩ (mQ ⟨1, 10, 1 / 5⟩).toMatrix 1 =
      KF.ricc (mA ⟨1, 10, 1 / 5⟩).toMatrix mH.toMatrix (mQ ⟨1, 10, 1 / 5⟩).toMatrix
        (mR ⟨1, 10, 1 / 5⟩).toMatrix (mQ ⟨1, 10, 1 / 5⟩).toMatrix := rfl
  have e2 := pred_expl ⟨1, 10, 1 / 5⟩ (1 ^ 4 / 4 * (1 / 5) ^ 2) (1 ^ 3 / 2 * (1 / 5) ^ 2)
    (1 ^ 2 * (1 / 5) ^ 2)
  rw [← mQ_mat ⟨1, 10, 1 / 5⟩] at e2
  rw [hv, eP, hP, e, KF.ricc, e2, post_expl _ _ _ _ (by norm_num)]
  simp only [of_apply, cons_val', cons_val_zero, cons_val_one, cons_val_fin_one]
  norm_num

/-! ## C97 The gains of the simulation settle at those of the alpha-beta filter -/

open AlphaBeta in
theorem steady_row (p : Params ℝ) (hd : 0 < p.dt) (hs : 0 < p.measnoise) (ha : 0 < p.accelnoise) :
    steady p (damping (index p.dt p.measnoise p.accelnoise)) =
      !![p.measnoise ^ 2 * alpha (index p.dt p.measnoise p.accelnoise),
          p.measnoise ^ 2 * beta (index p.dt p.measnoise p.accelnoise) / p.dt;
        p.measnoise ^ 2 * beta (index p.dt p.measnoise p.accelnoise) / p.dt,
          p.measnoise ^ 2 * beta (index p.dt p.measnoise p.accelnoise) *
            (alpha (index p.dt p.measnoise p.accelnoise) -
              beta (index p.dt p.measnoise p.accelnoise) / 2) /
            ((1 - alpha (index p.dt p.measnoise p.accelnoise)) * p.dt ^ 2)] := by
  have hl : 0 < index p.dt p.measnoise p.accelnoise := by unfold index; positivity
  obtain ⟨h0, -, -⟩ := damping_index hd hs ha
  rw [steady, beta_eq hl, alpha]
  generalize damping (index p.dt p.measnoise p.accelnoise) = r at *
  ext i j
  fin_cases i <;> fin_cases j <;> simp
  field_simp
  ring

/-- C97: for every time step, measurement noise and acceleration noise the recorded gains tend to the
gains `alpha` and `beta / dt` of the alpha-beta filter for the tracking index, whatever the draws. -/
theorem C97_alpha_beta (p : Params ℝ) (hd : 0 < p.dt) (hs : 0 < p.measnoise) (ha : 0 < p.accelnoise)
    (ε : ℝ) (hε : 0 < ε) : ∃ N : Nat, ∀ avr gs, ∃ rows, main avr p gs = .ok rows ∧
      rows.length = gs.length ∧ ∀ i (h : i < rows.length), N ≤ i →
        |rows[i].posgain - AlphaBeta.alpha (AlphaBeta.index p.dt p.measnoise p.accelnoise)| < ε ∧
        |rows[i].velgain - AlphaBeta.beta (AlphaBeta.index p.dt p.measnoise p.accelnoise) / p.dt|
          < ε := by
  obtain ⟨N, hN⟩ := close_of_tendsto (a := Fin 2) (b := Fin 2)
    (f := fun k i j => covSeq p (mQ p).toMatrix k i j / p.measnoise ^ 2)
    (L := fun i j => steady p (AlphaBeta.damping
      (AlphaBeta.index p.dt p.measnoise p.accelnoise)) i j / p.measnoise ^ 2)
    (fun i j => (covSeq_tendsto hd hs ha (mQ_psd p) i j).div_const (p.measnoise ^ 2)) hε
  refine ⟨N, fun avr gs => ?_⟩
  obtain ⟨k, -, hk, hP, -, e⟩ := main_eq avr p gs
  obtain ⟨rows, h, hl, hr⟩ := loop_rows p hs.ne' gs k hk 0 0
  refine ⟨rows, by rw [e, h], hl, fun i hi hNi => ?_⟩
  obtain ⟨h1, h2, h3, h4⟩ := hr i hi
  have hcl := hN (i + 1) (by omega)
  rw [hP] at h1 h2
  have hs2 : p.measnoise ^ 2 ≠ 0 := pow_ne_zero 2 hs.ne'
  have c0 := hcl 0 0
  have c1 := hcl 0 1
  rw [steady_row p hd hs ha] at c0 c1
  simp only [of_apply, cons_val', cons_val_zero, cons_val_one, cons_val_fin_one] at c0 c1
  rw [mul_div_cancel_left₀ _ hs2] at c0
  rw [mul_div_assoc, mul_div_cancel_left₀ _ hs2] at c1
  rw [h3, h4, h1, h2]
  exact ⟨c0, c1⟩

/-- C97: the same estimator with any initial state and covariance, on any data: covariance and gain
tend to those of the alpha-beta filter. -/
theorem C97_any_start (p : Params ℝ) (hd : 0 < p.dt) (hs : 0 < p.measnoise) (ha : 0 < p.accelnoise)
    (A B H Q R) (hA : sysA p = .ok A) (hB : sysB p = .ok B) (hH : sysH = .ok H) (hQ : sysQ p = .ok Q)
    (hR : sysR p = .ok R) (P : Mat ℝ 2 2) (hP : P.toMatrix.PosSemidef) (ε : ℝ) (hε : 0 < ε) :
    ∃ N : Nat, ∀ avr x ds, N ≤ ds.length →
      ∃ k' G, (Kalman.init avr p.dt A B H Q R P x : Kalman ℝ .one .one).run ds = .ok k' ∧
        k'.kalman_gain = .ok G ∧
        Steady.Close ε k'.estimation_error_covariance.toMatrix
          (let l := AlphaBeta.index p.dt p.measnoise p.accelnoise
          p.measnoise ^ 2 • !![AlphaBeta.alpha l, AlphaBeta.beta l / p.dt;
            AlphaBeta.beta l / p.dt, AlphaBeta.beta l * (AlphaBeta.alpha l - AlphaBeta.beta l / 2) /
              ((1 - AlphaBeta.alpha l) * p.dt ^ 2)]) ∧
        Steady.Close ε G.toMatrix (let l := AlphaBeta.index p.dt p.measnoise p.accelnoise
          !![AlphaBeta.alpha l; AlphaBeta.beta l / p.dt]) := by
  rw [sysA_eq] at hA; cases hA
  rw [sysB_eq] at hB; cases hB
  rw [sysH_eq] at hH; cases hH
  rw [sysQ_eq] at hQ; cases hQ
  rw [sysR_eq] at hR; cases hR
  have hc := covSeq_tendsto hd hs ha hP
  obtain ⟨N1, h1⟩ := close_of_tendsto hc hε
  obtain ⟨N2, h2⟩ := close_of_tendsto
    (tendsto_mul_const hc (mH.toMatrixᵀ * (mR p).toMatrix⁻¹)) hε
  refine ⟨max (max N1 N2) 1, fun avr x ds hds => ?_⟩
  obtain ⟨k', hr, -, eP, hK⟩ := Kalman.run_ricc
    (Kalman.init avr p.dt (mA p) (mB p) mH (mQ p) (mR p) P x : Kalman ℝ .one .one) ds hP
    (mQ_psd p) (mR_posDef p hs.ne')
  obtain ⟨G, hG, eG⟩ := hK (by rintro rfl; simp at hds)
  change k'.P.toMatrix = covSeq p P.toMatrix ds.length at eP
  change G.toMatrix = k'.P.toMatrix * mH.toMatrixᵀ * (mR p).toMatrix⁻¹ at eG
  refine ⟨k', G, hr, by rw [Kalman.kalman_gain, hG], ?_, ?_⟩
  · have := h1 ds.length (by omega)
    rw [steady_row p hd hs ha] at this
    rw [Kalman.estimation_error_covariance, eP]
    convert this using 1
    ext i j
    fin_cases i <;> fin_cases j <;> simp [mul_div_assoc, mul_assoc]
  · have := h2 ds.length (by omega)
    rw [eG, eP, Matrix.mul_assoc]
    convert this using 1
    ext i j
    rw [← Matrix.mul_assoc]
    have hj : j = 0 := Subsingleton.elim _ _
    have hs2 : p.measnoise ^ 2 ≠ 0 := pow_ne_zero 2 hs.ne'
    subst hj
    rw [gain_elem, steady_row p hd hs ha]
    fin_cases i
    · simp [hs2]
    · simp only [Fin.mk_one, of_apply, cons_val', cons_val_zero, cons_val_one, cons_val_fin_one]
      rw [mul_div_assoc, mul_div_cancel_left₀ _ hs2]

/-- The numbers of the example: the tracking index is 1/50. -/
example : AlphaBeta.index 1 10 (1 / 5) = 1 / 50 ∧ AlphaBeta.damping (1 / 50) = (4.02 - √0.1604) / 4 := by
  unfold AlphaBeta.index AlphaBeta.damping
  norm_num

/-! ## C98 The initial estimate is forgotten, in the estimator of the simulation -/

/-- C98: likewise for the estimator of the simulation, although its process noise covariance is
singular. -/
theorem C98_simulation (p : Params ℝ) (hd : 0 < p.dt) (hs : 0 < p.measnoise) (ha : 0 < p.accelnoise)
    (A B H Q R) (hA : sysA p = .ok A) (hB : sysB p = .ok B) (hH : sysH = .ok H) (hQ : sysQ p = .ok Q)
    (hR : sysR p = .ok R) (P : Mat ℝ 2 2) (hP : P.toMatrix.PosSemidef) (x y : ColVec ℝ 2)
    (ε : ℝ) (hε : 0 < ε) : ∃ N : Nat, ∀ avr ds, N ≤ ds.length →
      ∃ kx ky, (Kalman.init avr p.dt A B H Q R P x : Kalman ℝ .one .one).run ds = .ok kx ∧
        (Kalman.init avr p.dt A B H Q R P y : Kalman ℝ .one .one).run ds = .ok ky ∧
        Steady.Close ε kx.system_state.toMatrix ky.system_state.toMatrix := by
  rw [sysA_eq] at hA; cases hA
  rw [sysB_eq] at hB; cases hB
  rw [sysH_eq] at hH; cases hH
  rw [sysQ_eq] at hQ; cases hQ
  rw [sysR_eq] at hR; cases hR
  obtain ⟨N, hN⟩ := close_of_tendsto (L := 0)
    (KF.tendsto_mul_right (transition_tendsto hd hs ha hP) (x.toMatrix - y.toMatrix)) hε
  refine ⟨N, fun avr ds hds => ?_⟩
  obtain ⟨kx, ky, h1, h2, e⟩ := Kalman.run_diff
    (Kalman.init avr p.dt (mA p) (mB p) mH (mQ p) (mR p) P x : Kalman ℝ .one .one)
    (Kalman.init avr p.dt (mA p) (mB p) mH (mQ p) (mR p) P y) ds hP (mQ_psd p) (mR_posDef p hs.ne')
    ⟨rfl, rfl, rfl, rfl, rfl, rfl⟩ rfl
  refine ⟨kx, ky, h1, h2, fun i j => ?_⟩
  have := hN ds.length hds i j
  rw [Matrix.zero_apply, sub_zero] at this
  show |kx.xhat.toMatrix i j - ky.xhat.toMatrix i j| < ε
  rw [← Matrix.sub_apply, e]
  exact this

example : ∃ A B H Q R, sysA (⟨1, 10, 1 / 5⟩ : Params ℝ) = .ok A ∧ sysB (⟨1, 10, 1 / 5⟩ : Params ℝ) = .ok B ∧
    sysH = .ok H ∧ sysQ (⟨1, 10, 1 / 5⟩ : Params ℝ) = .ok Q ∧ sysR (⟨1, 10, 1 / 5⟩ : Params ℝ) = .ok R ∧
    H = (⟨#v[1, 0]⟩ : Mat ℝ 1 2) ∧ Q.toMatrix.PosSemidef ∧ Q.toMatrix.det = 0 := by
  refine ⟨_, _, _, _, _, sysA_eq _, sysB_eq _, sysH_eq, sysQ_eq _, rfl, rfl, mQ_psd _, ?_⟩
  show (mQ _).toMatrix.det = 0
  rw [mQ_mat, Matrix.det_fin_two_of]
  norm_num

/-! ## C99 The simulated disturbance is not the one the estimator is told about -/

section
open MeasureTheory
variable {Ω : Type} [MeasurableSpace Ω] (μ : Measure Ω) (g1 g2 : Ω → ℝ)

theorem process_moment (p : Params ℝ) {s11 s12 s22 : ℝ} (h11 : ∫ ω, g1 ω * g1 ω ∂μ = s11)
    (h12 : ∫ ω, g1 ω * g2 ω ∂μ = s12) (h22 : ∫ ω, g2 ω * g2 ω ∂μ = s22)
    (w : Ω → ColVec ℝ 2) (hw : ∀ ω, process_noise p (g1 ω) (g2 ω) = .ok (w ω)) :
    moment μ (fun ω => (w ω).toMatrix) (fun ω => (w ω).toMatrix) =
      !![p.dt ^ 4 / 4 * p.accelnoise ^ 2 * s11, p.dt ^ 3 / 2 * p.accelnoise ^ 2 * s12;
        p.dt ^ 3 / 2 * p.accelnoise ^ 2 * s12, p.dt ^ 2 * p.accelnoise ^ 2 * s22] := by
  have e (ω : Ω) : w ω = vec (p.dt * p.dt / 2 * g1 ω * p.accelnoise) (p.dt * g2 ω * p.accelnoise) := by
    have := hw ω
    rw [process_noise_eq] at this
    exact (Except.ok.inj this).symm
  ext i j
  fin_cases i <;> fin_cases j
  · show ∫ ω, (w ω).get 0 0 * (w ω).get 0 0 ∂μ = p.dt ^ 4 / 4 * p.accelnoise ^ 2 * s11
    rw [← h11, ← integral_const_mul]
    congr 1; funext ω; rw [e]
    show (p.dt * p.dt / 2 * g1 ω * p.accelnoise) * (p.dt * p.dt / 2 * g1 ω * p.accelnoise) = _
    ring
  · show ∫ ω, (w ω).get 0 0 * (w ω).get 1 0 ∂μ = p.dt ^ 3 / 2 * p.accelnoise ^ 2 * s12
    rw [← h12, ← integral_const_mul]
    congr 1; funext ω; rw [e]
    show (p.dt * p.dt / 2 * g1 ω * p.accelnoise) * (p.dt * g2 ω * p.accelnoise) = _
    ring
  · show ∫ ω, (w ω).get 1 0 * (w ω).get 0 0 ∂μ = p.dt ^ 3 / 2 * p.accelnoise ^ 2 * s12
    rw [← h12, ← integral_const_mul]
    congr 1; funext ω; rw [e]
    show (p.dt * g2 ω * p.accelnoise) * (p.dt * p.dt / 2 * g1 ω * p.accelnoise) = _
    ring
  · show ∫ ω, (w ω).get 1 0 * (w ω).get 1 0 ∂μ = p.dt ^ 2 * p.accelnoise ^ 2 * s22
    rw [← h22, ← integral_const_mul]
    congr 1; funext ω; rw [e]
    show (p.dt * g2 ω * p.accelnoise) * (p.dt * g2 ω * p.accelnoise) = _
    ring

/-- C99: the function draws twice, once for the position and once for the velocity.  For uncorrelated
draws of variance 1 the covariance of its result differs from the matrix `Q` given to the estimator;
neither of the two bounds the other, so `Q` is not a cautious choice either. -/
theorem C99_noise_covariance_wrong (p : Params ℝ) (hd : p.dt ≠ 0) (ha : p.accelnoise ≠ 0)
    (h11 : ∫ ω, g1 ω * g1 ω ∂μ = 1) (h12 : ∫ ω, g1 ω * g2 ω ∂μ = 0)
    (h22 : ∫ ω, g2 ω * g2 ω ∂μ = 1) (w : Ω → ColVec ℝ 2)
    (hw : ∀ ω, process_noise p (g1 ω) (g2 ω) = .ok (w ω)) (Q : Mat ℝ 2 2) (hQ : sysQ p = .ok Q) :
    moment μ (fun ω => (w ω).toMatrix) (fun ω => (w ω).toMatrix) ≠ Q.toMatrix ∧
      ¬ (Q.toMatrix - moment μ (fun ω => (w ω).toMatrix) (fun ω => (w ω).toMatrix)).PosSemidef ∧
      ¬ (moment μ (fun ω => (w ω).toMatrix) (fun ω => (w ω).toMatrix) - Q.toMatrix).PosSemidef := by
  rw [sysQ_eq] at hQ; cases hQ
  rw [process_moment μ g1 g2 p h11 h12 h22 w hw]
  change _ ≠ (mQ p).toMatrix ∧ ¬ ((mQ p).toMatrix - _).PosSemidef ∧ ¬ (_ - (mQ p).toMatrix).PosSemidef
  have hq : 0 < (p.dt ^ 3 / 2 * p.accelnoise ^ 2) ^ 2 := by positivity
  rw [mQ_mat]
  refine ⟨fun h => ?_, fun h => ?_, fun h => ?_⟩
  · have := congrFun (congrFun h 0) 1
    simp at this
    tauto
  · have := KF.det2_of_psd h
    simp only [Matrix.sub_apply, of_apply, cons_val', cons_val_zero, cons_val_one, cons_val_fin_one, mul_one,
      mul_zero, sub_self, sub_zero] at this
    linarith
  · have := KF.det2_of_psd h
    simp only [Matrix.sub_apply, of_apply, cons_val', cons_val_zero, cons_val_one, cons_val_fin_one, mul_one,
      mul_zero, sub_self, zero_sub] at this
    nlinarith

/-- C99: with one draw of variance 1 used for both components the covariance would be `Q`. -/
theorem C99_noise_covariance_partial (p : Params ℝ) (h11 : ∫ ω, g1 ω * g1 ω ∂μ = 1)
    (w : Ω → ColVec ℝ 2) (hw : ∀ ω, process_noise p (g1 ω) (g1 ω) = .ok (w ω)) (Q : Mat ℝ 2 2)
    (hQ : sysQ p = .ok Q) :
    moment μ (fun ω => (w ω).toMatrix) (fun ω => (w ω).toMatrix) = Q.toMatrix := by
  rw [sysQ_eq] at hQ; cases hQ
  rw [process_moment μ g1 g1 p h11 h11 h11 w hw]
  change _ = (mQ p).toMatrix
  rw [mQ_mat]
  simp only [mul_one]

/-- Two uncorrelated draws of mean 0 and variance 1. -/
example : ∃ (μ : Measure (Fin 4)) (g1 g2 : Fin 4 → ℝ), IsProbabilityMeasure μ ∧ ∫ ω, g1 ω ∂μ = 0 ∧
    ∫ ω, g2 ω ∂μ = 0 ∧ ∫ ω, g1 ω * g1 ω ∂μ = 1 ∧ ∫ ω, g1 ω * g2 ω ∂μ = 0 ∧
    ∫ ω, g2 ω * g2 ω ∂μ = 1 ∧ ∃ w : Fin 4 → ColVec ℝ 2,
      ∀ ω, process_noise (⟨1, 10, 1 / 5⟩ : Params ℝ) (g1 ω) (g2 ω) = .ok (w ω) := by
  refine ⟨(1 / 4 : ENNReal) • Measure.count, ![1, 1, -1, -1], ![1, -1, 1, -1], ⟨?_⟩, ?_, ?_, ?_, ?_, ?_,
    _, fun ω => process_noise_eq _ _ _⟩
  · rw [Measure.smul_apply, Measure.count_apply_finite _ Set.finite_univ]
    simp [ENNReal.inv_mul_cancel]
  all_goals
    rw [integral_smul_measure, integral_count]
    simp [Fin.sum_univ_four]
    try norm_num

end

/-! ## C100 Without noise the simulation tracks exactly -/

/-- C100: if all draws are 0, the simulated object moves with the constant acceleration 1 from rest,
and the estimates agree with its position and velocity in every row. -/
theorem C100_exact_tracking (avr : Bool) (p : Params ℝ) (hR : p.measnoise ≠ 0) (n : Nat) :
    ∃ rows, main avr p (List.replicate n (0, 0, 0)) = .ok rows ∧ rows.length = n ∧
      ∀ i (h : i < rows.length),
        rows[i].pos = ((i + 1) * p.dt) ^ 2 / 2 ∧ rows[i].vel = (i + 1) * p.dt ∧
        rows[i].posmeas = rows[i].pos ∧ rows[i].poshat = rows[i].pos ∧
        rows[i].velhat = rows[i].vel := by
  obtain ⟨k, -, hk, -, hx, e⟩ := main_eq avr p (List.replicate n (0, 0, 0))
  obtain ⟨rows, h, hr⟩ := loop_quiet p hR n k hk 0 0 (by
    rw [hx]; ext i j; fin_cases i <;> fin_cases j <;> rfl)
  obtain ⟨rows', h', hl, -⟩ := loop_rows p hR (List.replicate n (0, 0, 0)) k hk 0 0
  rw [h] at h'; cases h'
  refine ⟨rows, by rw [e, h], by rw [hl, List.length_replicate], fun i hi => ?_⟩
  have := hr i hi
  simpa only [zero_mul, zero_add] using this

example : (main true (⟨1 / 2, 3, 1⟩ : Params ℚ) (List.replicate 3 (0, 0, 0))).map (·.map fun r =>
    (r.pos, r.vel, r.poshat, r.velhat)) =
    .ok [(1 / 8, 1 / 2, 1 / 8, 1 / 2), (1 / 2, 1, 1 / 2, 1), (9 / 8, 3 / 2, 9 / 8, 3 / 2)] := by
  decide +kernel

end Verif
