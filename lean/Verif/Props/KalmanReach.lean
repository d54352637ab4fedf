import Verif.Props.KalmanStable
import Verif.Lemmas.Benchmark

/- C146: process noise that reaches every state within two steps.  The main theorems are in
`KalmanSteady.lean` and `KalmanStable.lean`. -/

namespace Verif
open Matrix Kalman

variable {m u : Dim}

/-- C146: with constant data the estimate converges, to a limit that depends on neither the initial
estimate nor the initial covariance. -/
theorem C146_constant_data (A : Mat ℝ 2 2) (B : Mat ℝ 2 u.val) (H : Mat ℝ m.val 2) (Q : Mat ℝ 2 2)
    (R : Mat ℝ m.val m.val) (hQ : Q.toMatrix.PosSemidef) (hC : Steady.Reaches A.toMatrix Q.toMatrix)
    (hR : R.toMatrix.PosDef) (hb : Steady.Bounded A.toMatrix H.toMatrix Q.toMatrix R.toMatrix)
    (v : ColVec ℝ u.val) (z : ColVec ℝ m.val) : ∃ y : Matrix (Fin 2) (Fin 1) ℝ,
      ∀ P : Mat ℝ 2 2, P.toMatrix.PosSemidef →
      ∀ (xhat : ColVec ℝ 2) (ε : ℝ), 0 < ε → ∃ N : Nat, ∀ avr dt n, N ≤ n →
        ∃ k', (Kalman.init avr dt A B H Q R P xhat : Kalman ℝ m u).run (List.replicate n (v, z)) = .ok k' ∧
          ∀ i, |k'.system_state.toMatrix i 0 - y i 0| < ε := by
  obtain ⟨L, hL⟩ := settles hQ hC hR hb
  obtain ⟨y, hy⟩ := Kalman.exists_rest (hL Q hQ) (B.toMatrix * v.toMatrix) z.toMatrix
  refine ⟨y, fun P hP xhat ε hε => ?_⟩
  obtain ⟨N, hN⟩ := Kalman.run_rest (B := B) (xhat := xhat) (hL P hP) v z y hy ε hε
  exact ⟨N, fun avr dt n hn => hN (Kalman.init avr dt A B H Q R P xhat) rfl rfl rfl rfl rfl rfl rfl n hn⟩

/-- C146: a single source of noise, which acts in the direction `q`, suffices exactly if the system moves
`q` to another direction. -/
theorem C146_one_source (A : Matrix (Fin 2) (Fin 2) ℝ) (q : Matrix (Fin 2) (Fin 1) ℝ) :
    Steady.Reaches A (q * qᵀ) ↔ q 0 0 * (A * q) 1 0 - q 1 0 * (A * q) 0 0 ≠ 0 := by
  have e : q * qᵀ + A * (q * qᵀ) * Aᵀ = q * qᵀ + (A * q) * (A * q)ᵀ := by
    rw [Matrix.transpose_mul]; simp only [Matrix.mul_assoc]
  rw [Steady.Reaches, e]
  generalize A * q = r
  have h (i j : Fin 2) : (q * qᵀ + r * rᵀ) i j = q i 0 * q j 0 + r i 0 * r j 0 := by
    simp only [Matrix.add_apply, Matrix.mul_apply, Matrix.transpose_apply, Fin.sum_univ_one]
  constructor
  · intro hp hz
    obtain ⟨-, -, hd⟩ := KF.det2_of_posDef hp
    rw [h, h, h] at hd
    have : (q 0 0 * q 0 0 + r 0 0 * r 0 0) * (q 1 0 * q 1 0 + r 1 0 * r 1 0) -
        (q 0 0 * q 1 0 + r 0 0 * r 1 0) ^ 2 = (q 0 0 * r 1 0 - q 1 0 * r 0 0) ^ 2 := by ring
    rw [hz] at this
    linarith
  · intro hz
    apply KF.posDef2
    · rw [h, h]; ring
    · rw [h]
      by_contra hn
      have h0 : q 0 0 * q 0 0 = 0 := by nlinarith [mul_self_nonneg (q 0 0), mul_self_nonneg (r 0 0)]
      have h1 : r 0 0 * r 0 0 = 0 := by nlinarith [mul_self_nonneg (q 0 0), mul_self_nonneg (r 0 0)]
      rw [mul_self_eq_zero] at h0 h1
      exact hz (by rw [h0, h1]; ring)
    · rw [h, h, h]
      have := pow_pos (abs_pos.2 hz) 2
      rw [sq_abs] at this
      nlinarith

/-- A random acceleration moves position and velocity: the direction `(1/2, 1)`. -/
example : Steady.Reaches (!![1, 1; 0, 1] : Matrix (Fin 2) (Fin 2) ℝ)
      ((!![1 / 2; 1] : Matrix (Fin 2) (Fin 1) ℝ) * (!![1 / 2; 1] : Matrix (Fin 2) (Fin 1) ℝ)ᵀ) ∧
    ¬((!![1 / 2; 1] : Matrix (Fin 2) (Fin 1) ℝ) * (!![1 / 2; 1] : Matrix (Fin 2) (Fin 1) ℝ)ᵀ).PosDef := by
  refine ⟨(C146_one_source _ _).2 ?_, fun h => ?_⟩
  · simp [Matrix.mul_apply, Fin.sum_univ_two]
  · obtain ⟨-, -, h⟩ := KF.det2_of_posDef h
    simp only [Matrix.mul_apply, Matrix.transpose_apply, Fin.sum_univ_one] at h
    norm_num at h

open KalmanSim in
/-- C146: the simulation meets the condition, for every time step and noise level other than zero. -/
theorem C146_simulation (p : Params ℝ) (hd : p.dt ≠ 0) (ha : p.accelnoise ≠ 0) (A Q)
    (hA : sysA p = .ok A) (hQ : sysQ p = .ok Q) :
    Q.toMatrix.PosSemidef ∧ Steady.Reaches A.toMatrix Q.toMatrix ∧ ¬Q.toMatrix.PosDef := by
  have eA : mA p = A := Except.ok.inj ((sysA_eq p).symm.trans hA)
  have eQ : mQ p = Q := Except.ok.inj ((sysQ_eq p).symm.trans hQ)
  subst eA eQ
  have e : (mQ p).toMatrix = !![p.dt ^ 2 / 2 * p.accelnoise; p.dt * p.accelnoise] *
      !![p.dt ^ 2 / 2 * p.accelnoise; p.dt * p.accelnoise]ᵀ := by
    rw [mQ_mat]
    ext i j
    rw [Matrix.mul_apply, Fin.sum_univ_one]
    fin_cases i <;> fin_cases j <;> simp <;> ring
  refine ⟨mQ_psd p, ?_, fun h => ?_⟩
  · rw [e, C146_one_source, mA_mat]
    simp only [Matrix.mul_apply, Fin.sum_univ_two]
    simp
    intro h
    apply mul_ne_zero (pow_ne_zero 3 hd) (pow_ne_zero 2 ha)
    linear_combination -h
  · obtain ⟨-, -, h⟩ := KF.det2_of_posDef h
    rw [e] at h
    simp only [Matrix.mul_apply, Matrix.transpose_apply, Fin.sum_univ_one] at h
    simp at h
    nlinarith

open KalmanSim in
/-- With the numbers of the example program the simulation meets all hypotheses of the theorems above, and
the process noise covariance is singular. -/
example : ∃ (A Q : Mat ℝ 2 2) (H : Mat ℝ 1 2) (R : Mat ℝ 1 1), Q.toMatrix.PosSemidef ∧
    Steady.Reaches A.toMatrix Q.toMatrix ∧ R.toMatrix.PosDef ∧
    Steady.Bounded A.toMatrix H.toMatrix Q.toMatrix R.toMatrix ∧ ¬Q.toMatrix.PosDef := by
  have h := C146_simulation ⟨1, 10, 1 / 5⟩ one_ne_zero (by norm_num) _ _ (sysA_eq _) (sysQ_eq _)
  have hR := mR_posDef ⟨1, 10, 1 / 5⟩ (by norm_num : (10 : ℝ) ≠ 0)
  refine ⟨mA ⟨1, 10, 1 / 5⟩, mQ ⟨1, 10, 1 / 5⟩, mH, mR ⟨1, 10, 1 / 5⟩, h.1, h.2.1, hR,
    C96_bounded_of_observable _ _ _ _ h.1 hR.posSemidef ?_, h.2.2⟩
  rw [mA_mat, mH_mat]
  simp [Matrix.mul_apply, Fin.sum_univ_two]

/-- C146: the condition cannot be dropped.  Here there is no process noise and every state doubles in each
step: some gain keeps the error bounded, but there are two steady covariances. -/
theorem C146_needed : ∃ A H Q R : Matrix (Fin 2) (Fin 2) ℝ, Q.PosSemidef ∧ R.PosDef ∧
    Steady.Bounded A H Q R ∧ ∃ L L', Steady.Cov A H Q R L ∧ Steady.Cov A H Q R L' ∧ L ≠ L' := by
  refine ⟨(2 : ℝ) • 1, 1, 0, 1, .zero, .one, KF.bound_of_invertible .zero Matrix.PosSemidef.one (by simp), 0,
    (3 / 4 : ℝ) • 1, ⟨.zero, by simp⟩, ⟨Matrix.PosSemidef.one.smul (by norm_num), ?_⟩, fun h => ?_⟩
  · have e : ((2 : ℝ) • 1 : Matrix (Fin 2) (Fin 2) ℝ) * ((3 / 4 : ℝ) • 1) * ((2 : ℝ) • 1)ᵀ + 0 = (3 : ℝ) • 1 := by
      simp [smul_smul]; norm_num
    rw [e]
    have e2 : (1 * ((3 : ℝ) • 1) * 1ᵀ + 1 : Matrix (Fin 2) (Fin 2) ℝ)⁻¹ = (1 / 4 : ℝ) • 1 := by
      apply Matrix.inv_eq_right_inv
      simp only [Matrix.transpose_one, Matrix.one_mul, Matrix.mul_one, Matrix.add_mul, Matrix.smul_mul, smul_smul]
      rw [← add_smul]; norm_num
    rw [e2]
    simp only [Matrix.transpose_one, Matrix.mul_one, Matrix.mul_smul, smul_smul]
    rw [← sub_smul]; norm_num
  · have := congrFun (congrFun h 0) 0
    norm_num at this

end Verif
