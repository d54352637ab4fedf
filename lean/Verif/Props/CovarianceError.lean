import Verif.Model.CovarianceError
import Verif.Props.KalmanSim
import Verif.Props.Ieee
import Verif.Lemmas.KalmanAlgebra
import Verif.Lemmas.Kalman

/- Properties of example/desktop/covariance-error.e.cpp: C108. -/

namespace Verif
open CovarianceError Matrix Ieee
open scoped Matrix

namespace CovarianceError
section
variable {T : Type} [CommRing T] [CNum T] [ExactRing T]

theorem simplified_mat (K : Mat T 2 1) (H : Mat T 1 2) (P : Mat T 2 2) :
    ∃ C, simplified K H P = .ok C ∧ C.toMatrix = P.toMatrix - K.toMatrix * H.toMatrix * P.toMatrix := by
  obtain ⟨a, ha, ha'⟩ := Mat.outer_mat K H
  obtain ⟨b, hb, hb'⟩ := Mat.mul_square a P
  obtain ⟨c, hc, hc'⟩ := Mat.sub_mat P b
  refine ⟨c, ?_, by rw [hc', hb', ha']⟩
  rw [simplified, ha, bind_ok, hb, bind_ok, hc]

theorem joseph_mat (K : Mat T 2 1) (H : Mat T 1 2) (R : T) (P : Mat T 2 2) :
    ∃ C, joseph K H R P = .ok C ∧ C.toMatrix =
      (1 - K.toMatrix * H.toMatrix) * P.toMatrix * (1 - K.toMatrix * H.toMatrix)ᵀ + R • (K.toMatrix * K.toMatrixᵀ) := by
  obtain ⟨e, he, he'⟩ := Mat.eye_mat (T := T) 2
  obtain ⟨a, ha, ha'⟩ := Mat.outer_mat K H
  obtain ⟨A, hA, hA'⟩ := Mat.sub_mat e a
  obtain ⟨b, hb, hb'⟩ := Mat.mul_square A P
  obtain ⟨c, hc, hc'⟩ := Mat.transposed22_mat A
  obtain ⟨d, hd, hd'⟩ := Mat.mul_square b c
  obtain ⟨f, hf, hf'⟩ := Mat.mulS_mat K R
  obtain ⟨g, hg, hg'⟩ := Mat.transposedCol_spec K
  have hg'' : g.toMatrix = K.toMatrixᵀ := by
    ext i j
    have : i = 0 := Subsingleton.elim _ _
    subst this
    exact hg' j
  obtain ⟨o, ho, ho'⟩ := Mat.outer_mat f g
  obtain ⟨r, hr, hr'⟩ := Mat.add_mat d o
  refine ⟨r, ?_, by rw [hr', hd', hb', hc', ho', hf', hg'', hA', he', ha', Matrix.smul_mul]⟩
  rw [joseph, he, bind_ok, ha, bind_ok, hA, bind_ok, hb, bind_ok, hc, bind_ok, hd, bind_ok, hf, bind_ok, hg, bind_ok,
    ho, bind_ok, hr]

end
end CovarianceError

/-- **C108** The two forms for an arbitrary gain `K`: they differ by `(K S - P Hᵀ) Kᵀ`, where `S = H P Hᵀ + R`. -/
theorem C108_difference {T : Type} [CommRing T] [CNum T] [ExactRing T] (K : Mat T 2 1) (H : Mat T 1 2) (R : T)
    (P : Mat T 2 2) :
    ∃ S J, simplified K H P = .ok S ∧ joseph K H R P = .ok J ∧
      J.toMatrix - S.toMatrix =
        (K.toMatrix * (H.toMatrix * P.toMatrix * H.toMatrixᵀ + !![R]) - P.toMatrix * H.toMatrixᵀ) * K.toMatrixᵀ := by
  obtain ⟨S, hS, hS'⟩ := simplified_mat K H P
  obtain ⟨J, hJ, hJ'⟩ := joseph_mat K H R P
  refine ⟨S, J, hS, hJ, ?_⟩
  rw [hS', hJ', show R • (K.toMatrix * K.toMatrixᵀ) = K.toMatrix * !![R] * K.toMatrixᵀ by
    ext i j; simp [Matrix.mul_apply]; ring]
  simp only [Matrix.transpose_sub, Matrix.transpose_one, Matrix.transpose_mul, Matrix.sub_mul, Matrix.mul_sub,
    Matrix.one_mul, Matrix.mul_one, Matrix.mul_add, Matrix.add_mul, Matrix.mul_assoc]
  abel

/-- **C108** Over the real numbers, the two forms agree exactly if the gain is zero or optimal. -/
theorem C108_equal_iff (K : Mat ℝ 2 1) (H : Mat ℝ 1 2) (R : ℝ) (P : Mat ℝ 2 2) :
    simplified K H P = joseph K H R P ↔ K.toMatrix = 0 ∨
      K.toMatrix * (H.toMatrix * P.toMatrix * H.toMatrixᵀ + !![R]) = P.toMatrix * H.toMatrixᵀ := by
  obtain ⟨S, J, hS, hJ, h⟩ := C108_difference K H R P
  rw [hS, hJ]
  have e : (Except.ok S : Res (Mat ℝ 2 2)) = Except.ok J ↔ J.toMatrix - S.toMatrix = 0 := by
    refine ⟨fun h => ?_, fun h => congrArg _ (Mat.toMatrix_inj (sub_eq_zero.1 h).symm)⟩
    cases h
    simp
  rw [e, h]
  generalize K.toMatrix = k
  rw [← sub_eq_zero (a := k * _)]
  generalize k * (H.toMatrix * P.toMatrix * H.toMatrixᵀ + !![R]) - P.toMatrix * H.toMatrixᵀ = x
  constructor
  · intro hx
    by_contra hne
    rw [not_or] at hne
    obtain ⟨h1, h2⟩ := hne
    obtain ⟨i, hi⟩ : ∃ i, k i 0 ≠ 0 := by
      by_contra hk
      push Not at hk
      exact h1 (by ext i j; rw [Subsingleton.elim j 0]; exact hk i)
    obtain ⟨j, hj⟩ : ∃ j, x j 0 ≠ 0 := by
      by_contra hk
      push Not at hk
      exact h2 (by ext i j; rw [Subsingleton.elim j 0]; exact hk i)
    have := congrFun (congrFun hx j) i
    simp [Matrix.mul_apply, hi, hj] at this
  · rintro (rfl | rfl) <;> simp

/-- **C108** Joseph's form keeps a covariance symmetric and positive semidefinite, whatever the gain. -/
theorem C108_joseph_psd (K : Mat ℝ 2 1) (H : Mat ℝ 1 2) {R : ℝ} (hR : 0 ≤ R) {P : Mat ℝ 2 2}
    (hP : P.toMatrix.PosSemidef) :
    ∃ J, joseph K H R P = .ok J ∧ J.toMatrix.PosSemidef := by
  obtain ⟨J, hJ, hJ'⟩ := joseph_mat K H R P
  refine ⟨J, hJ, ?_⟩
  rw [hJ']
  refine (KF.psd_congr hP _).add ((?_ : (K.toMatrix * K.toMatrixᵀ).PosSemidef).smul hR)
  have := KF.psd_congr (Matrix.PosSemidef.one (n := Fin 1) (R := ℝ)) K.toMatrix
  rwa [Matrix.mul_one] at this

/-- Gains, covariances and noise that meet the hypotheses, for which the two forms differ. -/
example : ∃ (K : Mat ℝ 2 1) (H : Mat ℝ 1 2) (P : Mat ℝ 2 2), P.toMatrix.PosSemidef ∧
    simplified K H P ≠ joseph K H 1 P := by
  refine ⟨⟨#v[1, 0]⟩, ⟨#v[1, 0]⟩, Mat.mk22 1 0 0 1, ?_, fun h => ?_⟩
  · rw [Mat.toMatrix_mk22, ← Matrix.one_fin_two]
    exact Matrix.PosSemidef.one
  · rcases (C108_equal_iff _ _ _ _).1 h with h | h
    · exact one_ne_zero (congrFun (congrFun h 0) 0)
    · have := congrFun (congrFun h 0) 0
      simp only [Matrix.mul_apply, Matrix.add_apply, Fin.sum_univ_two, Fin.sum_univ_one, Matrix.transpose_apply] at this
      simp [Mat.toMatrix, Mat.get, Mat.mk22] at this

namespace CovarianceError
open KalmanSim

theorem pass_real {R k : ℝ} (hR : 0 ≤ R) (s : State ℝ) (h : s.PJ.toMatrix.PosSemidef) :
    ∃ s', pass (1 / 10) ⟨#v[1, 0]⟩ R k s = .ok s' ∧ s'.PJ.toMatrix.PosSemidef ∧
      s'.P.get 0 0 = (9 / 10 - k) * s.P.get 0 0 := by
  have hK : gain (1 / 10 : ℝ) k = .ok ⟨#v[1 / 10 + k, 1 / 10 + k]⟩ := rfl
  obtain ⟨S, hS, hS'⟩ := simplified_mat ⟨#v[1 / 10 + k, 1 / 10 + k]⟩ (⟨#v[1, 0]⟩ : Mat ℝ 1 2) s.P
  obtain ⟨J, hJ, hJ'⟩ := C108_joseph_psd ⟨#v[1 / 10 + k, 1 / 10 + k]⟩ ⟨#v[1, 0]⟩ hR h
  refine ⟨⟨S, J⟩, ?_, hJ', ?_⟩
  · rw [pass, hK, bind_ok, hS, bind_ok, hJ, bind_ok]
  · have := congrFun (congrFun hS' 0) 0
    simp only [Matrix.sub_apply, Matrix.mul_apply, Fin.sum_univ_two, Fin.sum_univ_one] at this
    simp [Mat.toMatrix, Mat.get] at this ⊢
    linarith

theorem loop_real {R : ℝ} (hR : 0 ≤ R) {more : ℝ → Bool} (hm : ∀ k, more k = true ↔ 1 / 1000 < k) (n : Nat) :
    ∀ i fuel s, i + n = 10 → n < fuel → s.PJ.toMatrix.PosSemidef →
      ∃ s', loop more (1 / 10) ⟨#v[1, 0]⟩ R fuel (1 / 2 ^ i) s = .ok s' ∧ s'.PJ.toMatrix.PosSemidef ∧
        s'.P.get 0 0 = (∏ j ∈ Finset.range n, (9 / 10 - 1 / 2 ^ (i + j))) * s.P.get 0 0 := by
  induction n with
  | zero =>
    intro i fuel s hi hf h
    obtain ⟨fuel, rfl⟩ : ∃ k, fuel = k + 1 := ⟨fuel - 1, by omega⟩
    obtain rfl : i = 10 := hi
    have : ¬ more (1 / 2 ^ 10) = true := by rw [hm]; norm_num
    exact ⟨s, by rw [loop, if_neg this], h, by simp⟩
  | succ n ih =>
    intro i fuel s hi hf h
    obtain ⟨fuel, rfl⟩ : ∃ k, fuel = k + 1 := ⟨fuel - 1, by omega⟩
    have : more (1 / 2 ^ i) = true := by
      rw [hm, one_div_lt_one_div (by norm_num) (by positivity)]
      calc (2 : ℝ) ^ i ≤ 2 ^ 9 := pow_le_pow_right₀ (by norm_num) (by omega)
        _ < 1000 := by norm_num
    obtain ⟨s1, e1, h1, g1⟩ := pass_real (k := 1 / 2 ^ i) hR s h
    obtain ⟨s2, e2, h2, g2⟩ := ih (i + 1) fuel s1 (by omega) (by omega) h1
    have hl : (CLit.lit 2 : Res ℝ) = .ok 2 := congrArg Except.ok (Int.cast_ofNat 2)
    have hd : CNum.div (1 / 2 ^ i : ℝ) 2 = .ok (1 / 2 ^ (i + 1)) := by
      rw [div_two, pow_succ, div_div]
    refine ⟨s2, ?_, h2, ?_⟩
    · rw [loop, if_pos this, e1, bind_ok, hl, bind_ok, hd, bind_ok, e2]
    · rw [g2, g1, Finset.prod_range_succ']
      simp only [Nat.add_assoc, Nat.add_comm 1, Nat.add_zero]
      ring

end CovarianceError

/-- **C108** The program, for all time steps and noise parameters: the loop makes ten passes; in exact arithmetic `PJ` is
positive semidefinite at the end (as after every pass), whereas the variance `P(0,0)` has become negative. -/
theorem C108_program_wrong (p : KalmanSim.Params ℝ) (hdt : p.dt ≠ 0) (ha : p.accelnoise ≠ 0) {more : ℝ → Bool}
    (hm : ∀ k, more k = true ↔ 1 / 1000 < k) {fuel : Nat} (hf : 10 < fuel) :
    ∃ s, program more (1 / 10) p fuel = .ok s ∧ s.PJ.toMatrix.PosSemidef ∧ s.P.get 0 0 < 0 := by
  have hl : (CLit.lit 1 : Res ℝ) = .ok (1 / 2 ^ 0) := congrArg Except.ok (by simp)
  have hQ := KalmanSim.mQ_psd p
  obtain ⟨s, e, h, g⟩ := loop_real (mul_self_nonneg p.measnoise) hm 10 0 fuel ⟨KalmanSim.mQ p, KalmanSim.mQ p⟩ rfl hf hQ
  refine ⟨s, ?_, h, ?_⟩
  · rw [program, KalmanSim.sysH_eq, bind_ok, ExactRing.mul_eq, bind_ok, KalmanSim.sysQ_eq, bind_ok, hl, bind_ok]
    exact e
  · rw [g]
    have h0 : 0 < (KalmanSim.mQ p).get 0 0 := by
      show 0 < p.dt * p.dt * p.dt * p.dt / 4 * (p.accelnoise * p.accelnoise)
      have := mul_self_pos.2 hdt
      have := mul_self_pos.2 ha
      rw [mul_assoc (p.dt * p.dt)]
      positivity
    refine mul_neg_of_neg_of_pos ?_ h0
    simp only [Finset.prod_range_succ, Finset.prod_range_zero]
    norm_num

example : ∃ (p : KalmanSim.Params ℝ) (more : ℝ → Bool), p.dt ≠ 0 ∧ p.accelnoise ≠ 0 ∧
    ∀ k, more k = true ↔ 1 / 1000 < k := by
  classical
  exact ⟨⟨1, 14 / 100, 1 / 5⟩, fun k => decide (1 / 1000 < k), by norm_num, by norm_num, fun k => by simp⟩

/-- **C108** The program as written, in `float`: the variance is negative at the end, and not even `PJ` is symmetric. -/
theorem C108_float_wrong : ∃ (t : Flt binary32) (p : KalmanSim.Params (Flt binary32))
    (s : CovarianceError.State (Flt binary32)),
    RoundsTo _ (1 / 10) t ∧ p.dt.val = 1 ∧ RoundsTo _ (14 / 100) p.measnoise ∧ RoundsTo _ (1 / 5) p.accelnoise ∧
      program (fun k => decide ((1 : ℚ) / 1000 < k.val)) t p 11 = .ok s ∧ (s.P.get 0 0).val < 0 ∧
      s.PJ.get 0 1 ≠ s.PJ.get 1 0 := by
  obtain ⟨t, et, ht⟩ := (Flt.ofRat_correct (f := binary32) (1 / 10)).1 (by decide +kernel)
  obtain ⟨m, em, hm⟩ := (Flt.ofRat_correct (f := binary32) (14 / 100)).1 (by decide +kernel)
  obtain ⟨a, ea, ha⟩ := (Flt.ofRat_correct (f := binary32) (1 / 5)).1 (by decide +kernel)
  have h : Res.yields (do
      let t ← Flt.ofRat binary32 (1 / 10)
      let m ← Flt.ofRat binary32 (14 / 100)
      let a ← Flt.ofRat binary32 (1 / 5)
      program (fun k => decide ((1 : ℚ) / 1000 < k.val)) t ⟨.lit _ 1 0 (by decide +kernel), m, a⟩ 11)
      (fun s => decide ((s.P.get 0 0).val < 0) && s.PJ.get 0 1 != s.PJ.get 1 0) = true := by
    decide +kernel
  rw [et, em, ea] at h
  simp only [bind_ok] at h
  obtain ⟨s, h1, h2⟩ := Res.of_yields h
  rw [Bool.and_eq_true, decide_eq_true_iff] at h2
  exact ⟨t, _, s, ht, by norm_num [Flt.lit], hm, ha, h1, h2.1, by simpa using h2.2⟩

end Verif
