import Verif.Lemmas.MatrixMore
import Verif.Spec.Kalman

/- The estimator's steps as equations between mathematical matrices. -/

namespace Verif
open Matrix
namespace Mat
variable {T : Type} {N M : Nat}

section ring
variable [CommRing T] [CNum T] [ExactRing T]

omit [CommRing T] [CNum T] [ExactRing T] in
/-- An element-wise loop over an exact ring succeeds. -/
theorem elementwise_ring (g : Nat → Res T) (f : Fin N → Fin M → T) (init : Mat T N M)
    (hg : ∀ i j, g (i.val * M + j.val) = .ok (f i j)) :
    ∃ C : Mat T N M, forRange (N * M) (fun i result => do result.setIdx i (← g i)) init = .ok C ∧
      ∀ i j, C.get i j = f i j := by
  have h := elementwise g (fun i j => .ok (f i j)) init hg
  cases hr : forRange (N * M) (fun i result => do result.setIdx i (← g i)) init with
  | error e =>
    obtain ⟨i, j, hij⟩ := h.2 e hr
    cases hij
  | ok C =>
    exact ⟨C, rfl, fun i j => (Except.ok.inj ((h.1 C).1 hr i j)).symm⟩

theorem add_mat (A B : Mat T N M) :
    ∃ C : Mat T N M, A.add B = .ok C ∧ C.toMatrix = A.toMatrix + B.toMatrix := by
  obtain ⟨C, hC, h⟩ := elementwise_ring (N := N) (M := M)
    (fun k => do CNum.add (← A.idx k) (← B.idx k)) (fun i j => A.get i j + B.get i j)
    (fill N M CNum.zero) (fun i j => by rw [idx_get, idx_get, bind_ok, bind_ok, ExactRing.add_eq])
  simp only [bind_assoc] at hC
  exact ⟨C, hC, by ext i j; exact h i j⟩

theorem sub_mat (A B : Mat T N M) :
    ∃ C : Mat T N M, A.sub B = .ok C ∧ C.toMatrix = A.toMatrix - B.toMatrix := by
  obtain ⟨C, hC, h⟩ := elementwise_ring (N := N) (M := M)
    (fun k => do CNum.sub (← A.idx k) (← B.idx k)) (fun i j => A.get i j - B.get i j)
    (fill N M CNum.zero) (fun i j => by rw [idx_get, idx_get, bind_ok, bind_ok, ExactRing.sub_eq])
  simp only [bind_assoc] at hC
  exact ⟨C, hC, by ext i j; exact h i j⟩

theorem mulS_mat (A : Mat T N M) (v : T) :
    ∃ C : Mat T N M, A.mulS v = .ok C ∧ C.toMatrix = v • A.toMatrix := by
  obtain ⟨C, hC, h⟩ := elementwise_ring (N := N) (M := M)
    (fun k => do CNum.mul (← A.idx k) v) (fun i j => A.get i j * v)
    (fill N M CNum.zero) (fun i j => by rw [idx_get, bind_ok, ExactRing.mul_eq])
  simp only [bind_assoc] at hC
  refine ⟨C, hC, ?_⟩
  ext i j
  rw [Matrix.smul_apply, smul_eq_mul, mul_comm]
  exact h i j

theorem mulVec_mat (A : Mat T N N) (x : ColVec T N) :
    ∃ y : ColVec T N, A.mulVec x = .ok y ∧ y.toMatrix = A.toMatrix * x.toMatrix := by
  obtain ⟨y, hy, h⟩ := mulVec_spec A x le_rfl
  refine ⟨y, hy, ?_⟩
  ext i j
  have : j = 0 := Subsingleton.elim _ _
  subst this
  exact h i

theorem vecMul_mat (x : RowVec T N) (A : Mat T N N) :
    ∃ y : RowVec T N, x.vecMul A = .ok y ∧ y.toMatrix = x.toMatrix * A.toMatrix := by
  obtain ⟨y, hy, h⟩ := vecMul_spec x A le_rfl
  refine ⟨y, hy, ?_⟩
  ext i j
  have : i = 0 := Subsingleton.elim _ _
  subst this
  have := h j
  rw [dif_pos j.2] at this
  rw [Matrix.mul_apply]
  exact this.trans (Finset.sum_congr rfl fun k _ => mul_comm _ _)

theorem dot_mat (a : RowVec T N) (b : ColVec T N) :
    a.dot b = .ok ((a.toMatrix * b.toMatrix) 0 0) := dot_spec a b

theorem outer_mat (a : ColVec T N) (b : RowVec T N) :
    ∃ C : Mat T N N, a.outer b = .ok C ∧ C.toMatrix = a.toMatrix * b.toMatrix := by
  obtain ⟨C, hC, h⟩ := outer_spec a b
  refine ⟨C, hC, ?_⟩
  ext i j
  rw [Matrix.mul_apply, Fin.sum_univ_one]
  exact h i j

omit [CommRing T] [ExactRing T] in
theorem transposedRow_mat (x : RowVec T N) :
    ∃ y : ColVec T N, x.transposedRow = .ok y ∧ y.toMatrix = x.toMatrixᵀ := by
  obtain ⟨y, hy, h⟩ := transposedRow_spec x
  refine ⟨y, hy, ?_⟩
  ext i j
  have : j = 0 := Subsingleton.elim _ _
  subst this
  exact h i

omit [CommRing T] [CNum T] [ExactRing T] in
theorem transposed22_mat (A : Mat T 2 2) :
    ∃ C : Mat T 2 2, A.transposed22 = .ok C ∧ C.toMatrix = A.toMatrixᵀ := by
  obtain ⟨y, hy, h⟩ := transposed22_spec A
  exact ⟨y, hy, by ext i j; exact h i j⟩

theorem eye_mat (N : Nat) : ∃ C : Mat T N N, eye T N = .ok C ∧ C.toMatrix = 1 := by
  obtain ⟨I, hI, h⟩ := eye_spec (T := T) N
  refine ⟨I, hI, ?_⟩
  ext i j
  rw [Matrix.one_apply]
  exact h i j

omit [CNum T] [ExactRing T] in
/-- A scalar times a one-column matrix is a product with a 1x1 matrix. -/
theorem smul_eq_mul_one_one {n : Type} (c : Matrix (Fin 1) (Fin 1) T) (A : Matrix n (Fin 1) T) :
    c 0 0 • A = A * c := by
  ext i j
  have : j = 0 := Subsingleton.elim _ _
  subst this
  rw [Matrix.mul_apply, Fin.sum_univ_one, Matrix.smul_apply, smul_eq_mul, mul_comm]

end ring

section field
variable [Field T] [CNum T] [ExactField T]

theorem inverted22_mat (A : Mat T 2 2) (h : A.toMatrix.det ≠ 0) :
    ∃ C : Mat T 2 2, A.inverted22 = .ok C ∧ C.toMatrix = (A.toMatrix⁻¹)ᵀ := by
  have hd : A.toMatrix.det = A.det22 := by rw [Matrix.det_fin_two]; rfl
  refine ⟨_, inverted22_ok A (hd ▸ h), ?_⟩
  rw [← Matrix.transpose_transpose (mk22 _ _ _ _).toMatrix]
  congr 1
  symm
  apply Matrix.inv_eq_left_inv
  rw [hd] at h
  rw [toMatrix_mk22, toMatrix22 A, transpose22, Matrix.mul_fin_two, Matrix.one_fin_two]
  congr! <;> field_simp <;> unfold det22 <;> ring

theorem inverted22_err (A : Mat T 2 2) (h : A.toMatrix.det = 0) :
    A.inverted22 = .error .divByZero := by
  have hd : A.toMatrix.det = A.det22 := by rw [Matrix.det_fin_two]; rfl
  exact inverted22_div0 A (hd ▸ h)

theorem invertedS_eq (v : T) : invertedS v = .ok v⁻¹ := by
  unfold invertedS
  by_cases h : v = 0
  · have : ¬ CNum.isNonZero v = true := by rw [ExactField.isNonZero_iff]; simpa using h
    rw [if_neg this, ExactRing.zero_eq, h, _root_.inv_zero]
  · rw [if_pos ((ExactField.isNonZero_iff v).2 h), ExactRing.one_eq, ExactField.div_eq _ _ h, one_div]

omit [CNum T] [ExactField T] in
theorem inv_one_one (S : Matrix (Fin 1) (Fin 1) T) : S⁻¹ 0 0 = (S 0 0)⁻¹ := by
  rw [Matrix.inv_subsingleton, Matrix.diagonal_apply_eq, Ring.inverse_eq_inv']

end field
end Mat

namespace Kalman
open Mat
variable {T : Type} {m u : Dim}

section ring
variable [CommRing T] [CNum T] [ExactRing T]

theorem control_mat (u : Dim) (B : Mat T 2 u.val) (v : ColVec T u.val) :
    ∃ y : ColVec T 2, control u B v = .ok y ∧ y.toMatrix = B.toMatrix * v.toMatrix := by
  cases u with
  | two => exact mulVec_mat B v
  | one =>
    obtain ⟨y, hy, h⟩ := mulS_mat B (v.get 0 0)
    refine ⟨y, ?_, ?_⟩
    · have hv : Mat.idx v 0 = .ok (v.get 0 0) := idx_get v 0 0
      show (do B.mulS (← v.idx 0)) = _
      rw [hv, bind_ok, hy]
    · rw [h]
      exact smul_eq_mul_one_one v.toMatrix B.toMatrix

theorem predictState_mat (A : Mat T 2 2) (B : Mat T 2 u.val) (x : ColVec T 2) (v : ColVec T u.val) :
    ∃ y : ColVec T 2, predictState A B x v = .ok y ∧
      y.toMatrix = A.toMatrix * x.toMatrix + B.toMatrix * v.toMatrix := by
  obtain ⟨a, ha, ea⟩ := mulVec_mat A x
  obtain ⟨b, hb, eb⟩ := control_mat u B v
  obtain ⟨c, hc, ec⟩ := add_mat a b
  refine ⟨c, ?_, by rw [ec, ea, eb]⟩
  unfold predictState
  rw [ha, bind_ok, hb, bind_ok, hc]

theorem predictCov_mat (A P Q : Mat T 2 2) :
    ∃ y : Mat T 2 2, predictCov A P Q = .ok y ∧
      y.toMatrix = A.toMatrix * P.toMatrix * A.toMatrixᵀ + Q.toMatrix := by
  obtain ⟨a, ha, ea⟩ := mul_square A P
  obtain ⟨b, hb, eb⟩ := transposed22_mat A
  obtain ⟨c, hc, ec⟩ := mul_square a b
  obtain ⟨d, hd, ed⟩ := add_mat c Q
  refine ⟨d, ?_, by rw [ed, ec, ea, eb]⟩
  unfold predictCov
  rw [ha, bind_ok, hb, bind_ok, hc, bind_ok, hd]

theorem correctState_mat (m : Dim) (x : ColVec T 2) (K : Mat T 2 m.val) (H : Mat T m.val 2)
    (z : ColVec T m.val) :
    ∃ y : ColVec T 2, correctState m x K H z = .ok y ∧
      y.toMatrix = x.toMatrix + K.toMatrix * (z.toMatrix - H.toMatrix * x.toMatrix) := by
  cases m with
  | two =>
    obtain ⟨a, ha, ea⟩ := mulVec_mat H x
    obtain ⟨b, hb, eb⟩ := sub_mat z a
    obtain ⟨c, hc, ec⟩ := mulVec_mat K b
    obtain ⟨d, hd, ed⟩ := add_mat x c
    refine ⟨d, ?_, by rw [ed, ec, eb, ea]⟩
    show (do Mat.add x (← K.mulVec (← z.sub (← H.mulVec x)))) = _
    rw [ha, bind_ok, hb, bind_ok, hc, bind_ok, hd]
  | one =>
    have ha := dot_mat H x
    have hz : z.idx 0 = .ok (z.get 0 0) := idx_get z 0 0
    have hs : z.sub11s ((H.toMatrix * x.toMatrix) 0 0) =
        .ok ((z.toMatrix - H.toMatrix * x.toMatrix) 0 0) := by
      unfold sub11s
      rw [hz, bind_ok, ExactRing.sub_eq]
      rfl
    obtain ⟨c, hc, ec⟩ := mulS_mat K ((z.toMatrix - H.toMatrix * x.toMatrix) 0 0)
    obtain ⟨d, hd, ed⟩ := add_mat x c
    refine ⟨d, ?_, ?_⟩
    · show (do Mat.add x (← K.mulS (← z.sub11s (← H.dot x)))) = _
      rw [ha, bind_ok, hs, bind_ok, hc, bind_ok, hd]
    · rw [ed, ec]
      congr 1
      exact smul_eq_mul_one_one _ _

theorem gainH_mat (m : Dim) (K : Mat T 2 m.val) (H : Mat T m.val 2) :
    ∃ y : Mat T 2 2, gainH m K H = .ok y ∧ y.toMatrix = K.toMatrix * H.toMatrix := by
  cases m with
  | two => exact mul_square K H
  | one => exact outer_mat K H

theorem correctCov_mat (m : Dim) (K : Mat T 2 m.val) (H : Mat T m.val 2) (P : Mat T 2 2) :
    ∃ y : Mat T 2 2, correctCov m K H P = .ok y ∧
      y.toMatrix = (1 - K.toMatrix * H.toMatrix) * P.toMatrix := by
  obtain ⟨a, ha, ea⟩ := eye_mat (T := T) 2
  obtain ⟨b, hb, eb⟩ := gainH_mat m K H
  obtain ⟨c, hc, ec⟩ := sub_mat a b
  obtain ⟨d, hd, ed⟩ := mul_square c P
  refine ⟨d, ?_, by rw [ed, ec, ea, eb]⟩
  unfold correctCov
  rw [ha, bind_ok, hb, bind_ok, hc, bind_ok, hd]

end ring

section field
variable [Field T] [CNum T] [ExactField T]

/-- The gain with one measurement; the guard of `inverted` matches Mathlib's convention that a
singular matrix has inverse 0. -/
theorem gain_one (P : Mat T 2 2) (H : Mat T 1 2) (R : Mat T 1 1) :
    ∃ K : Mat T 2 1, gain .one P H R = .ok K ∧
      K.toMatrix = P.toMatrix * H.toMatrixᵀ *
        (H.toMatrix * P.toMatrix * H.toMatrixᵀ + R.toMatrix)⁻¹ := by
  obtain ⟨a, ha, ea⟩ := transposedRow_mat H
  obtain ⟨b, hb, eb⟩ := mulVec_mat P a
  obtain ⟨c, hc, ec⟩ := vecMul_mat H P
  have hd := dot_mat c a
  have hR : R.idx 0 = .ok (R.get 0 0) := idx_get R 0 0
  have hs : R.add11s ((c.toMatrix * a.toMatrix) 0 0) =
      .ok ((H.toMatrix * P.toMatrix * H.toMatrixᵀ + R.toMatrix) 0 0) := by
    unfold add11s
    rw [hR, bind_ok, ExactRing.add_eq, Matrix.add_apply, ec, ea, add_comm]
    rfl
  obtain ⟨d, hd', ed⟩ := mulS_mat b
    ((H.toMatrix * P.toMatrix * H.toMatrixᵀ + R.toMatrix) 0 0)⁻¹
  refine ⟨d, ?_, ?_⟩
  · show (do
      let PHt ← P.mulVec (← H.transposedRow)
      let HPHt ← Mat.dot (← H.vecMul P) (← H.transposedRow)
      PHt.mulS (← Mat.invertedS (← R.add11s HPHt))) = _
    rw [ha, bind_ok, hb, bind_ok, hc, bind_ok, bind_ok, hd, bind_ok, hs, bind_ok, invertedS_eq,
      bind_ok, hd']
  · rw [ed, ← inv_one_one, smul_eq_mul_one_one, eb, ea]

theorem gain_two (P : Mat T 2 2) (H : Mat T 2 2) (R : Mat T 2 2) :
    ((H.toMatrix * P.toMatrix * H.toMatrixᵀ + R.toMatrix).det ≠ 0 →
      ∃ K : Mat T 2 2, gain .two P H R = .ok K ∧
        K.toMatrix = P.toMatrix * H.toMatrixᵀ *
          ((H.toMatrix * P.toMatrix * H.toMatrixᵀ + R.toMatrix)⁻¹)ᵀ) ∧
    ((H.toMatrix * P.toMatrix * H.toMatrixᵀ + R.toMatrix).det = 0 →
      gain .two P H R = .error .divByZero) := by
  obtain ⟨a, ha, ea⟩ := transposed22_mat H
  obtain ⟨b, hb, eb⟩ := mul_square P a
  obtain ⟨c, hc, ec⟩ := mul_square H P
  obtain ⟨d, hd, ed⟩ := mul_square c a
  obtain ⟨s, hs, es⟩ := add_mat d R
  have eS : s.toMatrix = H.toMatrix * P.toMatrix * H.toMatrixᵀ + R.toMatrix := by
    rw [es, ed, ec, ea]
  rw [← eS]
  constructor
  · intro h
    obtain ⟨i, hi, ei⟩ := inverted22_mat s h
    obtain ⟨K, hK, eK⟩ := mul_square b i
    refine ⟨K, ?_, by rw [eK, eb, ea, ei]⟩
    show (do
      let PHt ← P.mul (← H.transposed22)
      let HPHt ← Mat.mul (← H.mul P) (← H.transposed22)
      PHt.mul (← Mat.inverted22 (← HPHt.add R))) = _
    rw [ha, bind_ok, hb, bind_ok, hc, bind_ok, bind_ok, hd, bind_ok, hs, bind_ok, hi, bind_ok, hK]
  · intro h
    have hi := inverted22_err s h
    show (do
      let PHt ← P.mul (← H.transposed22)
      let HPHt ← Mat.mul (← H.mul P) (← H.transposed22)
      PHt.mul (← Mat.inverted22 (← HPHt.add R))) = _
    rw [ha, bind_ok, hb, bind_ok, hc, bind_ok, bind_ok, hd, bind_ok, hs, bind_ok, hi]
    rfl

omit [CNum T] [ExactField T] in
/-- Transposing the inverse of a symmetric matrix changes nothing. -/
theorem inv_transpose_of_symm {n : Type} [Fintype n] [DecidableEq n] (S : Matrix n n T)
    (h : Sᵀ = S) : (S⁻¹)ᵀ = S⁻¹ := by
  rw [Matrix.transpose_nonsing_inv, h]

/-- The gain with a symmetric innovation covariance, either number of measurements. -/
theorem gain_symm (m : Dim) (P : Mat T 2 2) (H : Mat T m.val 2) (R : Mat T m.val m.val)
    (hs : (H.toMatrix * P.toMatrix * H.toMatrixᵀ + R.toMatrix)ᵀ =
      H.toMatrix * P.toMatrix * H.toMatrixᵀ + R.toMatrix)
    (hd : m = .one ∨ (H.toMatrix * P.toMatrix * H.toMatrixᵀ + R.toMatrix).det ≠ 0) :
    ∃ K : Mat T 2 m.val, gain m P H R = .ok K ∧
      K.toMatrix = P.toMatrix * H.toMatrixᵀ *
        (H.toMatrix * P.toMatrix * H.toMatrixᵀ + R.toMatrix)⁻¹ := by
  cases m with
  | one => exact gain_one P H R
  | two =>
    obtain ⟨K, hK, eK⟩ := (gain_two P H R).1 (by simpa using hd)
    exact ⟨K, hK, by rw [eK, inv_transpose_of_symm _ hs]⟩

/-- Everything `update` computes, once the gain exists. -/
theorem update_of_gain (k : Kalman T m u) (v : ColVec T u.val) (z : ColVec T m.val) (G : Mat T 2 m.val)
    (P : Mat T 2 2) (hP : predictCov k.A k.P k.Q = .ok P) (hG : gain m P k.H k.R = .ok G) :
    ∃ k' : Kalman T m u, k.update v z = .ok k' ∧ k'.K = some G ∧
      k'.xhat.toMatrix = k.xm v + G.toMatrix * (z.toMatrix - k.H.toMatrix * k.xm v) ∧
      k'.P.toMatrix = (1 - G.toMatrix * k.H.toMatrix) * k.Pm ∧
      k'.t = k.t + k.dt ∧ k'.dt = k.dt ∧
      k'.A = k.A ∧ k'.B = k.B ∧ k'.H = k.H ∧ k'.Q = k.Q ∧ k'.R = k.R := by
  obtain ⟨x, hx, ex⟩ := predictState_mat k.A k.B k.xhat v
  obtain ⟨P', hP', eP'⟩ := predictCov_mat k.A k.P k.Q
  obtain rfl : P = P' := by rw [hP] at hP'; exact Except.ok.inj hP'
  obtain ⟨x', hx', ex'⟩ := correctState_mat m x G k.H z
  obtain ⟨P2, hP2, eP2⟩ := correctCov_mat m G k.H P
  refine ⟨{ k with t := k.t + k.dt, xhat := x', P := P2, K := some G }, ?_, rfl, ?_, ?_, rfl, rfl,
    rfl, rfl, rfl, rfl, rfl⟩
  · unfold update
    rw [ExactRing.add_eq, bind_ok, hx, bind_ok, hP, bind_ok, hG, bind_ok, hx', bind_ok, hP2, bind_ok]
  · rw [ex', ex]; rfl
  · rw [eP2, eP']; rfl

end field
end Kalman
end Verif
