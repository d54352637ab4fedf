import Mathlib.Analysis.SpecificLimits.Basic
import Mathlib.Topology.Instances.Matrix
import Verif.Lemmas.KalmanAlgebra
import Verif.Lemmas.Psd2

/- The covariance recursion of the Kalman filter: its fixed points attract. -/

namespace Verif.KF
open Matrix Filter Topology

section field
variable {F n m : Type} [Field F] [Fintype n] [Fintype m] [DecidableEq n] [DecidableEq m]
  {A Q : Matrix n n F} {H : Matrix m n F} {R : Matrix m m F}

/-- Predicted covariance. -/
def pred (A Q P : Matrix n n F) : Matrix n n F := A * P * Aᵀ + Q

/-- One step of the covariance recursion. -/
noncomputable def ricc (A : Matrix n n F) (H : Matrix m n F) (Q : Matrix n n F) (R : Matrix m m F)
    (P : Matrix n n F) : Matrix n n F :=
  (1 - gain (pred A Q P) H R * H) * pred A Q P

/-- The matrix that takes the error of the estimate to the next one. -/
noncomputable def closed (A : Matrix n n F) (H : Matrix m n F) (Q : Matrix n n F) (R : Matrix m m F)
    (P : Matrix n n F) : Matrix n n F :=
  (1 - gain (pred A Q P) H R * H) * A

/-- The covariance the noise of one step contributes. -/
noncomputable def fresh (A : Matrix n n F) (H : Matrix m n F) (Q : Matrix n n F) (R : Matrix m m F)
    (P : Matrix n n F) : Matrix n n F :=
  (1 - gain (pred A Q P) H R * H) * Q * (1 - gain (pred A Q P) H R * H)ᵀ +
    gain (pred A Q P) H R * R * (gain (pred A Q P) H R)ᵀ

/-- The covariance the noise of two steps contributes, once the covariance is steady. -/
noncomputable def spread (A : Matrix n n F) (H : Matrix m n F) (Q : Matrix n n F) (R : Matrix m m F)
    (P : Matrix n n F) : Matrix n n F :=
  fresh A H Q R P + closed A H Q R P * fresh A H Q R P * (closed A H Q R P)ᵀ

/-- The matrix in whose measure the steady error dynamics shrink. -/
noncomputable def lyap (A : Matrix n n F) (H : Matrix m n F) (Q : Matrix n n F) (R : Matrix m m F)
    (P : Matrix n n F) : Matrix n n F :=
  P + closed A H Q R P * P * (closed A H Q R P)ᵀ

omit [DecidableEq n] in
theorem pred_symm {P : Matrix n n F} (hP : Pᵀ = P) (hQ : Qᵀ = Q) : (pred A Q P)ᵀ = pred A Q P := by
  unfold pred
  rw [Matrix.transpose_add, Matrix.transpose_mul, Matrix.transpose_mul, Matrix.transpose_transpose,
    hP, hQ, Matrix.mul_assoc]

omit [DecidableEq n] [DecidableEq m] [Fintype m] in
theorem congr_transpose {p : Type} (X : Matrix p n F) (M : Matrix n n F) (Y : Matrix m n F) :
    (X * M * Yᵀ)ᵀ = Y * Mᵀ * Xᵀ := by
  rw [Matrix.transpose_mul, Matrix.transpose_transpose, Matrix.transpose_mul, Matrix.mul_assoc]

/-- The difference of two covariances is propagated by both error dynamics; the first need not be symmetric. -/
theorem ricc_sub {P P' : Matrix n n F} (hP' : P'ᵀ = P') (hQ : Qᵀ = Q) (hR : Rᵀ = R)
    (hS : IsUnit (innov (pred A Q P) H R).det) (hS' : IsUnit (innov (pred A Q P') H R).det) :
    ricc A H Q R P - ricc A H Q R P' = closed A H Q R P * (P - P') * (closed A H Q R P')ᵀ := by
  have hM' := pred_symm (A := A) hP' hQ
  have e1 := post_mul_HT (P := pred A Q P) (H := H) (R := R) hS
  have e2 := post_mul_HT (P := pred A Q P') (H := H) (R := R) hS'
  have d : pred A Q P - pred A Q P' = A * (P - P') * Aᵀ := by
    unfold pred; rw [Matrix.mul_sub, Matrix.sub_mul]; abel
  have e3 : (1 - gain (pred A Q P) H R * H) * pred A Q P * (1 - gain (pred A Q P') H R * H)ᵀ =
      (1 - gain (pred A Q P) H R * H) * pred A Q P -
        gain (pred A Q P) H R * R * (gain (pred A Q P') H R)ᵀ := by
    rw [Matrix.transpose_sub, Matrix.transpose_one, Matrix.transpose_mul, Matrix.mul_sub, Matrix.mul_one,
      ← Matrix.mul_assoc, e1]
  have e4 : (1 - gain (pred A Q P) H R * H) * pred A Q P' * (1 - gain (pred A Q P') H R * H)ᵀ =
      (1 - gain (pred A Q P') H R * H) * pred A Q P' -
        gain (pred A Q P) H R * R * (gain (pred A Q P') H R)ᵀ := by
    have : (1 - gain (pred A Q P') H R * H) * pred A Q P' * (1 - gain (pred A Q P) H R * H)ᵀ =
      (1 - gain (pred A Q P') H R * H) * pred A Q P' -
        gain (pred A Q P') H R * R * (gain (pred A Q P) H R)ᵀ := by
      rw [Matrix.transpose_sub, Matrix.transpose_one, Matrix.transpose_mul, Matrix.mul_sub,
        Matrix.mul_one, ← Matrix.mul_assoc, e2]
    have t := congrArg Matrix.transpose this
    rw [congr_transpose, hM', Matrix.transpose_sub ((1 - gain (pred A Q P') H R * H) * pred A Q P'),
      post_symm hM' hR, congr_transpose, hR] at t
    exact t
  have e5 : closed A H Q R P * (P - P') * (closed A H Q R P')ᵀ =
      (1 - gain (pred A Q P) H R * H) * (pred A Q P - pred A Q P') *
        (1 - gain (pred A Q P') H R * H)ᵀ := by
    rw [d]; unfold closed
    rw [Matrix.transpose_mul]; simp only [Matrix.mul_assoc]
  rw [e5, Matrix.mul_sub, Matrix.sub_mul, e3, e4]
  unfold ricc
  abel

/-- Joseph form of the recursion. -/
theorem ricc_joseph {P : Matrix n n F} (hP : Pᵀ = P) (hQ : Qᵀ = Q) (hR : Rᵀ = R)
    (hS : IsUnit (innov (pred A Q P) H R).det) :
    ricc A H Q R P = closed A H Q R P * P * (closed A H Q R P)ᵀ + fresh A H Q R P := by
  have := joseph_gain (H := H) (pred_symm (A := A) hP hQ) hR hS
  unfold ricc closed fresh
  rw [this, Matrix.transpose_mul]
  nth_rewrite 2 [pred]
  simp only [Matrix.mul_add, Matrix.add_mul, Matrix.mul_assoc]
  abel

end field

section real
variable {n m : Type} [Fintype n] [Fintype m] [DecidableEq n] [DecidableEq m]
  {A Q P P' : Matrix n n ℝ} {H : Matrix m n ℝ} {R : Matrix m m ℝ}

omit [DecidableEq n] in
theorem pred_psd (hP : P.PosSemidef) (hQ : Q.PosSemidef) : (pred A Q P).PosSemidef :=
  (psd_congr hP A).add hQ

theorem ricc_psd (hP : P.PosSemidef) (hQ : Q.PosSemidef) (hR : R.PosDef) :
    (ricc A H Q R P).PosSemidef := post_psd (pred_psd hP hQ) hR

omit [DecidableEq n] in
theorem innov_unit (hP : P.PosSemidef) (hQ : Q.PosSemidef) (hR : R.PosDef) :
    IsUnit (innov (pred A Q P) H R).det := posDef_det (innov_posDef (pred_psd hP hQ) hR)

/-- Upper bound by the error dynamics of another covariance. -/
theorem ricc_le (hP : P.PosSemidef) (hP' : P'.PosSemidef) (hQ : Q.PosSemidef) (hR : R.PosDef) :
    (closed A H Q R P' * (P - P') * (closed A H Q R P')ᵀ -
      (ricc A H Q R P - ricc A H Q R P')).PosSemidef := by
  have h1 := optimal (H := H) (pred_psd (A := A) hP hQ) hR (gain (pred A Q P') H R)
  have h2 := ricc_joseph (A := A) (H := H) (symm_of_psd hP') (symm_of_psd hQ)
    (symm_of_psd hR.posSemidef) (innov_unit hP' hQ hR)
  have e : closed A H Q R P' * (P - P') * (closed A H Q R P')ᵀ -
      (ricc A H Q R P - ricc A H Q R P') =
      (1 - gain (pred A Q P') H R * H) * pred A Q P * (1 - gain (pred A Q P') H R * H)ᵀ +
        gain (pred A Q P') H R * R * (gain (pred A Q P') H R)ᵀ -
        (1 - gain (pred A Q P) H R * H) * pred A Q P := by
    rw [h2]
    unfold ricc closed fresh
    rw [Matrix.transpose_mul]
    nth_rewrite 15 [pred]
    simp only [pred, Matrix.mul_add, Matrix.add_mul, Matrix.mul_sub, Matrix.sub_mul, Matrix.mul_assoc]
    abel
  rw [e]; exact h1

/-- The recursion is monotone. -/
theorem ricc_mono (hP : P.PosSemidef) (hP' : P'.PosSemidef) (hQ : Q.PosSemidef) (hR : R.PosDef)
    (h : (P - P').PosSemidef) : (ricc A H Q R P - ricc A H Q R P').PosSemidef := by
  have h1 := (ricc_le (A := A) (H := H) hP' hP hQ hR).add (psd_congr h (closed A H Q R P))
  have e : closed A H Q R P * (P' - P) * (closed A H Q R P)ᵀ -
      (ricc A H Q R P' - ricc A H Q R P) + closed A H Q R P * (P - P') * (closed A H Q R P)ᵀ =
      ricc A H Q R P - ricc A H Q R P' := by
    simp only [Matrix.mul_sub, Matrix.sub_mul]; abel
  rwa [e] at h1

omit [DecidableEq m] in
/-- With a positive definite prediction the corrected covariance is positive definite, for any gain. -/
theorem joseph_posDef {M : Matrix n n ℝ} (hM : M.PosDef) (hR : R.PosDef) (G : Matrix n m ℝ) :
    ((1 - G * H) * M * (1 - G * H)ᵀ + G * R * Gᵀ).PosDef := by
  refine .of_dotProduct_mulVec_pos
    ((psd_congr hM.posSemidef _).add (psd_congr hR.posSemidef _)).isHermitian fun x hx => ?_
  have q {q : Type} [Fintype q] (X : Matrix n q ℝ) (N : Matrix q q ℝ) :
      star x ⬝ᵥ ((X * N * Xᵀ) *ᵥ x) = star (Xᵀ *ᵥ x) ⬝ᵥ (N *ᵥ (Xᵀ *ᵥ x)) := by
    rw [star_trivial, star_trivial, ← Matrix.mulVec_mulVec, ← Matrix.mulVec_mulVec,
      Matrix.dotProduct_mulVec, Matrix.mulVec_transpose]
  rw [Matrix.add_mulVec, dotProduct_add, q, q]
  by_cases hw : Gᵀ *ᵥ x = 0
  · have : (1 - G * H)ᵀ *ᵥ x = x := by
      rw [Matrix.transpose_sub, Matrix.transpose_one, Matrix.transpose_mul, Matrix.sub_mulVec,
        Matrix.one_mulVec, ← Matrix.mulVec_mulVec, hw, Matrix.mulVec_zero, sub_zero]
    rw [this, hw, Matrix.mulVec_zero, dotProduct_zero, add_zero]
    exact hM.dotProduct_mulVec_pos hx
  · exact add_pos_of_nonneg_of_pos (hM.posSemidef.dotProduct_mulVec_nonneg _)
      (hR.dotProduct_mulVec_pos hw)

theorem ricc_posDef (hM : (pred A Q P).PosDef) (hR : R.PosDef) : (ricc A H Q R P).PosDef := by
  have := joseph_posDef (H := H) hM hR (gain (pred A Q P) H R)
  rwa [← joseph_gain (symm_of_psd hM.posSemidef) (symm_of_psd hR.posSemidef)
    (posDef_det (innov_posDef hM.posSemidef hR))] at this

omit [Fintype m] [DecidableEq m] [DecidableEq n] in
/-- A quadratic form after a congruence. -/
theorem quad_congr {q : Type} [Fintype q] (X : Matrix n q ℝ) (N : Matrix q q ℝ) (x : n → ℝ) :
    star x ⬝ᵥ ((X * N * Xᵀ) *ᵥ x) = star (Xᵀ *ᵥ x) ⬝ᵥ (N *ᵥ (Xᵀ *ᵥ x)) := by
  rw [star_trivial, star_trivial, ← Matrix.mulVec_mulVec, ← Matrix.mulVec_mulVec,
    Matrix.dotProduct_mulVec, Matrix.mulVec_transpose]

omit [DecidableEq m] in
/-- Where the corrected covariance vanishes the gain does as well. -/
theorem joseph_zero {M : Matrix n n ℝ} (hM : M.PosSemidef) (hR : R.PosDef) (G : Matrix n m ℝ) {x : n → ℝ}
    (h : star x ⬝ᵥ (((1 - G * H) * M * (1 - G * H)ᵀ + G * R * Gᵀ) *ᵥ x) = 0) :
    (1 - G * H)ᵀ *ᵥ x = x ∧ star x ⬝ᵥ (M *ᵥ x) = 0 := by
  rw [Matrix.add_mulVec, dotProduct_add, quad_congr, quad_congr] at h
  have h1 := hM.dotProduct_mulVec_nonneg ((1 - G * H)ᵀ *ᵥ x)
  have h2 := hR.posSemidef.dotProduct_mulVec_nonneg (Gᵀ *ᵥ x)
  have hw : Gᵀ *ᵥ x = 0 := by
    by_contra hw
    linarith [hR.dotProduct_mulVec_pos hw]
  have e : (1 - G * H)ᵀ *ᵥ x = x := by
    rw [Matrix.transpose_sub, Matrix.transpose_one, Matrix.transpose_mul, Matrix.sub_mulVec,
      Matrix.one_mulVec, ← Matrix.mulVec_mulVec, hw, Matrix.mulVec_zero, sub_zero]
  rw [e] at h h1
  exact ⟨e, by linarith⟩

/-- Noise that reaches every state within two steps contributes to the error in every direction. -/
theorem spread_posDef (hQ : Q.PosSemidef) (hC : (Q + A * Q * Aᵀ).PosDef) (hR : R.PosDef)
    (P : Matrix n n ℝ) : (spread A H Q R P).PosDef := by
  have hF : (fresh A H Q R P).PosSemidef := (psd_congr hQ _).add (psd_congr hR.posSemidef _)
  have hs := hF.add (psd_congr hF (closed A H Q R P))
  refine .of_dotProduct_mulVec_pos hs.isHermitian fun x hx => ?_
  refine lt_of_le_of_ne (hs.dotProduct_mulVec_nonneg x) fun h0 => ?_
  have h0 := h0.symm
  rw [spread, Matrix.add_mulVec, dotProduct_add, quad_congr] at h0
  have h1 := hF.dotProduct_mulVec_nonneg x
  have h2 := hF.dotProduct_mulVec_nonneg ((closed A H Q R P)ᵀ *ᵥ x)
  obtain ⟨e1, e2⟩ := joseph_zero hQ hR _ (show _ = (0 : ℝ) from le_antisymm (by unfold fresh at *; linarith) h1)
  have hc : (closed A H Q R P)ᵀ *ᵥ x = Aᵀ *ᵥ x := by
    rw [closed, Matrix.transpose_mul, ← Matrix.mulVec_mulVec, e1]
  rw [hc] at h2 h0
  obtain ⟨-, e3⟩ := joseph_zero hQ hR _ (show _ = (0 : ℝ) from le_antisymm (by unfold fresh at *; linarith) h2)
  have := hC.dotProduct_mulVec_pos hx
  rw [Matrix.add_mulVec, dotProduct_add, quad_congr, e2, e3] at this
  linarith

theorem spread_of_fresh (hW : (fresh A H Q R P).PosDef) : (spread A H Q R P).PosDef :=
  hW.add_posSemidef (psd_congr hW.posSemidef _)

theorem lyap_posDef (hP : P.PosDef) : (lyap A H Q R P).PosDef :=
  hP.add_posSemidef (psd_congr hP.posSemidef _)

/-- The steady error dynamics shrink `lyap`. -/
theorem lyap_eq (hP : P.PosSemidef) (hQ : Q.PosSemidef) (hR : R.PosDef) (hfix : ricc A H Q R P = P) :
    lyap A H Q R P = closed A H Q R P * lyap A H Q R P * (closed A H Q R P)ᵀ + spread A H Q R P := by
  have hj := ricc_joseph (A := A) (H := H) (symm_of_psd hP) (symm_of_psd hQ)
    (symm_of_psd hR.posSemidef) (innov_unit hP hQ hR)
  rw [hfix] at hj
  unfold lyap spread
  generalize closed A H Q R P = X at *
  generalize fresh A H Q R P = W at *
  nth_rewrite 1 [hj]
  nth_rewrite 2 [hj]
  simp only [Matrix.mul_add, Matrix.add_mul]
  abel

/-- After two steps every covariance is positive definite. -/
theorem ricc_two (hP : P.PosSemidef) (hQ : Q.PosSemidef) (hC : (Q + A * Q * Aᵀ).PosDef)
    (hR : R.PosDef) : (ricc A H Q R (ricc A H Q R P)).PosDef := by
  refine ricc_posDef ?_ hR
  have h1 := ricc_psd (A := A) (H := H) hP hQ hR
  refine .of_dotProduct_mulVec_pos (pred_psd h1 hQ).isHermitian fun x hx => ?_
  refine lt_of_le_of_ne ((pred_psd h1 hQ).dotProduct_mulVec_nonneg x) fun h0 => ?_
  have h0 := h0.symm
  rw [pred, Matrix.add_mulVec, dotProduct_add, quad_congr] at h0
  have h2 := h1.dotProduct_mulVec_nonneg (Aᵀ *ᵥ x)
  have h3 := hQ.dotProduct_mulVec_nonneg x
  have h4 : star (Aᵀ *ᵥ x) ⬝ᵥ (ricc A H Q R P *ᵥ (Aᵀ *ᵥ x)) = 0 := by linarith
  rw [ricc, joseph_gain (symm_of_psd (pred_psd hP hQ)) (symm_of_psd hR.posSemidef)
    (innov_unit hP hQ hR)] at h4
  obtain ⟨-, e⟩ := joseph_zero (pred_psd hP hQ) hR _ h4
  rw [pred, Matrix.add_mulVec, dotProduct_add] at e
  have h5 := (psd_congr hP A).dotProduct_mulVec_nonneg (Aᵀ *ᵥ x)
  have h6 := hQ.dotProduct_mulVec_nonneg (Aᵀ *ᵥ x)
  have := hC.dotProduct_mulVec_pos hx
  rw [Matrix.add_mulVec, dotProduct_add, quad_congr] at this
  linarith

/-- The covariance recursion, iterated. -/
noncomputable def riccSeq (A : Matrix n n ℝ) (H : Matrix m n ℝ) (Q : Matrix n n ℝ) (R : Matrix m m ℝ)
    (P : Matrix n n ℝ) : Nat → Matrix n n ℝ
  | 0 => P
  | k + 1 => ricc A H Q R (riccSeq A H Q R P k)

/-- The product of the error dynamics. -/
noncomputable def transition (A : Matrix n n ℝ) (H : Matrix m n ℝ) (Q : Matrix n n ℝ)
    (R : Matrix m m ℝ) (P : Matrix n n ℝ) : Nat → Matrix n n ℝ
  | 0 => 1
  | k + 1 => closed A H Q R (riccSeq A H Q R P k) * transition A H Q R P k

theorem riccSeq_psd (hP : P.PosSemidef) (hQ : Q.PosSemidef) (hR : R.PosDef) (k : Nat) :
    (riccSeq A H Q R P k).PosSemidef := by
  induction k with
  | zero => exact hP
  | succ k ih => exact ricc_psd ih hQ hR

theorem riccSeq_add (j k : Nat) :
    riccSeq A H Q R P (j + k) = riccSeq A H Q R (riccSeq A H Q R P j) k := by
  induction k with
  | zero => rfl
  | succ k ih => show ricc A H Q R (riccSeq A H Q R P (j + k)) = ricc A H Q R _; rw [ih]

theorem transition_add (j k : Nat) : transition A H Q R P (j + k) =
    transition A H Q R (riccSeq A H Q R P j) k * transition A H Q R P j := by
  induction k with
  | zero => simp [transition]
  | succ k ih =>
    show closed A H Q R (riccSeq A H Q R P (j + k)) * transition A H Q R P (j + k) = _
    rw [ih, riccSeq_add, transition, Matrix.mul_assoc]

variable {L : Matrix n n ℝ}

theorem riccSeq_sub (hP : P.PosSemidef) (hL : L.PosSemidef) (hQ : Q.PosSemidef) (hR : R.PosDef)
    (hfix : ricc A H Q R L = L) (k : Nat) :
    riccSeq A H Q R P k - L =
      transition A H Q R P k * (P - L) * (closed A H Q R L ^ k)ᵀ := by
  induction k with
  | zero => simp [riccSeq, transition]
  | succ k ih =>
    have hk := riccSeq_psd (A := A) (H := H) hP hQ hR k
    have h := ricc_sub (A := A) (H := H) (symm_of_psd hL) (symm_of_psd hQ)
      (symm_of_psd hR.posSemidef) (innov_unit hk hQ hR) (innov_unit hL hQ hR)
    rw [hfix, ih] at h
    show ricc A H Q R _ - L = _
    rw [h, pow_succ', Matrix.transpose_mul]
    simp only [transition, Matrix.mul_assoc]

theorem transition_le (hP : P.PosSemidef) (hQ : Q.PosSemidef) (hR : R.PosDef) (k : Nat) :
    (riccSeq A H Q R P k - transition A H Q R P k * P * (transition A H Q R P k)ᵀ).PosSemidef := by
  induction k with
  | zero => simpa [riccSeq, transition] using Matrix.PosSemidef.zero
  | succ k ih =>
    have hk := riccSeq_psd (A := A) (H := H) hP hQ hR k
    have h := ricc_joseph (A := A) (H := H) (symm_of_psd hk) (symm_of_psd hQ)
      (symm_of_psd hR.posSemidef) (innov_unit hk hQ hR)
    have e : riccSeq A H Q R P (k + 1) -
        transition A H Q R P (k + 1) * P * (transition A H Q R P (k + 1))ᵀ =
        closed A H Q R (riccSeq A H Q R P k) *
          (riccSeq A H Q R P k - transition A H Q R P k * P * (transition A H Q R P k)ᵀ) *
          (closed A H Q R (riccSeq A H Q R P k))ᵀ + fresh A H Q R (riccSeq A H Q R P k) := by
      show ricc A H Q R _ - _ = _
      rw [h]
      simp only [transition, Matrix.transpose_mul, Matrix.mul_sub, Matrix.sub_mul, Matrix.mul_assoc]
      abel
    rw [e]
    exact (psd_congr ih _).add ((psd_congr hQ _).add (psd_congr hR.posSemidef _))

theorem riccSeq_le (hP : P.PosSemidef) (hL : L.PosSemidef) (hQ : Q.PosSemidef) (hR : R.PosDef)
    (hfix : ricc A H Q R L = L) (k : Nat) :
    (closed A H Q R L ^ k * (P - L) * (closed A H Q R L ^ k)ᵀ -
      (riccSeq A H Q R P k - L)).PosSemidef := by
  induction k with
  | zero => simpa [riccSeq] using Matrix.PosSemidef.zero
  | succ k ih =>
    have hk := riccSeq_psd (A := A) (H := H) hP hQ hR k
    have h := ricc_le (A := A) (H := H) hk hL hQ hR
    rw [hfix] at h
    have := (psd_congr ih (closed A H Q R L)).add h
    have e : closed A H Q R L ^ (k + 1) * (P - L) * (closed A H Q R L ^ (k + 1))ᵀ -
        (riccSeq A H Q R P (k + 1) - L) =
        closed A H Q R L * (closed A H Q R L ^ k * (P - L) * (closed A H Q R L ^ k)ᵀ -
          (riccSeq A H Q R P k - L)) * (closed A H Q R L)ᵀ +
        (closed A H Q R L * (riccSeq A H Q R P k - L) * (closed A H Q R L)ᵀ -
          (ricc A H Q R (riccSeq A H Q R P k) - L)) := by
      show _ - (ricc A H Q R _ - L) = _
      rw [pow_succ']
      simp only [Matrix.transpose_mul, Matrix.mul_sub, Matrix.sub_mul, Matrix.mul_assoc]
      abel
    rw [e]; exact this

end real
section two
variable {m : Type} [Fintype m] [DecidableEq m] {A Q P L : Matrix (Fin 2) (Fin 2) ℝ}
  {H : Matrix m (Fin 2) ℝ} {R : Matrix m m ℝ}

/-- Diagonal elements of a congruence of a matrix bounded below. -/
theorem sq_le_of_congr {X : Matrix (Fin 2) (Fin 2) ℝ} {c b : ℝ} (hc : 0 < c)
    (hP : (P - c • 1).PosSemidef) (i j : Fin 2) (h : (X * P * Xᵀ) i i ≤ b) : X i j ^ 2 ≤ b / c := by
  have h1 := (psd_congr hP X).diag_nonneg (i := i)
  have e : (X * (P - c • 1) * Xᵀ) i i = (X * P * Xᵀ) i i - c * (X i 0 ^ 2 + X i 1 ^ 2) := by
    have hx : (X * Xᵀ) i i = X i 0 ^ 2 + X i 1 ^ 2 := by
      simp only [Matrix.mul_apply, Fin.sum_univ_two, Matrix.transpose_apply, sq]
    simp only [Matrix.mul_sub, Matrix.sub_mul, Matrix.sub_apply, Matrix.mul_smul, Matrix.smul_mul,
      Matrix.mul_one, Matrix.smul_apply, smul_eq_mul, hx]
  rw [e] at h1
  rw [le_div_iff₀ hc]
  have h2 : X i j ^ 2 ≤ X i 0 ^ 2 + X i 1 ^ 2 := by
    fin_cases j
    · exact le_add_of_nonneg_right (sq_nonneg _)
    · exact le_add_of_nonneg_left (sq_nonneg _)
  nlinarith

theorem tendsto_of_sq_le {f : Nat → ℝ} {ρ b c : ℝ} (h0 : 0 ≤ ρ) (h1 : ρ < 1)
    (h : ∀ k, f k ^ 2 ≤ ρ ^ k * b / c) : Tendsto f atTop (𝓝 0) := by
  have hz : Tendsto (fun k => ρ ^ k * b / c) atTop (𝓝 0) := by
    have := ((tendsto_pow_atTop_nhds_zero_of_lt_one h0 h1).mul_const b).div_const c
    simpa using this
  have hs : Tendsto (fun k => f k ^ 2) atTop (𝓝 0) := squeeze_zero (fun _ => sq_nonneg _) h hz
  have := (Real.continuous_sqrt.tendsto 0).comp hs
  rw [Real.sqrt_zero] at this
  refine (tendsto_zero_iff_abs_tendsto_zero _).2 ?_
  refine this.congr fun k => ?_
  simp [Real.sqrt_sq_eq_abs]

theorem tendsto_mul_right {f : Nat → Matrix (Fin 2) (Fin 2) ℝ}
    (h : ∀ i j, Tendsto (fun k => f k i j) atTop (𝓝 0)) {q : Type} (X : Matrix (Fin 2) q ℝ) (i : Fin 2)
    (j : q) : Tendsto (fun k => (f k * X) i j) atTop (𝓝 0) := by
  simp only [Matrix.mul_apply]
  rw [show (0 : ℝ) = ∑ a : Fin 2, 0 * X a j by simp]
  exact tendsto_finsetSum _ fun a _ => (h i a).mul_const _

/-- A matrix well below `L` is below a fraction of `L`. -/
theorem shrink_rate (hL : L.PosDef) {w : ℝ} (hw : 0 < w) : ∃ ρ : ℝ, 0 ≤ ρ ∧ ρ < 1 ∧
    ∀ Y : Matrix (Fin 2) (Fin 2) ℝ, (L - Y - w • 1).PosSemidef → (ρ • L - Y).PosSemidef := by
  obtain ⟨h0, h1, -⟩ := det2_of_posDef hL
  have hup := psd_upper hL.posSemidef
  generalize htr : L 0 0 + L 1 1 = τ at hup
  have hτ : 0 < τ := by linarith
  refine ⟨max 0 (1 - w / τ), le_max_left _ _, max_lt one_pos (by linarith [div_pos hw hτ]), ?_⟩
  intro Y hY
  have b : ((max 0 (1 - w / τ) - (1 - w / τ)) • L).PosSemidef :=
    hL.posSemidef.smul (sub_nonneg.2 (le_max_right _ _))
  have := (hY.add (hup.smul (div_pos hw hτ).le)).add b
  have e : L - Y - w • 1 + (w / τ) • (τ • 1 - L) + (max 0 (1 - w / τ) - (1 - w / τ)) • L =
      max 0 (1 - w / τ) • L - Y := by
    rw [smul_sub, smul_smul, div_mul_cancel₀ _ hτ.ne', sub_smul, sub_smul, one_smul]; abel
  rwa [e] at this

/-- A congruence that shrinks a positive definite matrix has powers that tend to 0. -/
theorem pow_tendsto {X W : Matrix (Fin 2) (Fin 2) ℝ} (hL : L.PosDef) (hW : W.PosDef)
    (h : L = X * L * Xᵀ + W) (i j : Fin 2) : Tendsto (fun k => (X ^ k) i j) atTop (𝓝 0) := by
  obtain ⟨c, hc, hlow⟩ := posDef_lower hL
  obtain ⟨w, hw, hWlow⟩ := posDef_lower hW
  obtain ⟨ρ, hρ0, hρ1, hρ'⟩ := shrink_rate hL hw
  have hρ := hρ' (X * L * Xᵀ) (by
    have : L - X * L * Xᵀ = W := by nth_rewrite 1 [h]; abel
    rw [this]; exact hWlow)
  have hk (k : Nat) : (ρ ^ k • L - X ^ k * L * (X ^ k)ᵀ).PosSemidef := by
    induction k with
    | zero => simpa using Matrix.PosSemidef.zero
    | succ k ih =>
      have := (psd_congr ih X).add (hρ.smul (pow_nonneg hρ0 k))
      have e : X * (ρ ^ k • L - X ^ k * L * (X ^ k)ᵀ) * Xᵀ + ρ ^ k • (ρ • L - X * L * Xᵀ) =
          ρ ^ (k + 1) • L - X ^ (k + 1) * L * (X ^ (k + 1))ᵀ := by
        rw [pow_succ' X, pow_succ ρ, Matrix.transpose_mul, smul_sub, smul_smul]
        simp only [Matrix.mul_sub, Matrix.sub_mul, Matrix.mul_smul, Matrix.smul_mul, Matrix.mul_assoc]
        abel
      rwa [e] at this
  have hb (k : Nat) : (X ^ k) i j ^ 2 ≤ ρ ^ k * L i i / c := by
    refine sq_le_of_congr hc hlow i j ?_
    have := (hk k).diag_nonneg (i := i)
    simp only [Matrix.sub_apply, Matrix.smul_apply, smul_eq_mul] at this
    linarith
  exact tendsto_of_sq_le hρ0 hρ1 hb

/-- The covariance tends to a fixed point, if it is positive definite at the start, and the fixed
point and the covariance of the fresh noise of two steps are positive definite. -/
theorem riccSeq_tendsto (hP : P.PosDef) (hL : L.PosDef) (hQ : Q.PosSemidef) (hR : R.PosDef)
    (hfix : ricc A H Q R L = L) (hW : (spread A H Q R L).PosDef) (i j : Fin 2) :
    Tendsto (fun k => riccSeq A H Q R P k i j) atTop (𝓝 (L i j)) := by
  have hz := pow_tendsto (lyap_posDef hL) hW (lyap_eq hL.posSemidef hQ hR hfix)
  -- the covariances are bounded
  have hbd (i : Fin 2) : ∃ b, ∀ k, riccSeq A H Q R P k i i ≤ b := by
    have ht : Tendsto (fun k : ℕ => (closed A H Q R L ^ k * (P - L) * (closed A H Q R L ^ k)ᵀ) i i)
        atTop (𝓝 0) := by
      have : ∀ k, (closed A H Q R L ^ k * (P - L) * (closed A H Q R L ^ k)ᵀ) i i =
          ∑ a, ∑ b, (closed A H Q R L ^ k) i b * (P - L) b a * (closed A H Q R L ^ k) i a := by
        intro k
        simp only [Matrix.mul_apply, Matrix.transpose_apply, Finset.sum_mul]
      simp only [this]
      have h0 : (0 : ℝ) = ∑ a : Fin 2, ∑ b : Fin 2, 0 * (P - L) b a * 0 := by simp
      rw [h0]
      exact tendsto_finsetSum _ fun a _ => tendsto_finsetSum _ fun b _ =>
        ((hz i b).mul_const _).mul (hz i a)
    obtain ⟨b, hb⟩ := ht.bddAbove_range
    refine ⟨b + L i i, fun k => ?_⟩
    have h1 := (riccSeq_le (A := A) (H := H) hP.posSemidef hL.posSemidef hQ hR hfix k).diag_nonneg
      (i := i)
    have h2 := hb ⟨k, rfl⟩
    simp only [Matrix.sub_apply] at h1
    simp only at h2
    linarith
  -- so are the transition matrices
  obtain ⟨c, hc, hlow⟩ := posDef_lower hP
  have htb (i j : Fin 2) : ∃ b, ∀ k, |transition A H Q R P k i j| ≤ b := by
    obtain ⟨b, hb⟩ := hbd i
    refine ⟨√(b / c), fun k => Real.abs_le_sqrt ?_⟩
    refine sq_le_of_congr hc hlow i j ?_
    have := (transition_le (A := A) (H := H) hP.posSemidef hQ hR k).diag_nonneg (i := i)
    simp only [Matrix.sub_apply] at this
    linarith [hb k]
  have hd : Tendsto (fun k => (transition A H Q R P k * (P - L) * (closed A H Q R L ^ k)ᵀ) i j)
      atTop (𝓝 0) := by
    have : ∀ k, (transition A H Q R P k * (P - L) * (closed A H Q R L ^ k)ᵀ) i j =
        ∑ a, ∑ b, transition A H Q R P k i b * ((P - L) b a * (closed A H Q R L ^ k) j a) := by
      intro k
      simp only [Matrix.mul_apply, Matrix.transpose_apply, Finset.sum_mul, mul_assoc]
    simp only [this]
    rw [show (0 : ℝ) = ∑ a : Fin 2, ∑ b : Fin 2, 0 by simp]
    refine tendsto_finsetSum _ fun a _ => tendsto_finsetSum _ fun b _ => ?_
    obtain ⟨B, hB⟩ := htb i b
    refine bdd_le_mul_tendsto_zero' B (Eventually.of_forall hB) ?_
    have := (hz j a).const_mul ((P - L) b a)
    rwa [mul_zero] at this
  have := hd.add_const (L i j)
  rw [zero_add] at this
  refine this.congr fun k => ?_
  rw [← riccSeq_sub hP.posSemidef hL.posSemidef hQ hR hfix k, Matrix.sub_apply, sub_add_cancel]

/-- Positive definiteness is an open condition. -/
theorem posDef_eventually {N : Nat → Matrix (Fin 2) (Fin 2) ℝ} {M : Matrix (Fin 2) (Fin 2) ℝ}
    (hM : M.PosDef) (hs : ∀ k, N k 1 0 = N k 0 1)
    (ht : ∀ i j, Tendsto (fun k => N k i j) atTop (𝓝 (M i j))) : ∀ᶠ k in atTop, (N k).PosDef := by
  obtain ⟨h0, -, hd⟩ := det2_of_posDef hM
  have e0 := (ht 0 0).eventually_const_lt h0
  have e1 : Tendsto (fun k => N k 0 0 * N k 1 1 - N k 0 1 ^ 2) atTop
      (𝓝 (M 0 0 * M 1 1 - M 0 1 ^ 2)) := ((ht 0 0).mul (ht 1 1)).sub ((ht 0 1).pow 2)
  have e2 := e1.eventually_const_lt (sub_pos.2 hd)
  filter_upwards [e0, e2] with k a b
  exact posDef2 (hs k) a (by linarith)

/-- Once the covariance tends to `L`, the error dynamics shrink `lyap` at a fixed rate from some
time on. -/
theorem shrinks_eventually (hP : P.PosSemidef) (hL : L.PosDef) (hQ : Q.PosSemidef) (hR : R.PosDef)
    (hfix : ricc A H Q R L = L) (hW : (spread A H Q R L).PosDef)
    (hlim : ∀ i j, Tendsto (fun k => riccSeq A H Q R P k i j) atTop (𝓝 (L i j))) :
    ∃ ρ : ℝ, 0 ≤ ρ ∧ ρ < 1 ∧ ∀ᶠ k in atTop, (ρ • lyap A H Q R L -
      closed A H Q R (riccSeq A H Q R P k) * lyap A H Q R L * (closed A H Q R (riccSeq A H Q R P k))ᵀ).PosSemidef := by
  have hj := lyap_eq (A := A) (H := H) hL.posSemidef hQ hR hfix
  have hV : (lyap A H Q R L).PosDef := lyap_posDef hL
  -- the error dynamics converge
  have hclosed (i j : Fin 2) : Tendsto (fun k => closed A H Q R (riccSeq A H Q R P k) i j) atTop
      (𝓝 (closed A H Q R L i j)) := by
    have e (P : Matrix (Fin 2) (Fin 2) ℝ) (hP : P.PosSemidef) :
        closed A H Q R P = A - ricc A H Q R P * (Hᵀ * R⁻¹ * H * A) := by
      rw [closed, gain_info (innov_unit hP hQ hR) (posDef_det hR), Matrix.sub_mul, Matrix.one_mul]
      simp only [ricc, Matrix.mul_assoc]
    rw [e L hL.posSemidef, hfix]
    have : ∀ k, closed A H Q R (riccSeq A H Q R P k) i j =
        A i j - ∑ a, riccSeq A H Q R P (k + 1) i a * (Hᵀ * R⁻¹ * H * A) a j := by
      intro k
      rw [e _ (riccSeq_psd hP hQ hR k), Matrix.sub_apply, Matrix.mul_apply]
      rfl
    simp only [this, Matrix.sub_apply, Matrix.mul_apply (M := L)]
    exact tendsto_const_nhds.sub (tendsto_finsetSum _ fun a _ =>
      ((hlim i a).comp (tendsto_add_atTop_nat 1)).mul_const _)
  obtain ⟨w, hw, hWlow⟩ := posDef_lower hW
  obtain ⟨ρ, hρ0, hρ1, hρ⟩ := shrink_rate hV (half_pos hw)
  refine ⟨ρ, hρ0, hρ1, ?_⟩
  have hM : (spread A H Q R L - (w / 2) • 1).PosDef := by
    have := Matrix.PosDef.posSemidef_add hWlow (Matrix.PosDef.one.smul (half_pos hw))
    have e : spread A H Q R L - w • 1 + (w / 2) • (1 : Matrix (Fin 2) (Fin 2) ℝ) =
        spread A H Q R L - (w / 2) • 1 := by
      rw [sub_add, ← sub_smul, sub_half]
    rwa [e] at this
  have hsym : ∀ k, (lyap A H Q R L - closed A H Q R (riccSeq A H Q R P k) * lyap A H Q R L *
      (closed A H Q R (riccSeq A H Q R P k))ᵀ - (w / 2) • 1) 1 0 =
      (lyap A H Q R L - closed A H Q R (riccSeq A H Q R P k) * lyap A H Q R L *
      (closed A H Q R (riccSeq A H Q R P k))ᵀ - (w / 2) • 1) 0 1 := by
    intro k
    have h1 := symm2 hV.posSemidef
    have h2 := symm2 (psd_congr hV.posSemidef (closed A H Q R (riccSeq A H Q R P k)))
    simp [h1, h2]
  have ht : ∀ i j, Tendsto (fun k => (lyap A H Q R L - closed A H Q R (riccSeq A H Q R P k) * lyap A H Q R L *
      (closed A H Q R (riccSeq A H Q R P k))ᵀ - (w / 2) • 1) i j) atTop
      (𝓝 ((spread A H Q R L - (w / 2) • 1) i j)) := by
    intro i j
    have hWe : spread A H Q R L = lyap A H Q R L - closed A H Q R L * lyap A H Q R L *
        (closed A H Q R L)ᵀ := by
      rw [eq_sub_iff_add_eq, add_comm]; exact hj.symm
    rw [hWe]
    generalize lyap A H Q R L = V
    simp only [Matrix.sub_apply, Matrix.mul_apply, Matrix.transpose_apply, Finset.sum_mul]
    exact (tendsto_const_nhds.sub (tendsto_finsetSum _ fun a _ => tendsto_finsetSum _ fun b _ =>
      ((hclosed i b).mul_const _).mul (hclosed j a))).sub_const _
  filter_upwards [posDef_eventually hM hsym ht] with k hk
  exact hρ _ hk.posSemidef

/-- The error dynamics forget the initial error, under the hypotheses of `riccSeq_tendsto`. -/
theorem transition_tendsto (hP : P.PosDef) (hL : L.PosDef) (hQ : Q.PosSemidef) (hR : R.PosDef)
    (hfix : ricc A H Q R L = L) (hW : (spread A H Q R L).PosDef) (i j : Fin 2) :
    Tendsto (fun k => transition A H Q R P k i j) atTop (𝓝 0) := by
  obtain ⟨ρ, hρ0, hρ1, hev⟩ := shrinks_eventually hP.posSemidef hL hQ hR hfix hW
    (riccSeq_tendsto hP hL hQ hR hfix hW)
  obtain ⟨k0, hk0⟩ := eventually_atTop.1 hev
  obtain ⟨c, hc, hlow⟩ := posDef_lower (lyap_posDef (A := A) (H := H) (Q := Q) (R := R) hL)
  have hk (k : Nat) : (ρ ^ k • lyap A H Q R L - transition A H Q R (riccSeq A H Q R P k0) k * lyap A H Q R L *
      (transition A H Q R (riccSeq A H Q R P k0) k)ᵀ).PosSemidef := by
    induction k with
    | zero => simpa [transition] using Matrix.PosSemidef.zero
    | succ k ih =>
      have h1 := hk0 (k0 + k) (Nat.le_add_right _ _)
      rw [riccSeq_add] at h1
      rw [transition]
      generalize closed A H Q R (riccSeq A H Q R (riccSeq A H Q R P k0) k) = X at *
      generalize transition A H Q R (riccSeq A H Q R P k0) k = Y at *
      generalize lyap A H Q R L = V at *
      have := (psd_congr ih X).add (h1.smul (pow_nonneg hρ0 k))
      have e : X * (ρ ^ k • V - Y * V * Yᵀ) * Xᵀ + ρ ^ k • (ρ • V - X * V * Xᵀ) =
          ρ ^ (k + 1) • V - X * Y * V * (X * Y)ᵀ := by
        rw [pow_succ ρ, Matrix.transpose_mul, smul_sub, smul_smul]
        simp only [Matrix.mul_sub, Matrix.sub_mul, Matrix.mul_smul, Matrix.smul_mul, Matrix.mul_assoc]
        abel
      rwa [e] at this
  have hz (i j : Fin 2) :
      Tendsto (fun k => transition A H Q R (riccSeq A H Q R P k0) k i j) atTop (𝓝 0) := by
    have hb (k : Nat) : transition A H Q R (riccSeq A H Q R P k0) k i j ^ 2 ≤ ρ ^ k * lyap A H Q R L i i / c := by
      refine sq_le_of_congr hc hlow i j ?_
      have := (hk k).diag_nonneg (i := i)
      simp only [Matrix.sub_apply, Matrix.smul_apply, smul_eq_mul] at this
      linarith
    exact tendsto_of_sq_le hρ0 hρ1 hb
  have := (tendsto_add_atTop_iff_nat (f := fun k => transition A H Q R P k i j) (l := 𝓝 0) k0).1
  refine this ?_
  exact (tendsto_mul_right hz _ i j).congr fun k => by rw [Nat.add_comm, transition_add]

end two

end Verif.KF
