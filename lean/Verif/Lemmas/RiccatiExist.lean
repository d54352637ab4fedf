import Verif.Lemmas.Riccati

/- Existence of a steady covariance, and convergence to it. -/

namespace Verif.KF
open Matrix Filter Topology

section real
variable {n m : Type} [Fintype n] [Fintype m] [DecidableEq n] [DecidableEq m]
  {A Q P Y : Matrix n n ℝ} {H : Matrix m n ℝ} {R : Matrix m m ℝ} {G : Matrix n m ℝ}

/-- The covariance after a step with the gain `G`. -/
noncomputable def withGain (A : Matrix n n ℝ) (H : Matrix m n ℝ) (Q : Matrix n n ℝ) (R : Matrix m m ℝ)
    (G : Matrix n m ℝ) (Y : Matrix n n ℝ) : Matrix n n ℝ :=
  (1 - G * H) * pred A Q Y * (1 - G * H)ᵀ + G * R * Gᵀ

omit [DecidableEq m] in
theorem withGain_mono {P : Matrix n n ℝ} (h : (Y - P).PosSemidef) :
    (withGain A H Q R G Y - withGain A H Q R G P).PosSemidef := by
  have e : withGain A H Q R G Y - withGain A H Q R G P =
      ((1 - G * H) * A) * (Y - P) * ((1 - G * H) * A)ᵀ := by
    rw [withGain, withGain]
    generalize 1 - G * H = X
    simp only [pred, Matrix.transpose_mul, Matrix.mul_add, Matrix.add_mul, Matrix.mul_sub,
      Matrix.sub_mul, Matrix.mul_assoc]
    abel
  rw [e]; exact psd_congr h _

/-- A covariance that some gain does not exceed bounds the recursion from 0. -/
theorem riccSeq_bound (hQ : Q.PosSemidef) (hR : R.PosDef) (hY : Y.PosSemidef)
    (hG : (Y - withGain A H Q R G Y).PosSemidef) (k : Nat) :
    (Y - riccSeq A H Q R 0 k).PosSemidef := by
  induction k with
  | zero => simpa [riccSeq] using hY
  | succ k ih =>
    have hk := riccSeq_psd (A := A) (H := H) (P := 0) Matrix.PosSemidef.zero hQ hR k
    have h1 := optimal (H := H) (pred_psd (A := A) hk hQ) hR G
    have h2 := withGain_mono (A := A) (H := H) (Q := Q) (R := R) (G := G) ih
    have := (hG.add h2).add h1
    rw [withGain, withGain] at this
    rw [riccSeq, ricc]
    convert this using 1
    abel

theorem riccSeq_mono (hQ : Q.PosSemidef) (hR : R.PosDef) (k : Nat) :
    (riccSeq A H Q R 0 (k + 1) - riccSeq A H Q R 0 k).PosSemidef := by
  have hk := riccSeq_psd (A := A) (H := H) (P := 0) Matrix.PosSemidef.zero hQ hR
  induction k with
  | zero => simpa [riccSeq] using hk 1
  | succ k ih => exact ricc_mono (hk _) (hk _) hQ hR ih

end real

section two
variable {m : Type} [Fintype m] [DecidableEq m] {A Q P Y : Matrix (Fin 2) (Fin 2) ℝ}
  {H : Matrix m (Fin 2) ℝ} {R : Matrix m m ℝ} {G : Matrix (Fin 2) m ℝ}

/-- A monotone bounded sequence of symmetric matrices converges. -/
theorem mono_tendsto {Z : Nat → Matrix (Fin 2) (Fin 2) ℝ} (hmono : ∀ k, (Z (k + 1) - Z k).PosSemidef)
    (hsymm : ∀ k, Z k 1 0 = Z k 0 1) (hbd : ∀ k, (Y - Z k).PosSemidef) :
    ∃ L : Matrix (Fin 2) (Fin 2) ℝ, ∀ i j, Tendsto (fun k => Z k i j) atTop (𝓝 (L i j)) := by
  have key (a b : ℝ) : ∃ l, Tendsto (fun k => Z k 0 0 * a ^ 2 + (Z k 0 1 + Z k 1 0) * (a * b) +
      Z k 1 1 * b ^ 2) atTop (𝓝 l) := by
    refine ⟨_, tendsto_atTop_ciSup (monotone_nat_of_le_succ fun k => ?_)
      ⟨Y 0 0 * a ^ 2 + (Y 0 1 + Y 1 0) * (a * b) + Y 1 1 * b ^ 2, ?_⟩⟩
    · have := (hmono k).dotProduct_mulVec_nonneg ![a, b]
      rw [quad2] at this
      simp only [Matrix.sub_apply, cons_val_zero, cons_val_one] at this
      linarith
    · rintro _ ⟨k, rfl⟩
      have := (hbd k).dotProduct_mulVec_nonneg ![a, b]
      rw [quad2] at this
      simp only [Matrix.sub_apply, cons_val_zero, cons_val_one] at this
      simp only
      linarith
  obtain ⟨l0, h0⟩ := key 1 0
  obtain ⟨l1, h1⟩ := key 0 1
  obtain ⟨l2, h2⟩ := key 1 1
  have h0' : Tendsto (fun k => Z k 0 0) atTop (𝓝 l0) := h0.congr fun k => by ring
  have h1' : Tendsto (fun k => Z k 1 1) atTop (𝓝 l1) := h1.congr fun k => by ring
  have h2' : Tendsto (fun k => Z k 0 1) atTop (𝓝 ((l2 - l0 - l1) / 2)) :=
    (((h2.sub h0).sub h1).div_const 2).congr fun k => by rw [hsymm]; ring
  refine ⟨!![l0, (l2 - l0 - l1) / 2; (l2 - l0 - l1) / 2, l1], fun i j => ?_⟩
  fin_cases i <;> fin_cases j
  · exact h0'
  · exact h2'
  · exact h2'.congr fun k => (hsymm k).symm
  · exact h1'

theorem psd_of_tendsto {Z : Nat → Matrix (Fin 2) (Fin 2) ℝ} {L : Matrix (Fin 2) (Fin 2) ℝ}
    (hZ : ∀ k, (Z k).PosSemidef) (h : ∀ i j, Tendsto (fun k => Z k i j) atTop (𝓝 (L i j))) :
    L.PosSemidef := by
  apply psd2
  · exact tendsto_nhds_unique (h 1 0) ((h 0 1).congr fun k => (symm2 (hZ k)).symm)
  · exact ge_of_tendsto' (h 0 0) fun k => (hZ k).diag_nonneg
  · exact ge_of_tendsto' (h 1 1) fun k => (hZ k).diag_nonneg
  · exact le_of_tendsto_of_tendsto' ((h 0 1).pow 2) ((h 0 0).mul (h 1 1)) fun k => det2_of_psd (hZ k)

theorem reach_of_posDef (hQ : Q.PosDef) : (Q + A * Q * Aᵀ).PosDef :=
  hQ.add_posSemidef (psd_congr hQ.posSemidef A)

/-- A steady covariance exists. -/
theorem steady_exists (hQ' : Q.PosSemidef) (hC : (Q + A * Q * Aᵀ).PosDef) (hR : R.PosDef) (hY : Y.PosSemidef)
    (hG : (Y - withGain A H Q R G Y).PosSemidef) :
    ∃ L : Matrix (Fin 2) (Fin 2) ℝ, L.PosDef ∧ ricc A H Q R L = L ∧ (spread A H Q R L).PosDef := by
  have hk := riccSeq_psd (A := A) (H := H) (P := 0) Matrix.PosSemidef.zero hQ' hR
  have hmono := riccSeq_mono (A := A) (H := H) hQ' hR
  obtain ⟨L, hL⟩ := mono_tendsto hmono (fun k => symm2 (hk k)) (riccSeq_bound hQ' hR hY hG)
  -- the sequence is below its limit
  have hle (j k : Nat) : (riccSeq A H Q R 0 (j + k) - riccSeq A H Q R 0 j).PosSemidef := by
    induction k with
    | zero => simpa using Matrix.PosSemidef.zero
    | succ k ih =>
      have := (hmono (j + k)).add ih
      rwa [sub_add_sub_cancel] at this
  have hLle (j : Nat) : (L - riccSeq A H Q R 0 j).PosSemidef := by
    refine psd_of_tendsto (hle j) fun a b => ?_
    simp only [Matrix.sub_apply]
    refine Tendsto.sub_const ?_ _
    exact ((tendsto_add_atTop_iff_nat j).2 (hL a b)).congr fun k => by rw [Nat.add_comm]
  have h1 : (riccSeq A H Q R 0 2).PosDef := ricc_two Matrix.PosSemidef.zero hQ' hC hR
  have hLp : L.PosDef := by
    have := h1.add_posSemidef (hLle 2)
    rwa [add_sub_cancel] at this
  refine ⟨L, hLp, ?_, spread_posDef hQ' hC hR _⟩
  -- the limit is a fixed point
  obtain ⟨c, hc, hlow⟩ := posDef_lower h1
  have hX (k : Nat) (i j : Fin 2) :
      closed A H Q R (riccSeq A H Q R 0 (2 + k)) i j ^ 2 ≤ L i i / c := by
    have hl : (riccSeq A H Q R 0 (2 + k) - c • 1).PosSemidef := by
      have := (hle 2 k).add hlow
      rwa [sub_add_sub_cancel] at this
    refine sq_le_of_congr hc hl i j ?_
    have hj := ricc_joseph (A := A) (H := H) (symm_of_psd (hk (2 + k))) (symm_of_psd hQ')
      (symm_of_psd hR.posSemidef) (innov_unit (hk (2 + k)) hQ' hR)
    have h2 := (hLle (2 + k + 1)).diag_nonneg (i := i)
    have h3 := ((psd_congr hQ' (1 - gain (pred A Q (riccSeq A H Q R 0 (2 + k))) H R * H)).add
      (psd_congr hR.posSemidef (gain (pred A Q (riccSeq A H Q R 0 (2 + k))) H R))).diag_nonneg (i := i)
    have h4 : riccSeq A H Q R 0 (2 + k + 1) i i = (closed A H Q R (riccSeq A H Q R 0 (2 + k)) *
        riccSeq A H Q R 0 (2 + k) * (closed A H Q R (riccSeq A H Q R 0 (2 + k)))ᵀ) i i +
        fresh A H Q R (riccSeq A H Q R 0 (2 + k)) i i := by
      rw [← Matrix.add_apply, ← hj]; rfl
    rw [Matrix.sub_apply] at h2
    change 0 ≤ fresh A H Q R (riccSeq A H Q R 0 (2 + k)) i i at h3
    linarith
  have hdiff (k : Nat) : riccSeq A H Q R 0 (2 + k + 1) - ricc A H Q R L =
      closed A H Q R (riccSeq A H Q R 0 (2 + k)) * ((riccSeq A H Q R 0 (2 + k) - L) *
        (closed A H Q R L)ᵀ) := by
    rw [← Matrix.mul_assoc]
    exact ricc_sub (symm_of_psd hLp.posSemidef) (symm_of_psd hQ')
      (symm_of_psd hR.posSemidef) (innov_unit (hk _) hQ' hR) (innov_unit hLp.posSemidef hQ' hR)
  ext i j
  have ht0 (a : Fin 2) : Tendsto (fun k => ((riccSeq A H Q R 0 (2 + k) - L) * (closed A H Q R L)ᵀ) a j)
      atTop (𝓝 0) := by
    refine tendsto_mul_right (fun a b => ?_) _ a j
    simp only [Matrix.sub_apply]
    have := ((tendsto_add_atTop_iff_nat 2).2 (hL a b)).sub_const (L a b)
    rw [sub_self] at this
    exact this.congr fun k => by rw [Nat.add_comm]
  have ht1 : Tendsto (fun k => riccSeq A H Q R 0 (2 + k + 1) i j - ricc A H Q R L i j) atTop (𝓝 0) := by
    have e : ∀ k, riccSeq A H Q R 0 (2 + k + 1) i j - ricc A H Q R L i j =
        ∑ a, closed A H Q R (riccSeq A H Q R 0 (2 + k)) i a *
          ((riccSeq A H Q R 0 (2 + k) - L) * (closed A H Q R L)ᵀ) a j := by
      intro k
      rw [← Matrix.sub_apply, hdiff, Matrix.mul_apply]
    simp only [e]
    rw [show (0 : ℝ) = ∑ a : Fin 2, (0 : ℝ) by simp]
    refine tendsto_finsetSum _ fun a _ => ?_
    refine bdd_le_mul_tendsto_zero' (√(L i i / c)) (.of_forall fun k => ?_) (ht0 a)
    exact Real.abs_le_sqrt (hX k i a)
  have ht2 : Tendsto (fun k => riccSeq A H Q R 0 (2 + k + 1) i j) atTop (𝓝 (L i j)) :=
    ((tendsto_add_atTop_iff_nat 3).2 (hL i j)).congr fun k => by
      rw [show k + 3 = 2 + k + 1 by omega]
  have := tendsto_nhds_unique ht1 (ht2.sub_const (ricc A H Q R L i j))
  linarith

variable {L : Matrix (Fin 2) (Fin 2) ℝ}

/-- Convergence from every start. -/
theorem riccSeq_tendsto_psd (hP : P.PosSemidef) (hL : L.PosDef) (hQ : Q.PosSemidef)
    (hC : (Q + A * Q * Aᵀ).PosDef) (hR : R.PosDef) (hfix : ricc A H Q R L = L) (i j : Fin 2) :
    Tendsto (fun k => riccSeq A H Q R P k i j) atTop (𝓝 (L i j)) := by
  refine (tendsto_add_atTop_iff_nat 2).1 ((riccSeq_tendsto (ricc_two (A := A) (H := H) hP hQ hC hR) hL hQ hR
    hfix (spread_posDef hQ hC hR _) i j).congr fun k => ?_)
  rw [Nat.add_comm, riccSeq_add]; rfl

theorem transition_tendsto_psd (hP : P.PosSemidef) (hL : L.PosDef) (hQ : Q.PosSemidef)
    (hC : (Q + A * Q * Aᵀ).PosDef) (hR : R.PosDef) (hfix : ricc A H Q R L = L) (i j : Fin 2) :
    Tendsto (fun k => transition A H Q R P k i j) atTop (𝓝 0) := by
  refine (tendsto_add_atTop_iff_nat 2).1 ?_
  exact (tendsto_mul_right (transition_tendsto (ricc_two (A := A) (H := H) hP hQ hC hR) hL hQ hR hfix
    (spread_posDef hQ hC hR _)) _ i j).congr fun k => by rw [Nat.add_comm, transition_add]; rfl

omit [DecidableEq m] in
/-- With a gain whose error dynamics vanish after two steps the covariance is bounded. -/
theorem bound_of_nilpotent (hQ : Q.PosSemidef) (hR : R.PosSemidef)
    (hX : ((1 - G * H) * A) * ((1 - G * H) * A) = 0) :
    ∃ Y : Matrix (Fin 2) (Fin 2) ℝ, Y.PosSemidef ∧ (Y - withGain A H Q R G Y).PosSemidef := by
  have hN : (withGain A H Q R G 0).PosSemidef := by
    have : pred A Q 0 = Q := by simp [pred]
    rw [withGain, this]
    exact (psd_congr hQ _).add (psd_congr hR _)
  generalize hXX : (1 - G * H) * A = X at *
  refine ⟨withGain A H Q R G 0 + X * withGain A H Q R G 0 * Xᵀ, hN.add (psd_congr hN X), ?_⟩
  have e (Y : Matrix (Fin 2) (Fin 2) ℝ) : withGain A H Q R G Y = X * Y * Xᵀ + withGain A H Q R G 0 := by
    rw [← hXX, withGain, withGain]
    generalize 1 - G * H = Z
    simp only [pred, Matrix.transpose_mul, Matrix.mul_add, Matrix.add_mul, Matrix.mul_zero,
      Matrix.zero_mul, Matrix.mul_assoc, zero_add]
    abel
  rw [e (withGain A H Q R G 0 + X * withGain A H Q R G 0 * Xᵀ)]
  have e2 : X * (X * withGain A H Q R G 0 * Xᵀ) * Xᵀ = 0 := by
    calc _ = X * X * (withGain A H Q R G 0 * Xᵀ * Xᵀ) := by simp only [Matrix.mul_assoc]
      _ = 0 := by rw [hX, Matrix.zero_mul]
  rw [Matrix.mul_add, Matrix.add_mul, e2, add_zero, add_comm, sub_self]
  exact Matrix.PosSemidef.zero

/-- One measurement: `H` and `H A` are independent. -/
theorem bound_of_observable {H : Matrix (Fin 1) (Fin 2) ℝ} {R : Matrix (Fin 1) (Fin 1) ℝ}
    (hQ : Q.PosSemidef) (hR : R.PosSemidef)
    (hO : H 0 0 * (H * A) 0 1 - H 0 1 * (H * A) 0 0 ≠ 0) :
    ∃ (G : Matrix (Fin 2) (Fin 1) ℝ) (Y : Matrix (Fin 2) (Fin 2) ℝ), Y.PosSemidef ∧
      (Y - withGain A H Q R G Y).PosSemidef := by
  have hO' : H 0 0 * (H 0 0 * A 0 1 + H 0 1 * A 1 1) - H 0 1 * (H 0 0 * A 0 0 + H 0 1 * A 1 0) ≠ 0 := by
    simpa [Matrix.mul_apply, Fin.sum_univ_two] using hO
  refine ⟨!![(A 0 1 * H 0 0 - A 0 0 * H 0 1) /
      (H 0 0 * (H 0 0 * A 0 1 + H 0 1 * A 1 1) - H 0 1 * (H 0 0 * A 0 0 + H 0 1 * A 1 0));
    (A 1 1 * H 0 0 - A 1 0 * H 0 1) /
      (H 0 0 * (H 0 0 * A 0 1 + H 0 1 * A 1 1) - H 0 1 * (H 0 0 * A 0 0 + H 0 1 * A 1 0))], ?_⟩
  apply bound_of_nilpotent hQ hR
  rw [Matrix.eta_fin_two A, show H = !![H 0 0, H 0 1] by ext i j; fin_cases i; fin_cases j <;> rfl,
    Matrix.one_fin_two]
  simp only [of_apply, cons_val', cons_val_zero, cons_val_one, cons_val_fin_one]
  generalize H 0 0 = h0, H 0 1 = h1, A 0 0 = a, A 0 1 = b, A 1 0 = c, A 1 1 = d at *
  generalize hD : h0 * (h0 * b + h1 * d) - h1 * (h0 * a + h1 * c) = D at *
  ext i j
  fin_cases i <;> fin_cases j <;> simp <;> field_simp <;> rw [← hD] <;> ring

/-- Two measurements that determine the state. -/
theorem bound_of_invertible {H R : Matrix (Fin 2) (Fin 2) ℝ} (hQ : Q.PosSemidef) (hR : R.PosSemidef)
    (hH : IsUnit H.det) :
    ∃ (G Y : Matrix (Fin 2) (Fin 2) ℝ), Y.PosSemidef ∧ (Y - withGain A H Q R G Y).PosSemidef :=
  ⟨H⁻¹, bound_of_nilpotent hQ hR (by rw [Matrix.nonsing_inv_mul _ hH]; simp)⟩

end two
end Verif.KF
