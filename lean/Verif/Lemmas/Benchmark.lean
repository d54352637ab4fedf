import Verif.Lemmas.KalmanStable
import Mathlib.LinearAlgebra.Matrix.ToLinearEquiv

/-
The estimator with constant input and measurement.
-/

namespace Verif
open Matrix Filter Topology

namespace KF

/-- The settled closed loop has no rest points besides the origin. -/
theorem Settles.det {m : Type} [Fintype m] [DecidableEq m] {A Q P L : Matrix (Fin 2) (Fin 2) ℝ}
    {H : Matrix m (Fin 2) ℝ} {R : Matrix m m ℝ} (s : Settles A H Q R P L) :
    (1 - closed A H Q R L).det ≠ 0 := by
  intro h
  obtain ⟨w, hw, e⟩ := Matrix.exists_vecMul_eq_zero_iff.2 h
  rw [Matrix.vecMul_sub, Matrix.vecMul_one, sub_eq_zero] at e
  have hj := lyap_eq (A := A) (H := H) s.hL.posSemidef s.hQ s.hR s.hfix
  have hp := s.hW.dotProduct_mulVec_pos hw
  generalize lyap A H Q R L = Λ at hj
  have h1 : w ⬝ᵥ (Λ *ᵥ w) = w ⬝ᵥ ((closed A H Q R L * Λ * (closed A H Q R L)ᵀ) *ᵥ w) +
      w ⬝ᵥ (spread A H Q R L *ᵥ w) := by
    rw [← dotProduct_add, ← Matrix.add_mulVec, ← hj]
  have h2 : w ⬝ᵥ ((closed A H Q R L * Λ * (closed A H Q R L)ᵀ) *ᵥ w) = w ⬝ᵥ (Λ *ᵥ w) := by
    rw [← Matrix.mulVec_mulVec, Matrix.mulVec_transpose, ← e, ← Matrix.mulVec_mulVec, dotProduct_mulVec, ← e]
  rw [star_trivial] at hp
  linarith

end KF

namespace Kalman
variable {m u : Dim}

/-- With constant data the estimate tends to the rest point of the settled estimator. -/
theorem run_rest {A : Mat ℝ 2 2} {B : Mat ℝ 2 u.val} {H : Mat ℝ m.val 2} {Q : Mat ℝ 2 2}
    {R : Mat ℝ m.val m.val} {P : Mat ℝ 2 2} {xhat : ColVec ℝ 2} {L}
    (s : KF.Settles A.toMatrix H.toMatrix Q.toMatrix R.toMatrix P.toMatrix L) (v : ColVec ℝ u.val) (z : ColVec ℝ m.val) (y : Matrix (Fin 2) (Fin 1) ℝ)
    (hy : y = A.toMatrix * y + B.toMatrix * v.toMatrix + L * H.toMatrixᵀ * R.toMatrix⁻¹ *
      (z.toMatrix - H.toMatrix * (A.toMatrix * y + B.toMatrix * v.toMatrix)))
    (ε : ℝ) (hε : 0 < ε) : ∃ N : Nat, ∀ k : Kalman ℝ m u, k.A = A → k.B = B → k.H = H →
      k.Q = Q → k.R = R → k.P = P → k.xhat = xhat → ∀ n, N ≤ n →
      ∃ k', k.run (List.replicate n (v, z)) = .ok k' ∧ ∀ i, |k'.xhat.toMatrix i 0 - y i 0| < ε := by
  obtain ⟨Λ, t, γ, g, k0, hΛ, ht, hγ0, hγ1, hg0, hgγ, hg⟩ := s.factors
  obtain ⟨c, hc, hlow⟩ := KF.posDef_lower hΛ
  obtain ⟨l, hl0, hl⟩ := KF.entry_bound Λ
  let ν := z.toMatrix - H.toMatrix * (A.toMatrix * y + B.toMatrix * v.toMatrix)
  let G := KF.gainSeq A.toMatrix H.toMatrix Q.toMatrix R.toMatrix P.toMatrix
  let G' := L * H.toMatrixᵀ * R.toMatrix⁻¹
  let b : Nat → ℝ := fun j => ∑ a, |((G j - G') * ν) a 0|
  have hb0 (j : Nat) : 0 ≤ b j := by positivity
  have hb (j : Nat) (i : Fin 2) : |((G j - G') * ν) i 0| ≤ b j :=
    Finset.single_le_sum (f := fun a => |((G j - G') * ν) a 0|) (fun _ _ => abs_nonneg _)
      (Finset.mem_univ i)
  have hbz : Tendsto b atTop (𝓝 0) := by
    have h (a : Fin 2) : Tendsto (fun j => |((G j - G') * ν) a 0|) atTop (𝓝 0) := by
      have h2 : Tendsto (fun j => ((G j - G') * ν) a 0) atTop (𝓝 (∑ i, (G' a i - G' a i) * ν i 0)) := by
        simp only [Matrix.mul_apply, Matrix.sub_apply]
        exact tendsto_finsetSum _ fun i _ => ((s.gain_tendsto a i).sub_const _).mul_const _
      simpa using h2.abs
    have := tendsto_finsetSum (Finset.univ : Finset (Fin 2)) fun a _ => h a
    rw [Finset.sum_const_zero] at this
    exact this
  obtain ⟨E, hE0, hE⟩ := KF.entry_bound (xhat.toMatrix - y)
  have hz : Tendsto (KF.grow (fun j => (1 + t) * g j) (fun j => (1 + t⁻¹) * (2 * b j ^ 2 / c))
      (2 * E ^ 2 / c)) atTop (𝓝 0) := by
    refine KF.grow_tendsto hγ0.le hγ1 (fun j => mul_nonneg (by positivity) (hg0 j))
      (fun j => by have := hb0 j; positivity) (by positivity) hgγ ?_
    have := (((hbz.pow 2).const_mul 2).div_const c).const_mul (1 + t⁻¹)
    simpa using this
  have hz2 := hz.mul_const l
  rw [zero_mul] at hz2
  obtain ⟨N, hN⟩ := eventually_atTop.1 (hz2.eventually_lt_const (by positivity : 0 < ε ^ 2))
  refine ⟨N, ?_⟩
  rintro k rfl rfl rfl rfl rfl rfl rfl n hn
  have key (n : Nat) : ∃ k', k.run (List.replicate n (v, z)) = .ok k' ∧
      (KF.grow (fun j => (1 + t) * g j) (fun j => (1 + t⁻¹) * (2 * b j ^ 2 / c)) (2 * E ^ 2 / c) n • Λ -
        (k'.xhat.toMatrix - y) * (k'.xhat.toMatrix - y)ᵀ).PosSemidef := by
    induction n with
    | zero => exact ⟨k, rfl, KF.vec_within hc hΛ.posSemidef hlow fun i => hE i 0⟩
    | succ n ih =>
      obtain ⟨k1, h1, hp⟩ := ih
      obtain ⟨k2, h2, ex⟩ := run_step s h1 v z
      refine ⟨k2, by rw [List.replicate_succ']; exact h2, ?_⟩
      have := KF.within_step ht (KF.grow_nonneg (fun j => mul_nonneg (by positivity) (hg0 j))
        (fun j => by have := hb0 j; positivity) (by positivity) _) hp (hg n)
        (KF.vec_within hc hΛ.posSemidef hlow (hb n))
      rw [gainSeq_eq s] at this
      rw [KF.grow, mul_assoc]
      convert this using 2
      have e : k2.xhat.toMatrix - y = (1 - G n * k.H.toMatrix) * k.A.toMatrix * (k1.xhat.toMatrix - y) +
          (G n - G') * ν := by
        rw [ex, List.length_replicate]
        conv_lhs => rw [hy]
        show k.A.toMatrix * k1.xhat.toMatrix + k.B.toMatrix * v.toMatrix + G n * _ - (_ + G' * ν) = _
        simp only [ν, Matrix.mul_sub, Matrix.sub_mul, Matrix.mul_add, Matrix.one_mul, Matrix.mul_assoc]
        abel
      rw [e]
  obtain ⟨k', hr, hp⟩ := key n
  refine ⟨k', hr, fun i => ?_⟩
  have h1 := KF.within_vec hp i
  have h2 := hN n hn
  have h3 : Λ i i ≤ l := (le_abs_self _).trans (hl i i)
  have h4 := KF.grow_nonneg (h := fun j => (1 + t) * g j) (a := fun j => (1 + t⁻¹) * (2 * b j ^ 2 / c))
    (c := 2 * E ^ 2 / c) (fun j => mul_nonneg (by positivity) (hg0 j))
    (fun j => by have := hb0 j; positivity) (by positivity) n
  rw [Matrix.sub_apply] at h1
  refine abs_lt_of_sq_lt_sq (lt_of_le_of_lt (h1.trans ?_) h2) hε.le
  gcongr

/-- The rest point exists. -/
theorem exists_rest {A : Mat ℝ 2 2} {H : Mat ℝ m.val 2} {Q : Mat ℝ 2 2} {R : Mat ℝ m.val m.val}
    {P L : Matrix (Fin 2) (Fin 2) ℝ} (s : KF.Settles A.toMatrix H.toMatrix Q.toMatrix R.toMatrix P L)
    (b : Matrix (Fin 2) (Fin 1) ℝ) (z : Matrix (Fin m.val) (Fin 1) ℝ) : ∃ y : Matrix (Fin 2) (Fin 1) ℝ,
      y = A.toMatrix * y + b + L * H.toMatrixᵀ * R.toMatrix⁻¹ * (z - H.toMatrix * (A.toMatrix * y + b)) := by
  have hd := s.det
  rw [KF.closed_post s.hL.posSemidef s.hQ s.hR, s.hfix] at hd
  generalize L * H.toMatrixᵀ * R.toMatrix⁻¹ = G at *
  refine ⟨(1 - (1 - G * H.toMatrix) * A.toMatrix)⁻¹ * (b + G * (z - H.toMatrix * b)), ?_⟩
  have e := Matrix.mul_nonsing_inv_cancel_left (B := b + G * (z - H.toMatrix * b)) _ (isUnit_iff_ne_zero.2 hd)
  generalize (1 - (1 - G * H.toMatrix) * A.toMatrix)⁻¹ * (b + G * (z - H.toMatrix * b)) = y at *
  simp only [Matrix.mul_sub, Matrix.sub_mul, Matrix.mul_add, Matrix.one_mul, Matrix.mul_assoc] at e ⊢
  rw [sub_eq_iff_eq_add] at e
  conv_lhs => rw [e]
  abel

end Kalman
end Verif
