import Mathlib.Data.List.Forall2
import Mathlib.LinearAlgebra.Matrix.PosDef
import Mathlib.Topology.Algebra.Order.Field
import Mathlib.Tactic.FieldSimp
import Verif.Lemmas.KalmanUnits
import Verif.Props.Kalman

/-
Properties C142 to C144: what the estimate does not depend on, and between what it lies.
-/

namespace Verif
open Matrix Kalman

/-! ## C142 The estimate does not depend on coordinates, units or the order of the measurements -/

section
variable {T : Type} {m u : Dim} [Field T] [CNum T] [ExactField T]

/-- C142: in exact arithmetic an estimator in another description stays one through every run on the same data in that
description: one run is defined iff the other is, and then estimate, covariance and time still belong to each other, and
so do the gains. -/
theorem C142_run {χ : Change T m u} (hM : χ.M.det ≠ 0) {k k' : Kalman T m u} (h : Redescribed χ k k')
    {ds ds' : List (ColVec T u.val × ColVec T m.val)} (hd : List.Forall₂ (Redata χ) ds ds') :
    ((∃ k₁, k.run ds = .ok k₁) ↔ ∃ k₁', k'.run ds' = .ok k₁') ∧
    ∀ k₁ k₁', k.run ds = .ok k₁ → k'.run ds' = .ok k₁' → Redescribed χ k₁ k₁' ∧
      (ds ≠ [] → ∃ G G', k₁.kalman_gain = .ok G ∧ k₁'.kalman_gain = .ok G' ∧
        G'.toMatrix * χ.M = χ.S * G.toMatrix) := by
  induction hd generalizing k k' with
  | nil =>
    refine ⟨⟨fun _ => ⟨k', rfl⟩, fun _ => ⟨k, rfl⟩⟩, fun k₁ k₁' e e' => ?_⟩
    cases e
    cases e'
    exact ⟨h, fun h => absurd rfl h⟩
  | @cons d d' ds ds' hdd hds ih =>
    obtain ⟨h1, h2, h3⟩ := update_redescribed hM h hdd
    constructor
    · constructor
      · rintro ⟨k₁, e⟩
        obtain ⟨k2, e2, e⟩ := run_cons.1 e
        obtain ⟨k2', e2'⟩ := h1 k2 e2
        obtain ⟨k1', e1'⟩ := (ih (h3 _ _ e2 e2').1).1.1 ⟨_, e⟩
        exact ⟨k1', run_cons.2 ⟨_, e2', e1'⟩⟩
      · rintro ⟨k₁', e'⟩
        obtain ⟨k2', e2', e'⟩ := run_cons.1 e'
        obtain ⟨k2, e2⟩ := h2 k2' e2'
        obtain ⟨k1, e1⟩ := (ih (h3 _ _ e2 e2').1).1.2 ⟨_, e'⟩
        exact ⟨k1, run_cons.2 ⟨_, e2, e1⟩⟩
    · intro k₁ k₁' e e'
      obtain ⟨k2, e2, e⟩ := run_cons.1 e
      obtain ⟨k2', e2', e'⟩ := run_cons.1 e'
      obtain ⟨hr, G, G', hG, hG', hGG⟩ := h3 _ _ e2 e2'
      obtain ⟨a, b⟩ := (ih hr).2 _ _ e e'
      refine ⟨a, fun _ => ?_⟩
      by_cases hn : ds = []
      · subst hn
        cases hds
        cases e
        cases e'
        exact ⟨G, G', by unfold kalman_gain; rw [hG], by unfold kalman_gain; rw [hG'], hGG⟩
      · exact b hn

/-! ## C143 Independent measurements may be processed one after the other -/

/-- C143: with uncorrelated measurements, an update with both gives the estimate and the covariance that two updates with
one measurement each give, in whichever order, the second one without motion in between; provided the innovation
covariances are not singular. -/
theorem C143_sequential (k : Kalman T .two u) (hP : k.P.toMatrixᵀ = k.P.toMatrix) (hQ : k.Q.toMatrixᵀ = k.Q.toMatrix)
    (hR : k.R.get 0 1 = 0 ∧ k.R.get 1 0 = 0) (i j : Fin 2) (hij : i ≠ j) (hi : (k.alone i).Sm.det ≠ 0)
    (hd : k.Sm.det ≠ 0) (v w : ColVec T u.val) (z : ColVec T 2) :
    ∃ a b k', (k.alone i).update v ⟨#v[z.get i 0]⟩ = .ok a ∧ (k.still j a).update w ⟨#v[z.get j 0]⟩ = .ok b ∧
      k.update v z = .ok k' ∧ b.xhat = k'.xhat ∧ b.P = k'.P := by
  have hPm := Pm_symm hP hQ
  have hp : ∀ s t, k.Pm s t = k.Pm t s := fun s t => congrFun (congrFun hPm t) s
  set g : Fin 2 → Fin 2 → T := fun l s => k.Pm s 0 * k.H.get l 0 + k.Pm s 1 * k.H.get l 1 with hg
  set α := k.H.get i 0 * g i 0 + k.H.get i 1 * g i 1 + k.R.get i i with hα
  set β := k.H.get j 0 * g i 0 + k.H.get j 1 * g i 1 with hβ
  set γ := k.H.get j 0 * g j 0 + k.H.get j 1 * g j 1 + k.R.get j j with hγ
  have hα0 : α ≠ 0 := by
    intro h
    apply hi
    rw [show (k.alone i).Sm.det = (k.alone i).Sm 0 0 from Matrix.det_fin_one _, ← h, hα]
    show ((k.alone i).H.toMatrix * k.Pm * (k.alone i).H.toMatrixᵀ) 0 0 + k.R.get i i = _
    simp only [Matrix.mul_apply, Fin.sum_univ_two, Matrix.transpose_apply, hg]
    show (k.H.get i 0 * k.Pm 0 0 + k.H.get i 1 * k.Pm 1 0) * k.H.get i 0 +
      (k.H.get i 0 * k.Pm 0 1 + k.H.get i 1 * k.Pm 1 1) * k.H.get i 1 + k.R.get i i = _
    ring
  have hD : k.Sm.det = α * γ - β * β := by
    have e0 : ∀ l l', k.Sm l l' = k.H.get l 0 * g l' 0 + k.H.get l 1 * g l' 1 + k.R.get l l' := by
      intro l l'
      show (k.H.toMatrix * k.Pm * k.H.toMatrixᵀ) l l' + k.R.get l l' = _
      simp only [Matrix.mul_apply, Fin.sum_univ_two, Matrix.transpose_apply, hg]
      simp only [Mat.toMatrix]
      ring
    have hd2 : k.Sm.det = k.Sm 0 0 * k.Sm 1 1 - k.Sm 0 1 * k.Sm 1 0 := Matrix.det_fin_two _
    rw [hd2, e0, e0, e0, e0, hR.1, hR.2, hα, hβ, hγ]
    simp only [hg]
    rw [hp 1 0]
    fin_cases i <;> fin_cases j <;> first | exact absurd rfl hij | (simp only [Fin.zero_eta, Fin.mk_one, Fin.isValue]; ring)
  rw [hD] at hd
  obtain ⟨a, ha, ea⟩ := one_update (k.alone i) v ⟨#v[z.get i 0]⟩ hPm
  obtain ⟨ex, eP⟩ := ea (g i) (fun s => rfl) α rfl
  have hPm2 : (k.still j a).Pmᵀ = (k.still j a).Pm := by
    ext s t
    rw [Matrix.transpose_apply, still_Pm, still_Pm, eP, eP, show (k.alone i).Pm = k.Pm from rfl, hp s t]
    ring
  obtain ⟨b, hb, eb⟩ := one_update (k.still j a) w ⟨#v[z.get j 0]⟩ hPm2
  have hβ' : β = k.H.get i 0 * g j 0 + k.H.get i 1 * g j 1 := by
    rw [hβ]
    simp only [hg]
    rw [hp 1 0]
    ring
  have hg2 : ∀ s, g j s - g i s * α⁻¹ * β =
      (k.still j a).Pm s 0 * (k.still j a).H.get 0 0 + (k.still j a).Pm s 1 * (k.still j a).H.get 0 1 := by
    intro s
    rw [still_Pm, still_Pm, eP, eP]
    show k.Pm s 0 * k.H.get j 0 + k.Pm s 1 * k.H.get j 1 - _ =
      (k.Pm s 0 + g i s * α⁻¹ * -g i 0) * k.H.get j 0 + (k.Pm s 1 + g i s * α⁻¹ * -g i 1) * k.H.get j 1
    rw [hβ]
    ring
  obtain ⟨fx, fP⟩ := eb (fun s => g j s - g i s * α⁻¹ * β) hg2 (γ - β * α⁻¹ * β) (by
    show _ = k.H.get j 0 * (g j 0 - g i 0 * α⁻¹ * β) + k.H.get j 1 * (g j 1 - g i 1 * α⁻¹ * β) + k.R.get j j
    rw [hγ]
    have : β * α⁻¹ * β = (k.H.get j 0 * g i 0 + k.H.get j 1 * g i 1) * α⁻¹ * β := by rw [← hβ]
    rw [this]
    ring)
  set e : Fin 2 → T := fun l => z.get l 0 - (k.H.get l 0 * k.xm v 0 0 + k.H.get l 1 * k.xm v 1 0) with he
  have bx : ∀ s, b.xhat.get s 0 = k.xm v s 0 +
      (g i s * (γ * e i - β * e j) + g j s * (α * e j - β * e i)) * (α * γ - β * β)⁻¹ := by
    intro s
    rw [fx, still_xm, still_xm, still_xm, ex, ex, ex, ← seq_state hα0 hd]
    show k.xm v s 0 + g i s * α⁻¹ * e i + _ * _ * (z.get j 0 - (k.H.get j 0 * (k.xm v 0 0 + g i 0 * α⁻¹ * e i) +
      k.H.get j 1 * (k.xm v 1 0 + g i 1 * α⁻¹ * e i))) = _
    have : e j - β * α⁻¹ * e i = z.get j 0 - (k.H.get j 0 * (k.xm v 0 0 + g i 0 * α⁻¹ * e i) +
        k.H.get j 1 * (k.xm v 1 0 + g i 1 * α⁻¹ * e i)) := by
      have h2 : β * α⁻¹ * e i = (k.H.get j 0 * g i 0 + k.H.get j 1 * g i 1) * α⁻¹ * e i := by rw [← hβ]
      have h3 : e j = z.get j 0 - (k.H.get j 0 * k.xm v 0 0 + k.H.get j 1 * k.xm v 1 0) := rfl
      rw [h2, h3]
      ring
    rw [this]
  have bP : ∀ s t, b.P.get s t = k.Pm s t +
      (g i s * (γ * -g i t - β * -g j t) + g j s * (α * -g j t - β * -g i t)) * (α * γ - β * β)⁻¹ := by
    intro s t
    rw [fP, still_Pm, eP, ← seq_state hα0 hd]
    show k.Pm s t + _ + _ * _ * -(g j t - g i t * α⁻¹ * β) = _
    ring
  rcases (by omega : (i = 0 ∧ j = 1) ∨ (i = 1 ∧ j = 0)) with ⟨rfl, rfl⟩ | ⟨rfl, rfl⟩
  · obtain ⟨k', hk, kx, kP⟩ := two_update k v z hPm hR (g 0) (g 1) (fun _ => rfl) (fun _ => rfl) α β γ rfl rfl rfl hd
    refine ⟨a, b, k', ha, hb, hk, Mat.ext_get fun s t => ?_, Mat.ext_get fun s t => ?_⟩
    · rw [Subsingleton.elim t 0, bx, kx (e 0) (e 1) rfl rfl]
    · rw [bP, kP]
  · obtain ⟨k', hk, kx, kP⟩ := two_update k v z hPm hR (g 0) (g 1) (fun _ => rfl) (fun _ => rfl) γ β α rfl hβ' rfl
      (by rwa [mul_comm γ])
    refine ⟨a, b, k', ha, hb, hk, Mat.ext_get fun s t => ?_, Mat.ext_get fun s t => ?_⟩
    · rw [Subsingleton.elim t 0, bx, kx (e 0) (e 1) rfl rfl, mul_comm γ α]
      ring
    · rw [bP, kP, mul_comm γ α]
      ring

end

/-- C143: over the real numbers that is so whenever the covariances are positive semidefinite and the variances of the
measurements positive. -/
theorem C143_positive {u : Dim} (k : Kalman ℝ .two u) (hP : k.P.toMatrix.PosSemidef) (hQ : k.Q.toMatrix.PosSemidef)
    (hR : k.R.get 0 1 = 0 ∧ k.R.get 1 0 = 0) (h0 : 0 < k.R.get 0 0) (h1 : 0 < k.R.get 1 1) (i j : Fin 2) (hij : i ≠ j)
    (v w : ColVec ℝ u.val) (z : ColVec ℝ 2) :
    ∃ a b k', (k.alone i).update v ⟨#v[z.get i 0]⟩ = .ok a ∧ (k.still j a).update w ⟨#v[z.get j 0]⟩ = .ok b ∧
      k.update v z = .ok k' ∧ b.xhat = k'.xhat ∧ b.P = k'.P := by
  have hPm : k.Pm.PosSemidef := (KF.psd_congr hP k.A.toMatrix).add hQ
  have hRd : k.R.toMatrix = Matrix.diagonal fun i => k.R.get i i := by
    ext i j
    fin_cases i <;> fin_cases j <;> simp [Mat.toMatrix, hR]
  have hRp : k.R.toMatrix.PosDef := by
    rw [hRd]
    refine Matrix.PosDef.diagonal fun i => ?_
    fin_cases i <;> assumption
  have hRi : (k.alone i).R.toMatrix.PosDef := by
    have : (k.alone i).R.toMatrix = Matrix.diagonal fun _ => k.R.get i i := by
      ext a b
      rw [Subsingleton.elim a 0, Subsingleton.elim b 0, Matrix.diagonal_apply_eq]
      rfl
    rw [this]
    refine Matrix.PosDef.diagonal fun _ => ?_
    fin_cases i <;> assumption
  exact C143_sequential k (KF.symm_of_psd hP) (KF.symm_of_psd hQ) hR i j hij
    (isUnit_iff_ne_zero.1 (KF.posDef_det (KF.innov_posDef (H := (k.alone i).H.toMatrix) hPm hRi)))
    (isUnit_iff_ne_zero.1 (KF.posDef_det (KF.innov_posDef (H := k.H.toMatrix) hPm hRp))) v w z

/-! ## C144 The estimate lies between prediction and measurement -/

/-- C144: what the measurement still differs from the estimate is `R S⁻¹` times what it differed from the prediction; so a
measurement without noise is met exactly, and of what it measures no uncertainty is left. -/
theorem C144_residual {T : Type} {m u : Dim} [Field T] [CNum T] [ExactField T] {k k' : Kalman T m u}
    {v : ColVec T u.val} {z : ColVec T m.val} (h : k.update v z = .ok k') (hP : k.P.toMatrixᵀ = k.P.toMatrix)
    (hQ : k.Q.toMatrixᵀ = k.Q.toMatrix) (hR : k.R.toMatrixᵀ = k.R.toMatrix) (hd : k.Sm.det ≠ 0) :
    z.toMatrix - k.H.toMatrix * k'.xhat.toMatrix = k.R.toMatrix * k.Sm⁻¹ * (z.toMatrix - k.H.toMatrix * k.xm v) ∧
    k.H.toMatrix * k'.P.toMatrix = k.R.toMatrix * k.Sm⁻¹ * k.H.toMatrix * k.Pm ∧
    (k.R.toMatrix = 0 → k.H.toMatrix * k'.xhat.toMatrix = z.toMatrix ∧ k.H.toMatrix * k'.P.toMatrix = 0) := by
  obtain ⟨G, -, hG, hx, hP'⟩ := update_symm_inv h (Pm_symm hP hQ) hR
  have e : 1 - k.H.toMatrix * G.toMatrix = k.R.toMatrix * k.Sm⁻¹ := by
    have h1 : k.Sm * k.Sm⁻¹ = 1 := Matrix.mul_nonsing_inv _ (isUnit_iff_ne_zero.2 hd)
    have h2 : k.H.toMatrix * G.toMatrix = k.H.toMatrix * k.Pm * k.H.toMatrixᵀ * k.Sm⁻¹ := by
      rw [hG]
      simp only [KF.gain, ← Kalman.Sm_eq, Matrix.mul_assoc]
    rw [h2, ← h1, ← Matrix.sub_mul, Sm]
    congr 1
    abel
  have a : z.toMatrix - k.H.toMatrix * k'.xhat.toMatrix =
      k.R.toMatrix * k.Sm⁻¹ * (z.toMatrix - k.H.toMatrix * k.xm v) := by
    rw [← e, hx, Matrix.mul_add, Matrix.sub_mul, Matrix.one_mul, Matrix.mul_assoc]
    abel
  have b : k.H.toMatrix * k'.P.toMatrix = k.R.toMatrix * k.Sm⁻¹ * k.H.toMatrix * k.Pm := by
    rw [← e, hP', ← Matrix.mul_assoc, Matrix.mul_sub, Matrix.sub_mul 1, Matrix.one_mul, Matrix.mul_one,
      Matrix.mul_assoc k.H.toMatrix]
  refine ⟨a, b, fun h0 => ⟨?_, ?_⟩⟩
  · rw [h0, Matrix.zero_mul, Matrix.zero_mul, sub_eq_zero] at a
    exact a.symm
  · rw [b, h0, Matrix.zero_mul, Matrix.zero_mul, Matrix.zero_mul]

/-- The predicted measurement of an estimator with one measurement. -/
def seen {u : Dim} (k : Kalman ℝ .one u) (x : Matrix (Fin 2) (Fin 1) ℝ) : ℝ := k.H.get 0 0 * x 0 0 + k.H.get 0 1 * x 1 0

/-- C144: with one measurement, whatever its noise, the estimate lies between prediction and measurement: what it says of
the measured quantity is a mean of what the prediction said and what was measured. -/
theorem C144_between {u : Dim} {k k' : Kalman ℝ .one u} {v : ColVec ℝ u.val} {z : ColVec ℝ 1}
    (h : k.update v z = .ok k') (hP : k.P.toMatrix.PosSemidef) (hQ : k.Q.toMatrix.PosSemidef) (hR : 0 ≤ k.R.get 0 0) :
    ∃ c : ℝ, 0 ≤ c ∧ c ≤ 1 ∧ seen k k'.xhat.toMatrix = (1 - c) * seen k (k.xm v) + c * z.get 0 0 := by
  have hPm : k.Pm.PosSemidef := (KF.psd_congr hP k.A.toMatrix).add hQ
  have hs := KF.symm_of_psd hPm
  obtain ⟨k2, h2, e2⟩ := one_update k v z hs
  obtain rfl : k' = k2 := Except.ok.inj (h.symm.trans h2)
  set g : Fin 2 → ℝ := fun s => k.Pm s 0 * k.H.get 0 0 + k.Pm s 1 * k.H.get 0 1 with hg
  obtain ⟨ex, -⟩ := e2 g (fun _ => rfl) _ rfl
  have hn : 0 ≤ k.H.get 0 0 * g 0 + k.H.get 0 1 * g 1 := by
    have := (KF.psd_congr hPm k.H.toMatrix).diag_nonneg (i := 0)
    simp only [Matrix.mul_apply, Fin.sum_univ_two, Matrix.transpose_apply] at this
    simp only [Mat.toMatrix] at this
    simp only [hg]
    linarith
  set n := k.H.get 0 0 * g 0 + k.H.get 0 1 * g 1 with hn'
  refine ⟨n * (n + k.R.get 0 0)⁻¹, mul_nonneg hn (inv_nonneg.2 (by linarith)), ?_, ?_⟩
  · rcases eq_or_lt_of_le (add_nonneg hn hR) with h0 | h0
    · rw [← h0, _root_.inv_zero, mul_zero]
      exact zero_le_one
    · rw [← div_eq_mul_inv, div_le_one h0]
      linarith
  · unfold seen
    rw [show k'.xhat.toMatrix 0 0 = _ from ex 0, show k'.xhat.toMatrix 1 0 = _ from ex 1]
    have : n * (n + k.R.get 0 0)⁻¹ = (k.H.get 0 0 * g 0 + k.H.get 0 1 * g 1) * (n + k.R.get 0 0)⁻¹ := by rw [← hn']
    rw [this]
    ring

/-- C144: the noisier the measurement is said to be, the less it moves the estimate from the prediction, and in the limit
it does not. -/
theorem C144_doubt {u : Dim} (k : Kalman ℝ .one u) (v : ColVec ℝ u.val) (z : ColVec ℝ 1) (hP : k.P.toMatrix.PosSemidef)
    (hQ : k.Q.toMatrix.PosSemidef) (s : Fin 2) :
    ∃ x : ℝ → ℝ, (∀ r, ∃ k', { k with R := ⟨#v[r]⟩ }.update v z = .ok k' ∧ k'.xhat.get s 0 = x r) ∧
      (∀ r r', 0 < r → r ≤ r' → |x r' - k.xm v s 0| ≤ |x r - k.xm v s 0|) ∧
      Filter.Tendsto x Filter.atTop (nhds (k.xm v s 0)) := by
  have hPm : k.Pm.PosSemidef := (KF.psd_congr hP k.A.toMatrix).add hQ
  have hs := KF.symm_of_psd hPm
  set g : Fin 2 → ℝ := fun s => k.Pm s 0 * k.H.get 0 0 + k.Pm s 1 * k.H.get 0 1 with hg
  set n := k.H.get 0 0 * g 0 + k.H.get 0 1 * g 1 with hn'
  have hn : 0 ≤ n := by
    have := (KF.psd_congr hPm k.H.toMatrix).diag_nonneg (i := 0)
    simp only [Matrix.mul_apply, Fin.sum_univ_two, Matrix.transpose_apply] at this
    simp only [Mat.toMatrix] at this
    simp only [hn', hg]
    linarith
  refine ⟨fun r => k.xm v s 0 + g s * (n + r)⁻¹ * (z.get 0 0 - seen k (k.xm v)), fun r => ?_, fun r r' hr hrr => ?_, ?_⟩
  · obtain ⟨k', h', e'⟩ := one_update { k with R := ⟨#v[r]⟩ } v z hs
    exact ⟨k', h', (e' g (fun _ => rfl) (n + r) rfl).1 s⟩
  · simp only [add_sub_cancel_left, abs_mul]
    have h1 : 0 < n + r := by linarith
    have h2 : n + r ≤ n + r' := by linarith
    have h3 : |(n + r')⁻¹| ≤ |(n + r)⁻¹| := by
      rw [abs_of_pos (inv_pos.2 h1), abs_of_pos (inv_pos.2 (h1.trans_le h2))]
      exact inv_anti₀ h1 h2
    gcongr
  · have h1 : Filter.Tendsto (fun r : ℝ => (n + r)⁻¹) Filter.atTop (nhds 0) :=
      Filter.Tendsto.comp tendsto_inv_atTop_zero (Filter.tendsto_atTop_add_const_left _ _ Filter.tendsto_id)
    have := ((h1.const_mul (g s)).mul_const (z.get 0 0 - seen k (k.xm v))).const_add (k.xm v s 0)
    simpa using this

/-- Position and velocity with position and their sum measured, in metres. -/
noncomputable def inMetres : Kalman ℝ .two .one :=
  { A := ⟨#v[1, 1, 0, 1]⟩, B := ⟨#v[1 / 2, 1]⟩, H := ⟨#v[1, 0, 1, 1]⟩, Q := ⟨#v[1, 0, 0, 1]⟩, R := ⟨#v[1, 0, 0, 2]⟩,
    K := none, P := ⟨#v[1, 0, 0, 1]⟩, xhat := ⟨#v[3, 4]⟩, t := 0, dt := 1 }

/-- The same with the position in millimetres, the measurements exchanged and the time in milliseconds. -/
noncomputable def inMillimetres : Kalman ℝ .two .one :=
  { A := ⟨#v[1, 1000, 0, 1]⟩, B := ⟨#v[500, 1]⟩, H := ⟨#v[1 / 1000, 1, 1 / 1000, 0]⟩, Q := ⟨#v[1000000, 0, 0, 1]⟩,
    R := ⟨#v[2, 0, 0, 1]⟩, K := none, P := ⟨#v[1000000, 0, 0, 1]⟩, xhat := ⟨#v[3000, 4]⟩, t := 0, dt := 1000 }

/-- C142: for instance, exchanging the measurements and changing the units leaves the estimate the same, whatever is
measured; only the unit of the first component is another. -/
example (ds : List (ℝ × ℝ × ℝ)) : ∃ k k',
    inMetres.run (ds.map fun d => (⟨#v[d.1]⟩, ⟨#v[d.2.1, d.2.2]⟩)) = .ok k ∧
    inMillimetres.run (ds.map fun d => (⟨#v[d.1]⟩, ⟨#v[d.2.2, d.2.1]⟩)) = .ok k' ∧
    k'.xhat.get 0 0 = 1000 * k.xhat.get 0 0 ∧ k'.xhat.get 1 0 = k.xhat.get 1 0 := by
  let χ : Change ℝ .two .one := ⟨!![1000, 0; 0, 1], !![0, 1; 1, 0], 1, 1000⟩
  have e4 : ∀ a b c d : ℝ, (⟨#v[a, b, c, d]⟩ : Mat ℝ 2 2).toMatrix = !![a, b; c, d] := by
    intro a b c d; ext i j; fin_cases i <;> fin_cases j <;> rfl
  have e2 : ∀ a b : ℝ, (⟨#v[a, b]⟩ : Mat ℝ 2 1).toMatrix = !![a; b] := by
    intro a b; ext i j; fin_cases i <;> fin_cases j <;> rfl
  have et : ∀ a b c d : ℝ, !![a, b; c, d]ᵀ = !![a, c; b, d] := by
    intro a b c d; ext i j; fin_cases i <;> fin_cases j <;> rfl
  have h : Redescribed χ inMetres inMillimetres := by
    constructor
    · show (⟨#v[1, 1000, 0, 1]⟩ : Mat ℝ 2 2).toMatrix * !![1000, 0; 0, 1] = !![1000, 0; 0, 1] *
        (⟨#v[1, 1, 0, 1]⟩ : Mat ℝ 2 2).toMatrix
      rw [e4, e4]; norm_num [Matrix.mul_fin_two]
    · show (⟨#v[500, 1]⟩ : Mat ℝ 2 1).toMatrix * (1 : Matrix (Fin 1) (Fin 1) ℝ) = !![1000, 0; 0, 1] *
        (⟨#v[1 / 2, 1]⟩ : Mat ℝ 2 1).toMatrix
      rw [e2, e2, Matrix.mul_one]; norm_num [Matrix.mul_fin_two]
    · show (⟨#v[1 / 1000, 1, 1 / 1000, 0]⟩ : Mat ℝ 2 2).toMatrix * !![1000, 0; 0, 1] = !![0, 1; 1, 0] *
        (⟨#v[1, 0, 1, 1]⟩ : Mat ℝ 2 2).toMatrix
      rw [e4, e4]; norm_num [Matrix.mul_fin_two]
    · show (⟨#v[1000000, 0, 0, 1]⟩ : Mat ℝ 2 2).toMatrix = !![1000, 0; 0, 1] *
        (⟨#v[1, 0, 0, 1]⟩ : Mat ℝ 2 2).toMatrix * !![1000, 0; 0, 1]ᵀ
      rw [e4, e4, et]; norm_num [Matrix.mul_fin_two]
    · show (⟨#v[2, 0, 0, 1]⟩ : Mat ℝ 2 2).toMatrix = !![0, 1; 1, 0] *
        (⟨#v[1, 0, 0, 2]⟩ : Mat ℝ 2 2).toMatrix * !![0, 1; 1, 0]ᵀ
      rw [e4, e4, et]; norm_num [Matrix.mul_fin_two]
    · show (⟨#v[1000000, 0, 0, 1]⟩ : Mat ℝ 2 2).toMatrix = !![1000, 0; 0, 1] *
        (⟨#v[1, 0, 0, 1]⟩ : Mat ℝ 2 2).toMatrix * !![1000, 0; 0, 1]ᵀ
      rw [e4, e4, et]; norm_num [Matrix.mul_fin_two]
    · show (⟨#v[3000, 4]⟩ : Mat ℝ 2 1).toMatrix = !![1000, 0; 0, 1] * (⟨#v[3, 4]⟩ : Mat ℝ 2 1).toMatrix
      rw [e2, e2]; norm_num
    · show (0 : ℝ) = 1000 * 0
      norm_num
    · show (1000 : ℝ) = 1000 * 1
      norm_num
  have hM : χ.M.det ≠ 0 := by
    show (!![0, 1; 1, 0] : Matrix (Fin 2) (Fin 2) ℝ).det ≠ 0
    rw [Matrix.det_fin_two_of]; norm_num
  have hd : List.Forall₂ (Redata χ) (ds.map fun d => ((⟨#v[d.1]⟩ : ColVec ℝ 1), (⟨#v[d.2.1, d.2.2]⟩ : ColVec ℝ 2)))
      (ds.map fun d => (⟨#v[d.1]⟩, ⟨#v[d.2.2, d.2.1]⟩)) := by
    rw [List.forall₂_map_left_iff, List.forall₂_map_right_iff]
    refine List.forall₂_same.2 fun d _ => ⟨(Matrix.one_mul _).symm, ?_⟩
    show (⟨#v[d.2.2, d.2.1]⟩ : Mat ℝ 2 1).toMatrix = !![0, 1; 1, 0] * (⟨#v[d.2.1, d.2.2]⟩ : Mat ℝ 2 1).toMatrix
    rw [e2, e2]; norm_num
  obtain ⟨hdef, hr⟩ := C142_run hM h hd
  have h1 : (⟨#v[1, 0, 0, 1]⟩ : Mat ℝ 2 2).toMatrix = 1 := by rw [e4, Matrix.one_fin_two]
  obtain ⟨k, hk, -⟩ := C15_positive_semidefinite inMetres
    (ds.map fun d => ((⟨#v[d.1]⟩ : ColVec ℝ 1), (⟨#v[d.2.1, d.2.2]⟩ : ColVec ℝ 2)))
    (by show (⟨#v[1, 0, 0, 1]⟩ : Mat ℝ 2 2).toMatrix.PosSemidef; rw [h1]; exact Matrix.PosSemidef.one)
    (by show (⟨#v[1, 0, 0, 1]⟩ : Mat ℝ 2 2).toMatrix.PosSemidef; rw [h1]; exact Matrix.PosSemidef.one)
    (by
      show (⟨#v[1, 0, 0, 2]⟩ : Mat ℝ 2 2).toMatrix.PosDef
      rw [e4, show !![1, 0; 0, 2] = Matrix.diagonal ![(1 : ℝ), 2] by
        ext i j; fin_cases i <;> fin_cases j <;> simp]
      exact Matrix.PosDef.diagonal fun i => by fin_cases i <;> norm_num)
  obtain ⟨k', hk'⟩ := hdef.1 ⟨k, hk⟩
  have hx := (hr k k' hk hk').1.xhat
  refine ⟨k, k', hk, hk', ?_, ?_⟩
  · have := congrFun (congrFun hx 0) 0
    refine this.trans ?_
    simp only [Matrix.mul_apply, Fin.sum_univ_two, χ]
    norm_num
    rfl
  · have := congrFun (congrFun hx 1) 0
    refine this.trans ?_
    simp only [Matrix.mul_apply, Fin.sum_univ_two, χ]
    norm_num
    rfl

/-- C143: the measurements of that estimator are uncorrelated. -/
example (v w : ColVec ℝ 1) (z : ColVec ℝ 2) : ∃ a b k', (inMetres.alone 1).update v ⟨#v[z.get 1 0]⟩ = .ok a ∧
    (inMetres.still 0 a).update w ⟨#v[z.get 0 0]⟩ = .ok b ∧ inMetres.update v z = .ok k' ∧ b.xhat = k'.xhat ∧
    b.P = k'.P := by
  have e : (⟨#v[1, 0, 0, 1]⟩ : Mat ℝ 2 2).toMatrix = 1 := by
    ext i j; fin_cases i <;> fin_cases j <;> rfl
  refine C143_positive inMetres ?_ ?_ ⟨rfl, rfl⟩ ?_ ?_ 1 0 (by decide) v w z
  · show (⟨#v[1, 0, 0, 1]⟩ : Mat ℝ 2 2).toMatrix.PosSemidef
    rw [e]; exact Matrix.PosSemidef.one
  · show (⟨#v[1, 0, 0, 1]⟩ : Mat ℝ 2 2).toMatrix.PosSemidef
    rw [e]; exact Matrix.PosSemidef.one
  · show (0 : ℝ) < 1
    norm_num
  · show (0 : ℝ) < 2
    norm_num

/-- C144: an estimator to which it applies. -/
example (v : ColVec ℝ 1) (z : ColVec ℝ 1) : ∃ k' c, exK.update v z = .ok k' ∧ 0 ≤ c ∧ c ≤ 1 ∧
    seen exK k'.xhat.toMatrix = (1 - c) * seen exK (exK.xm v) + c * z.get 0 0 := by
  obtain ⟨k', h, -⟩ := one_update exK v z (Pm_symm (KF.symm_of_psd exK_psd.1) (KF.symm_of_psd exK_psd.2.1))
  obtain ⟨c, hc⟩ := C144_between h exK_psd.1 exK_psd.2.1 (le_of_lt exK_psd.2.2.diag_pos)
  exact ⟨k', c, h, hc⟩

end Verif
