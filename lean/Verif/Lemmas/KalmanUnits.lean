import Mathlib.Tactic.FieldSimp
import Mathlib.LinearAlgebra.Matrix.Notation
import Verif.Lemmas.KalmanRun
import Verif.Spec.KalmanUnits

/- Lemmas on estimators in another description, and on measurements processed one after the other. -/

namespace Verif
open Matrix
namespace Kalman
open Mat
variable {T : Type} {m u : Dim} [Field T] [CNum T] [ExactField T]

/-- `update` with whatever covariances, symmetric or not. -/
theorem update_any (k : Kalman T m u) (v : ColVec T u.val) (z : ColVec T m.val) (hd : m = .one ∨ k.Sm.det ≠ 0) :
    ∃ k' G, k.update v z = .ok k' ∧ k'.K = some G ∧
      G.toMatrix = k.Pm * k.H.toMatrixᵀ * (k.Sm⁻¹)ᵀ ∧
      k'.xhat.toMatrix = k.xm v + G.toMatrix * (z.toMatrix - k.H.toMatrix * k.xm v) ∧
      k'.P.toMatrix = (1 - G.toMatrix * k.H.toMatrix) * k.Pm ∧ k'.t = k.t + k.dt := by
  obtain ⟨P, hP1, eP⟩ := predictCov_mat k.A k.P k.Q
  have eP' : P.toMatrix = k.Pm := eP
  have hS : k.H.toMatrix * P.toMatrix * k.H.toMatrixᵀ + k.R.toMatrix = k.Sm := by rw [eP']; rfl
  obtain ⟨G, hG, eG⟩ : ∃ G : Mat T 2 m.val, gain m P k.H k.R = .ok G ∧
      G.toMatrix = k.Pm * k.H.toMatrixᵀ * (k.Sm⁻¹)ᵀ := by
    cases m with
    | one =>
      obtain ⟨G, hG, eG⟩ := gain_one P k.H k.R
      refine ⟨G, hG, ?_⟩
      rw [eG, hS, eP']
      congr 1
      ext i j
      rw [Matrix.transpose_apply, Subsingleton.elim i j]
    | two =>
      obtain ⟨G, hG, eG⟩ := (gain_two P k.H k.R).1 (by rw [hS]; simpa using hd)
      exact ⟨G, hG, by rw [eG, hS, eP']⟩
  obtain ⟨k', h', hK, hx, hP', ht, -⟩ := update_of_gain k v z G P hP1 hG
  exact ⟨k', G, h', hK, eG, hx, hP', ht⟩

theorem det_of_update' {k k' : Kalman T m u} {v : ColVec T u.val} {z : ColVec T m.val}
    (h : k.update v z = .ok k') : m = .one ∨ k.Sm.det ≠ 0 := by
  cases m with
  | one => exact .inl rfl
  | two => exact .inr (det_of_update h)

namespace Redescribed
variable {χ : Change T m u} {k k' : Kalman T m u}

omit [CNum T] [ExactField T]

theorem Pm_eq (h : Redescribed χ k k') : k'.Pm = χ.S * k.Pm * χ.Sᵀ := by
  have hA : χ.Sᵀ * k'.A.toMatrixᵀ = k.A.toMatrixᵀ * χ.Sᵀ := by
    rw [← Matrix.transpose_mul, h.A, Matrix.transpose_mul]
  unfold Pm
  rw [h.P, h.Q, Matrix.mul_add, Matrix.add_mul]
  congr 1
  calc k'.A.toMatrix * (χ.S * k.P.toMatrix * χ.Sᵀ) * k'.A.toMatrixᵀ
      = (k'.A.toMatrix * χ.S) * k.P.toMatrix * (χ.Sᵀ * k'.A.toMatrixᵀ) := by simp only [Matrix.mul_assoc]
    _ = _ := by rw [h.A, hA]; simp only [Matrix.mul_assoc]

theorem PHt (h : Redescribed χ k k') : k'.Pm * k'.H.toMatrixᵀ = χ.S * (k.Pm * k.H.toMatrixᵀ) * χ.Mᵀ := by
  have hH : χ.Sᵀ * k'.H.toMatrixᵀ = k.H.toMatrixᵀ * χ.Mᵀ := by
    rw [← Matrix.transpose_mul, h.H, Matrix.transpose_mul]
  rw [h.Pm_eq, Matrix.mul_assoc, hH]
  simp only [Matrix.mul_assoc]

theorem Sm_eq (h : Redescribed χ k k') : k'.Sm = χ.M * k.Sm * χ.Mᵀ := by
  unfold Sm
  rw [Matrix.mul_assoc, h.PHt, h.R, Matrix.mul_add, Matrix.add_mul]
  congr 1
  rw [← Matrix.mul_assoc, ← Matrix.mul_assoc, h.H]
  simp only [Matrix.mul_assoc]

theorem xm_eq (h : Redescribed χ k k') {v v' : ColVec T u.val} (hv : v'.toMatrix = χ.V * v.toMatrix) :
    k'.xm v' = χ.S * k.xm v := by
  unfold xm
  rw [h.xhat, hv, ← Matrix.mul_assoc, ← Matrix.mul_assoc, h.A, h.B, Matrix.mul_add, Matrix.mul_assoc, Matrix.mul_assoc]

theorem det_iff (h : Redescribed χ k k') (hM : χ.M.det ≠ 0) : k'.Sm.det ≠ 0 ↔ k.Sm.det ≠ 0 := by
  rw [h.Sm_eq, Matrix.det_mul, Matrix.det_mul, Matrix.det_transpose]
  simp [hM]

theorem gain_eq (h : Redescribed χ k k') (hM : χ.M.det ≠ 0) :
    k'.Pm * k'.H.toMatrixᵀ * (k'.Sm⁻¹)ᵀ * χ.M = χ.S * (k.Pm * k.H.toMatrixᵀ * (k.Sm⁻¹)ᵀ) := by
  have hu : IsUnit χ.M.det := isUnit_iff_ne_zero.2 hM
  have hut : IsUnit χ.Mᵀ.det := by rw [Matrix.det_transpose]; exact hu
  have h1 : (k'.Sm⁻¹)ᵀ = χ.Mᵀ⁻¹ * (k.Sm⁻¹)ᵀ * χ.M⁻¹ := by
    rw [h.Sm_eq, Matrix.mul_inv_rev, Matrix.mul_inv_rev, Matrix.transpose_mul, Matrix.transpose_mul,
      Matrix.transpose_nonsing_inv χ.Mᵀ, Matrix.transpose_transpose, Matrix.transpose_nonsing_inv χ.M]
  rw [h.PHt, h1]
  calc χ.S * (k.Pm * k.H.toMatrixᵀ) * χ.Mᵀ * (χ.Mᵀ⁻¹ * (k.Sm⁻¹)ᵀ * χ.M⁻¹) * χ.M
      = χ.S * (k.Pm * k.H.toMatrixᵀ) * (χ.Mᵀ * χ.Mᵀ⁻¹) * (k.Sm⁻¹)ᵀ * (χ.M⁻¹ * χ.M) := by
        simp only [Matrix.mul_assoc]
    _ = _ := by
        rw [Matrix.mul_nonsing_inv _ hut, Matrix.nonsing_inv_mul _ hu]
        simp only [Matrix.mul_one, Matrix.mul_assoc]

/-- A gain that belongs to the other gain, a state that belongs to the other state: what the correction makes of them. -/
theorem state_eq (h : Redescribed χ k k') {v v' : ColVec T u.val} {z z' : ColVec T m.val}
    (hv : v'.toMatrix = χ.V * v.toMatrix) (hz : z'.toMatrix = χ.M * z.toMatrix)
    {G G' : Matrix (Fin 2) (Fin m.val) T} (hG : G' * χ.M = χ.S * G) :
    k'.xm v' + G' * (z'.toMatrix - k'.H.toMatrix * k'.xm v') =
      χ.S * (k.xm v + G * (z.toMatrix - k.H.toMatrix * k.xm v)) := by
  rw [h.xm_eq hv, hz, ← Matrix.mul_assoc k'.H.toMatrix, h.H, Matrix.mul_assoc, ← Matrix.mul_sub, ← Matrix.mul_assoc,
    hG, Matrix.mul_add, Matrix.mul_assoc]

theorem cov_eq (h : Redescribed χ k k') {G G' : Matrix (Fin 2) (Fin m.val) T} (hG : G' * χ.M = χ.S * G) :
    (1 - G' * k'.H.toMatrix) * k'.Pm = χ.S * ((1 - G * k.H.toMatrix) * k.Pm) * χ.Sᵀ := by
  rw [h.Pm_eq]
  have : (1 - G' * k'.H.toMatrix) * χ.S = χ.S * (1 - G * k.H.toMatrix) := by
    rw [Matrix.sub_mul, Matrix.mul_sub, Matrix.one_mul, Matrix.mul_one, Matrix.mul_assoc, h.H, ← Matrix.mul_assoc, hG,
      Matrix.mul_assoc]
  rw [← Matrix.mul_assoc, ← Matrix.mul_assoc, this]
  simp only [Matrix.mul_assoc]

end Redescribed

/-- One update in the two descriptions. -/
theorem update_redescribed {χ : Change T m u} (hM : χ.M.det ≠ 0) {k k' : Kalman T m u} (h : Redescribed χ k k')
    {d d' : ColVec T u.val × ColVec T m.val} (hd : Redata χ d d') :
    (∀ k1, k.update d.1 d.2 = .ok k1 → ∃ k1', k'.update d'.1 d'.2 = .ok k1') ∧
    (∀ k1', k'.update d'.1 d'.2 = .ok k1' → ∃ k1, k.update d.1 d.2 = .ok k1) ∧
    ∀ k1 k1', k.update d.1 d.2 = .ok k1 → k'.update d'.1 d'.2 = .ok k1' →
      Redescribed χ k1 k1' ∧ ∃ G G', k1.K = some G ∧ k1'.K = some G' ∧ G'.toMatrix * χ.M = χ.S * G.toMatrix := by
  refine ⟨fun k1 h1 => ?_, fun k1 h1 => ?_, fun k1 k1' h1 h1' => ?_⟩
  · obtain ⟨k2, -, h2, -⟩ := update_any k' d'.1 d'.2 ((det_of_update' h1).imp_right (h.det_iff hM).2)
    exact ⟨k2, h2⟩
  · obtain ⟨k2, -, h2, -⟩ := update_any k d.1 d.2 ((det_of_update' h1).imp_right (h.det_iff hM).1)
    exact ⟨k2, h2⟩
  · obtain ⟨k2, G, h2, hK, hG, hx, hP, ht⟩ := update_any k d.1 d.2 (det_of_update' h1)
    obtain ⟨k2', G', h2', hK', hG', hx', hP', ht'⟩ := update_any k' d'.1 d'.2 (det_of_update' h1')
    obtain rfl : k1 = k2 := Except.ok.inj (h1.symm.trans h2)
    obtain rfl : k1' = k2' := Except.ok.inj (h1'.symm.trans h2')
    have e := h.gain_eq hM
    rw [← hG, ← hG'] at e
    have s := update_same h1
    have s' := update_same h1'
    refine ⟨⟨by rw [s.A, s'.A, h.A], by rw [s.B, s'.B, h.B], by rw [s.H, s'.H, h.H], by rw [s.Q, s'.Q, h.Q],
      by rw [s.R, s'.R, h.R], by rw [hP, hP', h.cov_eq e], by rw [hx, hx', h.state_eq hd.1 hd.2 e],
      by rw [ht, ht', h.t, h.dt, mul_add], by rw [s.dt, s'.dt, h.dt]⟩, G, G', hK, hK', e⟩

/-- Two measurements one after the other, in numbers: `g0`, `g1` the columns of `P⁻ Hᵀ`, `α β γ` the innovation
covariance, `e0`, `e1` the innovations. -/
theorem seq_state {F : Type} [Field F] {α β γ : F} (hα : α ≠ 0) (hd : α * γ - β * β ≠ 0) (x g0 g1 e0 e1 : F) :
    x + g0 * α⁻¹ * e0 + (g1 - g0 * α⁻¹ * β) * (γ - β * α⁻¹ * β)⁻¹ * (e1 - β * α⁻¹ * e0) =
      x + (g0 * (γ * e0 - β * e1) + g1 * (α * e1 - β * e0)) * (α * γ - β * β)⁻¹ := by
  have h2 : γ - β * α⁻¹ * β ≠ 0 := by
    intro h
    apply hd
    have : α * (γ - β * α⁻¹ * β) = α * γ - β * β := by field_simp
    rw [← this, h, mul_zero]
  have hd' : α * γ - β ^ 2 ≠ 0 := by rwa [sq]
  have h3 : (γ - β * α⁻¹ * β)⁻¹ = α * (α * γ - β * β)⁻¹ := by
    rw [eq_comm, ← div_eq_mul_inv, div_eq_iff hd, eq_comm, inv_mul_eq_iff_eq_mul₀ h2]
    field_simp
  rw [h3]
  field_simp
  ring

theorem inv_two_two {F : Type} [Field F] (S : Matrix (Fin 2) (Fin 2) F) :
    S⁻¹ = (S.det)⁻¹ • !![S 1 1, -S 0 1; -S 1 0, S 0 0] := by
  rw [Matrix.inv_def, Ring.inverse_eq_inv', Matrix.adjugate_fin_two]

/-- One measurement, in numbers. -/
theorem one_update (k : Kalman T .one u) (v : ColVec T u.val) (z : ColVec T 1) (hP : k.Pmᵀ = k.Pm) :
    ∃ k', k.update v z = .ok k' ∧ ∀ g : Fin 2 → T, (∀ s, g s = k.Pm s 0 * k.H.get 0 0 + k.Pm s 1 * k.H.get 0 1) →
      ∀ σ, σ = k.H.get 0 0 * g 0 + k.H.get 0 1 * g 1 + k.R.get 0 0 →
      (∀ s, k'.xhat.get s 0 = k.xm v s 0 + g s * σ⁻¹ *
        (z.get 0 0 - (k.H.get 0 0 * k.xm v 0 0 + k.H.get 0 1 * k.xm v 1 0))) ∧
      ∀ s t, k'.P.get s t = k.Pm s t + g s * σ⁻¹ * -g t := by
  obtain ⟨k', G, h, -, hG, hx, hP', -⟩ := update_any k v z (.inl rfl)
  refine ⟨k', h, fun g hg σ hσ => ?_⟩
  have hp : k.Pm 1 0 = k.Pm 0 1 := congrFun (congrFun hP 0) 1
  have hS : k.Sm 0 0 = σ := by
    rw [hσ, hg, hg]
    show (k.H.toMatrix * k.Pm * k.H.toMatrixᵀ) 0 0 + k.R.toMatrix 0 0 = _
    simp only [Matrix.mul_apply, Fin.sum_univ_two, Matrix.transpose_apply, hp]
    simp only [Mat.toMatrix]
    ring
  have hG' : ∀ s, G.toMatrix s 0 = g s * σ⁻¹ := by
    intro s
    rw [hG, Matrix.mul_apply, ← hS, hg]
    have : (k.Sm⁻¹)ᵀ 0 0 = (k.Sm 0 0)⁻¹ := inv_one_one _
    simp only [Dim.val, Fin.sum_univ_one, Matrix.mul_apply, Fin.sum_univ_two, Matrix.transpose_apply] at this ⊢
    rw [this]
    rfl
  constructor
  · intro s
    have := congrFun (congrFun hx s) 0
    rw [Matrix.add_apply, Matrix.mul_apply] at this
    simp only [Dim.val, Fin.sum_univ_one, Matrix.sub_apply, Matrix.mul_apply, Fin.sum_univ_two] at this
    rw [hG' s] at this
    exact this
  · intro s t
    have := congrFun (congrFun hP' s) t
    rw [Matrix.sub_mul, Matrix.sub_apply, Matrix.one_mul, Matrix.mul_assoc, Matrix.mul_apply] at this
    simp only [Dim.val, Fin.sum_univ_one, Matrix.mul_apply, Fin.sum_univ_two] at this
    rw [hG' s] at this
    refine this.trans ?_
    have e : k.Pm 0 t * k.H.toMatrix 0 0 + k.Pm 1 t * k.H.toMatrix 0 1 = g t := by
      rw [hg]
      have := congrFun hP t
      rw [← congrFun this 0, ← congrFun this 1]
      rfl
    rw [← e]
    ring

/-- Two measurements, in numbers. -/
theorem two_update (k : Kalman T .two u) (v : ColVec T u.val) (z : ColVec T 2) (hP : k.Pmᵀ = k.Pm)
    (hR : k.R.get 0 1 = 0 ∧ k.R.get 1 0 = 0) (g0 g1 : Fin 2 → T)
    (hg0 : ∀ s, g0 s = k.Pm s 0 * k.H.get 0 0 + k.Pm s 1 * k.H.get 0 1)
    (hg1 : ∀ s, g1 s = k.Pm s 0 * k.H.get 1 0 + k.Pm s 1 * k.H.get 1 1) (α β γ : T)
    (hα : α = k.H.get 0 0 * g0 0 + k.H.get 0 1 * g0 1 + k.R.get 0 0)
    (hβ : β = k.H.get 1 0 * g0 0 + k.H.get 1 1 * g0 1)
    (hγ : γ = k.H.get 1 0 * g1 0 + k.H.get 1 1 * g1 1 + k.R.get 1 1) (hd : α * γ - β * β ≠ 0) :
    ∃ k', k.update v z = .ok k' ∧ (∀ e0 e1,
      e0 = z.get 0 0 - (k.H.get 0 0 * k.xm v 0 0 + k.H.get 0 1 * k.xm v 1 0) →
      e1 = z.get 1 0 - (k.H.get 1 0 * k.xm v 0 0 + k.H.get 1 1 * k.xm v 1 0) →
      ∀ s, k'.xhat.get s 0 = k.xm v s 0 +
        (g0 s * (γ * e0 - β * e1) + g1 s * (α * e1 - β * e0)) * (α * γ - β * β)⁻¹) ∧
      ∀ s t, k'.P.get s t = k.Pm s t +
        (g0 s * (γ * -g0 t - β * -g1 t) + g1 s * (α * -g1 t - β * -g0 t)) * (α * γ - β * β)⁻¹ := by
  have hp : k.Pm 1 0 = k.Pm 0 1 := congrFun (congrFun hP 0) 1
  have hS : k.Sm = !![α, β; β, γ] := by
    rw [hα, hβ, hγ, hg0, hg0, hg1, hg1]
    ext i j
    show (k.H.toMatrix * k.Pm * k.H.toMatrixᵀ) i j + k.R.toMatrix i j = _
    simp only [Matrix.mul_apply, Fin.sum_univ_two, Matrix.transpose_apply]
    fin_cases i <;> fin_cases j <;> simp [Mat.toMatrix, hp, hR] <;> ring
  have hdet : k.Sm.det = α * γ - β * β := by rw [hS, Matrix.det_fin_two_of]
  obtain ⟨k', G, h, -, hG, hx, hP', -⟩ := update_any k v z (.inr (by rw [hdet]; exact hd))
  have hi : (k.Sm⁻¹)ᵀ = !![γ * (α * γ - β * β)⁻¹, -β * (α * γ - β * β)⁻¹; -β * (α * γ - β * β)⁻¹,
      α * (α * γ - β * β)⁻¹] := by
    rw [show k.Sm⁻¹ = _ from inv_two_two k.Sm, show k.Sm.det = _ from hdet, hS]
    ext i j
    fin_cases i <;> fin_cases j <;> simp [mul_comm]
  have hG' : ∀ s, G.toMatrix s 0 = (g0 s * γ - g1 s * β) * (α * γ - β * β)⁻¹ ∧
      G.toMatrix s 1 = (g1 s * α - g0 s * β) * (α * γ - β * β)⁻¹ := by
    intro s
    rw [hG, hi, hg0, hg1]
    constructor <;> rw [Matrix.mul_apply] <;>
      simp only [Dim.val, Fin.sum_univ_two, Matrix.mul_apply, Matrix.transpose_apply, Matrix.of_apply,
        Matrix.cons_val_zero, Matrix.cons_val_one, Matrix.cons_val'] <;> simp only [Mat.toMatrix] <;> ring
  refine ⟨k', h, fun e0 e1 he0 he1 s => ?_, fun s t => ?_⟩
  · have := congrFun (congrFun hx s) 0
    rw [Matrix.add_apply, Matrix.mul_apply] at this
    simp only [Dim.val, Matrix.sub_apply, Matrix.mul_apply, Fin.sum_univ_two] at this
    rw [(hG' s).1, (hG' s).2] at this
    refine this.trans ?_
    rw [he0, he1]
    simp only [Mat.toMatrix]
    ring
  · have := congrFun (congrFun hP' s) t
    rw [Matrix.sub_mul, Matrix.sub_apply, Matrix.one_mul, Matrix.mul_assoc, Matrix.mul_apply] at this
    simp only [Dim.val, Matrix.mul_apply, Fin.sum_univ_two] at this
    rw [(hG' s).1, (hG' s).2] at this
    refine this.trans ?_
    have ht := congrFun hP t
    rw [hg0 t, hg1 t, ← congrFun ht 0, ← congrFun ht 1]
    simp only [Mat.toMatrix, Matrix.transpose_apply]
    ring

omit [CNum T] [ExactField T] in
theorem still_Pm (k : Kalman T .two u) (i : Fin 2) (a : Kalman T .one u) (s t : Fin 2) :
    (k.still i a).Pm s t = a.P.get s t := by
  have hA : (k.still i a).A.toMatrix = 1 := by
    ext i j
    fin_cases i <;> fin_cases j <;> rfl
  have hQ : (k.still i a).Q.toMatrix = 0 := by
    ext i j
    fin_cases i <;> fin_cases j <;> rfl
  unfold Pm
  rw [hA, hQ, Matrix.one_mul, Matrix.transpose_one, Matrix.mul_one, add_zero]
  rfl

omit [CNum T] [ExactField T] in
theorem still_xm (k : Kalman T .two u) (i : Fin 2) (a : Kalman T .one u) (w : ColVec T u.val) (s : Fin 2) :
    (k.still i a).xm w s 0 = a.xhat.get s 0 := by
  have hA : (k.still i a).A.toMatrix = 1 := by
    ext i j
    fin_cases i <;> fin_cases j <;> rfl
  have hB : (k.still i a).B.toMatrix = 0 := by
    ext i j
    exact Vector.getElem_replicate _
  unfold xm
  rw [hA, hB, Matrix.one_mul, Matrix.zero_mul, add_zero]
  rfl

end Kalman
end Verif
