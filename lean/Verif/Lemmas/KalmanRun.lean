import Verif.Lemmas.Kalman
import Verif.Lemmas.KalmanAlgebra

/- Lemmas on `update` and on runs of the estimator. -/

namespace Verif
open Matrix
namespace Kalman
open Mat
variable {T : Type} {m u : Dim}

section lawfree
variable [CNum T]

/-- What a completed `update` did, no arithmetic law used. -/
theorem update_inv {k k' : Kalman T m u} {v : ColVec T u.val} {z : ColVec T m.val}
    (h : k.update v z = .ok k') :
    ∃ t x P K x' P', CNum.add k.t k.dt = .ok t ∧ predictState k.A k.B k.xhat v = .ok x ∧
      predictCov k.A k.P k.Q = .ok P ∧ gain m P k.H k.R = .ok K ∧
      correctState m x K k.H z = .ok x' ∧ correctCov m K k.H P = .ok P' ∧
      k' = { k with t := t, xhat := x', P := P', K := some K } := by
  unfold update at h
  obtain ⟨t, ht, h⟩ := bind_eq_ok.1 h
  obtain ⟨x, hx, h⟩ := bind_eq_ok.1 h
  obtain ⟨P, hP, h⟩ := bind_eq_ok.1 h
  obtain ⟨K, hK, h⟩ := bind_eq_ok.1 h
  obtain ⟨x', hx', h⟩ := bind_eq_ok.1 h
  obtain ⟨P', hP', h⟩ := bind_eq_ok.1 h
  exact ⟨t, x, P, K, x', P', ht, hx, hP, hK, hx', hP', (Except.ok.inj h).symm⟩

theorem update_intro {k : Kalman T m u} {v : ColVec T u.val} {z : ColVec T m.val} {t x P K x' P'}
    (ht : CNum.add k.t k.dt = .ok t) (hx : predictState k.A k.B k.xhat v = .ok x)
    (hP : predictCov k.A k.P k.Q = .ok P) (hK : gain m P k.H k.R = .ok K)
    (hx' : correctState m x K k.H z = .ok x') (hP' : correctCov m K k.H P = .ok P') :
    k.update v z = .ok { k with t := t, xhat := x', P := P', K := some K } := by
  unfold update
  rw [ht, bind_ok, hx, bind_ok, hP, bind_ok, hK, bind_ok, hx', bind_ok, hP', bind_ok]

theorem updateVariant_true_inv {k k' : Kalman T m u} {v : ColVec T u.val} {z : ColVec T m.val}
    (h : k.updateVariant true v z = .ok k') :
    ∃ x P K x' P', predictState k.A k.B k.xhat v = .ok x ∧
      predictCov k.A k.P k.Q = .ok P ∧ gain m P k.H k.R = .ok K ∧
      correctState m x K k.H z = .ok x' ∧ correctCov m K k.H P = .ok P' ∧
      k' = { k with xhat := x', P := P', K := some K } := by
  unfold updateVariant at h
  obtain ⟨x, hx, h⟩ := bind_eq_ok.1 h
  obtain ⟨k1, h1, h⟩ := bind_eq_ok.1 h
  rw [if_pos rfl] at h1
  obtain ⟨P, hP, h1⟩ := bind_eq_ok.1 h1
  obtain ⟨K, hK, h1⟩ := bind_eq_ok.1 h1
  obtain ⟨P', hP', h1⟩ := bind_eq_ok.1 h1
  cases h1
  obtain ⟨x', hx', h⟩ := bind_eq_ok.1 h
  exact ⟨x, P, K, x', P', hx, hP, hK, hx', hP', (Except.ok.inj h).symm⟩

theorem updateVariant_true_intro {k : Kalman T m u} {v : ColVec T u.val} {z : ColVec T m.val}
    {x P K x' P'} (hx : predictState k.A k.B k.xhat v = .ok x)
    (hP : predictCov k.A k.P k.Q = .ok P) (hK : gain m P k.H k.R = .ok K)
    (hx' : correctState m x K k.H z = .ok x') (hP' : correctCov m K k.H P = .ok P') :
    k.updateVariant true v z = .ok { k with xhat := x', P := P', K := some K } := by
  unfold updateVariant
  rw [hx, bind_ok, if_pos rfl, hP, bind_ok, hK, bind_ok, hP', bind_ok, bind_ok]
  show (correctState m x K k.H z >>= fun x => _) = _
  rw [hx']
  rfl

theorem run_cons {k k' : Kalman T m u} {d} {ds : List (ColVec T u.val × ColVec T m.val)} :
    k.run (d :: ds) = .ok k' ↔ ∃ k1, k.update d.1 d.2 = .ok k1 ∧ k1.run ds = .ok k' := by
  show (k.update d.1 d.2 >>= fun k1 => k1.run ds) = _ ↔ _
  exact bind_eq_ok

theorem run_append {k : Kalman T m u} {ds es : List (ColVec T u.val × ColVec T m.val)} :
    k.run (ds ++ es) = (k.run ds >>= fun k1 => k1.run es) := by
  induction ds generalizing k with
  | nil => rfl
  | cons d ds ih =>
    show (k.update d.1 d.2 >>= fun k1 => k1.run (ds ++ es)) =
      ((k.update d.1 d.2 >>= fun k1 => k1.run ds) >>= fun k1 => k1.run es)
    rw [bind_assoc]
    congr 1
    funext k1
    exact ih

/-- The parameters of an estimator are the same in another one. -/
structure SameModel (k k' : Kalman T m u) : Prop where
  A : k'.A = k.A
  B : k'.B = k.B
  H : k'.H = k.H
  Q : k'.Q = k.Q
  R : k'.R = k.R
  dt : k'.dt = k.dt

omit [CNum T] in
theorem SameModel.rfl' (k : Kalman T m u) : SameModel k k := ⟨rfl, rfl, rfl, rfl, rfl, rfl⟩

omit [CNum T] in
theorem SameModel.trans {k k' k'' : Kalman T m u} (h : SameModel k k') (h' : SameModel k' k'') :
    SameModel k k'' :=
  ⟨h'.A.trans h.A, h'.B.trans h.B, h'.H.trans h.H, h'.Q.trans h.Q, h'.R.trans h.R, h'.dt.trans h.dt⟩

theorem update_same {k k' : Kalman T m u} {v : ColVec T u.val} {z : ColVec T m.val}
    (h : k.update v z = .ok k') : SameModel k k' := by
  obtain ⟨t, x, P, K, x', P', -, -, -, -, -, -, rfl⟩ := update_inv h
  exact ⟨rfl, rfl, rfl, rfl, rfl, rfl⟩

theorem run_same {k k' : Kalman T m u} {ds : List (ColVec T u.val × ColVec T m.val)}
    (h : k.run ds = .ok k') : SameModel k k' := by
  induction ds generalizing k with
  | nil => cases h; exact SameModel.rfl' _
  | cons d ds ih =>
    obtain ⟨k1, h1, h2⟩ := run_cons.1 h
    exact (update_same h1).trans (ih h2)

theorem updateVariant_false_inv {k k' : Kalman T m u} {v : ColVec T u.val} {z : ColVec T m.val}
    (h : k.updateVariant false v z = .ok k') :
    ∃ x K x', predictState k.A k.B k.xhat v = .ok x ∧ k.K = some K ∧
      correctState m x K k.H z = .ok x' ∧ k' = { k with xhat := x' } := by
  unfold updateVariant at h
  obtain ⟨x, hx, h⟩ := bind_eq_ok.1 h
  obtain ⟨k1, h1, h⟩ := bind_eq_ok.1 h
  rw [if_neg (by decide)] at h1
  cases h1
  cases hK : k.K with
  | none => rw [hK] at h; cases h
  | some K =>
    rw [hK] at h
    obtain ⟨x', hx', h⟩ := bind_eq_ok.1 h
    exact ⟨x, K, x', hx, rfl, hx', (Except.ok.inj h).symm⟩

theorem updateVariant_false_intro {k : Kalman T m u} {v : ColVec T u.val} {z : ColVec T m.val}
    {x K x'} (hx : predictState k.A k.B k.xhat v = .ok x) (hK : k.K = some K)
    (hx' : correctState m x K k.H z = .ok x') :
    k.updateVariant false v z = .ok { k with xhat := x' } := by
  unfold updateVariant
  rw [hx, bind_ok, if_neg (by decide), bind_ok, hK]
  simp only
  rw [hx']
  rfl

theorem updateVariant_time (c : Bool) (k : Kalman T m u) (v : ColVec T u.val) (z : ColVec T m.val)
    (s : T) : ({ k with t := s } : Kalman T m u).updateVariant c v z =
      (k.updateVariant c v z).map fun k' => { k' with t := s } := by
  unfold updateVariant
  simp only
  cases predictState k.A k.B k.xhat v with
  | error e => rfl
  | ok x =>
    simp only [bind_ok]
    cases c with
    | false =>
      simp only [Bool.false_eq_true, if_false, bind_ok]
      cases k.K with
      | none => rfl
      | some K =>
        simp only
        cases correctState m x K k.H z <;> rfl
    | true =>
      simp only [if_true]
      cases predictCov k.A k.P k.Q with
      | error e => rfl
      | ok P =>
        simp only [bind_ok]
        cases gain m P k.H k.R with
        | error e => rfl
        | ok K =>
          simp only [bind_ok]
          cases correctCov m K k.H P with
          | error e => rfl
          | ok P' =>
            simp only [bind_ok]
            cases correctState m x K k.H z <;> rfl

theorem runVariant_time (c : Bool) (k : Kalman T m u) (ds) (s : T) :
    ({ k with t := s } : Kalman T m u).runVariant c ds =
      (k.runVariant c ds).map fun k' => { k' with t := s } := by
  induction ds generalizing k with
  | nil => rfl
  | cons d ds ih =>
    show (({ k with t := s } : Kalman T m u).updateVariant c d.1 d.2 >>= fun k1 =>
      k1.runVariant c ds) = (k.updateVariant c d.1 d.2 >>= fun k1 => k1.runVariant c ds).map _
    rw [updateVariant_time]
    cases k.updateVariant c d.1 d.2 with
    | error e => rfl
    | ok k1 => exact ih k1

end lawfree

section field
variable [Field T] [CNum T] [ExactField T]

omit [CNum T] [ExactField T] in
theorem Sm_eq (k : Kalman T m u) : k.Sm = KF.innov k.Pm k.H.toMatrix k.R.toMatrix := rfl

/-- What a completed `update` did, in terms of mathematical matrices. -/
theorem update_mat {k k' : Kalman T m u} {v : ColVec T u.val} {z : ColVec T m.val}
    (h : k.update v z = .ok k') :
    ∃ P G, predictCov k.A k.P k.Q = .ok P ∧ P.toMatrix = k.Pm ∧ gain m P k.H k.R = .ok G ∧
      k'.K = some G ∧
      k'.xhat.toMatrix = k.xm v + G.toMatrix * (z.toMatrix - k.H.toMatrix * k.xm v) ∧
      k'.P.toMatrix = (1 - G.toMatrix * k.H.toMatrix) * k.Pm ∧ k'.t = k.t + k.dt := by
  obtain ⟨t, x, P, G, x', P', -, -, hP, hG, -, -, -⟩ := update_inv h
  obtain ⟨k2, h2, hK, hx, hP', ht, -⟩ := update_of_gain k v z G P hP hG
  obtain rfl : k' = k2 := by rw [h] at h2; exact Except.ok.inj h2
  obtain ⟨P2, hP2, e2⟩ := predictCov_mat k.A k.P k.Q
  obtain rfl : P = P2 := by rw [hP] at hP2; exact Except.ok.inj hP2
  exact ⟨P, G, hP, e2, hG, hK, hx, hP', ht⟩

/-- `update` with symmetric covariances: never undefined with one measurement, and undefined only for
a singular innovation covariance with two. -/
theorem update_symm (k : Kalman T m u) (v : ColVec T u.val) (z : ColVec T m.val)
    (hP : k.Pmᵀ = k.Pm) (hR : k.R.toMatrixᵀ = k.R.toMatrix) (hd : m = .one ∨ k.Sm.det ≠ 0) :
    ∃ k' G, k.update v z = .ok k' ∧ k'.K = some G ∧
      G.toMatrix = KF.gain k.Pm k.H.toMatrix k.R.toMatrix ∧
      k'.xhat.toMatrix = k.xm v + G.toMatrix * (z.toMatrix - k.H.toMatrix * k.xm v) ∧
      k'.P.toMatrix = (1 - G.toMatrix * k.H.toMatrix) * k.Pm := by
  obtain ⟨P, hP1, eP⟩ := predictCov_mat k.A k.P k.Q
  have eP' : P.toMatrix = k.Pm := eP
  have hS : k.H.toMatrix * P.toMatrix * k.H.toMatrixᵀ + k.R.toMatrix = k.Sm := by rw [eP']; rfl
  obtain ⟨G, hG, eG⟩ := gain_symm m P k.H k.R
    (by rw [hS, Sm_eq]; exact KF.innov_symm hP hR) (by rw [hS]; exact hd)
  obtain ⟨k', h', hK, hx, hP', -⟩ := update_of_gain k v z G P hP1 hG
  refine ⟨k', G, h', hK, ?_, hx, hP'⟩
  rw [eG, hS, eP']
  rfl

/-- If `update` completed with two measurements, the innovation covariance was invertible. -/
theorem det_of_update {k k' : Kalman T .two u} {v : ColVec T u.val} {z : ColVec T Dim.two.val}
    (h : k.update v z = .ok k') : k.Sm.det ≠ 0 := by
  obtain ⟨P, G, -, eP, hG, -⟩ := update_mat h
  intro hd
  have := (gain_two P k.H k.R).2 (by rw [eP]; exact hd)
  rw [hG] at this
  cases this

/-- A completed `update` with symmetric covariances uses the textbook gain. -/
theorem update_symm_inv {k k' : Kalman T m u} {v : ColVec T u.val} {z : ColVec T m.val}
    (h : k.update v z = .ok k') (hP : k.Pmᵀ = k.Pm) (hR : k.R.toMatrixᵀ = k.R.toMatrix) :
    ∃ G, k'.K = some G ∧ G.toMatrix = KF.gain k.Pm k.H.toMatrix k.R.toMatrix ∧
      k'.xhat.toMatrix = k.xm v + G.toMatrix * (z.toMatrix - k.H.toMatrix * k.xm v) ∧
      k'.P.toMatrix = (1 - G.toMatrix * k.H.toMatrix) * k.Pm := by
  have hd : m = .one ∨ k.Sm.det ≠ 0 := by
    cases m with
    | one => exact .inl rfl
    | two => exact .inr (det_of_update h)
  obtain ⟨k2, G, h2, hK, hG, hx, hP'⟩ := update_symm k v z hP hR hd
  obtain rfl : k' = k2 := by rw [h] at h2; exact Except.ok.inj h2
  exact ⟨G, hK, hG, hx, hP'⟩

omit [CNum T] [ExactField T] in
theorem Pm_symm {k : Kalman T m u} (hP : k.P.toMatrixᵀ = k.P.toMatrix)
    (hQ : k.Q.toMatrixᵀ = k.Q.toMatrix) : k.Pmᵀ = k.Pm := by
  unfold Pm
  rw [Matrix.transpose_add, Matrix.transpose_mul, Matrix.transpose_mul, Matrix.transpose_transpose,
    hP, hQ, Matrix.mul_assoc]

theorem update_cov_symm {k k' : Kalman T m u} {v : ColVec T u.val} {z : ColVec T m.val}
    (h : k.update v z = .ok k') (hP : k.P.toMatrixᵀ = k.P.toMatrix)
    (hQ : k.Q.toMatrixᵀ = k.Q.toMatrix) (hR : k.R.toMatrixᵀ = k.R.toMatrix) :
    k'.P.toMatrixᵀ = k'.P.toMatrix := by
  have hPm := Pm_symm hP hQ
  obtain ⟨G, -, eG, -, eP⟩ := update_symm_inv h hPm hR
  rw [eP, eG]
  exact KF.post_symm hPm hR

theorem run_cov_symm {k k' : Kalman T m u} {ds : List (ColVec T u.val × ColVec T m.val)}
    (h : k.run ds = .ok k') (hP : k.P.toMatrixᵀ = k.P.toMatrix)
    (hQ : k.Q.toMatrixᵀ = k.Q.toMatrix) (hR : k.R.toMatrixᵀ = k.R.toMatrix) :
    k'.P.toMatrixᵀ = k'.P.toMatrix := by
  induction ds generalizing k with
  | nil => cases h; exact hP
  | cons d ds ih =>
    obtain ⟨k1, h1, h2⟩ := run_cons.1 h
    have hs := update_same h1
    exact ih h2 (update_cov_symm h1 hP hQ hR) (by rw [hs.Q]; exact hQ) (by rw [hs.R]; exact hR)

end field
end Kalman
end Verif
