import Mathlib.Tactic.Linarith
import Mathlib.Tactic.Ring
import Mathlib.Tactic.FieldSimp
import Verif.Spec.KalmanSim
import Verif.Lemmas.KalmanSteady
import Verif.Lemmas.MatrixMore

/- The estimator of kalman-sim.e.cpp over the reals. -/

namespace Verif
open Matrix

namespace KalmanSim

theorem sysA_eq (p : Params ℝ) : sysA p = .ok (Mat.mk22 1 p.dt 0 1) := by
  show Mat.ofList 2 2 [((1 : Int) : ℝ), p.dt, ((0 : Int) : ℝ), ((1 : Int) : ℝ)] = _
  rw [Int.cast_one, Int.cast_zero]; rfl

theorem div_two (a : ℝ) : CNum.div a (2 : ℝ) = .ok (a / 2) := ExactField.div_eq a 2 two_ne_zero
theorem div_four (a : ℝ) : CNum.div a (4 : ℝ) = .ok (a / 4) := ExactField.div_eq a 4 four_ne_zero

theorem sysB_eq (p : Params ℝ) : sysB p = .ok ⟨#v[p.dt * p.dt / 2, p.dt]⟩ := by
  show (CNum.div (p.dt * p.dt) ((2 : Int) : ℝ) >>= fun x => Mat.ofList 2 1 [x, p.dt]) = _
  rw [Int.cast_ofNat, div_two]; rfl

theorem sysH_eq : (sysH : Res (Mat ℝ 1 2)) = .ok ⟨#v[1, 0]⟩ := by
  show Mat.ofList 1 2 [((1 : Int) : ℝ), ((0 : Int) : ℝ)] = _
  rw [Int.cast_one, Int.cast_zero]; rfl

theorem start_eq : (start : Res (ColVec ℝ 2)) = .ok ⟨#v[0, 0]⟩ := by
  show Mat.ofList 2 1 [((0 : Int) : ℝ), ((0 : Int) : ℝ)] = _
  rw [Int.cast_zero]; rfl

theorem sysR_eq (p : Params ℝ) : sysR p = .ok ⟨#v[p.measnoise * p.measnoise]⟩ := rfl

theorem sysQ_eq (p : Params ℝ) : sysQ p = .ok (Mat.mk22
    (p.dt * p.dt * p.dt * p.dt / 4 * (p.accelnoise * p.accelnoise))
    (p.dt * p.dt * p.dt / 2 * (p.accelnoise * p.accelnoise))
    (p.dt * p.dt * p.dt / 2 * (p.accelnoise * p.accelnoise))
    (p.dt * p.dt * (p.accelnoise * p.accelnoise))) := by
  show (do
    Mat.mulS (← Mat.ofList 2 2 [← CNum.div (p.dt * p.dt * p.dt * p.dt) ((4 : Int) : ℝ),
      ← CNum.div (p.dt * p.dt * p.dt) ((2 : Int) : ℝ),
      ← CNum.div (p.dt * p.dt * p.dt) ((2 : Int) : ℝ), p.dt * p.dt]) (p.accelnoise * p.accelnoise)) = _
  rw [Int.cast_ofNat, Int.cast_ofNat, div_two, div_four]; rfl

/-- The system matrices over the reals. -/
def mA (p : Params ℝ) : Mat ℝ 2 2 := Mat.mk22 1 p.dt 0 1
noncomputable def mB (p : Params ℝ) : Mat ℝ 2 1 := ⟨#v[p.dt * p.dt / 2, p.dt]⟩
def mH : Mat ℝ 1 2 := ⟨#v[1, 0]⟩
def vec (a b : ℝ) : ColVec ℝ 2 := ⟨#v[a, b]⟩
def one1 : Mat ℝ 1 1 := ⟨#v[1]⟩

/-- The new true state. -/
noncomputable def next0 (p : Params ℝ) (a b g1 : ℝ) : ℝ :=
  0 + 1 * a + p.dt * b + p.dt * p.dt / 2 * 1 + p.dt * p.dt / 2 * g1 * p.accelnoise
noncomputable def next1 (p : Params ℝ) (a b g2 : ℝ) : ℝ :=
  0 + 0 * a + 1 * b + p.dt * 1 + p.dt * g2 * p.accelnoise

theorem process_noise_eq (p : Params ℝ) (g1 g2 : ℝ) : process_noise p g1 g2 =
    .ok (vec (p.dt * p.dt / 2 * g1 * p.accelnoise) (p.dt * g2 * p.accelnoise)) := by
  show (do
    let a ← CNum.mul (← CNum.div (p.dt * p.dt) ((2 : Int) : ℝ)) g1
    let b ← CNum.mul p.dt g2
    Mat.mulS (← Mat.ofList 2 1 [a, b]) p.accelnoise) = _
  rw [Int.cast_ofNat, div_two]; rfl

theorem mulVec_eq (p : Params ℝ) (a b : ℝ) : (mA p).mulVec (vec a b) =
    .ok (vec (0 + 1 * a + p.dt * b) (0 + 0 * a + 1 * b)) := rfl
theorem mulM11_eq (p : Params ℝ) : (mB p).mulM11 one1 =
    .ok (vec (p.dt * p.dt / 2 * 1) (p.dt * 1)) := rfl
theorem add_eq (a b c d : ℝ) : Mat.add (vec a b) (vec c d) = .ok (vec (a + c) (b + d)) := rfl
theorem dot_eq (a b : ℝ) : mH.dot (vec a b) = .ok (0 + 1 * a + 0 * b) := rfl

theorem step_eq (p : Params ℝ) (k : Kalman ℝ .one .one) (a b : ℝ) (g : ℝ × ℝ × ℝ) :
    step p (mA p) (mB p) mH k (vec a b) g = (do
      let x0 := next0 p a b g.1
      let x1 := next1 p a b g.2.1
      let z := 0 + 1 * x0 + 0 * x1 + p.measnoise * g.2.2
      let k ← k.update one1 ⟨#v[z]⟩
      let K ← k.kalman_gain
      .ok (k, vec x0 x1, ({
        pos := x0, posmeas := z, poshat := k.xhat.get 0 0, posgain := K.get 0 0,
        posecov := k.P.get 0 0, vel := x1, velhat := k.xhat.get 1 0, velgain := K.get 1 0,
        velecov := k.P.get 0 1 } : Row ℝ))) := by
  have hu : (CLit.lit 1 : Res ℝ) = .ok 1 := congrArg Except.ok Int.cast_one
  have hu' : Mat.ofList 1 1 [(1 : ℝ)] = .ok one1 := rfl
  have hm : meas_noise p g.2.2 = .ok (p.measnoise * g.2.2) := rfl
  have ha (a b : ℝ) : CNum.add a b = .ok (a + b) := rfl
  have hf (z : ℝ) : Mat.fill 1 1 z = ⟨#v[z]⟩ := rfl
  unfold step
  rw [hu, bind_ok, hu', bind_ok, mulVec_eq, bind_ok, mulM11_eq, bind_ok, add_eq, bind_ok,
    process_noise_eq, bind_ok, add_eq, bind_ok, dot_eq, bind_ok,
    hm, bind_ok, ha, bind_ok, hf]
  refine congrArg (_ >>= ·) (funext fun k => congrArg (_ >>= ·) (funext fun K => ?_))
  have h0 (x : ColVec ℝ 2) : x.idx 0 = .ok (x.get 0 0) := x.idx_ok (by decide)
  have h1 (x : ColVec ℝ 2) : x.idx 1 = .ok (x.get 1 0) := x.idx_ok (by decide)
  show (do
    let c0 ← Mat.idx (vec _ _) 0
    let c1 ← k.xhat.idx 0
    let c2 ← K.idx 0
    let c3 ← k.P.idx 0
    let c4 ← Mat.idx (vec _ _) 1
    let c5 ← k.xhat.idx 1
    let c6 ← K.idx 1
    let c7 ← k.P.idx 1
    Except.ok (k, vec _ _, Row.mk c0 _ c1 c2 c3 c4 c5 c6 c7)) = _
  rw [h0, bind_ok, h0, bind_ok, h0 K, bind_ok, (Mat.idx22 _).1, bind_ok, h1, bind_ok, h1, bind_ok,
    h1 K, bind_ok, (Mat.idx22 _).2.1, bind_ok]
  rfl

noncomputable def mQ (p : Params ℝ) : Mat ℝ 2 2 := Mat.mk22
  (p.dt * p.dt * p.dt * p.dt / 4 * (p.accelnoise * p.accelnoise))
  (p.dt * p.dt * p.dt / 2 * (p.accelnoise * p.accelnoise))
  (p.dt * p.dt * p.dt / 2 * (p.accelnoise * p.accelnoise))
  (p.dt * p.dt * (p.accelnoise * p.accelnoise))
def mR (p : Params ℝ) : Mat ℝ 1 1 := ⟨#v[p.measnoise * p.measnoise]⟩

theorem mA_mat (p : Params ℝ) : (mA p).toMatrix = !![1, p.dt; 0, 1] := Mat.toMatrix_mk22 _ _ _ _
theorem mB_mat (p : Params ℝ) : (mB p).toMatrix = !![p.dt * p.dt / 2; p.dt] := by
  ext i j; fin_cases i <;> fin_cases j <;> rfl
theorem mH_mat : mH.toMatrix = !![1, 0] := by
  ext i j; fin_cases i; fin_cases j <;> rfl
theorem mQ_mat (p : Params ℝ) : (mQ p).toMatrix =
    !![p.dt ^ 4 / 4 * p.accelnoise ^ 2, p.dt ^ 3 / 2 * p.accelnoise ^ 2;
      p.dt ^ 3 / 2 * p.accelnoise ^ 2, p.dt ^ 2 * p.accelnoise ^ 2] := by
  rw [mQ, Mat.toMatrix_mk22]
  ext i j; fin_cases i <;> fin_cases j <;> (simp; ring)
theorem mR_mat (p : Params ℝ) : (mR p).toMatrix = !![p.measnoise ^ 2] := by
  ext i j; fin_cases i; fin_cases j; simp [sq]; rfl

theorem mQ_psd (p : Params ℝ) : (mQ p).toMatrix.PosSemidef := by
  rw [mQ_mat]
  apply KF.psd2
  · simp
  · simp only [of_apply, cons_val', cons_val_zero, cons_val_fin_one]; positivity
  · simp only [of_apply, cons_val', cons_val_one, cons_val_fin_one]; positivity
  · simp only [of_apply, cons_val', cons_val_zero, cons_val_one, cons_val_fin_one]
    exact le_of_eq (by ring)

theorem mR_posDef (p : Params ℝ) (h : p.measnoise ≠ 0) : (mR p).toMatrix.PosDef := by
  have e : (mR p).toMatrix = Matrix.diagonal fun _ => p.measnoise ^ 2 := by
    rw [mR_mat]; ext i j; fin_cases i; fin_cases j; simp
  rw [e]
  exact Matrix.PosDef.diagonal fun _ => by positivity

/-- An estimator of the simulation. -/
structure Good (p : Params ℝ) (k : Kalman ℝ .one .one) : Prop where
  A : k.A = mA p
  B : k.B = mB p
  H : k.H = mH
  Q : k.Q = mQ p
  R : k.R = mR p
  P : k.P.toMatrix.PosSemidef

theorem estim_eq (avr : Bool) (p : Params ℝ) : ∃ k, estim avr p = .ok k ∧ Good p k ∧
    k.P = mQ p ∧ k.xhat = vec 0 0 := by
  refine ⟨Kalman.init avr p.dt (mA p) (mB p) mH (mQ p) (mR p) (mQ p) (vec 0 0), ?_,
    ⟨rfl, rfl, rfl, rfl, rfl, mQ_psd p⟩, rfl, rfl⟩
  unfold estim
  rw [start_eq, bind_ok, sysA_eq, bind_ok, sysB_eq, bind_ok, sysH_eq, bind_ok, sysQ_eq, bind_ok,
    sysR_eq, bind_ok, bind_ok]
  rfl

theorem main_eq (avr : Bool) (p : Params ℝ) (gs) : ∃ k, estim avr p = .ok k ∧ Good p k ∧
    k.P = mQ p ∧ k.xhat = vec 0 0 ∧ main avr p gs = loop p (mA p) (mB p) mH k (vec 0 0) gs := by
  obtain ⟨k, hk, hg, hP, hx⟩ := estim_eq avr p
  refine ⟨k, hk, hg, hP, hx, ?_⟩
  unfold main
  rw [sysA_eq, bind_ok, sysB_eq, bind_ok, sysH_eq, bind_ok, hk, bind_ok, start_eq, bind_ok]
  rfl

/-- The covariance recursion of the simulation. -/
noncomputable def covSeq (p : Params ℝ) (P : Matrix (Fin 2) (Fin 2) ℝ) : Nat → Matrix (Fin 2) (Fin 2) ℝ :=
  KF.riccSeq (mA p).toMatrix mH.toMatrix (mQ p).toMatrix (mR p).toMatrix P

theorem gain_elem (p : Params ℝ) (P : Matrix (Fin 2) (Fin 2) ℝ) (i : Fin 2) :
    (P * mH.toMatrixᵀ * (mR p).toMatrix⁻¹) i 0 = P i 0 / p.measnoise ^ 2 := by
  have e : (mR p).toMatrix⁻¹ = !![(p.measnoise ^ 2)⁻¹] := by
    rw [mR_mat, Matrix.inv_def]
    ext i j; fin_cases i; fin_cases j; simp
  rw [e, mH_mat]
  fin_cases i <;> simp [Matrix.mul_apply, Fin.sum_univ_two, div_eq_mul_inv]

theorem step_ok (p : Params ℝ) (hR : p.measnoise ≠ 0) (k : Kalman ℝ .one .one) (hk : Good p k)
    (a b : ℝ) (g : ℝ × ℝ × ℝ) : ∃ k' row, step p (mA p) (mB p) mH k (vec a b) g =
      .ok (k', vec (next0 p a b g.1) (next1 p a b g.2.1), row) ∧ Good p k' ∧
      k'.P.toMatrix = covSeq p k.P.toMatrix 1 ∧
      row.pos = next0 p a b g.1 ∧ row.vel = next1 p a b g.2.1 ∧
      row.posmeas = row.pos + p.measnoise * g.2.2 ∧
      row.poshat = k'.xhat.toMatrix 0 0 ∧ row.velhat = k'.xhat.toMatrix 1 0 ∧
      row.posecov = k'.P.toMatrix 0 0 ∧ row.velecov = k'.P.toMatrix 0 1 ∧
      row.posgain = row.posecov / p.measnoise ^ 2 ∧ row.velgain = row.velecov / p.measnoise ^ 2 ∧
      k'.xhat.toMatrix = k.xm one1 + !![row.posgain; row.velgain] *
        (!![row.posmeas] - (!![1, 0] : Matrix (Fin 1) (Fin 2) ℝ) * k.xm one1) := by
  have hQ : k.Q.toMatrix.PosSemidef := by rw [hk.Q]; exact mQ_psd p
  have hRd : k.R.toMatrix.PosDef := by rw [hk.R]; exact mR_posDef p hR
  set z := 0 + 1 * next0 p a b g.1 + 0 * next1 p a b g.2.1 + p.measnoise * g.2.2 with hz
  obtain ⟨k', G, hu, hs, hK, eP, eG, ex, -⟩ := k.update_ricc one1 (⟨#v[z]⟩ : Mat ℝ 1 1) hk.P hQ hRd
  have eP' : k'.P.toMatrix = covSeq p k.P.toMatrix 1 := by rw [eP, hk.A, hk.H, hk.Q, hk.R]; rfl
  have hP' : k'.P.toMatrix.PosSemidef := by rw [eP]; exact KF.ricc_psd hk.P hQ hRd
  have hG (i : Fin 2) : G.get i 0 = k'.P.toMatrix i 0 / p.measnoise ^ 2 := by
    show G.toMatrix i 0 = _
    rw [eG, hk.H, hk.R]; exact gain_elem p _ i
  refine ⟨k', ⟨next0 p a b g.1, z, k'.xhat.get 0 0, G.get 0 0, k'.P.get 0 0, next1 p a b g.2.1,
      k'.xhat.get 1 0, G.get 1 0, k'.P.get 0 1⟩, ?_, ⟨by rw [hs.A, hk.A], by rw [hs.B, hk.B], by rw [hs.H, hk.H], by rw [hs.Q, hk.Q],
    by rw [hs.R, hk.R], hP'⟩, eP', ?_⟩
  · rw [step_eq]
    simp only [← hz]
    rw [hu, bind_ok, Kalman.kalman_gain, hK]
    rfl
  · refine ⟨rfl, rfl, by rw [hz]; ring, rfl, rfl, rfl, rfl, hG 0, ?_, ?_⟩
    · rw [hG 1, KF.symm2 hP']; rfl
    · rw [ex, hk.H, mH_mat]
      have e1 : G.toMatrix = !![G.get 0 0; G.get 1 0] := by
        ext i j; fin_cases i <;> fin_cases j <;> rfl
      have e2 : (⟨#v[z]⟩ : Mat ℝ 1 1).toMatrix = !![z] := by
        ext i j; fin_cases i; fin_cases j; rfl
      rw [e1, e2]

theorem loop_rows (p : Params ℝ) (hR : p.measnoise ≠ 0) (gs) (k : Kalman ℝ .one .one) (hk : Good p k)
    (a b : ℝ) : ∃ rows, loop p (mA p) (mB p) mH k (vec a b) gs = .ok rows ∧
      rows.length = gs.length ∧ ∀ i (h : i < rows.length),
        rows[i].posecov = covSeq p k.P.toMatrix (i + 1) 0 0 ∧
        rows[i].velecov = covSeq p k.P.toMatrix (i + 1) 0 1 ∧
        rows[i].posgain = rows[i].posecov / p.measnoise ^ 2 ∧
        rows[i].velgain = rows[i].velecov / p.measnoise ^ 2 := by
  induction gs generalizing k a b with
  | nil => exact ⟨[], rfl, rfl, fun i h => absurd h (Nat.not_lt_zero _)⟩
  | cons g gs ih =>
    obtain ⟨k', row, h, hk', eP, -, -, -, -, -, ec, ev, eg, eh, -⟩ := step_ok p hR k hk a b g
    obtain ⟨rows, h2, hl, hr⟩ := ih k' hk' (next0 p a b g.1) (next1 p a b g.2.1)
    refine ⟨row :: rows, ?_, by rw [List.length_cons, List.length_cons, hl], ?_⟩
    · rw [loop, h, bind_ok]
      show (loop _ _ _ _ k' (vec _ _) gs >>= _) = _
      rw [h2]; rfl
    · intro i h
      cases i with
      | zero => exact ⟨by rw [← eP]; exact ec, by rw [← eP]; exact ev, eg, eh⟩
      | succ i =>
        have := hr i (Nat.lt_of_succ_lt_succ h)
        rw [eP] at this
        have e : covSeq p (covSeq p k.P.toMatrix 1) (i + 1) = covSeq p k.P.toMatrix (i + 1 + 1) :=
          (KF.riccSeq_succ' _).symm
        rw [e] at this
        exact this

theorem loop_quiet (p : Params ℝ) (hR : p.measnoise ≠ 0) (n : Nat) (k : Kalman ℝ .one .one)
    (hk : Good p k) (a b : ℝ) (hx : k.xhat.toMatrix = !![a; b]) :
    ∃ rows, loop p (mA p) (mB p) mH k (vec a b) (List.replicate n (0, 0, 0)) = .ok rows ∧
      ∀ i (h : i < rows.length),
        rows[i].pos = a + b * ((i + 1) * p.dt) + ((i + 1) * p.dt) ^ 2 / 2 ∧
        rows[i].vel = b + (i + 1) * p.dt ∧ rows[i].posmeas = rows[i].pos ∧
        rows[i].poshat = rows[i].pos ∧ rows[i].velhat = rows[i].vel := by
  induction n generalizing k a b with
  | zero => exact ⟨[], rfl, fun i h => absurd h (Nat.not_lt_zero _)⟩
  | succ n ih =>
    obtain ⟨k', row, h, hk', -, h1, h2, h3, h4, h5, -, -, -, -, ex⟩ := step_ok p hR k hk a b (0, 0, 0)
    have e0 : next0 p a b 0 = a + b * p.dt + p.dt ^ 2 / 2 := by unfold next0; ring
    have e1 : next1 p a b 0 = b + p.dt := by unfold next1; ring
    have exm : k.xm one1 = !![next0 p a b 0; next1 p a b 0] := by
      have : one1.toMatrix = 1 := by ext i j; fin_cases i; fin_cases j; rfl
      rw [Kalman.xm, hk.A, hk.B, hx, mA_mat, mB_mat, this, Matrix.mul_one, e0, e1]
      ext i j
      fin_cases i <;> fin_cases j <;> simp
      ring
    have hx' : k'.xhat.toMatrix = !![next0 p a b 0; next1 p a b 0] := by
      have : (!![row.posmeas] : Matrix (Fin 1) (Fin 1) ℝ) -
          (!![1, 0] : Matrix (Fin 1) (Fin 2) ℝ) * !![next0 p a b 0; next1 p a b 0] = 0 := by
        rw [h3, h1]
        ext i j; fin_cases i; fin_cases j; simp
      rw [ex, exm, this, Matrix.mul_zero, add_zero]
    obtain ⟨rows, hr, hrr⟩ := ih k' hk' _ _ hx'
    refine ⟨row :: rows, ?_, ?_⟩
    · rw [List.replicate_succ, loop, h, bind_ok]
      show (loop _ _ _ _ k' (vec _ _) _ >>= _) = _
      rw [hr]; rfl
    · intro i hi
      cases i with
      | zero =>
        simp only [List.getElem_cons_zero, Nat.cast_zero, zero_add, one_mul]
        refine ⟨by rw [h1, e0], by rw [h2, e1], by rw [h3]; simp, ?_, ?_⟩
        · rw [h4, h1, hx']; simp
        · rw [h5, h2, hx']; simp
      | succ i =>
        obtain ⟨q1, q2, q3⟩ := hrr i (Nat.lt_of_succ_lt_succ hi)
        simp only [List.getElem_cons_succ]
        refine ⟨?_, ?_, q3⟩
        · rw [q1, e0, e1]; push_cast; ring
        · rw [q2, e1]; push_cast; ring

theorem mH_tr : mH.toMatrixᵀ = !![1; 0] := by
  ext i j; fin_cases i <;> fin_cases j <;> rfl
theorem mA_tr (p : Params ℝ) : (mA p).toMatrixᵀ = !![1, 0; p.dt, 1] := by
  ext i j; fin_cases i <;> fin_cases j <;> rfl

/-- Explicit gain and corrected covariance for a predicted covariance. -/
theorem gain_expl (p : Params ℝ) (a b c : ℝ) :
    KF.gain !![a, b; b, c] mH.toMatrix (mR p).toMatrix =
      !![a / (a + p.measnoise ^ 2); b / (a + p.measnoise ^ 2)] := by
  have e : KF.innov !![a, b; b, c] mH.toMatrix (mR p).toMatrix = !![a + p.measnoise ^ 2] := by
    rw [KF.innov, mH_tr, mH_mat, mR_mat]
    ext i j; fin_cases i; fin_cases j
    simp
  have e2 : (!![a + p.measnoise ^ 2] : Matrix (Fin 1) (Fin 1) ℝ)⁻¹ = !![(a + p.measnoise ^ 2)⁻¹] := by
    rw [Matrix.inv_def]
    ext i j; fin_cases i; fin_cases j; simp
  rw [KF.gain, e, e2, mH_tr]
  ext i j
  fin_cases i <;> fin_cases j <;> simp [div_eq_mul_inv]

theorem post_expl (p : Params ℝ) (a b c : ℝ) (hS : a + p.measnoise ^ 2 ≠ 0) :
    (1 - KF.gain !![a, b; b, c] mH.toMatrix (mR p).toMatrix * mH.toMatrix) * !![a, b; b, c] =
      !![a * p.measnoise ^ 2 / (a + p.measnoise ^ 2), b * p.measnoise ^ 2 / (a + p.measnoise ^ 2);
        b * p.measnoise ^ 2 / (a + p.measnoise ^ 2), c - b ^ 2 / (a + p.measnoise ^ 2)] := by
  rw [gain_expl p a b c, mH_mat, Matrix.one_fin_two]
  ext i j
  fin_cases i <;> fin_cases j <;> simp [Matrix.mul_apply, Fin.sum_univ_two] <;> field_simp <;> ring

theorem pred_expl (p : Params ℝ) (a b c : ℝ) :
    KF.pred (mA p).toMatrix (mQ p).toMatrix !![a, b; b, c] =
      !![a + 2 * p.dt * b + p.dt ^ 2 * c + p.dt ^ 4 / 4 * p.accelnoise ^ 2,
          b + p.dt * c + p.dt ^ 3 / 2 * p.accelnoise ^ 2;
        b + p.dt * c + p.dt ^ 3 / 2 * p.accelnoise ^ 2, c + p.dt ^ 2 * p.accelnoise ^ 2] := by
  rw [KF.pred, mA_tr, mA_mat, mQ_mat]
  ext i j
  fin_cases i <;> fin_cases j <;> simp <;> ring

end KalmanSim

namespace AlphaBeta

theorem damping_spec {l : ℝ} (hl : 0 < l) :
    0 < damping l ∧ damping l < 1 ∧ l * damping l = 2 * (1 - damping l) ^ 2 := by
  have h0 : (0 : ℝ) ≤ 8 * l + l ^ 2 := by positivity
  have hq := Real.sq_sqrt h0
  have hq0 := Real.sqrt_nonneg (8 * l + l ^ 2)
  unfold damping
  generalize √(8 * l + l ^ 2) = q at *
  refine ⟨?_, ?_, ?_⟩
  · have : q < 4 + l := by nlinarith
    linarith
  · have : l < q := by nlinarith
    linarith
  · linear_combination (-1 / 8) * hq

theorem sqrt_alpha {l : ℝ} (hl : 0 < l) : √(1 - alpha l) = damping l := by
  rw [alpha, sub_sub_cancel]
  exact Real.sqrt_sq (damping_spec hl).1.le

theorem beta_eq {l : ℝ} (hl : 0 < l) : beta l = 2 * (1 - damping l) ^ 2 := by
  rw [beta, sqrt_alpha hl, alpha]; ring

end AlphaBeta

namespace KalmanSim
open AlphaBeta

/-- The steady covariance in terms of the damping parameter. -/
noncomputable def steady (p : Params ℝ) (r : ℝ) : Matrix (Fin 2) (Fin 2) ℝ :=
  !![p.measnoise ^ 2 * (1 - r ^ 2), p.measnoise ^ 2 * (2 * (1 - r) ^ 2) / p.dt;
    p.measnoise ^ 2 * (2 * (1 - r) ^ 2) / p.dt, p.measnoise ^ 2 * (4 * (1 - r) ^ 3) / (r * p.dt ^ 2)]

section
variable {p : Params ℝ} {r : ℝ} (hd : 0 < p.dt) (hs : 0 < p.measnoise) (h0 : 0 < r) (h1 : r < 1)
  (ha : p.accelnoise * r * p.dt ^ 2 = 2 * (1 - r) ^ 2 * p.measnoise)
include hd hs h0 h1 ha

omit h1 hs in
theorem accel_eq : p.accelnoise = 2 * (1 - r) ^ 2 * p.measnoise / (r * p.dt ^ 2) := by
  rw [eq_div_iff (by positivity)]; linarith

omit h1 in
theorem steady_pred : KF.pred (mA p).toMatrix (mQ p).toMatrix (steady p r) =
    !![p.measnoise ^ 2 * (1 - r ^ 2) / r ^ 2, p.measnoise ^ 2 * (2 * (1 - r) ^ 2) / (p.dt * r ^ 2);
      p.measnoise ^ 2 * (2 * (1 - r) ^ 2) / (p.dt * r ^ 2),
      p.measnoise ^ 2 * (4 * (1 - r) ^ 3) / (r ^ 2 * p.dt ^ 2)] := by
  have hd' := hd.ne'
  have h0' := h0.ne'
  rw [steady, pred_expl, accel_eq hd h0 ha]
  ext i j
  fin_cases i <;> fin_cases j <;> simp <;> field_simp <;> ring

omit h1 in
theorem steady_fix : KF.ricc (mA p).toMatrix mH.toMatrix (mQ p).toMatrix (mR p).toMatrix (steady p r) =
    steady p r := by
  have hd' := hd.ne'
  have h0' := h0.ne'
  have hs' := hs.ne'
  have e : p.measnoise ^ 2 * (1 - r ^ 2) / r ^ 2 + p.measnoise ^ 2 = p.measnoise ^ 2 / r ^ 2 := by
    field_simp; ring
  rw [KF.ricc, steady_pred hd hs h0 ha, post_expl _ _ _ _ (by rw [e]; positivity), e, steady]
  ext i j
  fin_cases i <;> fin_cases j <;> simp <;> field_simp
  ring

omit ha in
theorem steady_posDef : (steady p r).PosDef := by
  have hr : 0 < 1 - r := by linarith
  apply KF.posDef2
  · simp [steady]
  · simp only [steady, of_apply, cons_val', cons_val_zero, cons_val_fin_one]
    have : 0 < 1 - r ^ 2 := by nlinarith
    positivity
  · simp only [steady, of_apply, cons_val', cons_val_zero, cons_val_one, cons_val_fin_one]
    have e : p.measnoise ^ 2 * (1 - r ^ 2) * (p.measnoise ^ 2 * (4 * (1 - r) ^ 3) / (r * p.dt ^ 2)) -
        (p.measnoise ^ 2 * (2 * (1 - r) ^ 2) / p.dt) ^ 2 =
        p.measnoise ^ 4 * (4 * (1 - r) ^ 4) / (r * p.dt ^ 2) := by
      field_simp; ring
    have : 0 < p.measnoise ^ 4 * (4 * (1 - r) ^ 4) / (r * p.dt ^ 2) := by positivity
    linarith

omit h1 in
theorem steady_gain : KF.gain (KF.pred (mA p).toMatrix (mQ p).toMatrix (steady p r)) mH.toMatrix
    (mR p).toMatrix = !![1 - r ^ 2; 2 * (1 - r) ^ 2 / p.dt] := by
  have e : p.measnoise ^ 2 * (1 - r ^ 2) / r ^ 2 + p.measnoise ^ 2 = p.measnoise ^ 2 / r ^ 2 := by
    field_simp; ring
  rw [steady_pred hd hs h0 ha, gain_expl, e]
  ext i j
  fin_cases i <;> fin_cases j <;> (simp; field_simp)

theorem steady_fresh : (KF.fresh (mA p).toMatrix mH.toMatrix (mQ p).toMatrix (mR p).toMatrix
    (steady p r)).PosDef := by
  have hr : 0 < 1 - r := by linarith
  have ht : (1 - (!![1 - r ^ 2; 2 * (1 - r) ^ 2 / p.dt] : Matrix (Fin 2) (Fin 1) ℝ) *
      (!![1, 0] : Matrix (Fin 1) (Fin 2) ℝ)) =
      !![r ^ 2, 0; -(2 * (1 - r) ^ 2 / p.dt), 1] := by
    rw [Matrix.one_fin_two]
    ext i j; fin_cases i <;> fin_cases j <;> simp
  have ht2 : (!![r ^ 2, 0; -(2 * (1 - r) ^ 2 / p.dt), 1] : Matrix (Fin 2) (Fin 2) ℝ)ᵀ =
      !![r ^ 2, -(2 * (1 - r) ^ 2 / p.dt); 0, 1] := by
    ext i j; fin_cases i <;> fin_cases j <;> rfl
  have ht3 : (!![1 - r ^ 2; 2 * (1 - r) ^ 2 / p.dt] : Matrix (Fin 2) (Fin 1) ℝ)ᵀ =
      !![1 - r ^ 2, 2 * (1 - r) ^ 2 / p.dt] := by
    ext i j; fin_cases i; fin_cases j <;> rfl
  have e : KF.fresh (mA p).toMatrix mH.toMatrix (mQ p).toMatrix (mR p).toMatrix (steady p r) =
      !![p.accelnoise ^ 2 * (r ^ 2 * p.dt ^ 2 / 2) ^ 2 + p.measnoise ^ 2 * (1 - r ^ 2) ^ 2,
        p.accelnoise ^ 2 * ((r ^ 2 * p.dt ^ 2 / 2) * (p.dt - (1 - r) ^ 2 * p.dt)) +
          p.measnoise ^ 2 * ((1 - r ^ 2) * (2 * (1 - r) ^ 2 / p.dt));
        p.accelnoise ^ 2 * ((r ^ 2 * p.dt ^ 2 / 2) * (p.dt - (1 - r) ^ 2 * p.dt)) +
          p.measnoise ^ 2 * ((1 - r ^ 2) * (2 * (1 - r) ^ 2 / p.dt)),
        p.accelnoise ^ 2 * (p.dt - (1 - r) ^ 2 * p.dt) ^ 2 +
          p.measnoise ^ 2 * (2 * (1 - r) ^ 2 / p.dt) ^ 2] := by
    rw [KF.fresh, steady_gain hd hs h0 ha, mH_mat, ht, ht2, ht3, mQ_mat, mR_mat]
    ext i j; fin_cases i <;> fin_cases j <;> simp <;> field_simp <;> ring
  rw [e]
  have hr2 : 0 < 1 - r ^ 2 := by nlinarith
  have ha' : 0 < p.accelnoise := by rw [accel_eq hd h0 ha]; positivity
  generalize hv0 : r ^ 2 * p.dt ^ 2 / 2 = v0
  generalize hv1 : p.dt - (1 - r) ^ 2 * p.dt = v1
  generalize hk0 : 1 - r ^ 2 = k0 at *
  generalize hk1 : 2 * (1 - r) ^ 2 / p.dt = k1
  have hne : v0 * k1 - v1 * k0 < 0 := by
    have : v0 * k1 - v1 * k0 = -(p.dt * (2 * r * (1 - r))) := by
      rw [← hv0, ← hv1, ← hk0, ← hk1]; field_simp; ring
    rw [this]; simp only [Left.neg_neg_iff]; positivity
  apply KF.posDef2
  · simp
  · simp only [of_apply, cons_val', cons_val_zero, cons_val_fin_one]; positivity
  · simp only [of_apply, cons_val', cons_val_zero, cons_val_one, cons_val_fin_one]
    have : 0 < p.accelnoise ^ 2 * p.measnoise ^ 2 * (v0 * k1 - v1 * k0) ^ 2 := by
      have := hne.ne
      positivity
    nlinarith

end

/-- After two steps the covariance is positive definite. -/
theorem covSeq_two {p : Params ℝ} (hd : p.dt ≠ 0) (hs : p.measnoise ≠ 0) (ha : p.accelnoise ≠ 0)
    {P : Matrix (Fin 2) (Fin 2) ℝ} (hP : P.PosSemidef) : (covSeq p P 2).PosDef := by
  have hQ := mQ_psd p
  have hR := mR_posDef p hs
  obtain ⟨t, ht, e⟩ : ∃ t : ℝ, 0 < t ∧ KF.ricc (mA p).toMatrix mH.toMatrix (mQ p).toMatrix
      (mR p).toMatrix 0 = !![p.dt ^ 4 / 4 * p.accelnoise ^ 2 * t, p.dt ^ 3 / 2 * p.accelnoise ^ 2 * t;
        p.dt ^ 3 / 2 * p.accelnoise ^ 2 * t, p.dt ^ 2 * p.accelnoise ^ 2 * t] := by
    have hS : 0 < p.dt ^ 4 / 4 * p.accelnoise ^ 2 + p.measnoise ^ 2 := by positivity
    refine ⟨p.measnoise ^ 2 / (p.dt ^ 4 / 4 * p.accelnoise ^ 2 + p.measnoise ^ 2), by positivity, ?_⟩
    have : KF.pred (mA p).toMatrix (mQ p).toMatrix 0 = (mQ p).toMatrix := by simp [KF.pred]
    rw [KF.ricc, this, mQ_mat, post_expl _ _ _ _ hS.ne']
    ext i j
    fin_cases i <;> fin_cases j <;> simp
    · ring
    · ring
    · ring
    · field_simp; ring
  have hmono := KF.ricc_mono (A := (mA p).toMatrix) (H := mH.toMatrix) hP Matrix.PosSemidef.zero hQ hR
    (by simpa using hP)
  have h0 : (KF.pred (mA p).toMatrix (mQ p).toMatrix
      (KF.ricc (mA p).toMatrix mH.toMatrix (mQ p).toMatrix (mR p).toMatrix 0)).PosDef := by
    rw [e, pred_expl]
    apply KF.posDef2
    · simp
    · simp only [of_apply, cons_val', cons_val_zero, cons_val_fin_one]
      have e : p.dt ^ 4 / 4 * p.accelnoise ^ 2 * t + 2 * p.dt * (p.dt ^ 3 / 2 * p.accelnoise ^ 2 * t) +
          p.dt ^ 2 * (p.dt ^ 2 * p.accelnoise ^ 2 * t) + p.dt ^ 4 / 4 * p.accelnoise ^ 2 =
          p.dt ^ 4 * p.accelnoise ^ 2 * (9 / 4 * t + 1 / 4) := by ring
      rw [e]
      positivity
    · simp only [of_apply, cons_val', cons_val_zero, cons_val_one, cons_val_fin_one]
      rw [← sub_pos]
      have : 0 < p.accelnoise ^ 4 * t * p.dt ^ 6 := by positivity
      refine lt_of_lt_of_eq this ?_
      ring
  refine KF.ricc_posDef ?_ hR
  have h1 := h0.add_posSemidef (KF.psd_congr hmono (mA p).toMatrix)
  have e2 : KF.pred (mA p).toMatrix (mQ p).toMatrix (KF.ricc (mA p).toMatrix mH.toMatrix (mQ p).toMatrix
      (mR p).toMatrix 0) + (mA p).toMatrix * (KF.ricc (mA p).toMatrix mH.toMatrix (mQ p).toMatrix
      (mR p).toMatrix P - KF.ricc (mA p).toMatrix mH.toMatrix (mQ p).toMatrix (mR p).toMatrix 0) *
      (mA p).toMatrixᵀ = KF.pred (mA p).toMatrix (mQ p).toMatrix (KF.ricc (mA p).toMatrix mH.toMatrix
        (mQ p).toMatrix (mR p).toMatrix P) := by
    simp only [KF.pred, Matrix.mul_sub, Matrix.sub_mul]; abel
  rw [e2] at h1
  exact h1

section
variable {p : Params ℝ} (hd : 0 < p.dt) (hs : 0 < p.measnoise) (ha : 0 < p.accelnoise)
include hd hs ha

theorem damping_index : 0 < damping (index p.dt p.measnoise p.accelnoise) ∧
    damping (index p.dt p.measnoise p.accelnoise) < 1 ∧
    p.accelnoise * damping (index p.dt p.measnoise p.accelnoise) * p.dt ^ 2 =
      2 * (1 - damping (index p.dt p.measnoise p.accelnoise)) ^ 2 * p.measnoise := by
  obtain ⟨h0, h1, h2⟩ := damping_spec (l := index p.dt p.measnoise p.accelnoise)
    (by unfold index; positivity)
  refine ⟨h0, h1, ?_⟩
  generalize damping (index p.dt p.measnoise p.accelnoise) = r at *
  rw [index] at h2
  field_simp at h2
  linarith

theorem covSeq_tendsto {P : Matrix (Fin 2) (Fin 2) ℝ} (hP : P.PosSemidef) (i j : Fin 2) :
    Filter.Tendsto (fun k => covSeq p P k i j) Filter.atTop
      (nhds (steady p (damping (index p.dt p.measnoise p.accelnoise)) i j)) := by
  obtain ⟨h0, h1, h2⟩ := damping_index hd hs ha
  have h := KF.riccSeq_tendsto (covSeq_two hd.ne' hs.ne' ha.ne' hP) (steady_posDef hd hs h0 h1)
    (mQ_psd p) (mR_posDef p hs.ne') (steady_fix hd hs h0 h2)
    (KF.spread_of_fresh (steady_fresh hd hs h0 h1 h2)) i j
  refine (Filter.tendsto_add_atTop_iff_nat (f := fun k => covSeq p P k i j) 2).1 ?_
  refine h.congr fun k => ?_
  show _ = KF.riccSeq _ _ _ _ P (k + 2) i j
  rw [Nat.add_comm, KF.riccSeq_add]; rfl

theorem transition_tendsto {P : Matrix (Fin 2) (Fin 2) ℝ} (hP : P.PosSemidef) (i j : Fin 2) :
    Filter.Tendsto (fun k => KF.transition (mA p).toMatrix mH.toMatrix (mQ p).toMatrix (mR p).toMatrix
      P k i j) Filter.atTop (nhds 0) := by
  obtain ⟨h0, h1, h2⟩ := damping_index hd hs ha
  have h := KF.transition_tendsto (covSeq_two hd.ne' hs.ne' ha.ne' hP) (steady_posDef hd hs h0 h1)
    (mQ_psd p) (mR_posDef p hs.ne') (steady_fix hd hs h0 h2)
    (KF.spread_of_fresh (steady_fresh hd hs h0 h1 h2))
  refine (Filter.tendsto_add_atTop_iff_nat (f := fun k => KF.transition (mA p).toMatrix mH.toMatrix
    (mQ p).toMatrix (mR p).toMatrix P k i j) 2).1 ?_
  exact KF.tendsto_mul_right h _ i j |>.congr fun k => by
    rw [Nat.add_comm, KF.transition_add]; rfl

end
end KalmanSim
end Verif
