import Verif.Model.Matlab
import Verif.Lemmas.KalmanSim
import Verif.Props.Kalman

/- C111: the C++ estimator and simulation against the Matlab programs they were derived from. -/

namespace Verif
open Matrix KalmanSim Kalman

namespace Matlab

theorem kalman_ok {S M U : Nat} {u : Matrix (Fin U) (Fin 1) ℝ} {z : Matrix (Fin M) (Fin 1) ℝ}
    {A : Matrix (Fin S) (Fin S) ℝ} {B : Matrix (Fin S) (Fin U) ℝ} {H : Matrix (Fin M) (Fin S) ℝ}
    {Q : Matrix (Fin S) (Fin S) ℝ} {R : Matrix (Fin M) (Fin M) ℝ} {P : Matrix (Fin S) (Fin S) ℝ}
    {x : Matrix (Fin S) (Fin 1) ℝ} (h : (H * (A * P * Aᵀ + Q) * Hᵀ + R).det ≠ 0) {x' K P'}
    (ht : Textbook A B H Q R x P u z x' K P') : kalman u z A B H Q R P x = .ok ⟨K, x', P'⟩ := by
  rw [kalman]
  show (inv _ >>= fun _ => _) = _
  rw [inv, if_neg h, bind_ok, ht.state, ht.cov, ht.gain]

theorem kalman_singular {S M U : Nat} {u : Matrix (Fin U) (Fin 1) ℝ} {z : Matrix (Fin M) (Fin 1) ℝ}
    {A : Matrix (Fin S) (Fin S) ℝ} {B : Matrix (Fin S) (Fin U) ℝ} {H : Matrix (Fin M) (Fin S) ℝ}
    {Q : Matrix (Fin S) (Fin S) ℝ} {R : Matrix (Fin M) (Fin M) ℝ} {P : Matrix (Fin S) (Fin S) ℝ}
    {x : Matrix (Fin S) (Fin 1) ℝ} (h : (H * (A * P * Aᵀ + Q) * Hᵀ + R).det = 0) :
    kalman u z A B H Q R P x = .error .divByZero := by
  rw [kalman]
  show (inv _ >>= fun _ => _) = _
  rw [inv, if_pos h]
  rfl

end Matlab

/-! ## C111: one update -/

/-- **C111** One measurement: whenever `kalman.m` has a result, `update` of the estimator has the same.  Otherwise, with
innovation variance zero, `update` takes the measurement to be worthless: the gain is zero. -/
theorem C111_update_one {u : Dim} (k : Kalman ℝ .one u) (v : ColVec ℝ u.val) (z : ColVec ℝ 1) :
    ∃ k' K, k.update v z = .ok k' ∧ k'.kalman_gain = .ok K ∧
      ∀ r, Matlab.kalman v.toMatrix z.toMatrix k.A.toMatrix k.B.toMatrix k.H.toMatrix k.Q.toMatrix k.R.toMatrix
          k.estimation_error_covariance.toMatrix k.system_state.toMatrix = r →
        r = .ok ⟨K.toMatrix, k'.system_state.toMatrix, k'.estimation_error_covariance.toMatrix⟩ ∨
        r = .error .divByZero ∧ K.toMatrix = 0 ∧
          k'.system_state.toMatrix = k.A.toMatrix * k.system_state.toMatrix + k.B.toMatrix * v.toMatrix := by
  by_cases h : (k.H.toMatrix * (k.A.toMatrix * k.P.toMatrix * k.A.toMatrixᵀ + k.Q.toMatrix) * k.H.toMatrixᵀ
      + k.R.toMatrix) 0 0 = 0
  · obtain ⟨P, hP, eP⟩ := predictCov_mat k.A k.P k.Q
    obtain ⟨G, hG, eG⟩ := gain_one P k.H k.R
    obtain ⟨k', h', hK, hx, hP', -⟩ := update_of_gain k v z G P hP hG
    have h0 : k.H.toMatrix * (k.A.toMatrix * k.P.toMatrix * k.A.toMatrixᵀ + k.Q.toMatrix) * k.H.toMatrixᵀ
      + k.R.toMatrix = 0 := by
      ext i j
      fin_cases i
      fin_cases j
      exact h
    have hz : G.toMatrix = 0 := by
      rw [eG, eP, h0, Matrix.inv_zero, Matrix.mul_zero]
    refine ⟨k', G, h', by unfold kalman_gain; rw [hK], fun r hr => .inr ⟨?_, hz, ?_⟩⟩
    · rw [← hr]
      refine Matlab.kalman_singular ?_
      rw [show k.estimation_error_covariance = k.P from rfl, h0]
      exact Matrix.det_zero
    · show k'.xhat.toMatrix = _
      rw [hx, hz, Matrix.zero_mul, add_zero]
      rfl
  · obtain ⟨k', K, h1, h2, h3, h4⟩ := C10_textbook k v z h
    refine ⟨k', K, h1, h2, fun r hr => .inl ?_⟩
    rw [← hr]
    exact Matlab.kalman_ok (isUnit_iff_ne_zero.1 ((Matrix.isUnit_iff_isUnit_det _).1 h4)) h3

/-- **C111** Two measurements: `update` fails exactly if `kalman.m` does.  The results agree if the innovation covariance
is symmetric (which it is along every run that starts with symmetric covariances, C14), and only then if predicted
covariance and measurement matrix are invertible. -/
theorem C111_update_two {u : Dim} (k : Kalman ℝ .two u) (v : ColVec ℝ u.val) (z : ColVec ℝ 2) (r)
    (hr : Matlab.kalman v.toMatrix z.toMatrix k.A.toMatrix k.B.toMatrix k.H.toMatrix k.Q.toMatrix k.R.toMatrix
      k.estimation_error_covariance.toMatrix k.system_state.toMatrix = r) :
    (r = .error .divByZero ∧ k.update v z = .error .divByZero ∧ k.Sm.det = 0) ∨
    ∃ o k' K, r = .ok o ∧ k.update v z = .ok k' ∧ k'.kalman_gain = .ok K ∧
      (k.Smᵀ = k.Sm → o = ⟨K.toMatrix, k'.system_state.toMatrix, k'.estimation_error_covariance.toMatrix⟩) ∧
      (k.Pm.det ≠ 0 → k.H.toMatrix.det ≠ 0 → o.K = K.toMatrix → k.Smᵀ = k.Sm) := by
  obtain ⟨P, hP, eP⟩ := predictCov_mat k.A k.P k.Q
  have eP' : P.toMatrix = k.Pm := eP
  have hS' : k.H.toMatrix * P.toMatrix * k.H.toMatrixᵀ + k.R.toMatrix = k.Sm := by rw [eP']; rfl
  by_cases hd : k.Sm.det = 0
  · left
    refine ⟨?_, ?_, hd⟩
    · rw [← hr]
      exact Matlab.kalman_singular hd
    · obtain ⟨t, ht⟩ : ∃ t, CNum.add k.t k.dt = .ok t := ⟨_, rfl⟩
      obtain ⟨x, hx, -⟩ := predictState_mat k.A k.B k.xhat v
      have hg := (gain_two P k.H k.R).2 (by rw [hS']; exact hd)
      rw [update, ht, bind_ok, hx, bind_ok, hP, bind_ok]
      show (gain .two P k.H k.R >>= fun _ => _) = _
      rw [hg]
      rfl
  · right
    obtain ⟨G, hG, eG⟩ := (gain_two P k.H k.R).1 (by rw [hS']; exact hd)
    obtain ⟨k', h', hK, hx, hP', -⟩ := update_of_gain k v z G P hP hG
    rw [hS', eP'] at eG
    refine ⟨⟨k.Pm * k.H.toMatrixᵀ * k.Sm⁻¹, _, _⟩, k', G, hr.symm.trans (Matlab.kalman_ok hd ⟨rfl, rfl, rfl⟩), h',
      by unfold kalman_gain; rw [hK], fun hs => ?_, fun h1 h2 h3 => ?_⟩
    · rw [Matrix.transpose_nonsing_inv, hs] at eG
      show _ = Matlab.Out.mk _ k'.xhat.toMatrix k'.P.toMatrix
      rw [hx, hP', eG]
      rfl
    · have h3 : k.Pm * k.H.toMatrixᵀ * k.Sm⁻¹ = G.toMatrix := h3
      rw [eG] at h3
      have hu : IsUnit (k.Pm * k.H.toMatrixᵀ) := by
        rw [Matrix.isUnit_iff_isUnit_det, Matrix.det_mul, Matrix.det_transpose]
        exact isUnit_iff_ne_zero.2 (mul_ne_zero h1 h2)
      have h4 : k.Sm⁻¹ = (k.Sm⁻¹)ᵀ := hu.mul_left_cancel h3
      rw [Matrix.transpose_nonsing_inv] at h4
      have hd' : IsUnit k.Sm.det := isUnit_iff_ne_zero.2 hd
      have h5 := congrArg (·⁻¹) h4
      beta_reduce at h5
      rw [Matrix.nonsing_inv_nonsing_inv _ hd', Matrix.nonsing_inv_nonsing_inv _ (by rwa [Matrix.det_transpose])] at h5
      exact h5.symm

/-! ## C111: the simulation -/

namespace Matlab

theorem elem_col (x : Matrix (Fin 2) (Fin 1) ℝ) : elem x 1 = .ok (x 0 0) ∧ elem x 2 = .ok (x 1 0) := ⟨rfl, rfl⟩
theorem elem_sq (x : Matrix (Fin 2) (Fin 2) ℝ) : elem x 1 = .ok (x 0 0) ∧ elem x 2 = .ok (x 1 0) := ⟨rfl, rfl⟩
theorem elem_one (x : Matrix (Fin 1) (Fin 1) ℝ) : elem x 1 = .ok (x 0 0) := rfl

theorem sysQ_mat (p : Params ℝ) : (mQ p).toMatrix = sysQ p := by
  rw [mQ_mat, sysQ]
  ext i j
  fin_cases i <;> fin_cases j <;> simp <;> ring

theorem sysR_mat (p : Params ℝ) : (mR p).toMatrix = sysR p := by
  rw [mR_mat, sysR, sq]

/-- Both programs do the same in one pass. -/
theorem pass_ok (p : Params ℝ) (hR : p.measnoise ≠ 0) (k : Kalman ℝ .one .one) (hk : Good p k)
    (a b : ℝ) (g : ℝ × ℝ × ℝ) : ∃ k' a' b' row o,
      step p (mA p) (mB p) mH k (KalmanSim.vec a b) g = .ok (k', KalmanSim.vec a' b', row) ∧
      Good p k' ∧ pass p !![a; b] k.xhat.toMatrix k.P.toMatrix g = .ok (!![a'; b'], o, row) ∧
      o.xhat = k'.xhat.toMatrix ∧ o.P = k'.P.toMatrix := by
  obtain ⟨k', row, h1, h2, -⟩ := step_ok p hR k hk a b g
  refine ⟨k', next0 p a b g.1, next1 p a b g.2.1, row, ?_⟩
  set z := 0 + 1 * next0 p a b g.1 + 0 * next1 p a b g.2.1 + p.measnoise * g.2.2 with hz
  obtain ⟨k1, K, e1, e2, e3⟩ := C111_update_one k one1 (⟨#v[z]⟩ : Mat ℝ 1 1)
  have hm := e3 _ rfl
  have hS : (k.H.toMatrix * (k.A.toMatrix * k.P.toMatrix * k.A.toMatrixᵀ + k.Q.toMatrix) * k.H.toMatrixᵀ +
      k.R.toMatrix).PosDef := by
    rw [hk.H, hk.A, hk.Q, hk.R]
    exact KF.innov_posDef ((KF.psd_congr hk.P _).add (mQ_psd p)) (mR_posDef p hR)
  have hm : Matlab.kalman one1.toMatrix (⟨#v[z]⟩ : Mat ℝ 1 1).toMatrix k.A.toMatrix k.B.toMatrix k.H.toMatrix
      k.Q.toMatrix k.R.toMatrix k.P.toMatrix k.xhat.toMatrix =
      .ok ⟨K.toMatrix, k1.xhat.toMatrix, k1.P.toMatrix⟩ := by
    rcases hm with h | ⟨h, -⟩
    · exact h
    · rw [show k.estimation_error_covariance = k.P from rfl, show k.system_state = k.xhat from rfl,
        kalman_ok (isUnit_iff_ne_zero.1 (KF.posDef_det hS)) ⟨rfl, rfl, rfl⟩] at h
      cases h
  have h1' := h1
  rw [step_eq] at h1'
  simp only [← hz] at h1'
  rw [e1, bind_ok, e2, bind_ok] at h1'
  have h3 := Except.ok.inj h1'
  simp only [Prod.mk.injEq] at h3
  obtain ⟨rfl, -, rfl⟩ := h3
  refine ⟨⟨K.toMatrix, k1.xhat.toMatrix, k1.P.toMatrix⟩, h1, h2, ?_, rfl, rfl⟩
  have ex : sysA p * !![a; b] + sysB p * !![(1 : ℝ)] + p.accelnoise • !![p.dt ^ 2 / 2 * g.1; p.dt * g.2.1] =
      (!![next0 p a b g.1; next1 p a b g.2.1] : Matrix (Fin 2) (Fin 1) ℝ) := by
    ext i j
    fin_cases i <;> fin_cases j <;> simp [sysA, sysB, next0, next1] <;> ring
  have ez : sysH * (!![next0 p a b g.1; next1 p a b g.2.1] : Matrix (Fin 2) (Fin 1) ℝ) + !![p.measnoise * g.2.2] =
      !![z] := by
    ext i j
    fin_cases i
    fin_cases j
    simp [sysH, hz]
  have e11 : (⟨#v[z]⟩ : Mat ℝ 1 1).toMatrix = !![z] := by
    ext i j; fin_cases i; fin_cases j; rfl
  have eo : one1.toMatrix = !![1] := by
    ext i j; fin_cases i; fin_cases j; rfl
  rw [hk.A, hk.B, hk.H, hk.Q, hk.R, e11, eo, mA_mat, mB_mat, mH_mat, sysQ_mat, sysR_mat] at hm
  have hs := KF.symm2 h2.P
  unfold pass
  simp only [ex, ez]
  change (kalman !![1] !![z] !![1, p.dt; 0, 1] !![p.dt * p.dt / 2; p.dt] !![1, 0] _ _ _ _ >>= fun _ => _) = _
  rw [hm, bind_ok]
  have hs' : k1.P.toMatrix 1 0 = k1.P.get 0 1 := hs
  show Except.ok (_, _, Row.mk _ _ _ _ _ _ _ _ (k1.P.toMatrix 1 0)) = _
  rw [hs']
  rfl

/-- Both loops record the same. -/
theorem loop_ok (p : Params ℝ) (hR : p.measnoise ≠ 0) (gs) : ∀ (k : Kalman ℝ .one .one) (_ : Good p k) (a b : ℝ),
    ∃ rows, KalmanSim.loop p (mA p) (mB p) mH k (KalmanSim.vec a b) gs = .ok rows ∧ rows.length = gs.length ∧
      loop p !![a; b] k.xhat.toMatrix k.P.toMatrix gs = .ok rows := by
  induction gs with
  | nil => exact fun k _ a b => ⟨[], rfl, rfl, rfl⟩
  | cons g gs ih =>
    intro k hk a b
    obtain ⟨k', a', b', row, o, h1, h2, h3, h4, h5⟩ := pass_ok p hR k hk a b g
    obtain ⟨rows, e1, e2, e3⟩ := ih k' h2 a' b'
    refine ⟨row :: rows, ?_, by simp [e2], ?_⟩
    · rw [KalmanSim.loop, h1, bind_ok]
      show (KalmanSim.loop _ _ _ _ _ _ _ >>= fun _ => _) = _
      rw [e1, bind_ok]
    · rw [loop, h3, bind_ok]
      show (loop _ _ _ _ _ >>= fun _ => _) = _
      rw [h4, h5, e3, bind_ok]

/-- The loop with its condition: as many passes as the condition lets through. -/
theorem timed_ok (p : Params ℝ) (T : ℝ) (g : Nat → ℝ × ℝ × ℝ) (n : Nat) : ∀ (fuel i : Nat) (k : Kalman ℝ .one .one) x,
    n < fuel → (∀ j, j < n → ((i + j : Nat) : ℝ) * p.dt < T) → ¬ ((i + n : Nat) : ℝ) * p.dt < T →
    timedLoop p T (mA p) (mB p) mH g fuel i k x = KalmanSim.loop p (mA p) (mB p) mH k x ((List.range' i n).map g) := by
  induction n with
  | zero =>
    intro fuel i k x hf _ h2
    obtain ⟨f, rfl⟩ : ∃ f, fuel = f + 1 := ⟨fuel - 1, by omega⟩
    rw [Nat.add_zero] at h2
    rw [timedLoop, if_neg h2]
    rfl
  | succ n ih =>
    intro fuel i k x hf h1 h2
    obtain ⟨f, rfl⟩ : ∃ f, fuel = f + 1 := ⟨fuel - 1, by omega⟩
    have h0 := h1 0 (by omega)
    rw [Nat.add_zero] at h0
    rw [timedLoop, if_pos h0, List.range'_succ, List.map_cons, KalmanSim.loop]
    refine congrArg (_ >>= ·) (funext fun r => ?_)
    obtain ⟨k', x', row⟩ := r
    show (timedLoop _ _ _ _ _ _ _ _ _ _ >>= fun _ => _) = (KalmanSim.loop _ _ _ _ _ _ _ >>= fun _ => _)
    rw [ih f (i + 1) k' x' (by omega) (fun j hj => ?_) ?_]
    · rwa [show i + (n + 1) = i + 1 + n by omega] at h2
    · have := h1 (j + 1) (by omega)
      rwa [show i + (j + 1) = i + 1 + j by omega] at this

/-- More passes record more, and the same at the beginning. -/
theorem loop_take (p : Params ℝ) (gs hs) : ∀ x xhat P rows, loop p x xhat P (gs ++ hs) = .ok rows →
    loop p x xhat P gs = .ok (rows.take gs.length) := by
  induction gs with
  | nil => exact fun _ _ _ _ _ => rfl
  | cons g gs ih =>
    intro x xhat P rows h
    rw [List.cons_append, loop] at h
    obtain ⟨⟨x', o, row⟩, h1, h⟩ := bind_eq_ok.1 h
    obtain ⟨rs, h2, h⟩ := bind_eq_ok.1 h
    cases h
    rw [loop, h1, bind_ok]
    show (loop _ _ _ _ _ >>= fun _ => _) = _
    rw [ih _ _ _ _ h2, bind_ok]
    rfl

end Matlab

/-- **C111** The simulations: for the same random draws, every time step, every duration and every measurement noise but
0, the nine columns recorded by the C++ program are the columns recorded by the Matlab program, up to the number of
rows: the C++ program makes `ceil( T / dt )` passes, the Matlab program `floor( T / dt ) + 1`. -/
theorem C111_simulation (avr : Bool) (p : Params ℝ) (T : ℝ) (g : Nat → ℝ × ℝ × ℝ) (hd : 0 < p.dt) (hT : 0 ≤ T)
    (hR : p.measnoise ≠ 0) :
    ∃ rows, Matlab.main p T g = .ok rows ∧ rows.length = ⌊T / p.dt⌋₊ + 1 ∧
      ∀ fuel, ⌈T / p.dt⌉₊ < fuel → timedMain avr p T g fuel = .ok (rows.take ⌈T / p.dt⌉₊) := by
  obtain ⟨k, hk, hg, hP, hx⟩ := estim_eq avr p
  have hc : Matlab.count p.dt T = ⌊T / p.dt⌋₊ + 1 := by
    have h0 : 0 ≤ ⌊T / p.dt⌋ := Int.floor_nonneg.2 (div_nonneg hT hd.le)
    rw [Matlab.count, Int.toNat_add h0 (by norm_num)]
    rfl
  have hx0 : k.xhat.toMatrix = 0 := by
    rw [hx]
    ext i j
    fin_cases i <;> fin_cases j <;> rfl
  have hv : (!![0; 0] : Matrix (Fin 2) (Fin 1) ℝ) = 0 := by
    ext i j
    fin_cases i <;> fin_cases j <;> rfl
  obtain ⟨rows, e1, e2, e3⟩ := Matlab.loop_ok p hR ((List.range (⌊T / p.dt⌋₊ + 1)).map g) k hg 0 0
  have hPm : k.P.toMatrix = Matlab.sysQ p := by rw [hP, Matlab.sysQ_mat]
  rw [hx0, hPm, hv] at e3
  refine ⟨rows, ?_, by simpa using e2, fun fuel hf => ?_⟩
  · rw [Matlab.main, hc, e3]
  · have hle : ⌈T / p.dt⌉₊ ≤ ⌊T / p.dt⌋₊ + 1 := Nat.ceil_le_floor_add_one _
    obtain ⟨m, hm⟩ := Nat.exists_eq_add_of_le hle
    obtain ⟨rows', f1, f2, f3⟩ := Matlab.loop_ok p hR ((List.range ⌈T / p.dt⌉₊).map g) k hg 0 0
    rw [hx0, hPm, hv] at f3
    rw [hm, List.range_add, List.map_append] at e3
    have h4 := Matlab.loop_take _ _ _ _ _ _ _ e3
    rw [f3] at h4
    simp only [List.length_map, List.length_range, Except.ok.injEq] at h4
    rw [timedMain, sysA_eq, bind_ok, sysB_eq, bind_ok, sysH_eq, bind_ok, hk, bind_ok, start_eq, bind_ok, ← h4, ← f1,
      List.range_eq_range']
    refine Matlab.timed_ok p T g _ fuel 0 k (KalmanSim.vec 0 0) hf (fun j hj => ?_) ?_
    · rw [Nat.zero_add, ← lt_div_iff₀ hd]
      exact Nat.lt_ceil.1 hj
    · rw [Nat.zero_add, ← lt_div_iff₀ hd, not_lt]
      exact Nat.le_ceil _

/-- **C111** With the numbers of the programs, 50 s in steps of 1 s, the Matlab program records a row more. -/
theorem C111_rows (avr : Bool) (g : Nat → ℝ × ℝ × ℝ) :
    ∃ rows, Matlab.main ⟨1, 10, 1 / 5⟩ 50 g = .ok rows ∧ rows.length = 51 ∧
      timedMain avr ⟨1, 10, 1 / 5⟩ 50 g 51 = .ok (rows.take 50) := by
  obtain ⟨rows, h1, h2, h3⟩ := C111_simulation avr ⟨1, 10, 1 / 5⟩ 50 g one_pos (by norm_num) (by norm_num)
  have e : ⌈(50 : ℝ) / 1⌉₊ = 50 := by
    rw [div_one]
    exact Nat.ceil_ofNat 50
  have e' : ⌊(50 : ℝ) / 1⌋₊ = 50 := by
    rw [div_one]
    exact Nat.floor_ofNat 50
  simp only [e, e'] at h2 h3
  exact ⟨rows, h1, h2, h3 51 (by norm_num)⟩

/-- Arguments of C111 for two measurements: a symmetric innovation covariance that can be inverted. -/
example : ∃ k : Kalman ℝ .two .one, k.Smᵀ = k.Sm ∧ k.Sm.det ≠ 0 ∧ k.Pm.det ≠ 0 ∧ k.H.toMatrix.det ≠ 0 := by
  let I : Mat ℝ 2 2 := Mat.mk22 1 0 0 1
  let k : Kalman ℝ .two .one :=
    { A := I, B := ⟨#v[0, 0]⟩, H := I, Q := Mat.mk22 0 0 0 0, R := I, K := none, P := I, xhat := ⟨#v[0, 0]⟩, t := 0, dt := 1 }
  have hPm : k.Pm = 1 := by
    simp [Pm, k, I, Mat.toMatrix_mk22, Mat.transpose22, Matrix.one_fin_two]
  have hS : k.Sm = !![2, 0; 0, 2] := by
    rw [Sm, hPm]
    simp [k, I, Mat.toMatrix_mk22, Mat.transpose22]
    norm_num
  refine ⟨k, ?_, ?_, ?_, ?_⟩
  · rw [hS, Mat.transpose22]
  · rw [hS, Matrix.det_fin_two_of]; norm_num
  · rw [hPm, Matrix.det_one]; exact one_ne_zero
  · show I.toMatrix.det ≠ 0
    rw [Mat.toMatrix_mk22, Matrix.det_fin_two_of]
    norm_num
end Verif
