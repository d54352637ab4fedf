import Verif.Lemmas.KalmanSimEternal
import Verif.Props.KalmanSim
import Verif.Props.KalmanSimError

/-
Properties C151, C152 and C153: covariance, gain and estimate of the estimator of example/desktop/kalman-sim.e.cpp in `double`,
for runs of every length.
-/

namespace Verif
open KalmanSim Ieee StillRun SettledRun ErrorRun EternalRun

/-! ## C151 In `double` the gain of the example's estimator becomes constant, and is always close to the exact one -/

private theorem setup_of {p : Params (Flt binary64)} (hp : constants binary64 = .ok p) :
    ∃ A B H k x, setup = .ok (p, A, B, H, k, x) := by
  obtain ⟨⟨p', A, B, H, k, x⟩, hs, -⟩ := Res.of_yields setup_ok
  have h := hs
  unfold setup at h
  rw [hp, bind_ok] at h
  obtain ⟨_, -, h⟩ := bind_eq_ok.1 h
  obtain ⟨_, -, h⟩ := bind_eq_ok.1 h
  obtain ⟨_, -, h⟩ := bind_eq_ok.1 h
  obtain ⟨_, -, h⟩ := bind_eq_ok.1 h
  obtain ⟨_, -, h⟩ := bind_eq_ok.1 h
  cases h
  exact ⟨A, B, H, k, x, hs⟩

private theorem st_late {n : ℕ} (h : 184 ≤ n) : st n = (167128509574311477248, 16691998983051175936, 16691998983051175936,
    3509490181316741632, 1671285095743114752, 166919989830511776) := by
  have : st n = st 184 := by
    unfold st
    rw [Nat.min_eq_right h, Nat.min_self]
  rw [this]
  rfl

/-- C151: whatever controls and measurements the example's estimator gets, from the 185th update on its covariance and
its gain are these numbers and no longer change. -/
theorem C151_settled (avr : Bool) (p : Params (Flt binary64)) (hp : constants binary64 = .ok p)
    (k k' : Kalman (Flt binary64) .one .one) (hk : estim avr p = .ok k) (ds) (hd : 185 ≤ ds.length)
    (h : k.run ds = .ok k') :
    (k'.P.get 0 0).val = 5100357347848861 / 2 ^ 48 ∧ (k'.P.get 0 1).val = 8150390128442957 / 2 ^ 52 ∧
      (k'.P.get 1 0).val = 8150390128442957 / 2 ^ 52 ∧ (k'.P.get 1 1).val = 6854473010384261 / 2 ^ 54 ∧
      ∃ K, k'.kalman_gain = .ok K ∧ (K.get 0 0).val = 3264228702623271 / 2 ^ 54 ∧
        (K.get 1 0).val = 5216249682203493 / 2 ^ 58 := by
  obtain ⟨A, B, H, l, x, hs⟩ := setup_of hp
  obtain ⟨h1, h2⟩ := (At.start hs hk).run hs ds h
  obtain ⟨n, hn⟩ : ∃ n, ds.length = n + 1 := ⟨ds.length - 1, by omega⟩
  rw [hn, Nat.zero_add] at h1 h2
  obtain ⟨K, hK, hG⟩ := h2 (by rintro rfl; simp at hd)
  rw [Nat.add_sub_cancel] at hG
  obtain ⟨e0, e1, e2, e3⟩ := cov_val (show covOf (st n) = .ok k'.P from h1.P)
  obtain ⟨g0, g1, rfl, f0, f1⟩ := gain_val hG
  rw [st_late (by omega)] at e0 e1 e2 e3 f0 f1
  unfold inUnits at e0 e1 e2 e3 f0 f1
  norm_num at e0 e1 e2 e3 f0 f1
  refine ⟨by rw [e0]; norm_num, by rw [e1]; norm_num, by rw [e2]; norm_num, by rw [e3]; norm_num, _,
    by unfold Kalman.kalman_gain; rw [hK], ?_, ?_⟩
  · show g0.val = _
    rw [f0]; norm_num
  · show g1.val = _
    rw [f1]; norm_num

/-- Such a run exists for every number of updates: 185 and 184 of them with control 1 and measurement 1. -/
example : ∃ p k k', constants binary64 = .ok p ∧ estim false p = .ok k ∧
    k.run (List.replicate 185 ((⟨#v[CNum.one]⟩ : Mat (Flt binary64) 1 1), (⟨#v[CNum.one]⟩ : Mat (Flt binary64) 1 1))) = .ok k' ∧
    (k'.P.get 0 0).val = 5100357347848861 / 2 ^ 48 := by
  obtain ⟨p, k, k', hp, hk, hr⟩ := ones 185
  exact ⟨p, k, k', hp, hk, hr, (C151_settled false p hp k k' hk _ (by rw [List.length_replicate]) hr).1⟩

/-- C151: not earlier; the 185th update still changes the covariance. -/
theorem C151_not_earlier (avr : Bool) (p : Params (Flt binary64)) (hp : constants binary64 = .ok p)
    (k k' : Kalman (Flt binary64) .one .one) (hk : estim avr p = .ok k) (ds) (hd : ds.length = 184)
    (h : k.run ds = .ok k') : (k'.P.get 0 0).val ≠ 5100357347848861 / 2 ^ 48 ∨
      (k'.P.get 1 1).val ≠ 6854473010384261 / 2 ^ 54 ∨ (k'.P.get 0 1).val ≠ 8150390128442957 / 2 ^ 52 ∨
      (k'.P.get 1 0).val ≠ 8150390128442957 / 2 ^ 52 := by
  obtain ⟨A, B, H, l, x, hs⟩ := setup_of hp
  obtain ⟨h1, -⟩ := (At.start hs hk).run hs ds h
  rw [hd] at h1
  obtain ⟨e0, e1, e2, e3⟩ := cov_val (show covOf (st 183) = .ok k'.P from h1.P)
  rw [e0, e1, e2, e3]
  decide +kernel

example : ∃ p k k', constants binary64 = .ok p ∧ estim false p = .ok k ∧
    k.run (List.replicate 184 ((⟨#v[CNum.one]⟩ : Mat (Flt binary64) 1 1), (⟨#v[CNum.one]⟩ : Mat (Flt binary64) 1 1))) = .ok k' :=
  ones 184

/-- C151: after every number of updates, however large, covariance and gain computed in `double` are this close to the
exact ones of the estimator with `dt = 1`, `measnoise = 10`, `accelnoise = 1 / 5`; the two estimators may get different
data. -/
theorem C151_accurate (avr avr' : Bool) (p : Params (Flt binary64)) (hp : constants binary64 = .ok p)
    (k k' : Kalman (Flt binary64) .one .one) (hk : estim avr p = .ok k)
    (l l' : Kalman ℝ .one .one) (hl : estim avr' ⟨1, 10, 1 / 5⟩ = .ok l) (ds es) (hd : ds.length = es.length) (hn : ds ≠ [])
    (h : k.run ds = .ok k') (h' : l.run es = .ok l') :
    |((k'.P.get 0 0).val : ℝ) - l'.P.get 0 0| ≤ 1 / 2 ^ 46 ∧ |((k'.P.get 0 1).val : ℝ) - l'.P.get 0 1| ≤ 1 / 2 ^ 49 ∧
      |((k'.P.get 1 0).val : ℝ) - l'.P.get 1 0| ≤ 1 / 2 ^ 49 ∧ |((k'.P.get 1 1).val : ℝ) - l'.P.get 1 1| ≤ 1 / 2 ^ 51 ∧
      ∃ K K', k'.kalman_gain = .ok K ∧ l'.kalman_gain = .ok K' ∧
        |((K.get 0 0).val : ℝ) - K'.get 0 0| ≤ 1 / 2 ^ 52 ∧ |((K.get 1 0).val : ℝ) - K'.get 1 0| ≤ 1 / 2 ^ 56 := by
  obtain ⟨A, B, H, k₀, x, hs⟩ := setup_of hp
  obtain ⟨h1, h2⟩ := (At.start hs hk).run hs ds h
  obtain ⟨n, hn'⟩ : ∃ n, ds.length = n + 1 := ⟨ds.length - 1, by have := List.length_pos_of_ne_nil hn; omega⟩
  obtain ⟨K, hK, hG⟩ := h2 hn
  rw [hn', Nat.zero_add] at h1 hG
  rw [Nat.add_sub_cancel] at hG
  obtain ⟨e0, e1, e2, e3⟩ := cov_val (show covOf (st n) = .ok k'.P from h1.P)
  obtain ⟨g0, g1, rfl, f0, f1⟩ := gain_val hG
  have near := near_all n
  obtain ⟨l₀, hl₀, hg, hP, -⟩ := estim_eq avr' exact
  cases hl₀.symm.trans hl
  obtain ⟨l'', hr, -, hP', hK'⟩ := Kalman.run_ricc l es hg.P (by rw [hg.Q]; exact Q_psd) (by rw [hg.R]; exact R_posDef)
  cases hr.symm.trans h'
  have efirst : l.P.toMatrix = first := by
    rw [hP, mQ_mat, first, covMat]
    unfold exact
    ext i j
    fin_cases i <;> fin_cases j <;> simp <;> norm_num
  have eP : l'.P.toMatrix = covSeq exact first (n + 1) := by
    rw [hP', hg.A, hg.H, hg.Q, hg.R, efirst, ← hd, hn']
    rfl
  obtain ⟨G, hG', eG⟩ := hK' (by rintro rfl; simp at hd; exact hn hd)
  have eGi (i : Fin 2) : G.get i 0 = covSeq exact first (n + 1) i 0 / 100 := by
    have : G.get i 0 = G.toMatrix i 0 := rfl
    rw [this, eG, eP, hg.H, hg.R]
    refine (gain_elem exact _ i).trans ?_
    unfold exact
    norm_num
  have ePi (i j : Fin 2) : l'.P.get i j = covSeq exact first (n + 1) i j := by rw [← eP]; rfl
  rw [e0, e1, e2, e3, ePi, ePi, ePi, ePi]
  refine ⟨near.p00, near.p01, near.p10, near.p11, _, G, by unfold Kalman.kalman_gain; rw [hK],
    by unfold Kalman.kalman_gain; rw [hG'], ?_, ?_⟩
  · show |(g0.val : ℝ) - _| ≤ _
    rw [f0, eGi]
    exact near.g0
  · show |(g1.val : ℝ) - _| ≤ _
    rw [f1, eGi]
    exact near.g1

example : ∃ p k k' l l', constants binary64 = .ok p ∧ estim false p = .ok k ∧ estim (T := ℝ) false ⟨1, 10, 1 / 5⟩ = .ok l ∧
    k.run (List.replicate 1000 ((⟨#v[CNum.one]⟩ : Mat (Flt binary64) 1 1), (⟨#v[CNum.one]⟩ : Mat (Flt binary64) 1 1))) = .ok k' ∧
    l.run (List.replicate 1000 ((⟨#v[1]⟩ : Mat ℝ 1 1), (⟨#v[1]⟩ : Mat ℝ 1 1))) = .ok l' ∧
    |((k'.P.get 0 0).val : ℝ) - l'.P.get 0 0| ≤ 1 / 2 ^ 46 := by
  obtain ⟨p, k, k', hp, hk, hr⟩ := ones 1000
  obtain ⟨l, hl, hg, -, -⟩ := estim_eq false exact
  obtain ⟨l', hr', -⟩ := Kalman.run_ricc l (List.replicate 1000 ((⟨#v[1]⟩ : Mat ℝ 1 1), (⟨#v[1]⟩ : Mat ℝ 1 1))) hg.P
    (by rw [hg.Q]; exact Q_psd) (by rw [hg.R]; exact R_posDef)
  exact ⟨p, k, k', l, l', hp, hk, hl, hr, hr', (C151_accurate false false p hp k k' hk l l' hl _ _ (by rw [List.length_replicate, List.length_replicate])
    (fun h => by rw [List.replicate_eq_nil_iff] at h; omega) hr hr').1⟩

/-- C151: the settled gain is the one of the alpha-beta filter up to little more than one unit in the last place. -/
theorem C151_alpha_beta :
    |(3264228702623271 / 2 ^ 54 : ℝ) - AlphaBeta.alpha (AlphaBeta.index 1 10 (1 / 5))| ≤ 1 / 2 ^ 54 ∧
      |(5216249682203493 / 2 ^ 58 : ℝ) - AlphaBeta.beta (AlphaBeta.index 1 10 (1 / 5))| ≤ 1 / 2 ^ 57 := by
  have hl : (0 : ℝ) < AlphaBeta.index 1 10 (1 / 5) := by unfold AlphaBeta.index; norm_num
  rw [AlphaBeta.beta_eq hl, AlphaBeta.alpha]
  have hd : AlphaBeta.damping (AlphaBeta.index 1 10 (1 / 5)) = (201 - √401) / 200 := by
    unfold AlphaBeta.damping AlphaBeta.index
    rw [show (8 * (1 / 5 * 1 ^ 2 / 10) + (1 / 5 * 1 ^ 2 / 10) ^ 2 : ℝ) = 401 * (1 / 50) ^ 2 by norm_num,
      Real.sqrt_mul (by norm_num), Real.sqrt_sq (by norm_num)]
    ring
  rw [hd]
  have q1 : (20024984394500785 / 10 ^ 15 : ℝ) ≤ √401 := Real.le_sqrt_of_sq_le (by norm_num)
  have q2 : √401 ≤ (20024984394500786 / 10 ^ 15 : ℝ) := Real.sqrt_le_iff.2 ⟨by norm_num, by norm_num⟩
  have hq : √401 ^ 2 = 401 := Real.sq_sqrt (by norm_num)
  have ea : 1 - ((201 - √401) / 200) ^ 2 = (402 * √401 - 802) / 40000 := by linear_combination (-1 / 40000) * hq
  have eb : 2 * (1 - (201 - √401) / 200) ^ 2 = (402 - 2 * √401) / 20000 := by linear_combination (1 / 20000) * hq
  rw [ea, eb, abs_le, abs_le]
  refine ⟨⟨?_, ?_⟩, ?_, ?_⟩ <;> linarith

/-- C151: from the 185th pass on the simulation reports the same gains and covariances, whatever the draws. -/
theorem C151_reported (avr : Bool) (p : Params (Flt binary64)) (hp : constants binary64 = .ok p) (gs)
    (rs : List (Row (Flt binary64))) (h : main avr p gs = .ok rs) (j : ℕ) (h184 : 184 ≤ j) (hj : j < rs.length) :
    rs[j].posgain.val = 3264228702623271 / 2 ^ 54 ∧ rs[j].velgain.val = 5216249682203493 / 2 ^ 58 ∧
      rs[j].posecov.val = 5100357347848861 / 2 ^ 48 ∧ rs[j].velecov.val = 8150390128442957 / 2 ^ 52 := by
  obtain ⟨A, B, H, k₀, x, hs⟩ := setup_of hp
  have hs' := hs
  unfold setup at hs'
  rw [hp, bind_ok] at hs'
  obtain ⟨A', hA, hs'⟩ := bind_eq_ok.1 hs'
  obtain ⟨B', hB, hs'⟩ := bind_eq_ok.1 hs'
  obtain ⟨H', hH, hs'⟩ := bind_eq_ok.1 hs'
  obtain ⟨_, -, hs'⟩ := bind_eq_ok.1 hs'
  obtain ⟨x', hx, hs'⟩ := bind_eq_ok.1 hs'
  cases hs'
  unfold main at h
  rw [hA, bind_ok, hB, bind_ok, hH, bind_ok] at h
  obtain ⟨k, hk, h⟩ := bind_eq_ok.1 h
  obtain ⟨y, -, h⟩ := bind_eq_ok.1 h
  obtain ⟨P, K, hP, hK, r0, r1, r2, r3⟩ := loop_rows hs gs (At.start hs hk) h j hj
  rw [Nat.zero_add] at hP hK
  obtain ⟨e0, e1, -, -⟩ := cov_val hP
  obtain ⟨g0, g1, rfl, f0, f1⟩ := gain_val hK
  rw [st_late h184] at e0 e1 f0 f1
  have i0 : P.idx 0 = .ok (P.get 0 0) := Mat.idx_get P 0 0
  have i1 : P.idx 1 = .ok (P.get 0 1) := Mat.idx_get P 0 1
  have k0 : (⟨#v[g0, g1]⟩ : Mat (Flt binary64) 2 1).idx 0 = .ok g0 := rfl
  have k1 : (⟨#v[g0, g1]⟩ : Mat (Flt binary64) 2 1).idx 1 = .ok g1 := rfl
  rw [Except.ok.inj (r2.symm.trans i0), Except.ok.inj (r3.symm.trans i1), Except.ok.inj (r0.symm.trans k0),
    Except.ok.inj (r1.symm.trans k1)]
  unfold inUnits at e0 e1 f0 f1
  norm_num at e0 e1 f0 f1
  exact ⟨by rw [f0]; norm_num, by rw [f1]; norm_num, by rw [e0]; norm_num, by rw [e1]; norm_num⟩

/-- 300 passes with all draws 1. -/
example : ∃ p rs, constants binary64 = .ok p ∧
    main false p (List.replicate 300 (CNum.one, CNum.one, CNum.one)) = .ok rs ∧ ∃ h : 299 < rs.length,
      rs[299].posgain.val = 3264228702623271 / 2 ^ 54 := by
  obtain ⟨p, -, -, -, -, -, -, hp, -⟩ := parts
  obtain ⟨rs, h⟩ := main_ok false hp (List.replicate 300 (CNum.one, CNum.one, CNum.one))
    (by rw [List.length_replicate]; norm_num) (fun g hg => by
      have e : r (CNum.one : Flt binary64) = 1 := by
        have : (CNum.one : Flt binary64).val = 1 := rfl
        rw [r, this, Rat.cast_one]
      rw [List.eq_of_mem_replicate hg, e]
      norm_num)
  have hl := main_length h
  rw [List.length_replicate] at hl
  exact ⟨p, rs, hp, h, by omega, (C151_reported false p hp _ rs h 299 (by norm_num) (by omega)).1⟩

/-! ## C152 In `double` the estimate of the example's estimator stays close to the exact one for ever -/

/-- C152: the estimator of the example gets controls and measurements of magnitude up to `M`, any number of them.  No
operation overflows, and position and velocity differ from those of the exact estimator with the same data, `dt = 1`,
`measnoise = 10`, `accelnoise = 1 / 5` by no more than these fractions of `M`. -/
theorem C152_follows (avr avr' : Bool) (p : Params (Flt binary64)) (hp : constants binary64 = .ok p)
    (k : Kalman (Flt binary64) .one .one) (hk : estim avr p = .ok k) (l : Kalman ℝ .one .one)
    (hl : estim avr' ⟨1, 10, 1 / 5⟩ = .ok l) (M : ℝ) (hM : 1 / 2 ^ 900 ≤ M) (hM' : M ≤ 2 ^ 1000)
    (us : List (Flt binary64 × Flt binary64)) (hu : ∀ d ∈ us, |(d.1.val : ℝ)| ≤ M ∧ |(d.2.val : ℝ)| ≤ M) :
    ∃ k' l', k.run (us.map fun d => ((⟨#v[d.1]⟩ : Mat _ 1 1), (⟨#v[d.2]⟩ : Mat _ 1 1))) = .ok k' ∧
      l.run (us.map fun d => ((⟨#v[(d.1.val : ℝ)]⟩ : Mat ℝ 1 1), (⟨#v[(d.2.val : ℝ)]⟩ : Mat ℝ 1 1))) = .ok l' ∧
      |((k'.xhat.get 0 0).val : ℝ) - l'.xhat.get 0 0| ≤ M / 2 ^ 35 ∧
      |((k'.xhat.get 1 0).val : ℝ) - l'.xhat.get 1 0| ≤ M / 2 ^ 38 ∧
      |((k'.xhat.get 0 0).val : ℝ)| ≤ 115 * M ∧ |((k'.xhat.get 1 0).val : ℝ)| ≤ 18 * M := by
  obtain ⟨p', A, B, H, k₀, half, hs, hp', hh, hA, hB, hH, hdt, -⟩ := parts
  cases hp'.symm.trans hp
  have hM0 : 0 ≤ M := le_trans (by positivity) hM
  have hMid : Mid (136 * M) := ⟨hM.trans (le_mul_of_one_le_left hM0 (by norm_num)), by
    have e : (2 : ℝ) ^ 1010 = 2 ^ 10 * 2 ^ 1000 := by rw [← pow_add]
    rw [e]
    exact mul_le_mul (by norm_num) hM' hM0 (by norm_num)⟩
  obtain ⟨k', l', r1, r2, h⟩ := (Track.start (half := half) (M := M) hs hk hl).run hh hMid hs hA hB hH hdt us hu
  refine ⟨k', l', r1, r2, ?_⟩
  obtain ⟨y0, y1, Y0, Y1, ey, eY, hy, hd⟩ := h.x
  obtain ⟨b0, b1⟩ := bound_real (0 + us.length)
  have hb : (bound (0 + us.length) : ℝ) * M ≤ 93 * M := mul_le_mul_of_nonneg_right b1 hM0
  have e0 : l'.xhat.get 0 0 = Y0 := congrFun (congrFun eY 0) 0
  have e1 : l'.xhat.get 1 0 = Y1 := congrFun (congrFun eY 1) 0
  rw [e0, e1, ey]
  refine ⟨(pos_le (r y0 - Y0) (r y1 - Y1)).trans (by linarith), (vel_le (r y0 - Y0) (r y1 - Y1)).trans (by linarith),
    (pos_le (r y0) (r y1)).trans (by linarith), (vel_le (r y0) (r y1)).trans (by linarith)⟩

/-- Data up to 8: control 1 and measurement -8, a million times. -/
example : ∃ p k l m, constants binary64 = .ok p ∧ estim false p = .ok k ∧ estim (T := ℝ) false ⟨1, 10, 1 / 5⟩ = .ok l ∧
    Flt.ofRat binary64 (-8) = .ok m ∧
    (∀ d ∈ List.replicate 1000000 ((CNum.one : Flt binary64), m), |(d.1.val : ℝ)| ≤ 8 ∧ |(d.2.val : ℝ)| ≤ 8) ∧
    (1 / 2 ^ 900 : ℝ) ≤ 8 ∧ (8 : ℝ) ≤ 2 ^ 1000 := by
  obtain ⟨p, -, -, -, -, -, -, hp, -, -, -, -, -, hk⟩ := parts
  obtain ⟨k, hk⟩ := hk false
  obtain ⟨l, hl, -⟩ := estim_eq false exact
  obtain ⟨m, hm, hv⟩ := Res.of_yields (show Res.yields (Flt.ofRat binary64 (-8)) (fun m => decide (m.val = -8)) = true by
    decide +kernel)
  refine ⟨p, k, l, m, hp, hk, hl, hm, fun d hd => ?_, ?_, ?_⟩
  · rw [List.eq_of_mem_replicate hd, of_decide_eq_true hv]
    have : (CNum.one : Flt binary64).val = 1 := rfl
    rw [this]
    norm_num
  · exact (one_div_le_one_div_of_le one_pos (one_le_pow₀ one_le_two)).trans (by norm_num)
  · calc (8 : ℝ) = 2 ^ 3 := by norm_num
      _ ≤ 2 ^ 1000 := pow_le_pow_right₀ one_le_two (by norm_num)

/-- C152: with data up to `2 ^ 1000` every run completes. -/
theorem C152_completes (avr : Bool) (p : Params (Flt binary64)) (hp : constants binary64 = .ok p)
    (k : Kalman (Flt binary64) .one .one) (hk : estim avr p = .ok k) (ds : List (ColVec (Flt binary64) 1 × ColVec (Flt binary64) 1))
    (hd : ∀ d ∈ ds, |((d.1.get 0 0).val : ℝ)| ≤ 2 ^ 1000 ∧ |((d.2.get 0 0).val : ℝ)| ≤ 2 ^ 1000) : ∃ k', k.run ds = .ok k' := by
  obtain ⟨l, hl, -⟩ := estim_eq avr exact
  obtain ⟨k', -, h, -⟩ := C152_follows avr avr p hp k hk l hl (2 ^ 1000)
    ((one_div_le_one_div_of_le one_pos (one_le_pow₀ one_le_two)).trans (by rw [div_one]; exact one_le_pow₀ one_le_two)) le_rfl
    (ds.map fun d => (d.1.get 0 0, d.2.get 0 0)) (by
      intro d hd'
      obtain ⟨e, he, rfl⟩ := List.mem_map.1 hd'
      exact hd e he)
  have e (x : ColVec (Flt binary64) 1) : (⟨#v[x.get 0 0]⟩ : Mat (Flt binary64) 1 1) = x := by
    refine Mat.ext_get fun i j => ?_
    fin_cases i
    fin_cases j
    rfl
  rw [List.map_map] at h
  refine ⟨k', ?_⟩
  rw [← h]
  congr 1
  conv_lhs => rw [← List.map_id ds]
  refine List.map_congr_left fun d _ => ?_
  exact Prod.ext (e d.1).symm (e d.2).symm

example : ∃ p k, constants binary64 = .ok p ∧ estim false p = .ok k ∧
    ∃ k', k.run (List.replicate 1000000 ((⟨#v[CNum.one]⟩ : Mat (Flt binary64) 1 1), (⟨#v[CNum.one]⟩ : Mat (Flt binary64) 1 1))) =
      .ok k' := by
  obtain ⟨p, k, k', hp, hk, hr⟩ := ones 1000000
  exact ⟨p, k, hp, hk, k', hr⟩

/-- C152: but not with data up to the largest `double`. -/
theorem C152_overflow : (do
    let p ← constants binary64
    let k ← estim false p
    let m ← Flt.ofRat binary64 binary64.max
    let d : ColVec (Flt binary64) 1 × ColVec (Flt binary64) 1 := (⟨#v[m]⟩, ⟨#v[m]⟩)
    k.run [d, d]) = .error .overflow := by decide +kernel

/-! ## C153 The simulation completes, however long it runs in practice -/

/-- C153: with the program's constants, for up to `2 ^ 40` passes and all draws of at most 16 in magnitude, no operation
of the simulation in `double` overflows. -/
theorem C153_completes (avr : Bool) (p : Params (Flt binary64)) (hp : constants binary64 = .ok p)
    (gs : List (Flt binary64 × Flt binary64 × Flt binary64)) (hl : gs.length ≤ 2 ^ 40) (hg : SmallDraws gs) :
    ∃ rs, main avr p gs = .ok rs ∧ rs.length = gs.length := by
  obtain ⟨rs, h⟩ := main_ok avr hp gs hl fun g hm => by
    obtain ⟨a, b, c⟩ := hg g hm
    have q {x : ℚ} (h : |x| ≤ 16) : |(x : ℝ)| ≤ 16 := by
      have := (Rat.cast_le (K := ℝ)).2 h; push_cast at this; exact this
    exact ⟨q a, q b, q c⟩
  exact ⟨rs, h, main_length h⟩

/-- A million passes with all draws 1. -/
example : (List.replicate 1000000 ((CNum.one : Flt binary64), (CNum.one : Flt binary64), (CNum.one : Flt binary64))).length ≤ 2 ^ 40 ∧
    SmallDraws (List.replicate 1000000 (CNum.one, CNum.one, CNum.one)) := by
  refine ⟨by rw [List.length_replicate]; norm_num, fun g hg => ?_⟩
  rw [List.eq_of_mem_replicate hg, show (CNum.one : Flt binary64).val = 1 from rfl]
  norm_num

end Verif
