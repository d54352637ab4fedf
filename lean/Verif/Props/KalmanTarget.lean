import Verif.Lemmas.KalmanTarget
import Verif.Lemmas.KalmanFixed
import Verif.Props.KalmanSim
import Verif.Props.KalmanDecoupled

/-
Properties C154, C155 and C156: covariance, gain and estimate of the estimator of example/avr/avr-kalman-sim.e.cpp with
its default numeric type `double`, which on the target has 32 bits, for runs of every length; the program itself.
-/

namespace Verif
open KalmanSim Ieee TargetRun
open SettledRun (first Q_psd R_posDef)
open ErrorRun (inUnits exact covMat)
open EternalRun (bound bound_real pos_le vel_le)

/-! ## C154 In 32-bit floating point the gain of the target's estimator becomes constant, and is always close to the exact one -/

private theorem setup_of {p : Params (Flt binary32)} (hp : constants binary32 = .ok p) :
    ∃ A B H k x, setup = .ok (p, A, B, H, k, x) := by
  obtain ⟨⟨p', A, B, H, k, x⟩, hs, -⟩ := Res.of_yields setup_ok
  have h := hs
  unfold setup at h
  rw [hp, bind_ok] at h
  obtain ⟨_, -, h⟩ := bind_eq_ok.1 h
  obtain ⟨_, -, h⟩ := bind_eq_ok.1 h
  obtain ⟨_, -, h⟩ := bind_eq_ok.1 h
  obtain ⟨_, -, h⟩ := bind_eq_ok.1 h
  obtain ⟨_, -, h⟩ := bind_eq_ok.1 h
  cases h
  exact ⟨A, B, H, k, x, hs⟩

private theorem st_late {n : ℕ} (h : 79 ≤ n) : st n = (167128476618602840064, 16691996083546488832, 16691996083546488832,
    3509488833500545024, 1671285024571260928, 166919969768996864) := by
  have : st n = st 79 := by
    unfold st
    rw [Nat.min_eq_right h, Nat.min_self]
  rw [this]
  rfl

/-- C154: whatever controls and measurements the target's estimator gets, from the 80th update on its covariance and
its gain are these numbers and no longer change. -/
theorem C154_settled (avr : Bool) (p : Params (Flt binary32)) (hp : constants binary32 = .ok p)
    (k k' : Kalman (Flt binary32) .one .one) (hk : estim avr p = .ok k) (ds) (hd : 80 ≤ ds.length)
    (h : k.run ds = .ok k') :
    (k'.P.get 0 0).val = 9500154 / 2 ^ 19 ∧ (k'.P.get 0 1).val = 15181282 / 2 ^ 23 ∧
      (k'.P.get 1 0).val = 15181282 / 2 ^ 23 ∧ (k'.P.get 1 1).val = 12767446 / 2 ^ 25 ∧
      ∃ K, k'.kalman_gain = .ok K ∧ (K.get 0 0).val = 12160199 / 2 ^ 26 ∧
        (K.get 1 0).val = 9716021 / 2 ^ 29 := by
  obtain ⟨A, B, H, l, x, hs⟩ := setup_of hp
  obtain ⟨h1, h2⟩ := (At.start hs hk).run hs ds h
  obtain ⟨n, hn⟩ : ∃ n, ds.length = n + 1 := ⟨ds.length - 1, by omega⟩
  rw [hn, Nat.zero_add] at h1 h2
  obtain ⟨K, hK, hG⟩ := h2 (by rintro rfl; simp at hd)
  rw [Nat.add_sub_cancel] at hG
  obtain ⟨e0, e1, e2, e3⟩ := cov_val (show covOf (st n) = .ok k'.P from h1.P)
  obtain ⟨g0, g1, rfl, f0, f1⟩ := gain_val hG
  rw [st_late (by omega)] at e0 e1 e2 e3 f0 f1
  unfold inUnits at e0 e1 e2 e3 f0 f1
  norm_num at e0 e1 e2 e3 f0 f1
  refine ⟨by rw [e0]; norm_num, by rw [e1]; norm_num, by rw [e2]; norm_num, by rw [e3]; norm_num, _,
    by unfold Kalman.kalman_gain; rw [hK], ?_, ?_⟩
  · show g0.val = _
    rw [f0]; norm_num
  · show g1.val = _
    rw [f1]; norm_num

/-- Such a run exists for every number of updates: 80 and 79 of them with control 1 and measurement 1. -/
example : ∃ p k k', constants binary32 = .ok p ∧ estim false p = .ok k ∧
    k.run (List.replicate 80 ((⟨#v[CNum.one]⟩ : Mat (Flt binary32) 1 1), (⟨#v[CNum.one]⟩ : Mat (Flt binary32) 1 1))) = .ok k' ∧
    (k'.P.get 0 0).val = 9500154 / 2 ^ 19 := by
  obtain ⟨p, k, k', hp, hk, hr⟩ := ones 80
  exact ⟨p, k, k', hp, hk, hr, (C154_settled false p hp k k' hk _ (by rw [List.length_replicate]) hr).1⟩

/-- C154: not earlier; the 80th update still changes the covariance. -/
theorem C154_not_earlier (avr : Bool) (p : Params (Flt binary32)) (hp : constants binary32 = .ok p)
    (k k' : Kalman (Flt binary32) .one .one) (hk : estim avr p = .ok k) (ds) (hd : ds.length = 79)
    (h : k.run ds = .ok k') : (k'.P.get 0 0).val ≠ 9500154 / 2 ^ 19 ∨
      (k'.P.get 1 1).val ≠ 12767446 / 2 ^ 25 ∨ (k'.P.get 0 1).val ≠ 15181282 / 2 ^ 23 ∨
      (k'.P.get 1 0).val ≠ 15181282 / 2 ^ 23 := by
  obtain ⟨A, B, H, l, x, hs⟩ := setup_of hp
  obtain ⟨h1, -⟩ := (At.start hs hk).run hs ds h
  rw [hd] at h1
  obtain ⟨e0, e1, e2, e3⟩ := cov_val (show covOf (st 78) = .ok k'.P from h1.P)
  rw [e0, e1, e2, e3]
  decide +kernel

example : ∃ p k k', constants binary32 = .ok p ∧ estim false p = .ok k ∧
    k.run (List.replicate 79 ((⟨#v[CNum.one]⟩ : Mat (Flt binary32) 1 1), (⟨#v[CNum.one]⟩ : Mat (Flt binary32) 1 1))) = .ok k' :=
  ones 79

/-- C154: after every number of updates, however large, covariance and gain computed in 32-bit floating point are this close to the
exact ones of the estimator with `dt = 1`, `measnoise = 10`, `accelnoise = 1 / 5`; the two estimators may get different
data. -/
theorem C154_accurate (avr avr' : Bool) (p : Params (Flt binary32)) (hp : constants binary32 = .ok p)
    (k k' : Kalman (Flt binary32) .one .one) (hk : estim avr p = .ok k)
    (l l' : Kalman ℝ .one .one) (hl : estim avr' ⟨1, 10, 1 / 5⟩ = .ok l) (ds es) (hd : ds.length = es.length) (hn : ds ≠ [])
    (h : k.run ds = .ok k') (h' : l.run es = .ok l') :
    |((k'.P.get 0 0).val : ℝ) - l'.P.get 0 0| ≤ 1 / 2 ^ 18 ∧ |((k'.P.get 0 1).val : ℝ) - l'.P.get 0 1| ≤ 1 / 2 ^ 21 ∧
      |((k'.P.get 1 0).val : ℝ) - l'.P.get 1 0| ≤ 1 / 2 ^ 21 ∧ |((k'.P.get 1 1).val : ℝ) - l'.P.get 1 1| ≤ 1 / 2 ^ 22 ∧
      ∃ K K', k'.kalman_gain = .ok K ∧ l'.kalman_gain = .ok K' ∧
        |((K.get 0 0).val : ℝ) - K'.get 0 0| ≤ 1 / 2 ^ 24 ∧ |((K.get 1 0).val : ℝ) - K'.get 1 0| ≤ 1 / 2 ^ 27 := by
  obtain ⟨A, B, H, k₀, x, hs⟩ := setup_of hp
  obtain ⟨h1, h2⟩ := (At.start hs hk).run hs ds h
  obtain ⟨n, hn'⟩ : ∃ n, ds.length = n + 1 := ⟨ds.length - 1, by have := List.length_pos_of_ne_nil hn; omega⟩
  obtain ⟨K, hK, hG⟩ := h2 hn
  rw [hn', Nat.zero_add] at h1 hG
  rw [Nat.add_sub_cancel] at hG
  obtain ⟨e0, e1, e2, e3⟩ := cov_val (show covOf (st n) = .ok k'.P from h1.P)
  obtain ⟨g0, g1, rfl, f0, f1⟩ := gain_val hG
  have near := near_all n
  obtain ⟨l₀, hl₀, hg, hP, -⟩ := estim_eq avr' exact
  cases hl₀.symm.trans hl
  obtain ⟨l'', hr, -, hP', hK'⟩ := Kalman.run_ricc l es hg.P (by rw [hg.Q]; exact Q_psd) (by rw [hg.R]; exact R_posDef)
  cases hr.symm.trans h'
  have efirst : l.P.toMatrix = first := by
    rw [hP, mQ_mat, first, covMat]
    unfold exact
    ext i j
    fin_cases i <;> fin_cases j <;> simp <;> norm_num
  have eP : l'.P.toMatrix = covSeq exact first (n + 1) := by
    rw [hP', hg.A, hg.H, hg.Q, hg.R, efirst, ← hd, hn']
    rfl
  obtain ⟨G, hG', eG⟩ := hK' (by rintro rfl; simp at hd; exact hn hd)
  have eGi (i : Fin 2) : G.get i 0 = covSeq exact first (n + 1) i 0 / 100 := by
    have : G.get i 0 = G.toMatrix i 0 := rfl
    rw [this, eG, eP, hg.H, hg.R]
    refine (gain_elem exact _ i).trans ?_
    unfold exact
    norm_num
  have ePi (i j : Fin 2) : l'.P.get i j = covSeq exact first (n + 1) i j := by rw [← eP]; rfl
  rw [e0, e1, e2, e3, ePi, ePi, ePi, ePi]
  refine ⟨near.p00, near.p01, near.p10, near.p11, _, G, by unfold Kalman.kalman_gain; rw [hK],
    by unfold Kalman.kalman_gain; rw [hG'], ?_, ?_⟩
  · show |(g0.val : ℝ) - _| ≤ _
    rw [f0, eGi]
    exact near.g0
  · show |(g1.val : ℝ) - _| ≤ _
    rw [f1, eGi]
    exact near.g1

example : ∃ p k k' l l', constants binary32 = .ok p ∧ estim false p = .ok k ∧ estim (T := ℝ) false ⟨1, 10, 1 / 5⟩ = .ok l ∧
    k.run (List.replicate 1000 ((⟨#v[CNum.one]⟩ : Mat (Flt binary32) 1 1), (⟨#v[CNum.one]⟩ : Mat (Flt binary32) 1 1))) = .ok k' ∧
    l.run (List.replicate 1000 ((⟨#v[1]⟩ : Mat ℝ 1 1), (⟨#v[1]⟩ : Mat ℝ 1 1))) = .ok l' ∧
    |((k'.P.get 0 0).val : ℝ) - l'.P.get 0 0| ≤ 1 / 2 ^ 18 := by
  obtain ⟨p, k, k', hp, hk, hr⟩ := ones 1000
  obtain ⟨l, hl, hg, -, -⟩ := estim_eq false exact
  obtain ⟨l', hr', -⟩ := Kalman.run_ricc l (List.replicate 1000 ((⟨#v[1]⟩ : Mat ℝ 1 1), (⟨#v[1]⟩ : Mat ℝ 1 1))) hg.P
    (by rw [hg.Q]; exact Q_psd) (by rw [hg.R]; exact R_posDef)
  exact ⟨p, k, k', l, l', hp, hk, hl, hr, hr', (C154_accurate false false p hp k k' hk l l' hl _ _ (by rw [List.length_replicate, List.length_replicate])
    (fun h => by rw [List.replicate_eq_nil_iff] at h; omega) hr hr').1⟩

/-! ## C155 In 32-bit floating point the estimate of the target's estimator stays close to the exact one for ever -/

/-- C155: the estimator of the target gets controls and measurements of magnitude up to `M`, any number of them.  No
operation overflows, and position and velocity differ from those of the exact estimator with the same data, `dt = 1`,
`measnoise = 10`, `accelnoise = 1 / 5` by no more than these fractions of `M`. -/
theorem C155_follows (avr avr' : Bool) (p : Params (Flt binary32)) (hp : constants binary32 = .ok p)
    (k : Kalman (Flt binary32) .one .one) (hk : estim avr p = .ok k) (l : Kalman ℝ .one .one)
    (hl : estim avr' ⟨1, 10, 1 / 5⟩ = .ok l) (M : ℝ) (hM : 1 / 2 ^ 100 ≤ M) (hM' : M ≤ 2 ^ 110)
    (us : List (Flt binary32 × Flt binary32)) (hu : ∀ d ∈ us, |(d.1.val : ℝ)| ≤ M ∧ |(d.2.val : ℝ)| ≤ M) :
    ∃ k' l', k.run (us.map fun d => ((⟨#v[d.1]⟩ : Mat _ 1 1), (⟨#v[d.2]⟩ : Mat _ 1 1))) = .ok k' ∧
      l.run (us.map fun d => ((⟨#v[(d.1.val : ℝ)]⟩ : Mat ℝ 1 1), (⟨#v[(d.2.val : ℝ)]⟩ : Mat ℝ 1 1))) = .ok l' ∧
      |((k'.xhat.get 0 0).val : ℝ) - l'.xhat.get 0 0| ≤ M / 2 ^ 6 ∧
      |((k'.xhat.get 1 0).val : ℝ) - l'.xhat.get 1 0| ≤ M / 2 ^ 9 ∧
      |((k'.xhat.get 0 0).val : ℝ)| ≤ 115 * M ∧ |((k'.xhat.get 1 0).val : ℝ)| ≤ 18 * M := by
  obtain ⟨p', A, B, H, k₀, half, hs, hp', hh, hA, hB, hH, hdt, -⟩ := parts
  cases hp'.symm.trans hp
  have hM0 : 0 ≤ M := le_trans (by positivity) hM
  have hMid : Mid (136 * M) := ⟨hM.trans (le_mul_of_one_le_left hM0 (by norm_num)), by
    have e : (2 : ℝ) ^ 120 = 2 ^ 10 * 2 ^ 110 := by rw [← pow_add]
    rw [e]
    exact mul_le_mul (by norm_num) hM' hM0 (by norm_num)⟩
  obtain ⟨k', l', r1, r2, h⟩ := (Track.start (half := half) (M := M) hs hk hl).run hh hMid hs hA hB hH hdt us hu
  refine ⟨k', l', r1, r2, ?_⟩
  obtain ⟨y0, y1, Y0, Y1, ey, eY, hy, hd⟩ := h.x
  obtain ⟨b0, b1⟩ := bound_real (0 + us.length)
  have hb : (bound (0 + us.length) : ℝ) * M ≤ 93 * M := mul_le_mul_of_nonneg_right b1 hM0
  have e0 : l'.xhat.get 0 0 = Y0 := congrFun (congrFun eY 0) 0
  have e1 : l'.xhat.get 1 0 = Y1 := congrFun (congrFun eY 1) 0
  rw [e0, e1, ey]
  refine ⟨(pos_le (r y0 - Y0) (r y1 - Y1)).trans (by linarith), (vel_le (r y0 - Y0) (r y1 - Y1)).trans (by linarith),
    (pos_le (r y0) (r y1)).trans (by linarith), (vel_le (r y0) (r y1)).trans (by linarith)⟩

/-- Data up to 8: control 1 and measurement -8, a million times. -/
example : ∃ p k l m, constants binary32 = .ok p ∧ estim false p = .ok k ∧ estim (T := ℝ) false ⟨1, 10, 1 / 5⟩ = .ok l ∧
    Flt.ofRat binary32 (-8) = .ok m ∧
    (∀ d ∈ List.replicate 1000000 ((CNum.one : Flt binary32), m), |(d.1.val : ℝ)| ≤ 8 ∧ |(d.2.val : ℝ)| ≤ 8) ∧
    (1 / 2 ^ 100 : ℝ) ≤ 8 ∧ (8 : ℝ) ≤ 2 ^ 110 := by
  obtain ⟨p, -, -, -, -, -, -, hp, -, -, -, -, -, hk⟩ := parts
  obtain ⟨k, hk⟩ := hk false
  obtain ⟨l, hl, -⟩ := estim_eq false exact
  obtain ⟨m, hm, hv⟩ := Res.of_yields (show Res.yields (Flt.ofRat binary32 (-8)) (fun m => decide (m.val = -8)) = true by
    decide +kernel)
  refine ⟨p, k, l, m, hp, hk, hl, hm, fun d hd => ?_, ?_, ?_⟩
  · rw [List.eq_of_mem_replicate hd, of_decide_eq_true hv]
    have : (CNum.one : Flt binary32).val = 1 := rfl
    rw [this]
    norm_num
  · exact (one_div_le_one_div_of_le one_pos (one_le_pow₀ one_le_two)).trans (by norm_num)
  · calc (8 : ℝ) = 2 ^ 3 := by norm_num
      _ ≤ 2 ^ 110 := pow_le_pow_right₀ one_le_two (by norm_num)

/-- C155: with data up to `2 ^ 110` every run completes. -/
theorem C155_completes (avr : Bool) (p : Params (Flt binary32)) (hp : constants binary32 = .ok p)
    (k : Kalman (Flt binary32) .one .one) (hk : estim avr p = .ok k) (ds : List (ColVec (Flt binary32) 1 × ColVec (Flt binary32) 1))
    (hd : ∀ d ∈ ds, |((d.1.get 0 0).val : ℝ)| ≤ 2 ^ 110 ∧ |((d.2.get 0 0).val : ℝ)| ≤ 2 ^ 110) : ∃ k', k.run ds = .ok k' := by
  obtain ⟨l, hl, -⟩ := estim_eq avr exact
  obtain ⟨k', -, h, -⟩ := C155_follows avr avr p hp k hk l hl (2 ^ 110)
    ((one_div_le_one_div_of_le one_pos (one_le_pow₀ one_le_two)).trans (by rw [div_one]; exact one_le_pow₀ one_le_two)) le_rfl
    (ds.map fun d => (d.1.get 0 0, d.2.get 0 0)) (by
      intro d hd'
      obtain ⟨e, he, rfl⟩ := List.mem_map.1 hd'
      exact hd e he)
  have e (x : ColVec (Flt binary32) 1) : (⟨#v[x.get 0 0]⟩ : Mat (Flt binary32) 1 1) = x := by
    refine Mat.ext_get fun i j => ?_
    fin_cases i
    fin_cases j
    rfl
  rw [List.map_map] at h
  refine ⟨k', ?_⟩
  rw [← h]
  congr 1
  conv_lhs => rw [← List.map_id ds]
  refine List.map_congr_left fun d _ => ?_
  exact Prod.ext (e d.1).symm (e d.2).symm

example : ∃ p k, constants binary32 = .ok p ∧ estim false p = .ok k ∧
    ∃ k', k.run (List.replicate 1000000 ((⟨#v[CNum.one]⟩ : Mat (Flt binary32) 1 1), (⟨#v[CNum.one]⟩ : Mat (Flt binary32) 1 1))) =
      .ok k' := by
  obtain ⟨p, k, k', hp, hk, hr⟩ := ones 1000000
  exact ⟨p, k, hp, hk, k', hr⟩

/-- C155: but not with data up to the largest number. -/
theorem C155_overflow : (do
    let p ← constants binary32
    let k ← estim false p
    let m ← Flt.ofRat binary32 binary32.max
    let d : ColVec (Flt binary32) 1 × ColVec (Flt binary32) 1 := (⟨#v[m]⟩, ⟨#v[m]⟩)
    k.run [d, d]) = .error .overflow := by decide +kernel

/-! ## C156 The program on the target: the estimate is the simulated state -/

/-- C156: in every arithmetic in which operations with zero and differences of equal numbers are exact, and for all
constants and numbers of passes, the final estimate is exactly the final state of the simulated system. -/
theorem C156_equal {T : Type} [CNum T] [CLit T] [ZeroExact T] (hs : ∀ a : T, CNum.sub a a = .ok CNum.zero) (avr : Bool)
    (p : Params T) (n : ℕ) (k : Kalman T .one .one) (x : ColVec T 2) (h : KalmanTarget.main avr p n = .ok (k, x)) :
    k.system_state = x := by
  unfold KalmanTarget.main at h
  obtain ⟨A, hA, h⟩ := bind_eq_ok.1 h
  obtain ⟨B, hB, h⟩ := bind_eq_ok.1 h
  obtain ⟨H, hH, h⟩ := bind_eq_ok.1 h
  obtain ⟨l, hl, h⟩ := bind_eq_ok.1 h
  obtain ⟨y, hy, h⟩ := bind_eq_ok.1 h
  exact ((TargetLoop.Same.start hA hB hH hy hl).loop hs n h).x

/-- C156: this holds in every binary floating point format, with any constants. -/
theorem C156_float (f : Format) (avr : Bool) (p : Params (Flt f)) (n : ℕ) (k : Kalman (Flt f) .one .one)
    (x : ColVec (Flt f) 2) (h : KalmanTarget.main avr p n = .ok (k, x)) : k.system_state = x := by
  have := C150_float_zero f
  refine C156_equal (fun a => ?_) avr p n k x h
  show Flt.ofRat f (a.val - a.val) = _
  rw [sub_self]
  exact Flt.ofRat_val (CNum.zero : Flt f)

/-- C156: and in fixed point, with any constants. -/
theorem C156_fixed (q : Platform) (w : Width) (F : Nat) (hF : F < w.promote) (avr : Bool) : letI := Fx.cnum q w F
    ∀ (p : Params (Fx w F)) (n : ℕ) (k : Kalman (Fx w F) .one .one) (x : ColVec (Fx w F) 2),
      KalmanTarget.main avr p n = .ok (k, x) → k.system_state = x := by
  let _ := Fx.cnum q w F
  have := C150_fixed_zero q w F hF
  intro p n k x h
  have z : (CNum.zero : Fx w F).val = 0 := by
    show (Fx.narrow w F 0).val = 0
    rw [Fx.val_narrow (by linarith [Fx.half_pos w]) (Fx.half_pos w)]; simp
  have same {a c : Fx w F} (h : c.val = a.val) : c = a := by
    have hp : (2 : ℚ) ^ F ≠ 0 := by positivity
    unfold Fx.val at h
    rw [div_left_inj' hp, Int.cast_inj] at h
    ext1
    exact BitVec.eq_of_toInt_eq h
  refine C156_equal (fun a => ?_) avr p n k x h
  obtain ⟨b1, b2⟩ := Fx.val_bounds (CNum.zero : Fx w F)
  obtain ⟨c, e, hc⟩ := C24_sub_exact q a a (by rw [sub_self, ← z]; exact b1) (by rw [sub_self, ← z]; exact b2)
  rw [sub_self, ← z] at hc
  rw [same hc] at e
  exact e

/-- Fixed point with 32 bits, 16 of them fractional, and 20 passes. -/
example : letI := Fx.cnum (FixedSim.desktop false) .w32 16
    ∃ k x, KalmanTarget.main (T := Fx .w32 16) true ⟨.narrow .w32 16 65536, .narrow _ _ 655360, .narrow _ _ 13107⟩ 20 =
      .ok (k, x) ∧ (x.get 0 0).val = 200 ∧ (x.get 1 0).val = 20 := by
  let _ := Fx.cnum (FixedSim.desktop false) .w32 16
  obtain ⟨⟨k, x⟩, h, hv⟩ := Res.of_yields (show Res.yields (KalmanTarget.main (T := Fx .w32 16) true
      ⟨.narrow .w32 16 65536, .narrow _ _ 655360, .narrow _ _ 13107⟩ 20) (fun (_, x) =>
        decide ((x.get 0 0).val = 200 ∧ (x.get 1 0).val = 20)) = true by decide +kernel)
  exact ⟨k, x, h, of_decide_eq_true hv⟩

/-- C156: with the constants of the program and 32-bit floating point the loop never fails, even if it runs for ever.
The velocity counts the passes up to `2 ^ 24`, where it stays. -/
theorem C156_forever (avr : Bool) (p : Params (Flt binary32)) (hp : constants binary32 = .ok p) (n : ℕ) :
    ∃ k x, KalmanTarget.main avr p n = .ok (k, x) ∧ k.system_state = x ∧ (x.get 1 0).val = (min n (2 ^ 24) : ℕ) ∧
      (x.get 0 0).val ≤ 2 ^ 48 := by
  obtain ⟨k, x0, x1, h, hx, b0, -⟩ := TargetLoop.main_ok hp avr n
  exact ⟨k, _, h, C156_float binary32 avr p n k _ h, (congrArg Prod.snd hx).trans (TargetLoop.sim_vel n), b0⟩

/-- C156: up to 4096 passes nothing is rounded: position and velocity, simulated and estimated, are those of a constant
acceleration of 1. -/
theorem C156_exact (avr : Bool) (p : Params (Flt binary32)) (hp : constants binary32 = .ok p) (n : ℕ) (hn : n ≤ 4096)
    (k : Kalman (Flt binary32) .one .one) (x : ColVec (Flt binary32) 2) (h : KalmanTarget.main avr p n = .ok (k, x)) :
    (x.get 0 0).val = (n : ℚ) ^ 2 / 2 ∧ (x.get 1 0).val = n ∧
      (k.system_state.get 0 0).val = (n : ℚ) ^ 2 / 2 ∧ (k.system_state.get 1 0).val = n := by
  obtain ⟨k', x0, x1, h', hx, -⟩ := TargetLoop.main_ok hp avr n
  cases h'.symm.trans h
  rw [TargetLoop.sim_exact n hn] at hx
  rw [C156_float binary32 avr p n k _ h]
  exact ⟨congrArg Prod.fst hx, congrArg Prod.snd hx, congrArg Prod.fst hx, congrArg Prod.snd hx⟩

/-- The program itself: 50 passes. -/
example : ∃ p k x, constants binary32 = .ok p ∧ KalmanTarget.main true p 50 = .ok (k, x) ∧
    (k.system_state.get 0 0).val = 1250 ∧ (k.system_state.get 1 0).val = 50 := by
  obtain ⟨p, -, -, -, -, -, -, hp, -⟩ := parts
  obtain ⟨k, x, h, -⟩ := C156_forever true p hp 50
  obtain ⟨-, -, h1, h2⟩ := C156_exact true p hp 50 (by norm_num) k x h
  exact ⟨p, k, x, hp, h, by rw [h1]; norm_num, by rw [h2]; norm_num⟩

/-- C156: in the next pass the position is rounded. -/
theorem C156_rounds (avr : Bool) (p : Params (Flt binary32)) (hp : constants binary32 = .ok p)
    (k : Kalman (Flt binary32) .one .one) (x : ColVec (Flt binary32) 2) (h : KalmanTarget.main avr p 4097 = .ok (k, x)) :
    (x.get 0 0).val ≠ 4097 ^ 2 / 2 := by
  obtain ⟨k', x0, x1, h', hx, -⟩ := TargetLoop.main_ok hp avr 4097
  cases h'.symm.trans h
  exact fun e => TargetLoop.sim_rounds ((congrArg Prod.fst hx).symm.trans e)

example : ∃ p k x, constants binary32 = .ok p ∧ KalmanTarget.main false p 4097 = .ok (k, x) := by
  obtain ⟨p, -, -, -, -, -, -, hp, -⟩ := parts
  obtain ⟨k, x, h, -⟩ := C156_forever false p hp 4097
  exact ⟨p, k, x, hp, h⟩

end Verif
