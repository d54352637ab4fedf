import Verif.Lemmas.KalmanFixed
import Verif.Props.FixedPoint
import Verif.Props.Kalman
import Verif.Props.Matrix
import Mathlib.Analysis.Real.Sqrt

/- The estimator of the simulations in fixed point, `fixed_point<int,15>`: C109 (AVR), C110 (desktop). -/

namespace Verif
open Kalman KalmanSim FixedSim

/-! ## C110: desktop, 16 fractional bits -/

namespace FixedSim

theorem mat_of_storage {T : Type} {n m : Nat} {A B : Mat T n m} (h : A.storage = B.storage) : A = B := by
  cases A; cases B; cases h; rfl

theorem estim_fixed (s avr : Bool) : letI := Fx.cnum (desktop s) .w32 16
    ∀ k, estim avr ⟨.narrow .w32 16 65536, .narrow _ _ 655360, .narrow _ _ 13107⟩ = .ok k →
      k.A = raw (65536, 65536, 0, 65536) ∧ k.Q = raw (655, 1310, 1310, 2621) ∧
      k.H = ⟨#v[.narrow _ _ 65536, .narrow _ _ 0]⟩ ∧ k.R = .fill 1 1 (.narrow _ _ 6553600) ∧ k.P = entry 0 := by
  let _ := Fx.cnum (desktop s) .w32 16
  intro k hk
  have h : Res.yields (estim avr ⟨.narrow .w32 16 65536, .narrow _ _ 655360, .narrow _ _ 13107⟩) (fun k =>
      k.A.storage == (raw (65536, 65536, 0, 65536)).storage && k.Q.storage == (raw (655, 1310, 1310, 2621)).storage &&
      k.H.storage == #v[.narrow _ _ 65536, .narrow _ _ 0] && k.R.storage == #v[.narrow _ _ 6553600] &&
      k.P.storage == (entry 0).storage) = true := by
    cases s <;> cases avr <;> decide +kernel
  obtain ⟨k', h1, h2⟩ := Res.of_yields h
  rw [hk] at h1
  cases h1
  simp only [Bool.and_eq_true, beq_iff_eq] at h2
  obtain ⟨⟨⟨⟨h1, h2⟩, h3⟩, h4⟩, h5⟩ := h2
  exact ⟨mat_of_storage h1, mat_of_storage h2, mat_of_storage h3, mat_of_storage h4, mat_of_storage h5⟩

/-- The invariant of a run, `n` updates after the start. -/
structure After (n : Nat) (k : Kalman (Fx .w32 16) .one .one) : Prop where
  A : k.A = raw (65536, 65536, 0, 65536)
  Q : k.Q = raw (655, 1310, 1310, 2621)
  H : k.H = ⟨#v[.narrow _ _ 65536, .narrow _ _ 0]⟩
  R : k.R = .fill 1 1 (.narrow _ _ 6553600)
  P : k.P = entry (index n)

theorem After.update {s : Bool} {n : Nat} {k k' : Kalman (Fx .w32 16) .one .one} {v z}
    (h : After n k) (e : letI := Fx.cnum (desktop s) .w32 16; k.update v z = .ok k') :
    After (n + 1) k' ∧ ∃ K, k'.K = some K ∧ nearGain (index n) K = true := by
  let _ := Fx.cnum (desktop s) .w32 16
  obtain ⟨K, hK, hc, eA, eQ, eH, eR⟩ := cov_of_update e
  have h1 := steps_ok s (index n) (index_lt n)
  rw [h.A, h.Q, h.H, h.R, h.P] at hc
  unfold stepOk at h1
  obtain ⟨r, h2, h3⟩ := Res.of_yields h1
  rw [hc] at h2
  cases h2
  rw [Bool.and_eq_true, beq_iff_eq] at h3
  exact ⟨⟨eA.trans h.A, eQ.trans h.Q, eH.trans h.H, eR.trans h.R,
    (mat_of_storage h3.1).trans (by rw [index_succ])⟩, K, hK, h3.2⟩

theorem After.run {s : Bool} {n : Nat} {k k' : Kalman (Fx .w32 16) .one .one} {ds}
    (h : After n k) (e : letI := Fx.cnum (desktop s) .w32 16; k.run ds = .ok k') :
    After (n + ds.length) k' ∧ (ds ≠ [] → ∃ K, k'.K = some K ∧ nearGain (index (n + ds.length - 1)) K = true) := by
  let _ := Fx.cnum (desktop s) .w32 16
  induction ds generalizing n k with
  | nil =>
    cases e
    exact ⟨h, fun h => absurd rfl h⟩
  | cons d ds ih =>
    obtain ⟨k1, e1, e2⟩ := run_cons.1 e
    obtain ⟨h1, K, hK, g⟩ := h.update e1
    obtain ⟨h2, h3⟩ := ih h1 e2
    have el : n + 1 + ds.length = n + (d :: ds).length := by simp; omega
    rw [el] at h2 h3
    refine ⟨h2, fun _ => ?_⟩
    by_cases hd : ds = []
    · subst hd
      cases e2
      exact ⟨K, hK, g⟩
    · exact h3 hd

end FixedSim

namespace FixedSim

theorem params_fixed {one ten a : Fx .w32 16} (h1 : Fx.ofInt .w32 16 1 = .ok one) (h2 : Fx.ofInt .w32 16 10 = .ok ten)
    (h3 : Fx.ofReal .w32 16 (1 / 5) = .ok a) :
    one = .narrow _ _ 65536 ∧ ten = .narrow _ _ 655360 ∧ a = .narrow _ _ 13107 := by
  refine ⟨?_, ?_, ?_⟩
  · have : Fx.ofInt .w32 16 1 = .ok (.narrow _ _ 65536) := rfl
    rw [this] at h1
    exact (Except.ok.inj h1).symm
  · have : Fx.ofInt .w32 16 10 = .ok (.narrow _ _ 655360) := rfl
    rw [this] at h2
    exact (Except.ok.inj h2).symm
  · have e : Fx.truncTo 32 (65536 * (1 / 5) + (if (0 : ℝ) ≤ 1 / 5 then 1 / 2 else -1 / 2)) = .ok 13107 := by
      have : ⌊(65536 * (1 / 5) + 1 / 2 : ℝ)⌋ = 13107 := by
        rw [Int.floor_eq_iff]
        norm_num
      rw [Fx.truncTo, if_pos (show (0 : ℝ) ≤ 1 / 5 by norm_num), if_pos (by norm_num), this]
      rfl
    have : Fx.ofReal .w32 16 (1 / 5) = .ok (.narrow _ _ 13107) := by
      have hp : power2 16 = .ok 65536 := rfl
      rw [Fx.ofReal, hp, bind_ok]
      push_cast
      rw [e, bind_ok]
    rw [this] at h3
    exact (Except.ok.inj h3).symm

theorem platform_eq {p : Platform} (hp : p.intBits = 32) : ∃ s, p = desktop s := by
  obtain ⟨n, s, h⟩ := p
  cases hp
  exact ⟨s, rfl⟩

theorem index_cycle {n : Nat} (h : 93 ≤ n) : index n = 93 + (n - 93) % 19 := by
  unfold index
  split <;> omega

theorem cycle_distinct : ∀ i, i < 19 → ∀ j, j < 19 → (entry (93 + i)).storage = (entry (93 + j)).storage → i = j := by
  decide +kernel

theorem cycle_asymmetric : ∀ i, i < 19 → (entry (93 + i)).get 0 1 ≠ (entry (93 + i)).get 1 0 := by
  decide +kernel

end FixedSim

/-- **C110** The estimator of the simulation in fixed point, for all data for which no calculation of the state
overflows: from update 93 on, the covariance repeats itself every 19 updates, but no sooner, so it never settles, and it
is never symmetric. -/
theorem C110_cycle (p : Platform) (hp : p.intBits = 32) (avr : Bool) : letI := Fx.cnum p .w32 16
    ∀ one ten a k, Fx.ofInt .w32 16 1 = .ok one → Fx.ofInt .w32 16 10 = .ok ten → Fx.ofReal .w32 16 (1 / 5) = .ok a →
      estim avr ⟨one, ten, a⟩ = .ok k → ∀ ds k1 es k2, k.run ds = .ok k1 → 93 ≤ ds.length → k1.run es = .ok k2 →
        (k1.estimation_error_covariance = k2.estimation_error_covariance ↔ es.length % 19 = 0) ∧
        k1.estimation_error_covariance.get 0 1 ≠ k1.estimation_error_covariance.get 1 0 := by
  obtain ⟨s, rfl⟩ := platform_eq hp
  intro one ten a k h1 h2 h3 hk ds k1 es k2 r1 hl r2
  obtain ⟨rfl, rfl, rfl⟩ := params_fixed h1 h2 h3
  obtain ⟨eA, eQ, eH, eR, eP⟩ := estim_fixed s avr k hk
  have a1 := (After.run (n := 0) ⟨eA, eQ, eH, eR, eP⟩ r1).1
  have a2 := (a1.run r2).1
  rw [Nat.zero_add] at a1 a2
  have e1 := a1.P
  have e2 := a2.P
  rw [index_cycle hl] at e1
  rw [index_cycle (by omega)] at e2
  show (k1.P = k2.P ↔ _) ∧ k1.P.get 0 1 ≠ k1.P.get 1 0
  rw [e1, e2]
  refine ⟨⟨fun h => ?_, fun h => ?_⟩, cycle_asymmetric _ (Nat.mod_lt _ (by norm_num))⟩
  · have := cycle_distinct _ (Nat.mod_lt _ (by norm_num)) _ (Nat.mod_lt _ (by norm_num)) (congrArg Mat.storage h)
    omega
  · congr 2
    omega

/-- **C110** From update 55 on, the gain is within 4 units of the last place of the best constant gain (C97). -/
theorem C110_gain (p : Platform) (hp : p.intBits = 32) (avr : Bool) : letI := Fx.cnum p .w32 16
    ∀ one ten a k, Fx.ofInt .w32 16 1 = .ok one → Fx.ofInt .w32 16 10 = .ok ten → Fx.ofReal .w32 16 (1 / 5) = .ok a →
      estim avr ⟨one, ten, a⟩ = .ok k → ∀ ds k1, k.run ds = .ok k1 → 55 ≤ ds.length →
        ∃ K x y, k1.kalman_gain = .ok K ∧ (K.get 0 0).asReal = .ok x ∧ (K.get 1 0).asReal = .ok y ∧
          |x - AlphaBeta.alpha (AlphaBeta.index 1 10 (1 / 5))| < 4 / 2 ^ 16 ∧
          |y - AlphaBeta.beta (AlphaBeta.index 1 10 (1 / 5))| < 4 / 2 ^ 16 := by
  obtain ⟨s, rfl⟩ := platform_eq hp
  intro one ten a k h1 h2 h3 hk ds k1 r1 hl
  obtain ⟨rfl, rfl, rfl⟩ := params_fixed h1 h2 h3
  obtain ⟨eA, eQ, eH, eR, eP⟩ := estim_fixed s avr k hk
  obtain ⟨K, hK, g⟩ := (After.run (n := 0) ⟨eA, eQ, eH, eR, eP⟩ r1).2 (by rintro rfl; simp at hl)
  rw [Nat.zero_add] at g
  have hi : ¬ index (ds.length - 1) < 54 := by
    unfold index
    split <;> omega
  simp only [nearGain, hi, decide_false, Bool.false_or, Bool.and_eq_true, decide_eq_true_iff] at g
  obtain ⟨⟨⟨g1, g2⟩, g3⟩, g4⟩ := g
  have hr : ∀ x : Fx .w32 16, x.asReal = .ok ((x.storage.toInt : ℝ) / 65536) := fun x => by
    have hp : power2 16 = .ok 65536 := rfl
    rw [Fx.asReal, hp, bind_ok]
    push_cast
    rfl
  refine ⟨K, _, _, by rw [kalman_gain, hK], hr _, hr _, ?_⟩
  generalize (K.get 0 0).storage.toInt = x at *
  generalize (K.get 1 0).storage.toInt = y at *
  have g1' : (11872 : ℝ) ≤ x := by exact_mod_cast g1
  have g2' : (x : ℝ) ≤ 11873 := by exact_mod_cast g2
  have g3' : (1185 : ℝ) ≤ y := by exact_mod_cast g3
  have g4' : (y : ℝ) ≤ 1186 := by exact_mod_cast g4
  have s1 : (40049968 / 100000000 : ℝ) ≤ √(8 * (1 / 50) + (1 / 50) ^ 2) := Real.le_sqrt_of_sq_le (by norm_num)
  have s2 : √(8 * (1 / 50) + (1 / 50) ^ 2) ≤ (40049969 / 100000000 : ℝ) := Real.sqrt_le_iff.2 (by norm_num)
  have hl : AlphaBeta.index 1 10 (1 / 5) = 1 / 50 := by norm_num [AlphaBeta.index]
  rw [hl]
  have hd : 0 ≤ AlphaBeta.damping (1 / 50) := by
    unfold AlphaBeta.damping
    linarith
  have hq : √(1 - AlphaBeta.alpha (1 / 50)) = AlphaBeta.damping (1 / 50) := by
    rw [AlphaBeta.alpha, sub_sub_cancel, Real.sqrt_sq hd]
  unfold AlphaBeta.beta
  rw [hq]
  unfold AlphaBeta.alpha
  have d1 : AlphaBeta.damping (1 / 50) ≤ (4 + 1 / 50 - 40049968 / 100000000) / 4 := by
    unfold AlphaBeta.damping
    linarith
  have d2 : (4 + 1 / 50 - 40049969 / 100000000) / 4 ≤ AlphaBeta.damping (1 / 50) := by
    unfold AlphaBeta.damping
    linarith
  generalize AlphaBeta.damping (1 / 50) = d at *
  have q1 := mul_self_le_mul_self hd d1
  have q2 := mul_self_le_mul_self (by norm_num) d2
  norm_num at q1 q2 d1 d2
  constructor <;> rw [abs_lt] <;> constructor <;> nlinarith

/-! ## Time, C109: AVR, no fractional bits -/

namespace FixedSim
section
variable {p : Platform} {w : Width} {F : Nat}

theorem zero_rep : (Fx.narrow w F 0).storage.toInt = 0 :=
  Fx.narrow_rep (neg_nonpos.2 (Fx.half_pos w).le) (Fx.half_pos w)

theorem checked_zero (n : Nat) : checked n 0 = .ok 0 :=
  checked_ok (neg_nonpos.2 (by positivity)) (by positivity)

theorem mul_of_zero (hF : F < w.bits) {a b : Fx w F} (h : a.storage.toInt * b.storage.toInt = 0) :
    Fx.mul p a b = .ok (.narrow w F 0) := by
  have : F < p.arith w.promote := by
    have := Fx.arith_ge p w.promote
    have := w.promote_eq
    omega
  rw [Fx.mul, h, checked_zero, bind_ok, shr, if_pos this, Int.zero_ediv, bind_ok]

theorem add_zero_right (x : Fx w F) : Fx.add p x (.narrow w F 0) = .ok x := by
  rw [Fx.add, zero_rep, Int.add_zero, Fx.checked_wide (Fx.arith_ge p w.bits) (Fx.rep_ge x) (Fx.rep_lt x), bind_ok]
  congr 1
  apply Fx.ext
  show BitVec.ofInt _ _ = _
  rw [BitVec.ofInt_toInt]

/-- With gain zero the measurement has no effect. -/
theorem correctState_zero (hF : F < w.bits) {x x' : ColVec (Fx w F) 2} {H : Mat (Fx w F) 1 2} {z : ColVec (Fx w F) 1}
    (h : letI := Fx.cnum p w F; correctState .one x ⟨#v[.narrow w F 0, .narrow w F 0]⟩ H z = .ok x') : x' = x := by
  let _ := Fx.cnum p w F
  unfold correctState at h
  obtain ⟨a, -, h⟩ := bind_eq_ok.1 h
  obtain ⟨b, -, h⟩ := bind_eq_ok.1 h
  obtain ⟨c, hc, h⟩ := bind_eq_ok.1 h
  have hc' := ((C03_mul_scalar _ _).1 _).1 hc
  have h' := ((C03_add _ _).1 _).1 h
  have h0 : ∀ i j, c.get i j = .narrow w F 0 := by
    intro i j
    have hz : (⟨#v[.narrow w F 0, .narrow w F 0]⟩ : Mat (Fx w F) 2 1).get i j = .narrow w F 0 := by
      fin_cases i <;> fin_cases j <;> rfl
    have e := hc' i j
    beta_reduce at e
    rw [hz] at e
    have := mul_of_zero (p := p) hF (a := .narrow w F 0) (b := b) (by rw [zero_rep, Int.zero_mul])
    exact (Except.ok.inj (this.symm.trans e)).symm
  refine Mat.ext_get fun i j => ?_
  have e := h' i j
  beta_reduce at e
  rw [h0 i j] at e
  exact (Except.ok.inj ((add_zero_right (p := p) (x.get i j)).symm.trans e)).symm

end

/-- The target: `int` of 16 bits. -/
def target (s : Bool) : Platform := ⟨16, s, .inl rfl⟩

theorem platform_avr {p : Platform} (hp : p.intBits = 16) : ∃ s, p = target s := by
  obtain ⟨n, s, h⟩ := p
  cases hp
  exact ⟨s, rfl⟩

theorem params_avr {one ten a : Fx .w16 0} (h1 : Fx.ofInt .w16 0 1 = .ok one) (h2 : Fx.ofInt .w16 0 10 = .ok ten)
    (h3 : Fx.ofReal .w16 0 (1 / 5) = .ok a) : one = .narrow _ _ 1 ∧ ten = .narrow _ _ 10 ∧ a = .narrow _ _ 0 := by
  refine ⟨?_, ?_, ?_⟩
  · have : Fx.ofInt .w16 0 1 = .ok (.narrow _ _ 1) := rfl
    rw [this] at h1
    exact (Except.ok.inj h1).symm
  · have : Fx.ofInt .w16 0 10 = .ok (.narrow _ _ 10) := rfl
    rw [this] at h2
    exact (Except.ok.inj h2).symm
  · have e : Fx.truncTo 16 (1 * (1 / 5) + (if (0 : ℝ) ≤ 1 / 5 then 1 / 2 else -1 / 2)) = .ok 0 := by
      have : ⌊(1 * (1 / 5) + 1 / 2 : ℝ)⌋ = 0 := by
        rw [Int.floor_eq_iff]
        norm_num
      rw [Fx.truncTo, if_pos (show (0 : ℝ) ≤ 1 / 5 by norm_num), if_pos (by norm_num), this]
      rfl
    have : Fx.ofReal .w16 0 (1 / 5) = .ok (.narrow _ _ 0) := by
      have hp : power2 0 = .ok 1 := rfl
      rw [Fx.ofReal, hp, bind_ok]
      push_cast
      rw [e, bind_ok]
    rw [this] at h3
    exact (Except.ok.inj h3).symm

/-- The zero matrix in integers. -/
def none22 : Mat (Fx .w16 0) 2 2 := .fill 2 2 (.narrow _ _ 0)

/-- Nothing is learnt: the invariant of a run on the target. -/
structure Deaf (k : Kalman (Fx .w16 0) .one .one) : Prop where
  A : k.A = .mk22 (.narrow _ _ 1) (.narrow _ _ 1) (.narrow _ _ 0) (.narrow _ _ 1)
  Q : k.Q = none22
  H : k.H = ⟨#v[.narrow _ _ 1, .narrow _ _ 0]⟩
  R : k.R = .fill 1 1 (.narrow _ _ 100)
  P : k.P = none22

theorem estim_avr (s avr : Bool) : letI := Fx.cnum (target s) .w16 0
    ∀ k, estim avr ⟨.narrow .w16 0 1, .narrow _ _ 10, .narrow _ _ 0⟩ = .ok k → Deaf k := by
  let _ := Fx.cnum (target s) .w16 0
  intro k hk
  have h : Res.yields (estim avr ⟨.narrow .w16 0 1, .narrow _ _ 10, .narrow _ _ 0⟩) (fun k =>
      k.A.storage == (Mat.mk22 (.narrow _ _ 1) (.narrow _ _ 1) (.narrow _ _ 0) (.narrow _ _ 1)).storage &&
      k.Q.storage == none22.storage && k.H.storage == #v[.narrow _ _ 1, .narrow _ _ 0] &&
      k.R.storage == #v[.narrow _ _ 100] && k.P.storage == none22.storage) = true := by
    cases s <;> cases avr <;> decide +kernel
  obtain ⟨k', h1, h2⟩ := Res.of_yields h
  rw [hk] at h1
  cases h1
  simp only [Bool.and_eq_true, beq_iff_eq] at h2
  obtain ⟨⟨⟨⟨h1, h2⟩, h3⟩, h4⟩, h5⟩ := h2
  exact ⟨mat_of_storage h1, mat_of_storage h2, mat_of_storage h3, mat_of_storage h4, mat_of_storage h5⟩

theorem cov_avr (s : Bool) : letI := Fx.cnum (target s) .w16 0
    cov (.mk22 (.narrow _ _ 1) (.narrow _ _ 1) (.narrow _ _ 0) (.narrow _ _ 1)) none22
      ⟨#v[.narrow _ _ 1, .narrow _ _ 0]⟩ (.fill 1 1 (.narrow _ _ 100)) none22 =
        .ok (⟨#v[.narrow .w16 0 0, .narrow _ _ 0]⟩, none22) := by
  let _ := Fx.cnum (target s) .w16 0
  have h : Res.yields (cov (.mk22 (.narrow _ _ 1) (.narrow _ _ 1) (.narrow _ _ 0) (.narrow _ _ 1)) none22
      ⟨#v[.narrow _ _ 1, .narrow _ _ 0]⟩ (.fill 1 1 (.narrow _ _ 100)) none22)
      (fun r => r.1.storage == #v[.narrow .w16 0 0, .narrow _ _ 0] && r.2.storage == none22.storage) = true := by
    cases s <;> decide +kernel
  obtain ⟨r, h1, h2⟩ := Res.of_yields h
  simp only [Bool.and_eq_true, beq_iff_eq] at h2
  rw [h1, ← show (r.1, r.2) = r from rfl, mat_of_storage (A := r.1) h2.1, mat_of_storage h2.2]

/-- An update on the target: prediction only. -/
theorem Deaf.update {s : Bool} {k k' : Kalman (Fx .w16 0) .one .one} {v z} (h : Deaf k)
    (e : letI := Fx.cnum (target s) .w16 0; k.update v z = .ok k') :
    letI := Fx.cnum (target s) .w16 0
    Deaf k' ∧ k'.K = some ⟨#v[.narrow _ _ 0, .narrow _ _ 0]⟩ ∧ predictState k.A k.B k.xhat v = .ok k'.xhat ∧
      k'.A = k.A ∧ k'.B = k.B := by
  let _ := Fx.cnum (target s) .w16 0
  obtain ⟨t, x, P, K, x', P', -, hx, h1, h2, h4, h3, rfl⟩ := update_inv e
  have hc : cov k.A k.Q k.H k.R k.P = .ok (K, P') := by rw [cov, h1, bind_ok, h2, bind_ok, h3, bind_ok]
  rw [h.A, h.Q, h.H, h.R, h.P] at hc
  cases (cov_avr s).symm.trans hc
  cases correctState_zero (p := target s) (by decide) h4
  exact ⟨⟨h.A, h.Q, h.H, h.R, rfl⟩, rfl, hx, rfl, rfl⟩

end FixedSim

/-- **C109** The estimator of the AVR simulation in `fixed_point<int,15>`, where `int` has 16 bits, so that there are no
fractional bits: the covariance and the gain are zero after every update, and what is estimated does not depend on the
measurements. -/
theorem C109_deaf_wrong (p : Platform) (hp : p.intBits = 16) (avr : Bool) : letI := Fx.cnum p .w16 0
    ∀ one ten a k, Fx.ofInt .w16 0 1 = .ok one → Fx.ofInt .w16 0 10 = .ok ten → Fx.ofReal .w16 0 (1 / 5) = .ok a →
      estim avr ⟨one, ten, a⟩ = .ok k → ∀ ds k1, k.run ds = .ok k1 →
        (∀ i j, ((k1.estimation_error_covariance).get i j).storage = 0) ∧
        (ds ≠ [] → ∃ K, k1.kalman_gain = .ok K ∧ ∀ i j, (K.get i j).storage = 0) ∧
        ∀ es k2, k.run es = .ok k2 → ds.map Prod.fst = es.map Prod.fst →
          k1.system_state = k2.system_state := by
  obtain ⟨s, rfl⟩ := platform_avr hp
  intro one ten a k h1 h2 h3 hk
  obtain ⟨rfl, rfl, rfl⟩ := params_avr h1 h2 h3
  have hd := estim_avr s avr k hk
  clear hk h1 h2 h3
  let _ := Fx.cnum (target s) .w16 0
  intro ds
  suffices H : ∀ (k l : Kalman (Fx .w16 0) .one .one) k1, Deaf k → Deaf l → k.B = l.B → k.xhat = l.xhat →
      k.run ds = .ok k1 → Deaf k1 ∧ (ds ≠ [] → k1.K = some ⟨#v[.narrow _ _ 0, .narrow _ _ 0]⟩) ∧
      ∀ es k2, l.run es = .ok k2 → ds.map Prod.fst = es.map Prod.fst → k1.xhat = k2.xhat by
    intro k1 r
    obtain ⟨q1, q2, q3⟩ := H k k k1 hd hd rfl rfl r
    refine ⟨fun i j => ?_, fun hn => ⟨_, by rw [kalman_gain, q2 hn], fun i j => ?_⟩, q3⟩
    · show (k1.P.get i j).storage = 0
      rw [q1.P]
      revert i j
      decide
    · revert i j
      decide
  clear hd
  induction ds with
  | nil =>
    intro k l k1 h1 h2 hB hx r
    cases r
    refine ⟨h1, fun h => absurd rfl h, fun es k2 r2 he => ?_⟩
    cases es with
    | nil => cases r2; exact hx
    | cons => cases he
  | cons d ds ih =>
    intro k l k1 h1 h2 hB hx r
    obtain ⟨k', e1, r1⟩ := run_cons.1 r
    obtain ⟨g1, gK, gx, gA, gB⟩ := h1.update e1
    obtain ⟨i1, i2, -⟩ := ih k' k' k1 g1 g1 rfl rfl r1
    refine ⟨i1, fun _ => ?_, fun es k2 r2 he => ?_⟩
    · by_cases hd : ds = []
      · subst hd
        cases r1
        exact gK
      · exact i2 hd
    · cases es with
      | nil => cases he
      | cons e es =>
        obtain ⟨l', e2, r3⟩ := run_cons.1 r2
        obtain ⟨f1, -, fx, fA, fB⟩ := h2.update e2
        simp only [List.map_cons, List.cons.injEq] at he
        rw [he.1, h1.A, ← h2.A, hB, hx] at gx
        exact (ih k' l' k1 g1 f1 (gB.trans (hB.trans fB.symm)) (Except.ok.inj (gx.symm.trans fx)) r1).2.2 es k2 r3 he.2

/-- The hypotheses of C109 can be met: the estimator exists, and three measurements of 10000 leave the estimate at 0. -/
example : letI := Fx.cnum (target false) .w16 0
    Res.yields (do
      let k ← estim (T := Fx .w16 0) true ⟨← Fx.ofInt .w16 0 1, ← Fx.ofInt .w16 0 10, .narrow _ _ 0⟩
      let d := (Mat.fill 1 1 (Fx.narrow .w16 0 0), Mat.fill 1 1 (Fx.narrow .w16 0 10000))
      k.run [d, d, d]) (fun k => k.xhat.storage == #v[.narrow _ _ 0, .narrow _ _ 0]) = true := by
  decide +kernel

/-! ## How long the estimator runs -/

namespace FixedSim

/-- Repeated addition of a positive number to a type that does not promote. -/
theorem repeatAdd_bound {p : Platform} {w : Width} {F : Nat} (hw : p.arith w.bits = w.bits) {d : Fx w F} :
    letI := Fx.cnum p w F
    ∀ (n : Nat) (t t' : Fx w F), repeatAdd n t d = .ok t' → t'.storage.toInt = t.storage.toInt + n * d.storage.toInt := by
  let _ := Fx.cnum p w F
  intro n
  induction n with
  | zero =>
    intro t t' h
    cases h
    simp
  | succ n ih =>
    intro t t' h
    obtain ⟨t1, h1, h2⟩ := bind_eq_ok.1 (show (CNum.add t d >>= fun t1 => repeatAdd n t1 d) = _ from h)
    have h1 : Fx.add p t d = .ok t1 := h1
    rw [Fx.add] at h1
    obtain ⟨r, hr, h1⟩ := bind_eq_ok.1 h1
    rw [checked, hw] at hr
    split_ifs at hr with hc
    cases hr
    cases h1
    rw [ih _ _ h2, Fx.narrow_rep hc.1 hc.2]
    push_cast
    ring

theorem time_bound {p : Platform} {w : Width} {F : Nat} (hw : p.arith w.bits = w.bits) {m u : Dim} :
    letI := Fx.cnum p w F
    ∀ (k k' : Kalman (Fx w F) m u) ds, k.t.storage = 0 → 0 < k.dt.storage.toInt → k.run ds = .ok k' →
      ds.length * k.dt.storage.toInt < 2 ^ (w.bits - 1) := by
  let _ := Fx.cnum p w F
  intro k k' ds ht hd h
  have e := repeatAdd_bound hw _ _ _ (C12_time_any_type k k' ds h)
  have := Fx.rep_lt k'.time
  rw [e, show k.time.storage.toInt = 0 from by rw [show k.time = k.t from rfl, ht]; simp] at this
  rw [Int.zero_add] at this
  exact this


theorem of_yields_eq {T : Type} [DecidableEq T] {r : Res T} {x : T} (h : Res.yields r (fun y => y == x) = true) :
    r = .ok x := by
  obtain ⟨y, h1, h2⟩ := Res.of_yields h
  rw [h1, beq_iff_eq.1 h2]

/-- With state and measurement zero, the correction is zero whatever the gain. -/
theorem correctState_none (s : Bool) (K : Mat (Fx .w32 16) 2 1) : letI := Fx.cnum (desktop s) .w32 16
    correctState .one (.fill 2 1 (Fx.narrow .w32 16 0)) K ⟨#v[Fx.narrow .w32 16 65536, Fx.narrow .w32 16 0]⟩ (.fill 1 1 (Fx.narrow .w32 16 0)) =
      .ok (.fill 2 1 (Fx.narrow .w32 16 0)) := by
  let _ := Fx.cnum (desktop s) .w32 16
  have h1 : (⟨#v[Fx.narrow .w32 16 65536, Fx.narrow .w32 16 0]⟩ : Mat (Fx .w32 16) 1 2).dot (.fill 2 1 (Fx.narrow .w32 16 0)) =
      .ok (Fx.narrow .w32 16 0) := by cases s <;> exact of_yields_eq (by decide +kernel)
  have h2 : Mat.sub11s (.fill 1 1 (Fx.narrow .w32 16 0)) (Fx.narrow .w32 16 0) = .ok (Fx.narrow .w32 16 0) := by
    cases s <;> exact of_yields_eq (by decide +kernel)
  have hz : ∀ i j, (Mat.fill 2 1 (Fx.narrow .w32 16 0)).get i j = Fx.narrow .w32 16 0 := by
    intro i j
    fin_cases i <;> fin_cases j <;> rfl
  have h3 : Mat.mulS K (Fx.narrow .w32 16 0) = .ok (.fill 2 1 (Fx.narrow .w32 16 0)) := by
    refine ((C03_mul_scalar _ _).1 _).2 fun i j => ?_
    rw [hz]
    exact mul_of_zero (p := desktop s) (by decide) (by rw [zero_rep, Int.mul_zero])
  have h4 : Mat.add (.fill 2 1 (Fx.narrow .w32 16 0)) (.fill 2 1 (Fx.narrow .w32 16 0)) = .ok (.fill 2 1 (Fx.narrow .w32 16 0)) := by
    refine ((C03_add _ _).1 _).2 fun i j => ?_
    beta_reduce
    rw [hz]
    exact add_zero_right (p := desktop s) _
  unfold correctState
  show (Mat.dot _ _ >>= fun a => _) = _
  rw [h1, bind_ok]
  show (Mat.sub11s _ _ >>= fun a => _) = _
  rw [h2, bind_ok, h3, bind_ok, h4]

/-- The invariant of a run with data zero. -/
structure Still (n : Nat) (k : Kalman (Fx .w32 16) .one .one) : Prop extends After n k where
  B : k.B = ⟨#v[Fx.narrow .w32 16 32768, Fx.narrow .w32 16 65536]⟩
  x : k.xhat = .fill 2 1 (Fx.narrow .w32 16 0)
  dt : k.dt = Fx.narrow .w32 16 65536
  t : k.t.storage.toInt = n * 65536

theorem Still.update {s : Bool} {n : Nat} {k : Kalman (Fx .w32 16) .one .one} (h : Still n k) (hn : n + 1 < 32768) :
    letI := Fx.cnum (desktop s) .w32 16
    ∃ k', k.update (.fill 1 1 (Fx.narrow .w32 16 0)) (.fill 1 1 (Fx.narrow .w32 16 0)) = .ok k' ∧ Still (n + 1) k' := by
  let _ := Fx.cnum (desktop s) .w32 16
  have h1 := steps_ok s (index n) (index_lt n)
  unfold stepOk at h1
  obtain ⟨r, h2, h3⟩ := Res.of_yields h1
  rw [Bool.and_eq_true, beq_iff_eq] at h3
  unfold cov at h2
  obtain ⟨P, hP, h2⟩ := bind_eq_ok.1 h2
  obtain ⟨K, hK, h2⟩ := bind_eq_ok.1 h2
  obtain ⟨P', hP', h2⟩ := bind_eq_ok.1 h2
  cases h2
  have ht : CNum.add k.t k.dt = .ok (Fx.narrow .w32 16 ((n + 1) * 65536)) := by
    show Fx.add _ _ _ = _
    have e : (Fx.narrow .w32 16 65536).storage.toInt = 65536 := by decide
    rw [Fx.add, h.dt, h.t, e, show ((n : Int) * 65536 + 65536) = (n + 1) * 65536 by ring, checked_ok, bind_ok]
    · show -2 ^ 31 ≤ _
      omega
    · show _ < 2 ^ 31
      omega
  have hx : predictState k.A k.B k.xhat (.fill 1 1 (Fx.narrow .w32 16 0)) = .ok (.fill 2 1 (Fx.narrow .w32 16 0)) := by
    rw [h.A, h.B, h.x]
    have : Res.yields (predictState (u := .one) (raw (65536, 65536, 0, 65536)) ⟨#v[Fx.narrow .w32 16 32768, Fx.narrow .w32 16 65536]⟩
        (.fill 2 1 (Fx.narrow .w32 16 0)) (.fill 1 1 (Fx.narrow .w32 16 0)))
        (fun x => x.storage == (Mat.fill 2 1 (Fx.narrow .w32 16 0)).storage) = true := by
      cases s <;> decide +kernel
    obtain ⟨x, e1, e2⟩ := Res.of_yields this
    rw [beq_iff_eq] at e2
    rw [e1, mat_of_storage e2]
  refine ⟨_, update_intro ht hx (P := P) (by rw [h.A, h.P, h.Q]; exact hP) (K := K) (by rw [h.H, h.R]; exact hK)
    (by rw [h.H]; exact correctState_none s K) (P' := P') (by rw [h.H]; exact hP'), ?_⟩
  refine ⟨⟨h.A, h.Q, h.H, h.R, ?_⟩, h.B, rfl, h.dt, ?_⟩
  · show P' = _
    rw [mat_of_storage (A := P') h3.1, index_succ]
  · show (Fx.narrow .w32 16 ((n + 1) * 65536)).storage.toInt = _
    rw [Fx.narrow_rep]
    · push_cast; ring
    · show -2 ^ 31 ≤ _
      omega
    · show _ < 2 ^ 31
      omega

theorem Still.run {s : Bool} (m : Nat) : letI := Fx.cnum (desktop s) .w32 16
    ∀ n k, Still n k → n + m < 32768 →
      ∃ k', k.run (List.replicate m (.fill 1 1 (Fx.narrow .w32 16 0), .fill 1 1 (Fx.narrow .w32 16 0))) = .ok k' := by
  let _ := Fx.cnum (desktop s) .w32 16
  induction m with
  | zero => exact fun n k _ _ => ⟨k, rfl⟩
  | succ m ih =>
    intro n k h hn
    obtain ⟨k1, e1, h1⟩ := h.update (s := s) (by omega)
    obtain ⟨k2, e2⟩ := ih (n + 1) k1 h1 (by omega)
    exact ⟨k2, run_cons.2 ⟨k1, e1, e2⟩⟩

theorem estim_still (s avr : Bool) : letI := Fx.cnum (desktop s) .w32 16
    ∃ k, estim avr ⟨Fx.narrow .w32 16 65536, Fx.narrow .w32 16 655360, Fx.narrow .w32 16 13107⟩ = .ok k ∧ Still 0 k := by
  let _ := Fx.cnum (desktop s) .w32 16
  have h : Res.yields (estim avr ⟨Fx.narrow .w32 16 65536, Fx.narrow .w32 16 655360, Fx.narrow .w32 16 13107⟩) (fun k =>
      k.B.storage == #v[Fx.narrow .w32 16 32768, Fx.narrow .w32 16 65536] && k.xhat.storage == #v[Fx.narrow .w32 16 0, Fx.narrow .w32 16 0] &&
      k.dt == Fx.narrow .w32 16 65536 && k.t == Fx.narrow .w32 16 0) = true := by
    cases s <;> cases avr <;> decide +kernel
  obtain ⟨k, h1, h2⟩ := Res.of_yields h
  simp only [Bool.and_eq_true, beq_iff_eq] at h2
  obtain ⟨⟨⟨h2, h3⟩, h4⟩, h5⟩ := h2
  obtain ⟨eA, eQ, eH, eR, eP⟩ := estim_fixed s avr k h1
  refine ⟨k, h1, ⟨eA, eQ, eH, eR, eP⟩, mat_of_storage h2, mat_of_storage h3, h4, ?_⟩
  rw [h5]
  decide

end FixedSim

/-- **C110** The clock of the estimator, seconds in a type that counts to 32768: no run lasts 32768 updates, since the
addition to the time overflows, and there are runs of every shorter length. -/
theorem C110_time (p : Platform) (hp : p.intBits = 32) (avr : Bool) : letI := Fx.cnum p .w32 16
    ∀ one ten a, Fx.ofInt .w32 16 1 = .ok one → Fx.ofInt .w32 16 10 = .ok ten → Fx.ofReal .w32 16 (1 / 5) = .ok a →
      ∃ k, estim avr ⟨one, ten, a⟩ = .ok k ∧ ∀ n, (∃ ds k1, ds.length = n ∧ k.run ds = .ok k1) ↔ n < 32768 := by
  obtain ⟨s, rfl⟩ := platform_eq hp
  intro one ten a h1 h2 h3
  obtain ⟨rfl, rfl, rfl⟩ := params_fixed h1 h2 h3
  obtain ⟨k, e, h⟩ := estim_still s avr
  let _ := Fx.cnum (FixedSim.desktop s) .w32 16
  refine ⟨k, e, fun n => ⟨?_, fun hn => ?_⟩⟩
  · rintro ⟨ds, k1, rfl, r⟩
    have ht : k.t.storage = 0 := by
      have := h.t
      apply BitVec.eq_of_toInt_eq
      rw [this]
      rfl
    have hd : k.dt.storage.toInt = 65536 := by
      rw [h.dt]
      decide
    have := time_bound (p := FixedSim.desktop s) (by rfl) k k1 ds ht (by rw [hd]; norm_num) r
    rw [hd] at this
    have : (ds.length : Int) * 65536 < 2 ^ 31 := this
    omega
  · obtain ⟨k1, r⟩ := Still.run (s := s) n 0 k h (by omega)
    exact ⟨_, k1, List.length_replicate, r⟩

/-- The same for the AVR simulation, C109: the clock overflows at the same time. -/
theorem C109_time_wrong (p : Platform) (hp : p.intBits = 16) (avr : Bool) : letI := Fx.cnum p .w16 0
    ∀ one ten a k, Fx.ofInt .w16 0 1 = .ok one → Fx.ofInt .w16 0 10 = .ok ten → Fx.ofReal .w16 0 (1 / 5) = .ok a →
      estim avr ⟨one, ten, a⟩ = .ok k → ∀ ds k1, k.run ds = .ok k1 → ds.length < 32768 := by
  obtain ⟨s, rfl⟩ := platform_avr hp
  intro one ten a k h1 h2 h3 hk
  obtain ⟨rfl, rfl, rfl⟩ := params_avr h1 h2 h3
  let _ := Fx.cnum (target s) .w16 0
  have h : Res.yields (estim avr ⟨Fx.narrow .w16 0 1, Fx.narrow .w16 0 10, Fx.narrow .w16 0 0⟩) (fun k =>
      k.dt == Fx.narrow .w16 0 1 && k.t == Fx.narrow .w16 0 0) = true := by
    cases s <;> cases avr <;> decide +kernel
  obtain ⟨k', e1, e2⟩ := Res.of_yields h
  rw [hk] at e1
  cases e1
  simp only [Bool.and_eq_true, beq_iff_eq] at e2
  intro ds k1 r
  have hd : k.dt.storage.toInt = 1 := by
    rw [e2.1]
    decide
  have := time_bound (p := target s) (by rfl) k k1 ds (by rw [e2.2]; rfl) (by rw [hd]; norm_num) r
  rw [hd] at this
  have : (ds.length : Int) * 1 < 2 ^ 15 := this
  omega
end Verif
