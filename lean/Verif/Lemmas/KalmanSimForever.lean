import Verif.Lemmas.KalmanSimSettled
import Verif.Lemmas.KalmanSimClose

/-
The covariance and the gain of the estimator of example/desktop/kalman-sim.e.cpp after every number of updates, in
`double` and exactly (for C151).
-/

namespace Verif
open KalmanSim Ieee StillRun

namespace SettledRun

/-- The literal after `n + 1` updates. -/
def st (n : Nat) : Int × Int × Int × Int × Int × Int := states.getD (min n 184) 0

theorem step_ok (n : Nat) : stepOk (st n) (st (n + 1)) = true := by
  unfold st
  by_cases h : n < 184
  · rw [Nat.min_eq_left h.le, Nat.min_eq_left h]
    exact next_ok n h
  · rw [Nat.min_eq_right (by omega), Nat.min_eq_right (by omega)]
    exact last_ok

/-- An estimator of the program after `n` updates, as far as its covariance is concerned. -/
structure At (k l : Kalman (Flt binary64) .one .one) (n : Nat) : Prop where
  A : l.A = k.A
  B : l.B = k.B
  H : l.H = k.H
  Q : l.Q = k.Q
  R : l.R = k.R
  dt : l.dt = k.dt
  P : match n with
    | 0 => l.P = k.P
    | n + 1 => covOf (st n) = .ok l.P

/-- The next gain and covariance. -/
theorem At.next {p A B H k x} (hs : setup = .ok (p, A, B, H, k, x)) {l : Kalman (Flt binary64) .one .one} {n : Nat}
    (h : At k l n) : ∃ Pm K P, Kalman.predictCov l.A l.P l.Q = .ok Pm ∧ Kalman.gain .one Pm l.H l.R = .ok K ∧
      Kalman.correctCov .one K l.H Pm = .ok P ∧ gainOf (st n) = .ok K ∧ covOf (st n) = .ok P := by
  have key : ∃ K P, gainOf (st n) = .ok K ∧ covOf (st n) = .ok P ∧ cov k l.P = .ok (K, P) := by
    cases n with
    | zero =>
      have e := first_ok
      unfold firstOk at e
      rw [hs] at e
      simp only [Res.yields] at e
      have hP : l.P = k.P := h.P
      split at e
      · rename_i P hP'
        split at e
        · rename_i K hK
          exact ⟨K, P, hK, hP', by rw [hP]; exact of_decide_eq_true e⟩
        · cases e
      · cases e
    | succ n =>
      have e := step_ok n
      unfold stepOk at e
      have hP : covOf (st n) = .ok l.P := h.P
      rw [hs] at e
      simp only [Res.yields] at e
      rw [hP] at e
      simp only at e
      split at e
      · rename_i P hP'
        split at e
        · rename_i K hK
          exact ⟨K, P, hK, hP', of_decide_eq_true e⟩
        · cases e
      · cases e
  obtain ⟨K, P, hK, hP, hc⟩ := key
  unfold cov at hc
  obtain ⟨Pm, h1, hc⟩ := bind_eq_ok.1 hc
  obtain ⟨K', h2, hc⟩ := bind_eq_ok.1 hc
  obtain ⟨P', h3, hc⟩ := bind_eq_ok.1 hc
  cases hc
  exact ⟨Pm, K, P, by rw [h.A, h.Q]; exact h1, by rw [h.H, h.R]; exact h2, by rw [h.H]; exact h3, hK, hP⟩

theorem At.update {p A B H k x} (hs : setup = .ok (p, A, B, H, k, x)) {l l' : Kalman (Flt binary64) .one .one} {n : Nat}
    {v z} (h : At k l n) (hu : l.update v z = .ok l') :
    At k l' (n + 1) ∧ ∃ K, l'.K = some K ∧ gainOf (st n) = .ok K := by
  obtain ⟨Pm, K, P, h1, h2, h3, h4, h5⟩ := h.next hs
  obtain ⟨t, y, Pm', K', y', P', -, -, g1, g2, -, g3, rfl⟩ := Kalman.update_inv hu
  cases h1.symm.trans g1
  cases h2.symm.trans g2
  cases h3.symm.trans g3
  exact ⟨⟨h.A, h.B, h.H, h.Q, h.R, h.dt, h5⟩, K, rfl, h4⟩

/-- The estimator after a run. -/
theorem At.run {p A B H k x} (hs : setup = .ok (p, A, B, H, k, x)) (ds) : ∀ {l l' : Kalman (Flt binary64) .one .one} {n : Nat},
    At k l n → l.run ds = .ok l' → At k l' (n + ds.length) ∧
      (ds ≠ [] → ∃ K, l'.K = some K ∧ gainOf (st (n + ds.length - 1)) = .ok K) := by
  induction ds with
  | nil =>
    intro l l' n h hr
    cases hr
    exact ⟨h, fun h => absurd rfl h⟩
  | cons d ds ih =>
    intro l l' n h hr
    obtain ⟨l1, h1, h2⟩ := Kalman.run_cons.1 hr
    obtain ⟨g1, K, g2, g3⟩ := h.update hs h1
    obtain ⟨i1, i2⟩ := ih g1 h2
    rw [List.length_cons, show n + (ds.length + 1) = n + 1 + ds.length by omega]
    refine ⟨i1, fun _ => ?_⟩
    cases ds with
    | nil =>
      cases h2
      exact ⟨K, g2, g3⟩
    | cons d' ds => exact i2 (List.cons_ne_nil _ _)

/-- The estimator of the program, whichever allocation it is built with. -/
theorem At.start {avr : Bool} {p A B H k x l} (hs : setup = .ok (p, A, B, H, k, x)) (hl : estim avr p = .ok l) :
    At k l 0 := by
  unfold setup at hs
  obtain ⟨p', hp, hs⟩ := bind_eq_ok.1 hs
  obtain ⟨A', hA, hs⟩ := bind_eq_ok.1 hs
  obtain ⟨B', hB, hs⟩ := bind_eq_ok.1 hs
  obtain ⟨H', hH, hs⟩ := bind_eq_ok.1 hs
  obtain ⟨k', hk, hs⟩ := bind_eq_ok.1 hs
  obtain ⟨x', hx, hs⟩ := bind_eq_ok.1 hs
  cases hs
  unfold estim at hk hl
  rw [hx, bind_ok, hA, bind_ok, hB, bind_ok, hH, bind_ok] at hk hl
  obtain ⟨Q, hQ, hk⟩ := bind_eq_ok.1 hk
  obtain ⟨R, hR, hk⟩ := bind_eq_ok.1 hk
  rw [hQ, bind_ok, hR, bind_ok, bind_ok] at hl
  rw [hQ, bind_ok] at hk
  cases hk
  cases hl
  exact ⟨rfl, rfl, rfl, rfl, rfl, rfl, rfl⟩

/-! ### Exactly -/

open ErrorRun

/-- How close covariance and gain are. -/
def Near (s : Int × Int × Int × Int × Int × Int) (P : ℚ × ℚ × ℚ) : Prop :=
  |inUnits s.1 - P.1| ≤ 1 / 2 ^ 46 ∧ |inUnits s.2.1 - P.2.1| ≤ 1 / 2 ^ 49 ∧ |inUnits s.2.2.1 - P.2.1| ≤ 1 / 2 ^ 49 ∧
    |inUnits s.2.2.2.1 - P.2.2| ≤ 1 / 2 ^ 51 ∧ |inUnits s.2.2.2.2.1 - P.1 / 100| ≤ 1 / 2 ^ 52 ∧
    |inUnits s.2.2.2.2.2 - P.2.1 / 100| ≤ 1 / 2 ^ 56

instance (s P) : Decidable (Near s P) := inferInstanceAs (Decidable (_ ∧ _))

/-- The order of covariances. -/
def Below (P P' : ℚ × ℚ × ℚ) : Prop :=
  P.1 ≤ P'.1 ∧ P.2.2 ≤ P'.2.2 ∧ (P'.2.1 - P.2.1) ^ 2 ≤ (P'.1 - P.1) * (P'.2.2 - P.2.2)

instance (P P') : Decidable (Below P P') := inferInstanceAs (Decidable (_ ∧ _))

/-- Two covariances that enclose the settled one. -/
def upper : ℚ × ℚ × ℚ := (18120109316473289660407698209064218448 / 10 ^ 36,
  1809750156054992142915027878516773945 / 10 ^ 36, 380499687890015714679444242966452108 / 10 ^ 36)
def lower : ℚ × ℚ × ℚ := (18120109316473289652263698209064218448 / 10 ^ 36,
  1809750156054992142531027878516773945 / 10 ^ 36, 380499687890015714428444242966452108 / 10 ^ 36)

/-- The covariances of the list of literals against the exact ones; the last one lies between the two bounds. -/
def checkAll : List (Int × Int × Int × Int × Int × Int) → ℚ × ℚ × ℚ → Bool
  | [], P => decide (Below lower P ∧ Below P upper)
  | s :: l, P₀ => let P := covNext P₀
    decide (0 < P₀.1 + 2 * P₀.2.1 + P₀.2.2 + 1 / 100 + 100 ∧ Near s P) && checkAll l P

theorem all_ok : checkAll ((List.range 260).map st) (1 / 100, 1 / 50, 1 / 25) = true := by decide +kernel

theorem upper_ok : Below (covNext upper) upper ∧ Below lower (covNext lower) ∧
    0 < upper.1 + 2 * upper.2.1 + upper.2.2 + 1 / 100 + 100 ∧ 0 < lower.1 + 2 * lower.2.1 + lower.2.2 + 1 / 100 + 100 ∧
    0 ≤ lower.1 ∧ 0 ≤ lower.2.2 ∧ lower.2.1 ^ 2 ≤ lower.1 * lower.2.2 := by decide +kernel

theorem covSeq_succ (P : Matrix (Fin 2) (Fin 2) ℝ) (n : ℕ) :
    covSeq exact P (n + 1) = covSeq exact (covSeq exact P 1) n := by
  unfold covSeq
  rw [Nat.add_comm, KF.riccSeq_add]

theorem checkAll_spec (l) : ∀ P, checkAll l P = true →
    (∀ i (hi : i < l.length), ∃ P', covSeq exact (covMat P) (i + 1) = covMat P' ∧ Near l[i] P') ∧
    ∃ P', covSeq exact (covMat P) l.length = covMat P' ∧ Below lower P' ∧ Below P' upper := by
  induction l with
  | nil =>
    intro P h
    exact ⟨fun i hi => absurd hi (Nat.not_lt_zero i), P, rfl, of_decide_eq_true h⟩
  | cons s l ih =>
    intro P h
    simp only [checkAll, Bool.and_eq_true, decide_eq_true_eq] at h
    obtain ⟨⟨h1, h2⟩, h3⟩ := h
    obtain ⟨g1, P', g2, g3⟩ := ih _ h3
    refine ⟨fun i hi => ?_, P', ?_, g3⟩
    · cases i with
      | zero => exact ⟨covNext P, cov_next P h1, h2⟩
      | succ i =>
        obtain ⟨P', e, h⟩ := g1 i (by simpa using hi)
        exact ⟨P', by rw [covSeq_succ, cov_next P h1, e], h⟩
    · rw [List.length_cons, covSeq_succ, cov_next P h1, g2]

/-- The covariance the program starts with. -/
noncomputable def first : Matrix (Fin 2) (Fin 2) ℝ := covMat (1 / 100, 1 / 50, 1 / 25)

theorem below_psd {P P' : ℚ × ℚ × ℚ} (h : Below P P') : (covMat P' - covMat P).PosSemidef := by
  obtain ⟨h0, h1, h2⟩ := h
  have e0 : ((P.1 : ℚ) : ℝ) ≤ P'.1 := by exact_mod_cast h0
  have e1 : ((P.2.2 : ℚ) : ℝ) ≤ P'.2.2 := by exact_mod_cast h1
  have e2 : ((P'.2.1 : ℝ) - P.2.1) ^ 2 ≤ (P'.1 - P.1) * (P'.2.2 - P.2.2) := by exact_mod_cast h2
  refine KF.psd2 ?_ ?_ ?_ ?_ <;> simp [covMat] <;> assumption

theorem psd_of {P : ℚ × ℚ × ℚ} (h0 : 0 ≤ P.1) (h1 : 0 ≤ P.2.2) (h2 : P.2.1 ^ 2 ≤ P.1 * P.2.2) :
    (covMat P).PosSemidef := by
  have e0 : (0 : ℝ) ≤ P.1 := by exact_mod_cast h0
  have e1 : (0 : ℝ) ≤ P.2.2 := by exact_mod_cast h1
  have e2 : (P.2.1 : ℝ) ^ 2 ≤ P.1 * P.2.2 := by exact_mod_cast h2
  refine KF.psd2 ?_ ?_ ?_ ?_ <;> simp [covMat] <;> assumption

theorem Q_psd : (mQ exact).toMatrix.PosSemidef := mQ_psd exact
theorem R_posDef : (mR exact).toMatrix.PosDef := mR_posDef exact (by unfold exact; norm_num)
theorem first_psd : first.PosSemidef := psd_of (by norm_num) (by norm_num) (by norm_num)

/-- Between the bounds the covariance stays there. -/
theorem between (n : ℕ) : (covSeq exact first (260 + n) - covMat lower).PosSemidef ∧
    (covMat upper - covSeq exact first (260 + n)).PosSemidef := by
  obtain ⟨u1, u2, u3, u4, u5, u6, u7⟩ := upper_ok
  have hl := psd_of u5 u6 u7
  induction n with
  | zero =>
    obtain ⟨-, P', e, h1, h2⟩ := checkAll_spec _ _ all_ok
    rw [List.length_map, List.length_range] at e
    rw [Nat.add_zero, first, e]
    exact ⟨below_psd h1, below_psd h2⟩
  | succ n ih =>
    have hP : (covSeq exact first (260 + n)).PosSemidef := KF.riccSeq_psd first_psd Q_psd R_posDef _
    have hu : (covMat upper).PosSemidef := by
      have := ih.2.add hP
      rwa [sub_add_cancel] at this
    have e : covSeq exact first (260 + (n + 1)) = KF.ricc (mA exact).toMatrix mH.toMatrix (mQ exact).toMatrix
      (mR exact).toMatrix (covSeq exact first (260 + n)) := rfl
    have eu : covMat (covNext upper) = KF.ricc (mA exact).toMatrix mH.toMatrix (mQ exact).toMatrix
      (mR exact).toMatrix (covMat upper) := (cov_next upper u3).symm
    have el : covMat (covNext lower) = KF.ricc (mA exact).toMatrix mH.toMatrix (mQ exact).toMatrix
      (mR exact).toMatrix (covMat lower) := (cov_next lower u4).symm
    have m1 := KF.ricc_mono (A := (mA exact).toMatrix) (H := mH.toMatrix) hP hl Q_psd R_posDef ih.1
    have m2 := KF.ricc_mono (A := (mA exact).toMatrix) (H := mH.toMatrix) hu hP Q_psd R_posDef ih.2
    rw [← e, ← el] at m1
    rw [← e, ← eu] at m2
    have g1 := m1.add (below_psd u2)
    have g2 := m2.add (below_psd u1)
    refine ⟨?_, ?_⟩
    · convert g1 using 1; abel
    · convert g2 using 1; abel

/-- How close the literals are to the exact covariance and gain. -/
structure NearMat (s : Int × Int × Int × Int × Int × Int) (M : Matrix (Fin 2) (Fin 2) ℝ) : Prop where
  p00 : |(inUnits s.1 : ℝ) - M 0 0| ≤ 1 / 2 ^ 46
  p01 : |(inUnits s.2.1 : ℝ) - M 0 1| ≤ 1 / 2 ^ 49
  p10 : |(inUnits s.2.2.1 : ℝ) - M 1 0| ≤ 1 / 2 ^ 49
  p11 : |(inUnits s.2.2.2.1 : ℝ) - M 1 1| ≤ 1 / 2 ^ 51
  g0 : |(inUnits s.2.2.2.2.1 : ℝ) - M 0 0 / 100| ≤ 1 / 2 ^ 52
  g1 : |(inUnits s.2.2.2.2.2 : ℝ) - M 1 0 / 100| ≤ 1 / 2 ^ 56

theorem near_mat {s} {P : ℚ × ℚ × ℚ} (h : Near s P) : NearMat s (covMat P) := by
  obtain ⟨h0, h1, h2, h3, h4, h5⟩ := h
  have key {a b c : ℚ} (h : |a - b| ≤ c) : |(a : ℝ) - b| ≤ c := by exact_mod_cast h
  have k0 := key h0
  have k1 := key h1
  have k2 := key h2
  have k3 := key h3
  have k4 := key h4
  have k5 := key h5
  push_cast at k0 k1 k2 k3 k4 k5
  exact ⟨k0, k1, k2, k3, k4, k5⟩

/-- The literals of the settled covariance, between the bounds. -/
theorem settled_ok : (|inUnits (st 184).1 - lower.1| ≤ 1 / 2 ^ 47 ∧ |inUnits (st 184).1 - upper.1| ≤ 1 / 2 ^ 47) ∧
    (|inUnits (st 184).2.2.2.1 - lower.2.2| ≤ 1 / 2 ^ 52 ∧ |inUnits (st 184).2.2.2.1 - upper.2.2| ≤ 1 / 2 ^ 52) ∧
    |inUnits (st 184).2.1 - lower.2.1| ≤ 1 / 2 ^ 50 ∧ |inUnits (st 184).2.2.1 - lower.2.1| ≤ 1 / 2 ^ 50 ∧
    (|inUnits (st 184).2.2.2.2.1 - lower.1 / 100| ≤ 1 / 2 ^ 53 ∧ |inUnits (st 184).2.2.2.2.1 - upper.1 / 100| ≤ 1 / 2 ^ 53) ∧
    |inUnits (st 184).2.2.2.2.2 - lower.2.1 / 100| ≤ 1 / 2 ^ 57 ∧
    (upper.1 - lower.1) * (upper.2.2 - lower.2.2) ≤ (1 / 2 ^ 58) ^ 2 := by decide +kernel

/-- The exact covariance and gain after every number of updates. -/
theorem near_all (n : ℕ) : NearMat (st n) (covSeq exact first (n + 1)) := by
  by_cases hn : n < 260
  · obtain ⟨h, -⟩ := checkAll_spec _ _ all_ok
    obtain ⟨P', e, hN⟩ := h n (by simpa using hn)
    rw [List.getElem_map, List.getElem_range] at hN
    rw [first, e]
    exact near_mat hN
  · have hst : st n = st 184 := by
      unfold st
      rw [Nat.min_eq_right (by omega), Nat.min_self]
    rw [hst]
    obtain ⟨m, hm⟩ : ∃ m, n + 1 = 260 + m := ⟨n + 1 - 260, by omega⟩
    rw [hm]
    obtain ⟨hl, hu⟩ := between m
    have hs : covSeq exact first (260 + m) 1 0 = covSeq exact first (260 + m) 0 1 :=
      KF.symm2 (KF.riccSeq_psd first_psd Q_psd R_posDef _)
    generalize covSeq exact first (260 + m) = M at *
    have a0 := hl.diag_nonneg (i := 0)
    have a1 := hl.diag_nonneg (i := 1)
    have b0 := hu.diag_nonneg (i := 0)
    have b1 := hu.diag_nonneg (i := 1)
    have c := KF.det2_of_psd hl
    simp only [Matrix.sub_apply] at a0 a1 b0 b1 c
    have eL : covMat lower 0 0 = lower.1 ∧ covMat lower 0 1 = lower.2.1 ∧ covMat lower 1 1 = lower.2.2 := ⟨rfl, rfl, rfl⟩
    have eU : covMat upper 0 0 = upper.1 ∧ covMat upper 1 1 = upper.2.2 := ⟨rfl, rfl⟩
    rw [eL.1, eL.2.2, eL.2.1] at c
    rw [eL.1] at a0
    rw [eL.2.2] at a1
    rw [eU.1] at b0
    rw [eU.2] at b1
    obtain ⟨⟨s1, s2⟩, ⟨s3, s4⟩, s5, s6, ⟨s7, s8⟩, s9, s10⟩ := settled_ok
    have key {a b c : ℚ} (h : |a - b| ≤ c) : |(a : ℝ) - b| ≤ c := by exact_mod_cast h
    have k1 := key s1
    have k2 := key s2
    have k3 := key s3
    have k4 := key s4
    have k5 := key s5
    have k6 := key s6
    have k7 := key s7
    have k8 := key s8
    have k9 := key s9
    have k10 : ((upper.1 : ℝ) - lower.1) * (upper.2.2 - lower.2.2) ≤ (1 / 2 ^ 58) ^ 2 := by
      have := (Rat.cast_le (K := ℝ)).2 s10
      push_cast at this
      exact this
    push_cast at k1 k2 k3 k4 k5 k6 k7 k8 k9
    have off : |M 0 1 - lower.2.1| ≤ 1 / 2 ^ 58 := by
      apply abs_le_of_sq_le_sq _ (by positivity)
      exact c.trans ((mul_le_mul (by linarith) (by linarith) (by linarith) (by linarith)).trans k10)
    rw [abs_le] at *
    constructor <;> try rw [hs]
    all_goals rw [abs_le]
    all_goals constructor
    all_goals linarith [show (1 : ℝ) / 2 ^ 46 = 2 * (1 / 2 ^ 47) by norm_num, show (1 : ℝ) / 2 ^ 52 = 2 * (1 / 2 ^ 53) by norm_num,
      show (1 : ℝ) / 2 ^ 49 = 2 * (1 / 2 ^ 50) by norm_num, show (1 : ℝ) / 2 ^ 51 = 2 * (1 / 2 ^ 52) by norm_num,
      show (1 : ℝ) / 2 ^ 56 = 2 * (1 / 2 ^ 57) by norm_num, show (1 : ℝ) / 2 ^ 58 ≤ 1 / 2 ^ 57 by norm_num,
      show (1 : ℝ) / 2 ^ 58 ≤ 1 / 2 ^ 50 by norm_num,  show (0 : ℝ) < 1 / 2 ^ 58 by norm_num]

/-! ### The literals are numbers of the format -/

theorem literals_ok : (states.all fun s => Res.yields (unit s.1) (fun x => decide (x.val = inUnits s.1)) &&
    Res.yields (unit s.2.1) (fun x => decide (x.val = inUnits s.2.1)) &&
    Res.yields (unit s.2.2.1) (fun x => decide (x.val = inUnits s.2.2.1)) &&
    Res.yields (unit s.2.2.2.1) (fun x => decide (x.val = inUnits s.2.2.2.1)) &&
    Res.yields (unit s.2.2.2.2.1) (fun x => decide (x.val = inUnits s.2.2.2.2.1)) &&
    Res.yields (unit s.2.2.2.2.2) (fun x => decide (x.val = inUnits s.2.2.2.2.2))) = true := by decide +kernel

private theorem lit_val {n : Int} {x : Flt binary64}
    (h : Res.yields (unit n) (fun x => decide (x.val = inUnits n)) = true) (hx : unit n = .ok x) : x.val = inUnits n := by
  rw [hx] at h
  exact of_decide_eq_true h

theorem st_mem (n : ℕ) : st n ∈ states := by
  unfold st
  have hl : states.length = 185 := rfl
  have h : min n 184 < states.length := by omega
  rw [List.getD_eq_getElem?_getD, List.getElem?_eq_getElem h, Option.getD_some]
  exact List.getElem_mem h

theorem cov_val {n : ℕ} {P : Mat (Flt binary64) 2 2} (h : covOf (st n) = .ok P) :
    (P.get 0 0).val = inUnits (st n).1 ∧ (P.get 0 1).val = inUnits (st n).2.1 ∧ (P.get 1 0).val = inUnits (st n).2.2.1 ∧
      (P.get 1 1).val = inUnits (st n).2.2.2.1 := by
  have hx := List.all_eq_true.1 literals_ok _ (st_mem n)
  simp only [Bool.and_eq_true] at hx
  obtain ⟨⟨⟨⟨⟨h0, h1⟩, h2⟩, h3⟩, -⟩, -⟩ := hx
  unfold covOf at h
  obtain ⟨p0, e0, h⟩ := bind_eq_ok.1 h
  obtain ⟨p1, e1, h⟩ := bind_eq_ok.1 h
  obtain ⟨p2, e2, h⟩ := bind_eq_ok.1 h
  obtain ⟨p3, e3, h⟩ := bind_eq_ok.1 h
  cases h
  exact ⟨lit_val h0 e0, lit_val h1 e1, lit_val h2 e2, lit_val h3 e3⟩

theorem gain_val {n : ℕ} {K : Mat (Flt binary64) 2 1} (h : gainOf (st n) = .ok K) :
    ∃ g0 g1, K = ⟨#v[g0, g1]⟩ ∧ g0.val = inUnits (st n).2.2.2.2.1 ∧ g1.val = inUnits (st n).2.2.2.2.2 := by
  have hx := List.all_eq_true.1 literals_ok _ (st_mem n)
  simp only [Bool.and_eq_true] at hx
  obtain ⟨⟨⟨⟨⟨-, -⟩, -⟩, -⟩, h4⟩, h5⟩ := hx
  unfold gainOf at h
  obtain ⟨g0, e0, h⟩ := bind_eq_ok.1 h
  obtain ⟨g1, e1, h⟩ := bind_eq_ok.1 h
  cases h
  exact ⟨g0, g1, rfl, lit_val h4 e0, lit_val h5 e1⟩

/-! ### The simulation -/

theorem step_update {T : Type} [CNum T] [CLit T] {p : Params T} {A B H} {k : Kalman T .one .one} {x g s}
    (h : step p A B H k x g = .ok s) : (∃ v z, k.update v z = .ok s.1) ∧ ∃ K, s.1.K = some K ∧
      K.idx 0 = .ok s.2.2.posgain ∧ K.idx 1 = .ok s.2.2.velgain ∧ s.1.P.idx 0 = .ok s.2.2.posecov ∧
      s.1.P.idx 1 = .ok s.2.2.velecov := by
  unfold step at h
  obtain ⟨a, -, h⟩ := bind_eq_ok.1 h
  obtain ⟨v, -, h⟩ := bind_eq_ok.1 h
  obtain ⟨a, -, h⟩ := bind_eq_ok.1 h
  obtain ⟨a, -, h⟩ := bind_eq_ok.1 h
  obtain ⟨a, -, h⟩ := bind_eq_ok.1 h
  obtain ⟨a, -, h⟩ := bind_eq_ok.1 h
  obtain ⟨a, -, h⟩ := bind_eq_ok.1 h
  obtain ⟨a, -, h⟩ := bind_eq_ok.1 h
  obtain ⟨a, -, h⟩ := bind_eq_ok.1 h
  obtain ⟨z, -, h⟩ := bind_eq_ok.1 h
  obtain ⟨k', hk, h⟩ := bind_eq_ok.1 h
  obtain ⟨K, hK, h⟩ := bind_eq_ok.1 h
  obtain ⟨a, -, h⟩ := bind_eq_ok.1 h
  obtain ⟨a, -, h⟩ := bind_eq_ok.1 h
  obtain ⟨g0, h0, h⟩ := bind_eq_ok.1 h
  obtain ⟨c0, h1, h⟩ := bind_eq_ok.1 h
  obtain ⟨a, -, h⟩ := bind_eq_ok.1 h
  obtain ⟨a, -, h⟩ := bind_eq_ok.1 h
  obtain ⟨g1, h2, h⟩ := bind_eq_ok.1 h
  obtain ⟨c1, h3, h⟩ := bind_eq_ok.1 h
  cases h
  refine ⟨⟨_, _, hk⟩, K, ?_, h0, h2, h1, h3⟩
  unfold Kalman.kalman_gain at hK
  split at hK
  · cases hK
  · rename_i K' e
    cases hK
    exact e

theorem loop_rows {p A B H k x} (hs : setup = .ok (p, A, B, H, k, x)) (gs) : ∀ {l y rs n}, At k l n →
    loop p A B H l y gs = .ok rs → ∀ j (hj : j < rs.length), ∃ P K, covOf (st (n + j)) = .ok P ∧
      gainOf (st (n + j)) = .ok K ∧ K.idx 0 = .ok rs[j].posgain ∧ K.idx 1 = .ok rs[j].velgain ∧
      P.idx 0 = .ok rs[j].posecov ∧ P.idx 1 = .ok rs[j].velecov := by
  induction gs with
  | nil =>
    intro l y rs n h e
    cases e
    exact fun j hj => absurd hj (Nat.not_lt_zero j)
  | cons g gs ih =>
    intro l y rs n h e
    rw [loop] at e
    obtain ⟨s, hs1, e⟩ := bind_eq_ok.1 e
    obtain ⟨rs', h', e⟩ := bind_eq_ok.1 e
    cases e
    obtain ⟨⟨v, z, hu⟩, K, hK, r⟩ := step_update hs1
    obtain ⟨h1, K', hK', hG⟩ := h.update hs hu
    cases hK.symm.trans hK'
    intro j hj
    cases j with
    | zero => exact ⟨s.1.P, K, h1.P, hG, r⟩
    | succ j =>
      have := ih h1 h' j (by simpa using hj)
      rw [show n + (j + 1) = n + 1 + j by omega]
      exact this

end SettledRun
end Verif
