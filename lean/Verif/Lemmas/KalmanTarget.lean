import Verif.Model.KalmanTarget
import Verif.Spec.Decoupled
import Verif.Lemmas.Decoupled
import Verif.Lemmas.KalmanTargetEternal

/-
The loop of example/avr/avr-kalman-sim.e.cpp (for C156).
-/

namespace Verif
open KalmanSim Ieee

namespace TargetLoop

variable {T : Type} [CNum T] [CLit T] [ZeroExact T]

/-- Estimator and simulation have the same matrices and the same state. -/
structure Same (A : Mat T 2 2) (B : Mat T 2 1) (H : Mat T 1 2) (k : Kalman T .one .one) (x : ColVec T 2) : Prop where
  A : k.A = A
  B : k.B = B
  H : k.H = H
  x : k.xhat = x

omit [CLit T] in
theorem correct_same (hs : ∀ a : T, CNum.sub a a = .ok CNum.zero) {x : ColVec T 2} {K : Mat T 2 1} {H : Mat T 1 2} {z : T}
    (h : H.dot x = .ok z) : Kalman.correctState .one x K H (Mat.fill 1 1 z) = .ok x := by
  unfold Kalman.correctState
  simp only
  have e : (Mat.fill 1 1 z : Mat T 1 1).sub11s z = .ok CNum.zero := hs z
  rw [h, bind_ok]
  rw [show Mat.sub11s (Mat.fill 1 1 z : Mat T 1 1) z = _ from e, bind_ok]
  have m : K.mulS CNum.zero = .ok (⟨#v[CNum.zero, CNum.zero]⟩ : Mat T 2 1) := by
    rw [Mat.col_entries K]
    simp [Mat.mulS, Mat.size, forRange, Mat.setIdx, Mat.set2, Mat.set1, Mat.at2, Mat.at1, Mat.idx, bind,
      Except.bind, ZeroExact.mul_zero, Mat.rows, Mat.columns, Mat.fill]
    rfl
  rw [m, bind_ok, Mat.col_entries x, Mat.col_add]
  simp [ZeroExact.add_zero, Except.bind]

theorem Same.pass (hs : ∀ a : T, CNum.sub a a = .ok CNum.zero) {A B H} {k k' : Kalman T .one .one} {x x'}
    (h : Same A B H k x) (hp : KalmanTarget.pass A B H k x = .ok (k', x')) : Same A B H k' x' := by
  unfold KalmanTarget.pass at hp
  obtain ⟨u, hu, hp⟩ := bind_eq_ok.1 hp
  obtain ⟨a, ha, hp⟩ := bind_eq_ok.1 hp
  obtain ⟨y, hy, hp⟩ := bind_eq_ok.1 hp
  obtain ⟨b, hb, hp⟩ := bind_eq_ok.1 hp
  obtain ⟨c, hc, hp⟩ := bind_eq_ok.1 hp
  obtain ⟨z, hz, hp⟩ := bind_eq_ok.1 hp
  obtain ⟨l, hl, hp⟩ := bind_eq_ok.1 hp
  cases hp
  obtain ⟨t, s, P, K, s', P', -, h1, -, -, h2, -, rfl⟩ := Kalman.update_inv hl
  unfold Kalman.predictState Kalman.control at h1
  simp only at h1
  rw [h.A, h.B, h.x, hy, bind_ok] at h1
  obtain ⟨b', hb', h1⟩ := bind_eq_ok.1 h1
  cases hb'.symm.trans hb
  cases h1.symm.trans hc
  rw [h.H] at h2
  cases (correct_same hs hz).symm.trans h2
  exact ⟨h.A, h.B, h.H, rfl⟩

theorem Same.loop (hs : ∀ a : T, CNum.sub a a = .ok CNum.zero) {A B H} (n : ℕ) :
    ∀ {k k' : Kalman T .one .one} {x x'}, Same A B H k x → KalmanTarget.loop A B H n k x = .ok (k', x') →
      Same A B H k' x' := by
  induction n with
  | zero =>
    intro k k' x x' h e
    cases e
    exact h
  | succ n ih =>
    intro k k' x x' h e
    unfold KalmanTarget.loop at e
    obtain ⟨⟨l, y⟩, hl, e⟩ := bind_eq_ok.1 e
    exact ih (h.pass hs hl) e

omit [ZeroExact T] in
theorem Same.start {avr : Bool} {p : Params T} {A B H x k} (hA : sysA p = .ok A) (hB : sysB p = .ok B) (hH : sysH = .ok H)
    (hx : KalmanSim.start = .ok x) (hk : estim avr p = .ok k) : Same A B H k x := by
  unfold estim at hk
  rw [hx, bind_ok, hA, bind_ok, hB, bind_ok, hH, bind_ok] at hk
  obtain ⟨_, -, hk⟩ := bind_eq_ok.1 hk
  obtain ⟨_, -, hk⟩ := bind_eq_ok.1 hk
  obtain ⟨_, -, hk⟩ := bind_eq_ok.1 hk
  cases hk
  exact ⟨rfl, rfl, rfl, rfl⟩

/-! ### 32-bit floating point -/

open TargetRun

theorem one_lit : (CLit.lit 1 : Res D) = .ok CNum.one := by
  show Flt.ofRat binary32 ((1 : ℤ) : ℚ) = _
  rw [Int.cast_one]
  exact Flt.ofRat_val (CNum.one : D)

theorem big : (2 : ℚ) ^ 50 ≤ binary32.max := by decide +kernel

theorem add_up {a b : D} {X : ℚ} (ha : 0 ≤ a.val) (hb : 0 ≤ b.val) (h : a.val + b.val ≤ X) (hX : X ≤ 2 ^ 50) :
    ∃ s, CNum.add a b = .ok s ∧ s.val = rnd binary32 (a.val + b.val) ∧ 0 ≤ s.val ∧ s.val ≤ rnd binary32 X := by
  obtain ⟨s, hs, hv⟩ := Flt.ofRat_ok (f := binary32) (x := a.val + b.val) (by
    rw [abs_of_nonneg (by linarith)]
    exact (h.trans hX).trans big)
  refine ⟨s, hs, hv, ?_, ?_⟩
  · rw [hv]
    exact rnd_nonneg binary32 (by linarith)
  · rw [hv]
    exact rnd_mono binary32 h

/-- One pass of the simulated system. -/
theorem system_ops {x0 x1 half : D} (hh : half.val = 1 / 2) (h0 : 0 ≤ x0.val ∧ x0.val ≤ 2 ^ 48) (h1 : 0 ≤ x1.val ∧ x1.val ≤ 2 ^ 24) :
    ∃ s y0 y1, CNum.add x0 x1 = .ok s ∧ CNum.add s half = .ok y0 ∧ CNum.add x1 (CNum.one : D) = .ok y1 ∧
      y0.val = rnd binary32 (rnd binary32 (x0.val + x1.val) + 1 / 2) ∧ y1.val = rnd binary32 (x1.val + 1) ∧
      (0 ≤ y0.val ∧ y0.val ≤ 2 ^ 48) ∧ (0 ≤ y1.val ∧ y1.val ≤ 2 ^ 24) := by
  have e1 : (CNum.one : D).val = 1 := rfl
  obtain ⟨s, hs, vs, ps, bs⟩ := add_up h0.1 h1.1 (X := 2 ^ 48 + 2 ^ 24) (by linarith [h0.2, h1.2]) (by norm_num)
  rw [show rnd binary32 (2 ^ 48 + 2 ^ 24) = 2 ^ 48 by decide +kernel] at bs
  obtain ⟨y0, hy0, v0, p0, b0⟩ := add_up ps (b := half) (by rw [hh]; norm_num) (X := 2 ^ 48 + 1 / 2)
    (by rw [hh]; linarith) (by norm_num)
  rw [show rnd binary32 (2 ^ 48 + 1 / 2) = 2 ^ 48 by decide +kernel] at b0
  obtain ⟨y1, hy1, v1, p1, b1⟩ := add_up h1.1 (b := CNum.one) (by rw [e1]; norm_num) (X := 2 ^ 24 + 1)
    (by rw [e1]; linarith [h1.2]) (by norm_num)
  rw [show rnd binary32 (2 ^ 24 + 1) = 2 ^ 24 by decide +kernel] at b1
  exact ⟨s, y0, y1, hs, hy0, hy1, by rw [v0, vs, hh], by rw [v1, e1], ⟨p0, b0⟩, p1, b1⟩

/-- Position and velocity of the simulated system in 32-bit floating point. -/
def sim : ℕ → ℚ × ℚ
  | 0 => (0, 0)
  | n + 1 => let x := sim n
    (rnd binary32 (rnd binary32 (x.1 + x.2) + 1 / 2), rnd binary32 (x.2 + 1))

theorem main_ok {p} (hp : constants binary32 = .ok p) (avr : Bool) (n : ℕ) : ∃ k, ∃ x0 x1 : D,
    KalmanTarget.main avr p n = .ok (k, (⟨#v[x0, x1]⟩ : Mat D 2 1)) ∧ (x0.val, x1.val) = sim n ∧
      x0.val ≤ 2 ^ 48 ∧ x1.val ≤ 2 ^ 24 := by
  obtain ⟨p', A, B, H, k₀, half, hs, hp', hh, hA, hB, hH, hdt, hk⟩ := parts
  cases hp'.symm.trans hp
  obtain ⟨k, hk⟩ := hk avr
  obtain ⟨l, hl, -⟩ := estim_eq avr ErrorRun.exact
  have T0 := Track.start (half := half) (M := 2 ^ 48) hs hk hl
  have hs' := hs
  unfold setup at hs'
  obtain ⟨_, hp'', hs'⟩ := bind_eq_ok.1 hs'
  cases hp''.symm.trans hp
  obtain ⟨A', sA, hs'⟩ := bind_eq_ok.1 hs'
  obtain ⟨B', sB, hs'⟩ := bind_eq_ok.1 hs'
  obtain ⟨H', sH, hs'⟩ := bind_eq_ok.1 hs'
  obtain ⟨k', sk, hs'⟩ := bind_eq_ok.1 hs'
  obtain ⟨x', sx, hs'⟩ := bind_eq_ok.1 hs'
  injection hs' with e
  injection e with e1 e
  injection e with e2 e
  injection e with e3 e
  injection e with e4 e
  injection e with e5 e6
  subst e2 e3 e4 e5 e6
  have S := Same.start sA sB sH sx sk
  unfold KalmanTarget.main
  rw [sA, bind_ok, sB, bind_ok, sH, bind_ok, hk, bind_ok, sx, bind_ok, ← S.A, ← S.B, ← S.H, hA, hB, hH]
  clear hp'
  have M0 : Mid (136 * 2 ^ 48) := ⟨le_trans (one_div_le_one_div_of_le one_pos (one_le_pow₀ one_le_two)) (by norm_num),
    by norm_num⟩
  suffices G : ∀ n m (k : Kalman D .one .one) (l : Kalman ℝ .one .one) (x0 x1 : D), Track half (2 ^ 48) k' k l m →
      (x0.val, x1.val) = sim m → 0 ≤ x0.val → x0.val ≤ 2 ^ 48 → 0 ≤ x1.val → x1.val ≤ 2 ^ 24 →
      ∃ k'' : Kalman D .one .one, ∃ y0 y1 : D, KalmanTarget.loop (Mat.mk22 CNum.one CNum.one CNum.zero CNum.one) (⟨#v[half, CNum.one]⟩ : Mat D 2 1) hPos n k
        (⟨#v[x0, x1]⟩ : Mat D 2 1) = .ok (k'', (⟨#v[y0, y1]⟩ : Mat D 2 1)) ∧ (y0.val, y1.val) = sim (m + n) ∧
          y0.val ≤ 2 ^ 48 ∧ y1.val ≤ 2 ^ 24 by
    obtain ⟨k'', y0, y1, h1, h2, h3⟩ := G n 0 k l CNum.zero CNum.zero T0 rfl le_rfl (by show (0 : ℚ) ≤ _; norm_num) le_rfl
      (by show (0 : ℚ) ≤ _; norm_num)
    exact ⟨k'', y0, y1, h1, by rw [h2, Nat.zero_add], h3⟩
  intro n
  induction n with
  | zero =>
    intro m k l x0 x1 _ hx _ b0 _ b1
    exact ⟨k, x0, x1, rfl, hx, b0, b1⟩
  | succ n ih =>
    intro m k l x0 x1 ht hx a0 b0 a1 b1
    obtain ⟨s, y0, y1, c1, c2, c3, v0, v1, q0, q1⟩ := system_ops hh ⟨a0, b0⟩ ⟨a1, b1⟩
    obtain ⟨k1, l1, u1, -, ht1⟩ := ht.step hh M0 hs hA hB hH hdt (v := CNum.one) (z := y0)
      (by
        have : (CNum.one : D).val = 1 := rfl
        rw [r, this, Rat.cast_one, abs_one]; norm_num)
      (by
        have h2 := (Rat.cast_le (K := ℝ)).2 q0.2
        have h1 := (Rat.cast_le (K := ℝ)).2 q0.1
        push_cast at h1 h2
        rw [r, abs_of_nonneg h1]; exact h2)
    have hx1 : (y0.val, y1.val) = sim (m + 1) := by
      rw [sim, ← hx, v0, v1]
    obtain ⟨k2, z0, z1, g1, g2, g3⟩ := ih (m + 1) k1 l1 y0 y1 ht1 hx1 q0.1 q0.2 q1.1 q1.2
    refine ⟨k2, z0, z1, ?_, by rw [g2, Nat.add_right_comm, Nat.add_assoc], g3⟩
    rw [KalmanTarget.loop]
    have hpass : KalmanTarget.pass (Mat.mk22 CNum.one CNum.one CNum.zero CNum.one) (⟨#v[half, CNum.one]⟩ : Mat D 2 1) hPos k
        (⟨#v[x0, x1]⟩ : Mat D 2 1) = .ok (k1, (⟨#v[y0, y1]⟩ : Mat D 2 1)) := by
      unfold KalmanTarget.pass
      rw [one_lit, bind_ok, show Mat.ofList 1 1 [(CNum.one : D)] = .ok (⟨#v[CNum.one]⟩ : Mat D 1 1) from rfl, bind_ok,
        ErrorRun.mulVec_trans c1, bind_ok, TargetRun.mulM11_vec (Flt.mul_one' half) (Flt.mul_one' CNum.one), bind_ok,
        ErrorRun.add_vec c2 c3, bind_ok, ErrorRun.dot_pos, bind_ok]
      rw [show (Mat.fill 1 1 y0 : Mat D 1 1) = ⟨#v[y0]⟩ from rfl, u1, bind_ok]
    rw [hpass, bind_ok]
    exact g1

/-- Halves up to `2 ^ 23` are not rounded. -/
theorem rnd_half {m : ℕ} (hm : m ≤ 2 ^ 24) : rnd binary32 ((m : ℚ) / 2) = (m : ℚ) / 2 := by
  have key : ∃ n e : ℤ, |n| < 2 ^ binary32.p ∧ binary32.q ≤ e ∧ (m : ℚ) / 2 = n * 2 ^ e := by
    rcases Nat.lt_or_eq_of_le hm with h | rfl
    · refine ⟨m, -1, ?_, by decide, ?_⟩
      · rw [Nat.abs_cast]
        exact_mod_cast h
      · rw [Int.cast_natCast, zpow_neg_one, div_eq_mul_inv]
    · exact ⟨1, 23, by decide, by decide, by norm_num⟩
  have := rnd_nearest binary32 ((m : ℚ) / 2) _ key
  rw [sub_self, abs_zero] at this
  exact sub_eq_zero.1 (abs_nonpos_iff.1 this)

/-- Whole numbers up to `2 ^ 24` are not rounded. -/
theorem rnd_whole {m : ℕ} (hm : m ≤ 2 ^ 24) : rnd binary32 (m : ℚ) = m := by
  have key : ∃ n e : ℤ, |n| < 2 ^ binary32.p ∧ binary32.q ≤ e ∧ (m : ℚ) = n * 2 ^ e := by
    rcases Nat.lt_or_eq_of_le hm with h | rfl
    · refine ⟨m, 0, ?_, by decide, ?_⟩
      · rw [Nat.abs_cast]
        exact_mod_cast h
      · rw [Int.cast_natCast, zpow_zero, mul_one]
    · exact ⟨1, 24, by decide, by decide, by norm_num⟩
  have := rnd_nearest binary32 (m : ℚ) _ key
  rw [sub_self, abs_zero] at this
  exact sub_eq_zero.1 (abs_nonpos_iff.1 this)

/-- Up to 4096 passes nothing is rounded. -/
theorem sim_exact (n : ℕ) (hn : n ≤ 4096) : sim n = ((n : ℚ) ^ 2 / 2, (n : ℚ)) := by
  induction n with
  | zero => simp [sim]
  | succ n ih =>
    rw [sim, ih (by omega)]
    have hq : (n + 1) ^ 2 ≤ 2 ^ 24 := (Nat.pow_le_pow_left hn 2).trans (by norm_num)
    have h1 := rnd_half (m := n ^ 2 + 2 * n) (le_trans (by rw [add_sq]; omega) hq)
    have h2 := rnd_half hq
    have h3 := rnd_whole (m := n + 1) (hn.trans (by norm_num))
    rw [Nat.cast_add, Nat.cast_pow, Nat.cast_mul, Nat.cast_two] at h1
    rw [Nat.cast_pow, Nat.cast_add, Nat.cast_one] at h2
    rw [Nat.cast_add, Nat.cast_one] at h3
    simp only
    rw [show (n : ℚ) ^ 2 / 2 + n = (n ^ 2 + 2 * n) / 2 by ring, h1,
      show ((n : ℚ) ^ 2 + 2 * n) / 2 + 1 / 2 = (n + 1) ^ 2 / 2 by ring, h2, h3, Nat.cast_add, Nat.cast_one]

/-- The velocity grows up to `2 ^ 24`. -/
theorem sim_vel (n : ℕ) : (sim n).2 = (min n (2 ^ 24) : ℕ) := by
  induction n with
  | zero => simp [sim]
  | succ n ih =>
    rw [sim]
    simp only
    rw [ih]
    rcases Nat.lt_or_ge n (2 ^ 24) with h | h
    · have h3 := rnd_whole (m := n + 1) h
      rw [Nat.cast_add, Nat.cast_one] at h3
      rw [Nat.min_eq_left h.le, h3, Nat.min_eq_left h, Nat.cast_succ]
    · rw [Nat.min_eq_right h, Nat.min_eq_right (h.trans (Nat.le_succ n)), Nat.cast_pow, Nat.cast_ofNat]
      decide +kernel

/-- The first rounding. -/
theorem sim_rounds : (sim 4097).1 ≠ (4097 : ℚ) ^ 2 / 2 := by
  have h := sim_exact 4096 le_rfl
  rw [sim, h]
  decide +kernel

end TargetLoop
end Verif
