import Verif.Lemmas.KalmanFloat
import Verif.Props.Kalman
import Verif.Props.Rounding
import Verif.Model.KalmanSimOutput

/-
Properties C101-C104: the library computed in `double` or `float`, as IEEE 754 prescribes.
-/

namespace Verif
open Ieee Sig
variable {f : Format}

/-! ## C101 Floating point -/

/-- C101: sums, differences, products and quotients are correctly rounded, to nearest and even, and
overflow exactly from half a unit beyond the largest number. -/
theorem C101_correctly_rounded (a b : Flt f) :
    Correct f (a.val + b.val) (CNum.add a b) ∧ Correct f (a.val - b.val) (CNum.sub a b) ∧
      Correct f (a.val * b.val) (CNum.mul a b) ∧
      (b.val ≠ 0 → Correct f (a.val / b.val) (CNum.div a b)) ∧
      (b.val = 0 → CNum.div a b = .error .divByZero) := by
  refine ⟨Flt.ofRat_correct _, Flt.ofRat_correct _, Flt.ofRat_correct _, fun h => ?_, fun h => if_pos h⟩
  show Correct f _ (if b.val = 0 then _ else _)
  rw [if_neg h]
  exact Flt.ofRat_correct _

/-- C101: the result of rounding is unique, so this determines the arithmetic. -/
theorem C101_unique {x : ℚ} {c d : Flt f} (hc : RoundsTo f x c) (hd : RoundsTo f x d) : c = d := by
  by_contra hne
  have hv : d.val ≠ c.val := fun h => hne (by cases c; cases d; cases h; rfl)
  have e := le_antisymm (hd.nearest c) (hc.nearest d)
  obtain ⟨m, i, h1, h2⟩ := hc.even d hv e
  obtain ⟨n, j, h3, h4⟩ := hd.even c (Ne.symm hv) e.symm
  rw [abs_sub_comm, h2] at h4
  have hij : i = j := zpow_right_injective₀ (by norm_num) (by norm_num) h4
  subst hij
  have hg : (0 : ℚ) < 2 ^ i := zpow_pos (by norm_num) _
  have e2 : d.val - c.val = ((2 * (n - m) : ℤ) : ℚ) * 2 ^ i := by rw [h1, h3]; push_cast; ring
  rw [e2, abs_mul, abs_of_pos hg] at h2
  have h5 : |((2 * (n - m) : ℤ) : ℚ)| = 1 := by
    have := mul_right_cancel₀ hg.ne' (h2.trans (one_mul _).symm)
    exact this
  have h6 : |2 * (n - m)| = 1 := by exact_mod_cast h5
  rcases abs_cases (2 * (n - m)) with ⟨e, -⟩ | ⟨e, -⟩ <;> omega

/-- C101: hence every format has arithmetic with rounding as C84, C86 and C88 require, with relative error
`2^-p`, and absolute error half the least positive number; no reservation about underflow. -/
theorem C101_standard_model (f : Format) :
    Rounding (Flt f) (fun x => (x.val : ℝ)) (1 / 2 ^ f.p) (2 ^ f.q / 2) (f.max : ℚ) := Flt.rounding f

/-- 0.1 and 0.2 are rounded; their sum is not the number nearest to 0.3. -/
example : ∃ a b c d : Flt binary64, RoundsTo _ (1 / 10) a ∧ RoundsTo _ (2 / 10) b ∧ RoundsTo _ (3 / 10) c ∧
    CNum.add a b = .ok d ∧ d ≠ c := by
  obtain ⟨a, ea, ha⟩ := (Flt.ofRat_correct (f := binary64) (1 / 10)).1 (by decide +kernel)
  obtain ⟨b, eb, hb⟩ := (Flt.ofRat_correct (f := binary64) (2 / 10)).1 (by decide +kernel)
  obtain ⟨c, ec, hc⟩ := (Flt.ofRat_correct (f := binary64) (3 / 10)).1 (by decide +kernel)
  have h : Res.yields (do
      let a ← Flt.ofRat binary64 (1 / 10)
      let b ← Flt.ofRat binary64 (2 / 10)
      let c ← Flt.ofRat binary64 (3 / 10)
      let d ← CNum.add a b
      .ok (d, c)) (fun r => r.1 != r.2) = true := by decide +kernel
  rw [ea, eb, ec] at h
  simp only [bind_ok] at h
  obtain ⟨r, h1, h2⟩ := Res.of_yields h
  obtain ⟨d, h3, h4⟩ := bind_eq_ok.1 h1
  cases h4
  exact ⟨a, b, c, d, ha, hb, hc, h3, by simpa using h2⟩

/-! ## C102 The covariance in floating point -/

open Kalman KalmanSim

/-- C102: in exact arithmetic the covariance stays symmetric (C14).  In `float` (`double` on AVR) the first
update of the simulation in the repository makes it asymmetric already. -/
theorem C102_symmetric_wrong : ∃ (p : Params (Flt binary32)) (k k' : Kalman (Flt binary32) .one .one),
    p.dt.val = 1 ∧ p.measnoise.val = 10 ∧ RoundsTo _ (1 / 5) p.accelnoise ∧ estim true p = .ok k ∧
      k.P.get 0 1 = k.P.get 1 0 ∧
      k.update (.fill 1 1 CNum.one) (.fill 1 1 CNum.zero) = .ok k' ∧
      k'.estimation_error_covariance.get 0 1 ≠ k'.estimation_error_covariance.get 1 0 := by
  obtain ⟨a, ea, ha⟩ := (Flt.ofRat_correct (f := binary32) (1 / 5)).1 (by decide +kernel)
  have h : Res.yields (do
      let a ← Flt.ofRat binary32 (1 / 5)
      let k ← estim true ⟨.lit _ 1 0 (by decide +kernel), .lit _ 10 0 (by decide +kernel), a⟩
      let k' ← k.update (.fill 1 1 CNum.one) (.fill 1 1 CNum.zero)
      .ok (k, k')) (fun r => r.1.P.get 0 1 == r.1.P.get 1 0 && r.2.P.get 0 1 != r.2.P.get 1 0) = true := by
    decide +kernel
  rw [ea] at h
  simp only [bind_ok] at h
  obtain ⟨r, h1, h2⟩ := Res.of_yields h
  obtain ⟨k, hk, h1⟩ := bind_eq_ok.1 h1
  obtain ⟨k', hk', h1⟩ := bind_eq_ok.1 h1
  cases h1
  rw [Bool.and_eq_true] at h2
  exact ⟨_, k, k', by norm_num [Flt.lit], by norm_num [Flt.lit], ha, hk, by simpa using h2.1, hk',
    by simpa [estimation_error_covariance] using h2.2⟩

/-- C102: and in exact arithmetic variances stay nonnegative (C14).  In `double` a variance may become
negative: `H = [7 0]`, variances 5 and 1, no process noise, measurement variance `10^-16`. -/
theorem C102_nonnegative_wrong : ∃ (k k' : Kalman (Flt binary64) .one .one),
    (k.A.get 0 0).val = 1 ∧ (k.A.get 0 1).val = 0 ∧ (k.A.get 1 0).val = 0 ∧ (k.A.get 1 1).val = 1 ∧
      (k.H.get 0 0).val = 7 ∧ (k.H.get 0 1).val = 0 ∧ (∀ i j, (k.Q.get i j).val = 0) ∧
      RoundsTo _ (1 / 10 ^ 16) (k.R.get 0 0) ∧ (k.P.get 0 0).val = 5 ∧ (k.P.get 0 1).val = 0 ∧
      (k.P.get 1 0).val = 0 ∧ (k.P.get 1 1).val = 1 ∧
      k.update (.fill 1 1 CNum.zero) (.fill 1 1 CNum.zero) = .ok k' ∧
      (k'.estimation_error_covariance.get 0 0).val < 0 := by
  obtain ⟨r, er, hr⟩ := (Flt.ofRat_correct (f := binary64) (1 / 10 ^ 16)).1 (by decide +kernel)
  let o : Flt binary64 := CNum.zero
  let i : Flt binary64 := CNum.one
  let k : Flt binary64 → Kalman (Flt binary64) .one .one := fun r =>
    init false i (.mk22 i o o i) (.fill 2 1 o) ⟨#v[.lit _ 7 0 (by decide +kernel), o]⟩ (.fill 2 2 o) (.fill 1 1 r)
      (.mk22 (.lit _ 5 0 (by decide +kernel)) o o i) (.fill 2 1 o)
  have h : Res.yields (do
      let r ← Flt.ofRat binary64 (1 / 10 ^ 16)
      (k r).update (.fill 1 1 CNum.zero) (.fill 1 1 CNum.zero)) (fun r => decide ((r.P.get 0 0).val < 0)) = true := by
    decide +kernel
  rw [er] at h
  simp only [bind_ok] at h
  obtain ⟨k', h1, h2⟩ := Res.of_yields h
  refine ⟨k r, k', rfl, rfl, rfl, rfl, ?_, rfl, ?_, hr, ?_, rfl, rfl, rfl, h1,
    by simpa [estimation_error_covariance] using h2⟩
  · show (7 : ℤ) * (2 : ℚ) ^ (0 : ℤ) = 7
    norm_num
  · intro i j
    fin_cases i <;> fin_cases j <;> rfl
  · show (5 : ℤ) * (2 : ℚ) ^ (0 : ℤ) = 5
    norm_num

/-- C102: what holds in every format, if the position is measured (`H = [1 0]`, as in the simulation): from a
predicted variance that is not negative, and below the inverse of the underflow threshold, follow a position
gain between 0 and 1 and a corrected variance between 0 and the predicted one. -/
theorem C102_position_variance_partial {u : Dim} (k k' : Kalman (Flt f) .one u) (v z)
    (h : k.update v z = .ok k') (hH0 : (k.H.get 0 0).val = 1) (hH1 : (k.H.get 0 1).val = 0)
    (M : Mat (Flt f) 2 2) (hM : predictCov k.A k.P k.Q = .ok M) (h0 : 0 ≤ (M.get 0 0).val)
    (hR : 0 ≤ (k.R.get 0 0).val) (hb : (M.get 0 0).val + (k.R.get 0 0).val ≤ 2 ^ (1 - f.p - f.q)) :
    ∃ G, k'.kalman_gain = .ok G ∧ 0 ≤ (G.get 0 0).val ∧ (G.get 0 0).val ≤ 1 ∧
      0 ≤ (k'.estimation_error_covariance.get 0 0).val ∧
      (k'.estimation_error_covariance.get 0 0).val ≤ (M.get 0 0).val := by
  have ext : ∀ {a b : Flt f}, a.val = b.val → a = b := fun {a b} h => by cases a; cases b; cases h; rfl
  have eH : k.H = hPos := by
    apply Mat.ext_get
    intro i j
    fin_cases i
    fin_cases j
    · exact ext hH0
    · exact ext hH1
  obtain ⟨t, x, P, K, x', P', -, -, hP, hK, -, hP', rfl⟩ := update_inv h
  rw [hM] at hP
  cases hP
  have eR : k.R = ⟨#v[k.R.get 0 0]⟩ := by
    apply Mat.ext_get
    intro i j
    fin_cases i
    fin_cases j
    rfl
  rw [Mat.eq_mk22 M, eH, eR, gain_pos] at hK
  rw [Mat.eq_mk22 M, eH] at hP'
  set a := M.get 0 0
  set r := k.R.get 0 0
  obtain ⟨s, hs, hK⟩ := bind_eq_ok.1 hK
  obtain ⟨i, hi, hK⟩ := bind_eq_ok.1 hK
  obtain ⟨x, hx, hK⟩ := bind_eq_ok.1 hK
  obtain ⟨y, hy, hK⟩ := bind_eq_ok.1 hK
  cases hK
  rw [correctCov_pos] at hP'
  obtain ⟨e, he, hP'⟩ := bind_eq_ok.1 hP'
  obtain ⟨g, hg, hP'⟩ := bind_eq_ok.1 hP'
  obtain ⟨p00, hp, hP'⟩ := bind_eq_ok.1 hP'
  obtain ⟨p01, -, hP'⟩ := bind_eq_ok.1 hP'
  obtain ⟨u1, -, hP'⟩ := bind_eq_ok.1 hP'
  obtain ⟨p10, -, hP'⟩ := bind_eq_ok.1 hP'
  obtain ⟨u2, -, hP'⟩ := bind_eq_ok.1 hP'
  obtain ⟨p11, -, hP'⟩ := bind_eq_ok.1 hP'
  cases hP'
  have es := Flt.ofRat_eq hs
  have ex := Flt.ofRat_eq hx
  have ee := Flt.ofRat_eq he
  have ep := Flt.ofRat_eq hp
  have s1 : a.val ≤ s.val := by rw [es]; exact le_rnd_of_le (by linarith)
  have s2 : s.val ≤ 2 ^ (1 - f.p - f.q) := by
    rw [es, ← rnd_pow_two (f := f) (k := 1 - f.p - f.q) (by have := f.two_le; have := f.q_le; omega)]
    exact rnd_mono f (by linarith)
  have x01 : 0 ≤ x.val ∧ x.val ≤ 1 := by
    unfold Mat.invertedS at hi
    split_ifs at hi with hn
    · have hs0 : s.val ≠ 0 := by simpa [CNum.isNonZero] using hn
      have hs1 : 0 < s.val := lt_of_le_of_ne (h0.trans s1) (Ne.symm hs0)
      have ei : i.val = rnd f (1 / s.val) := by
        have : CNum.div CNum.one s = Flt.ofRat f (1 / s.val) := if_neg hs0
        rw [this] at hi
        exact Flt.ofRat_eq hi
      have i0 : 0 ≤ i.val := by rw [ei]; exact rnd_nonneg f (by positivity)
      have i1 := rnd_inv (f := f) hs1 s2
      rw [← ei] at i1
      rw [ex]
      refine ⟨rnd_nonneg f (mul_nonneg h0 i0), rnd_le_one f ?_⟩
      calc a.val * i.val ≤ s.val * (1 / s.val * (1 + 1 / 2 ^ f.p)) :=
            mul_le_mul s1 i1 i0 hs1.le
        _ = 1 + 1 / 2 ^ f.p := by field_simp
    · cases hi
      rw [ex]
      show 0 ≤ rnd f (a.val * 0) ∧ rnd f (a.val * 0) ≤ 1
      rw [mul_zero, rnd_zero]
      exact ⟨le_rfl, zero_le_one⟩
  have e01 : 0 ≤ e.val ∧ e.val ≤ 1 := by
    rw [ee]
    show 0 ≤ rnd f (1 - x.val) ∧ rnd f (1 - x.val) ≤ 1
    refine ⟨rnd_nonneg f (by linarith), rnd_le_of_le (a := CNum.one) ?_⟩
    show 1 - x.val ≤ 1
    linarith
  refine ⟨_, rfl, x01.1, x01.2, ?_, ?_⟩
  · show 0 ≤ p00.val
    rw [ep]
    exact rnd_nonneg f (mul_nonneg e01.1 h0)
  · show p00.val ≤ a.val
    rw [ep]
    exact rnd_le_of_le (by nlinarith)

/-- The estimator of the simulation in `double`, for measured position 3. -/
example : ∃ (k k' : Kalman (Flt binary64) .one .one) (M : Mat (Flt binary64) 2 2),
    k.update (.fill 1 1 CNum.one) (.fill 1 1 CNum.one) = .ok k' ∧ (k.H.get 0 0).val = 1 ∧ (k.H.get 0 1).val = 0 ∧
      predictCov k.A k.P k.Q = .ok M ∧ 0 ≤ (M.get 0 0).val ∧ 0 ≤ (k.R.get 0 0).val ∧
      (M.get 0 0).val + (k.R.get 0 0).val ≤ 2 ^ (1 - binary64.p - binary64.q) := by
  have h : Res.yields (do
      let a ← Flt.ofRat binary64 (1 / 5)
      let k ← estim true ⟨.lit _ 1 0 (by decide +kernel), .lit _ 10 0 (by decide +kernel), a⟩
      let k' ← k.update (.fill 1 1 CNum.one) (.fill 1 1 CNum.one)
      let M ← predictCov k.A k.P k.Q
      .ok (k, k', M)) (fun r => decide ((r.1.H.get 0 0).val = 1 ∧ (r.1.H.get 0 1).val = 0 ∧
        0 ≤ (r.2.2.get 0 0).val ∧ 0 ≤ (r.1.R.get 0 0).val ∧
        (r.2.2.get 0 0).val + (r.1.R.get 0 0).val ≤ 2 ^ (1 - binary64.p - binary64.q))) = true := by
    decide +kernel
  obtain ⟨r, h1, h2⟩ := Res.of_yields h
  obtain ⟨a, -, h1⟩ := bind_eq_ok.1 h1
  obtain ⟨k, -, h1⟩ := bind_eq_ok.1 h1
  obtain ⟨k', hk, h1⟩ := bind_eq_ok.1 h1
  obtain ⟨M, hM, h1⟩ := bind_eq_ok.1 h1
  cases h1
  obtain ⟨a1, a2, a3, a4, a5⟩ := of_decide_eq_true h2
  exact ⟨k, k', M, hk, a1, a2, hM, a3, a4, a5⟩

/-! ## C103 The time in floating point -/

theorem repeatAdd_stalls {t d : Flt f} (h0 : 0 ≤ d.val) (h : d.val * 2 ^ (f.p + 1) ≤ t.val) (n : ℕ) :
    repeatAdd n t d = .ok t := by
  induction n with
  | zero => rfl
  | succ n ih =>
    show (do repeatAdd n (← CNum.add t d) d) = _
    rw [add_stalls h0 h, bind_ok, ih]

/-- C103: in exact arithmetic every update advances the time by `dt` (C12).  In floating point the time stands
still for ever once it exceeds `2^(p+1)` time steps. -/
theorem C103_time_stalls {m u : Dim} (k k' : Kalman (Flt f) m u) (ds) (h : k.run ds = .ok k')
    (h0 : 0 ≤ k.dt.val) (ht : k.dt.val * 2 ^ (f.p + 1) ≤ k.time.val) : k'.time = k.time := by
  have := C12_time_any_type k k' ds h
  rw [repeatAdd_stalls h0 ht] at this
  exact (Except.ok.inj this).symm

theorem repeatAdd_pow {d : Flt f} {j : ℤ} (hd : d.val = 2 ^ j) (hj : f.q ≤ j) (n : ℕ) :
    ∀ (m : ℕ) (t t' : Flt f), m ≤ 2 ^ f.p → t.val = m * 2 ^ j → repeatAdd n t d = .ok t' →
      t'.val = (min (m + n) (2 ^ f.p) : ℕ) * 2 ^ j := by
  have hg : (0 : ℚ) < 2 ^ j := zpow_pos (by norm_num) _
  have h2 := f.two_le
  induction n with
  | zero =>
    intro m t t' hm ht h
    cases h
    rw [add_zero, min_eq_left hm, ht]
  | succ n ih =>
    intro m t t' hm ht h
    obtain ⟨s, hs, h⟩ := bind_eq_ok.1 (show (CNum.add t d >>= fun s => repeatAdd n s d) = _ from h)
    have es := Flt.ofRat_eq hs
    rw [ht, hd] at es
    rcases hm.lt_or_eq with hlt | rfl
    · have e : (m : ℚ) * 2 ^ j + 2 ^ j = ((m + 1 : ℕ) : ℚ) * 2 ^ j := by push_cast; ring
      have hr : rnd f (((m + 1 : ℕ) : ℚ) * 2 ^ j) = ((m + 1 : ℕ) : ℚ) * 2 ^ j := by
        have : ∃ n e : ℤ, |n| < 2 ^ f.p ∧ f.q ≤ e ∧ ((m + 1 : ℕ) : ℚ) * 2 ^ j = n * 2 ^ e := by
          rcases (show m + 1 ≤ 2 ^ f.p from hlt).lt_or_eq with h1 | h1
          · refine ⟨(m + 1 : ℕ), j, ?_, hj, by push_cast; ring⟩
            rw [Nat.abs_cast]
            exact_mod_cast h1
          · refine ⟨1, f.p + j, ?_, by omega, ?_⟩
            · rw [abs_one]
              exact one_lt_pow₀ (by norm_num) (by omega)
            · rw [h1, zpow_add₀ (by norm_num), zpow_natCast]
              push_cast
              ring
        have := rnd_nearest f (((m + 1 : ℕ) : ℚ) * 2 ^ j) _ this
        rw [sub_self, abs_zero] at this
        exact sub_eq_zero.1 (abs_nonpos_iff.1 this)
      rw [e, hr] at es
      rw [ih (m + 1) s t' hlt es h]
      congr 3
      omega
    · have hr : rnd f (((2 ^ f.p : ℕ) : ℚ) * 2 ^ j + 2 ^ j) = ((2 ^ f.p : ℕ) : ℚ) * 2 ^ j := by
        have e1 : ((2 ^ f.p : ℕ) : ℚ) * 2 ^ j = ((2 ^ (f.p - 1) : ℤ) : ℚ) * 2 ^ (j + 1) := by
          obtain ⟨p, hp⟩ : ∃ p, f.p = p + 1 := ⟨f.p - 1, by omega⟩
          rw [hp, Nat.add_sub_cancel, zpow_add₀ (by norm_num), zpow_one]
          push_cast
          ring
        rw [e1]
        apply rnd_add_small f (by omega) le_rfl (pow_lt_pow_right₀ (by norm_num) (by omega)) hg.le
        right
        refine ⟨?_, ?_⟩
        · rw [zpow_add₀ (by norm_num), zpow_one]
          ring
        · obtain ⟨p, hp⟩ : ∃ p, f.p = p + 2 := ⟨f.p - 2, by omega⟩
          rw [hp, show p + 2 - 1 = p + 1 by omega, pow_succ]
          omega
      rw [hr] at es
      rw [ih (2 ^ f.p) s t' le_rfl es h]
      congr 2
      omega

/-- C103: precisely, if the time step is a power of two: the time is right for `2^p` updates (some 46 hours at a
hundred updates per second in `float`), then it stops. -/
theorem C103_time_exact {m u : Dim} (avr : Bool) (dt : Flt f) (j : ℤ) (hj : f.q ≤ j) (hd : dt.val = 2 ^ j)
    (A : Mat (Flt f) 2 2) (B : Mat (Flt f) 2 u.val) (H : Mat (Flt f) m.val 2) (Q : Mat (Flt f) 2 2)
    (R : Mat (Flt f) m.val m.val) (P : Mat (Flt f) 2 2) (x : ColVec (Flt f) 2) (ds) (k')
    (h : (init avr dt A B H Q R P x : Kalman (Flt f) m u).run ds = .ok k') :
    k'.time.val = (min ds.length (2 ^ f.p) : ℕ) * dt.val := by
  have := C12_time_any_type _ k' ds h
  have := repeatAdd_pow hd hj ds.length 0 _ _ (Nat.zero_le _) (by show (0 : ℚ) = _; simp) this
  rw [this, Nat.zero_add, hd]

theorem Mat.of_yields {T : Type} [DecidableEq T] {N M : ℕ} {r : Res (Mat T N M)} {b : Mat T N M}
    (h : Res.yields r (fun a => decide (a.storage = b.storage)) = true) : r = .ok b := by
  obtain ⟨a, h1, h2⟩ := Res.of_yields h
  have := of_decide_eq_true h2
  cases a
  cases b
  cases this
  exact h1

/-- An estimator of an object at rest, in `float` with `dt = 1`. -/
def exRest (t : Flt binary32) (K : Option (Mat (Flt binary32) 2 1)) : Kalman (Flt binary32) .one .one where
  A := .mk22 Flt.one Flt.zero Flt.zero Flt.one
  B := .fill 2 1 Flt.zero
  H := ⟨#v[Flt.one, Flt.zero]⟩
  Q := .fill 2 2 Flt.zero
  R := .fill 1 1 Flt.one
  P := .fill 2 2 Flt.zero
  xhat := .fill 2 1 Flt.zero
  K := K
  t := t
  dt := Flt.one

theorem exRest_step (t s : Flt binary32) (G : Option (Mat (Flt binary32) 2 1)) (h : CNum.add t Flt.one = .ok s) :
    (exRest t G).update (.fill 1 1 Flt.zero) (.fill 1 1 Flt.one) = .ok (exRest s (some (.fill 2 1 Flt.zero))) :=
  update_intro (m := .one) (u := .one) (k := exRest t G) (x := .fill 2 1 Flt.zero) (P := .fill 2 2 Flt.zero)
    (K := .fill 2 1 Flt.zero) (x' := .fill 2 1 Flt.zero) (P' := .fill 2 2 Flt.zero) h
    (Mat.of_yields (by dsimp only [exRest]; decide +kernel)) (Mat.of_yields (by dsimp only [exRest]; decide +kernel)) (Mat.of_yields (by dsimp only [exRest]; decide +kernel))
    (Mat.of_yields (by dsimp only [exRest]; decide +kernel)) (Mat.of_yields (by dsimp only [exRest]; decide +kernel))

theorem exRest_run (n : ℕ) : ∀ (t : Flt binary32) (G : Option (Mat (Flt binary32) 2 1)), 0 ≤ t.val →
    t.val ≤ 2 ^ 24 →
      ∃ k', (exRest t G).run (List.replicate n (.fill 1 1 Flt.zero, .fill 1 1 Flt.one)) = .ok k' := by
  induction n with
  | zero => exact fun t G _ _ => ⟨_, rfl⟩
  | succ n ih =>
    intro t G h0 h1
    have hle : rnd binary32 (t.val + 1) ≤ 2 ^ 24 :=
      (rnd_mono _ (show t.val + 1 ≤ 2 ^ 24 + 1 by linarith)).trans (by decide +kernel)
    have hge : 0 ≤ rnd binary32 (t.val + 1) := rnd_nonneg _ (by linarith)
    have hmax : |t.val + 1| ≤ binary32.max := by
      rw [abs_of_nonneg (by linarith)]
      exact (show t.val + 1 ≤ 2 ^ 24 + 1 by linarith).trans (by decide +kernel)
    obtain ⟨s, hs, e⟩ := Flt.ofRat_ok hmax
    obtain ⟨k', hk⟩ := ih s (some (.fill 2 1 Flt.zero)) (e ▸ hge) (e ▸ hle)
    exact ⟨k', run_cons.2 ⟨_, exRest_step t s G hs, hk⟩⟩

/-- C103: an estimator for which every run, however long, is defined, and whose time is never beyond `2^24`. -/
theorem C103_every_run_stops : ∃ k : Kalman (Flt binary32) .one .one, k.time.val = 0 ∧ k.dt.val = 1 ∧ ∀ n, ∃ k',
    k.run (List.replicate n (.fill 1 1 Flt.zero, .fill 1 1 Flt.one)) = .ok k' ∧
      k'.time.val = min (n : ℚ) (2 ^ 24) := by
  refine ⟨exRest Flt.zero none, rfl, rfl, fun n => ?_⟩
  obtain ⟨k', hk⟩ := exRest_run n Flt.zero none le_rfl (by norm_num [Flt.zero])
  refine ⟨k', hk, ?_⟩
  have := C103_time_exact (m := .one) (u := .one) false Flt.one 0 (by decide) rfl _ _ _ _ _ _ _ _ k' hk
  rw [this, List.length_replicate]
  show _ * (1 : ℚ) = _
  rw [mul_one, Nat.cast_min]
  norm_num [binary32]

/-- The estimator of an object at rest after `2^25` time steps. -/
example : ∃ k k' : Kalman (Flt binary32) .one .one,
    k.run [(.fill 1 1 Flt.zero, .fill 1 1 Flt.one)] = .ok k' ∧ 0 ≤ k.dt.val ∧
      k.dt.val * 2 ^ (binary32.p + 1) ≤ k.time.val := by
  let t : Flt binary32 := .lit _ 1 25 (by decide +kernel)
  have h : CNum.add t Flt.one = .ok t := add_stalls (by decide +kernel) (by decide +kernel)
  exact ⟨exRest t none, _, run_cons.2 ⟨_, exRest_step t t none h, rfl⟩, by decide +kernel,
    show (1 : ℚ) * 2 ^ 25 ≤ ((1 : ℤ) : ℚ) * 2 ^ (25 : ℤ) by norm_num⟩

/-! ## C104 One-pole filter: the rest that does not decay -/

/-- The state after one step without input. -/
theorem onePole_decay (a1 b0 v : Flt f) (ha : -1 ≤ a1.val) (ha' : a1.val < -(1 / 2)) (hv : 0 < v.val) :
    ∃ y : Flt f, OnePole.step ⟨a1, b0, v⟩ CNum.zero = .ok (y, ⟨a1, b0, y⟩) ∧ 0 < y.val ∧ y.val ≤ v.val := by
  have hg : (0 : ℚ) < 2 ^ f.q := zpow_pos (by norm_num) _
  obtain ⟨n, hn⟩ := rep_multiple f v.rep
  have hn1 : 1 ≤ n := by
    by_contra h
    have : (n : ℚ) ≤ 0 := by exact_mod_cast (show n ≤ 0 by omega)
    rw [hn] at hv
    nlinarith
  have hvq : 2 ^ f.q ≤ v.val := by
    have : (1 : ℚ) ≤ n := by exact_mod_cast hn1
    rw [hn]
    nlinarith
  have hvm : v.val ≤ f.max := (le_abs_self _).trans v.rep.2
  have hb : |v.val * a1.val| ≤ f.max := by
    rw [abs_le]
    constructor <;> nlinarith
  obtain ⟨c, hc, ec⟩ := Flt.ofRat_ok hb
  have c1 : -v.val ≤ c.val := by
    have := rnd_mono f (show -v.val ≤ v.val * a1.val by nlinarith)
    rwa [rnd_neg, rnd_rep f v.rep, ← ec] at this
  have c2 : c.val < 0 := by
    have h2 := f.two_le
    have := rnd_nearest f (v.val * a1.val) (-2 ^ f.q) ⟨-1, f.q, by
      rw [abs_neg, abs_one]; exact one_lt_pow₀ (by norm_num) (by omega), le_rfl, by push_cast; ring⟩
    rw [← ec] at this
    by_contra h
    push Not at h
    have h3 : v.val * a1.val < -(2 ^ f.q / 2) := by nlinarith
    rw [abs_of_nonneg (by linarith)] at this
    rcases abs_cases (-2 ^ f.q - v.val * a1.val) with ⟨h4, -⟩ | ⟨h4, -⟩ <;> linarith
  let y : Flt f := c.neg
  have ey : y.val = -c.val := rfl
  refine ⟨y, ?_, by rw [ey]; linarith, by rw [ey]; linarith⟩
  have e2 : CNum.mul v a1 = .ok c := hc
  have e3 : CNum.sub (CNum.zero : Flt f) c = .ok y := by
    show Flt.ofRat f (0 - c.val) = _
    rw [zero_sub, ← ey, Flt.ofRat_val]
  simp only [OnePole.step]
  rw [Flt.zero_mul', bind_ok, e2, bind_ok, e3, bind_ok]

/-- C104: a one-pole filter with `-1 ≤ a1 < -1/2`, left without input in any floating-point format, never reaches
zero: its output decreases and then keeps a positive value for ever.  In exact arithmetic it decays to zero
(C87). -/
theorem C104_rest_remains (a1 b0 v : Flt f) (ha : -1 ≤ a1.val) (ha' : a1.val < -(1 / 2)) (hv : 0 < v.val) :
    ∃ y : ℕ → Flt f, Sig.Runs OnePole.step ⟨a1, b0, v⟩ (fun _ => CNum.zero) y ∧
      (∀ n, 0 < (y n).val ∧ (y (n + 1)).val ≤ (y n).val) ∧ ∃ N c, 0 < c.val ∧ ∀ n, N ≤ n → y n = c := by
  have hg : (0 : ℚ) < 2 ^ f.q := zpow_pos (by norm_num) _
  choose g hg1 hg2 hg3 using fun s : {s : Flt f // 0 < s.val} => onePole_decay a1 b0 s.1 ha ha' s.2
  let nxt : {s : Flt f // 0 < s.val} → {s : Flt f // 0 < s.val} := fun s => ⟨g s, hg2 s⟩
  let st : ℕ → {s : Flt f // 0 < s.val} := fun n => nxt^[n] ⟨v, hv⟩
  have hst : ∀ n, st (n + 1) = nxt (st n) := fun n => Function.iterate_succ_apply' _ _ _
  have hle : ∀ n, (st (n + 1)).1.val ≤ (st n).1.val := fun n => by rw [hst]; exact hg3 _
  have hrun := (runs_of_states (step := OnePole.step) (x := fun _ => CNum.zero) (y := fun n => (st (n + 1)).1)
    (fun n => (⟨a1, b0, (st n).1⟩ : OnePole (Flt f))) rfl fun n => by rw [hst]; exact hg1 _).1
  refine ⟨_, hrun, fun n => ⟨(st (n + 1)).2, hle (n + 1)⟩, ?_⟩
  -- multiples of the smallest number cannot decrease for ever
  choose k hk using fun n => rep_multiple f (st n).1.rep
  have hanti : Antitone fun n => (k n).toNat := antitone_nat_of_succ_le fun n => by
    have := hle n
    rw [hk, hk (n := n)] at this
    have : (k (n + 1) : ℚ) ≤ k n := le_of_mul_le_mul_right this hg
    have : k (n + 1) ≤ k n := by exact_mod_cast this
    exact Int.toNat_le_toNat this
  have hpos : ∀ n, 0 < k n := fun n => by
    by_contra h
    have h1 : (k n : ℚ) ≤ 0 := by exact_mod_cast not_lt.1 h
    have h2 := (st n).2
    rw [hk] at h2
    nlinarith
  obtain ⟨-, ⟨N, rfl⟩, hN⟩ := (wellFounded_lt (α := ℕ)).has_min (Set.range fun n => (k n).toNat) ⟨_, 0, rfl⟩
  refine ⟨N, (st N).1, (st N).2, fun n hn => ?_⟩
  have h1 : (k (n + 1)).toNat ≤ (k N).toNat := hanti (show N ≤ n + 1 by omega)
  have h2 : ¬ (k (n + 1)).toNat < (k N).toNat := hN _ ⟨n + 1, rfl⟩
  have h3 := hpos N
  have h4 := hpos (n + 1)
  have h5 : k (n + 1) = k N := by omega
  have h6 : (st (n + 1)).1.val = (st N).1.val := by rw [hk, hk (n := N), h5]
  generalize (st (n + 1)).1 = a at h6
  generalize (st N).1 = b at h6
  cases a
  cases b
  cases h6
  rfl

/-- Smoothing by `1/4` in `double`. -/
example : ∃ a1 b0 v : Flt binary64, b0.val = 1 / 4 ∧ a1.val = -(3 / 4) ∧ v.val = 1 ∧ -1 ≤ a1.val ∧
    a1.val < -(1 / 2) ∧ 0 < v.val :=
  ⟨.lit _ (-3) (-2) (by decide +kernel), .lit _ 1 (-2) (by decide +kernel), .one, by decide +kernel,
    by decide +kernel, by decide +kernel, by decide +kernel, by decide +kernel, by decide +kernel⟩

end Verif
