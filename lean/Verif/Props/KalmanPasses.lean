import Verif.Props.KalmanTarget

/-
Property C157: the number of passes of the loops of the simulations.
-/

namespace Verif
open Ieee KalmanSim

/-! ## C157 The number of passes of the simulations -/

/-- `<` of floating point numbers. -/
def fltLess {f : Format} (a b : Flt f) : Bool := decide (a.val < b.val)

/-- The time reached by the counter `i`: `i` converted to the format, times `dt`, rounded twice. -/
def reached (f : Format) (dt : ℚ) (i : ℕ) : ℚ := rnd f (rnd f i * dt)

private theorem cond_eq {f : Format} {dt d : Flt f} {i : ℕ} {b : Bool}
    (h : (do .ok (fltLess (← CNum.mul (← CLit.lit (i : ℤ)) dt) d) : Res Bool) = .ok b) :
    b = decide (reached f dt.val i < d.val) := by
  obtain ⟨c, hc, h⟩ := bind_eq_ok.1 h
  obtain ⟨e, he, h⟩ := bind_eq_ok.1 h
  injection h with h
  have h1 := Flt.ofRat_eq (show Flt.ofRat f ((i : ℤ) : ℚ) = .ok c from hc)
  have h2 := Flt.ofRat_eq (show Flt.ofRat f (c.val * dt.val) = .ok e from he)
  rw [← h, fltLess, h2, h1, Int.cast_natCast, reached]

private theorem from_spec {f : Format} {dt d : Flt f} (room : ℕ) : ∀ {i n : ℕ},
    KalmanTarget.passesFrom fltLess d dt room i = .ok n →
      n ≤ room ∧ (∀ j < n, reached f dt.val (i + j) < d.val) ∧ d.val ≤ reached f dt.val (i + n) := by
  induction room with
  | zero =>
    intro i n h
    unfold KalmanTarget.passesFrom at h
    obtain ⟨c, hc, h⟩ := bind_eq_ok.1 h
    obtain ⟨e, he, h⟩ := bind_eq_ok.1 h
    have hb := cond_eq (d := d) (show (do .ok (fltLess (← CNum.mul (← CLit.lit (i : ℤ)) dt) d) : Res Bool) = .ok (fltLess e d) by
      rw [hc, bind_ok, he, bind_ok])
    split at h
    · cases h
    · next hn =>
      cases h
      rw [hb, decide_eq_true_eq, not_lt] at hn
      exact ⟨le_rfl, fun j hj => absurd hj (Nat.not_lt_zero j), hn⟩
  | succ room ih =>
    intro i n h
    unfold KalmanTarget.passesFrom at h
    obtain ⟨c, hc, h⟩ := bind_eq_ok.1 h
    obtain ⟨e, he, h⟩ := bind_eq_ok.1 h
    have hb := cond_eq (d := d) (show (do .ok (fltLess (← CNum.mul (← CLit.lit (i : ℤ)) dt) d) : Res Bool) = .ok (fltLess e d) by
      rw [hc, bind_ok, he, bind_ok])
    split at h
    · next hp =>
      rw [hb, decide_eq_true_eq] at hp
      obtain ⟨m, hm, h⟩ := bind_eq_ok.1 h
      cases h
      obtain ⟨h1, h2, h3⟩ := ih hm
      refine ⟨Nat.succ_le_succ h1, fun j hj => ?_, by rwa [Nat.add_right_comm, Nat.add_assoc] at h3⟩
      rcases j with _ | j
      · exact hp
      · have := h2 j (by omega)
        rwa [Nat.add_right_comm, Nat.add_assoc] at this
    · next hn =>
      cases h
      rw [hb, decide_eq_true_eq, not_lt] at hn
      exact ⟨Nat.zero_le _, fun j hj => absurd hj (Nat.not_lt_zero j), hn⟩

/-- C157: in every format the number of passes is the least counter whose time reaches the duration; it is smaller than
`2 ^ (bits - 1)`. -/
theorem C157_least (f : Format) (bits : ℕ) (d dt : Flt f) (n : ℕ) (h : KalmanTarget.passes fltLess bits d dt = .ok n) :
    IsLeast {i | d.val ≤ reached f dt.val i} n ∧ n < 2 ^ (bits - 1) := by
  obtain ⟨h1, h2, h3⟩ := from_spec _ h
  simp only [Nat.zero_add] at h2 h3
  have hp : 0 < 2 ^ (bits - 1) := Nat.two_pow_pos _
  exact ⟨⟨h3, fun i hi => by
    by_contra hc
    exact absurd (h2 i (by omega)) (not_lt.2 hi)⟩, by omega⟩

/-- The counter 2 in the simulation with step 1 and duration 3/2. -/
example : ∃ d dt : Flt binary32, d.val = 3 / 2 ∧ dt.val = 1 ∧ KalmanTarget.passes fltLess 3 d dt = .ok 2 := by
  obtain ⟨d, -, h⟩ := Res.of_yields (show Res.yields (Flt.ofRat binary32 (3 / 2)) (fun d =>
    decide (d.val = 3 / 2 ∧ KalmanTarget.passes fltLess 3 d CNum.one = .ok 2)) = true by decide +kernel)
  exact ⟨d, CNum.one, (of_decide_eq_true h).1, rfl, (of_decide_eq_true h).2⟩

private theorem reached_mono {f : Format} {dt : ℚ} (hdt : 0 ≤ dt) {i j : ℕ} (h : i ≤ j) : reached f dt i ≤ reached f dt j :=
  rnd_mono f (mul_le_mul_of_nonneg_right (rnd_mono f (by exact_mod_cast h)) hdt)

private theorem cond_ok {f : Format} {dt d : Flt f} (hdt : 0 ≤ dt.val) {i N : ℕ} (hi : i ≤ N) (hN : (N : ℚ) ≤ f.max)
    (hm : rnd f N * dt.val ≤ f.max) : ∃ c e, (CLit.lit (i : ℤ) : Res (Flt f)) = .ok c ∧ CNum.mul c dt = .ok e ∧
      fltLess e d = decide (reached f dt.val i < d.val) := by
  have hi' : (i : ℚ) ≤ N := by exact_mod_cast hi
  obtain ⟨c, hc, vc⟩ := Flt.ofRat_ok (f := f) (x := ((i : ℤ) : ℚ)) (by
    rw [Int.cast_natCast, Nat.abs_cast]
    exact hi'.trans hN)
  rw [Int.cast_natCast] at vc
  obtain ⟨e, he, ve⟩ := Flt.ofRat_ok (f := f) (x := c.val * dt.val) (by
    rw [vc, abs_of_nonneg (mul_nonneg (rnd_nonneg f (by positivity)) hdt)]
    exact (mul_le_mul_of_nonneg_right (rnd_mono f hi') hdt).trans hm)
  exact ⟨c, e, hc, he, by rw [fltLess, ve, vc, reached]⟩

private theorem from_ok {f : Format} {dt d : Flt f} (hdt : 0 ≤ dt.val) {N : ℕ} (hN : (N : ℚ) ≤ f.max)
    (hm : rnd f N * dt.val ≤ f.max) (hd : d.val ≤ reached f dt.val N) (room : ℕ) : ∀ {i : ℕ}, i ≤ N → N ≤ i + room →
      ∃ n, KalmanTarget.passesFrom fltLess d dt room i = .ok n := by
  induction room with
  | zero =>
    intro i h1 h2
    obtain ⟨c, e, hc, he, hl⟩ := cond_ok (d := d) hdt h1 hN hm
    unfold KalmanTarget.passesFrom
    rw [hc, bind_ok, he, bind_ok, hl, if_neg]
    · exact ⟨0, rfl⟩
    · rw [show i = N by omega, decide_eq_true_eq, not_lt]
      exact hd
  | succ room ih =>
    intro i h1 h2
    obtain ⟨c, e, hc, he, hl⟩ := cond_ok (d := d) hdt h1 hN hm
    unfold KalmanTarget.passesFrom
    rw [hc, bind_ok, he, bind_ok, hl]
    by_cases h : reached f dt.val i < d.val
    · rw [if_pos (decide_eq_true h)]
      have : i < N := by
        by_contra hc
        exact absurd h (not_lt.2 (by rwa [show i = N by omega]))
      obtain ⟨n, hn⟩ := ih (i := i + 1) this (by omega)
      rw [hn, bind_ok]
      exact ⟨_, rfl⟩
    · rw [if_neg (by rwa [decide_eq_true_eq])]
      exact ⟨0, rfl⟩

/-- C157: if some counter within `int` and the range of the format reaches the duration, the loop ends. -/
theorem C157_ends (f : Format) (bits : ℕ) (d dt : Flt f) (hdt : 0 ≤ dt.val) (N : ℕ) (hb : N < 2 ^ (bits - 1))
    (hN : (N : ℚ) ≤ f.max) (hm : rnd f N * dt.val ≤ f.max) (hd : d.val ≤ reached f dt.val N) :
    ∃ n, KalmanTarget.passes fltLess bits d dt = .ok n :=
  from_ok hdt hN hm hd _ (Nat.zero_le N) (by omega)

private theorem from_overflow {f : Format} {dt d : Flt f} (hdt : 0 ≤ dt.val) {N : ℕ} (hN : (N : ℚ) ≤ f.max)
    (hm : rnd f N * dt.val ≤ f.max) (hd : reached f dt.val N < d.val) (room : ℕ) : ∀ {i : ℕ}, i + room = N →
      KalmanTarget.passesFrom fltLess d dt room i = .error .overflow := by
  induction room with
  | zero =>
    intro i h
    obtain ⟨c, e, hc, he, hl⟩ := cond_ok (d := d) hdt (show i ≤ N by omega) hN hm
    unfold KalmanTarget.passesFrom
    rw [hc, bind_ok, he, bind_ok, hl, if_pos]
    rw [show i = N by omega]
    exact decide_eq_true hd
  | succ room ih =>
    intro i h
    obtain ⟨c, e, hc, he, hl⟩ := cond_ok (d := d) hdt (show i ≤ N by omega) hN hm
    unfold KalmanTarget.passesFrom
    rw [hc, bind_ok, he, bind_ok, hl, if_pos (decide_eq_true ((reached_mono hdt (by omega)).trans_lt hd)),
      ih (i := i + 1) (by omega)]
    rfl

/-- C157: if the largest `int` does not reach the duration, the counter overflows. -/
theorem C157_overflow (f : Format) (bits : ℕ) (d dt : Flt f) (hdt : 0 ≤ dt.val)
    (hN : ((2 ^ (bits - 1) - 1 : ℕ) : ℚ) ≤ f.max) (hm : rnd f (2 ^ (bits - 1) - 1 : ℕ) * dt.val ≤ f.max)
    (hd : reached f dt.val (2 ^ (bits - 1) - 1) < d.val) :
    KalmanTarget.passes fltLess bits d dt = .error .overflow :=
  from_overflow hdt hN hm hd _ (Nat.zero_add _)

/-- On the target, where `int` has 16 bits, a step of one millisecond makes the counter of a run of 50 seconds overflow. -/
example : ∃ d dt : Flt binary32, Flt.ofRat binary32 50 = .ok d ∧ Flt.ofRat binary32 (1 / 1000) = .ok dt ∧
    KalmanTarget.passes fltLess 16 d dt = .error .overflow := by
  obtain ⟨d, hd, vd⟩ := Res.of_yields (show Res.yields (Flt.ofRat binary32 50) (fun d => decide (d.val = 50)) = true by
    decide +kernel)
  obtain ⟨dt, ht, vt⟩ := Res.of_yields (show Res.yields (Flt.ofRat binary32 (1 / 1000)) (fun dt => decide (0 ≤ dt.val ∧
    rnd binary32 (2 ^ (16 - 1) - 1 : ℕ) * dt.val ≤ binary32.max ∧ reached binary32 dt.val (2 ^ (16 - 1) - 1) < 50)) = true by
    decide +kernel)
  obtain ⟨h1, h2, h3⟩ := of_decide_eq_true vt
  exact ⟨d, dt, hd, ht, C157_overflow binary32 16 d dt h1 (by decide +kernel) h2 (by rwa [of_decide_eq_true vd])⟩

/-- C157: with step 1 and a whole number of seconds that the format represents together with all smaller ones, the loop
runs once per second. -/
theorem C157_seconds (f : Format) (bits n : ℕ) (hn : n < 2 ^ f.p) (hq : f.q ≤ 0) (hm : (n : ℚ) ≤ f.max)
    (hb : n < 2 ^ (bits - 1)) (d dt : Flt f) (hd : d.val = n) (hdt : dt.val = 1) :
    KalmanTarget.passes fltLess bits d dt = .ok n := by
  have whole (i : ℕ) (hi : i ≤ n) : rnd f (i : ℚ) = i := by
    have key : ∃ m e : ℤ, |m| < 2 ^ f.p ∧ f.q ≤ e ∧ (i : ℚ) = m * 2 ^ e := by
      refine ⟨i, 0, ?_, hq, by rw [Int.cast_natCast, zpow_zero, mul_one]⟩
      rw [Nat.abs_cast]
      exact_mod_cast lt_of_le_of_lt hi hn
    have := rnd_nearest f (i : ℚ) _ key
    rw [sub_self, abs_zero] at this
    exact sub_eq_zero.1 (abs_nonpos_iff.1 this)
  have re (i : ℕ) (hi : i ≤ n) : reached f dt.val i = i := by rw [reached, hdt, whole i hi, mul_one, whole i hi]
  obtain ⟨m, h⟩ := C157_ends f bits d dt (by rw [hdt]; norm_num) n hb hm (by rw [whole n le_rfl, hdt, mul_one]; exact hm)
    (by rw [re n le_rfl, hd])
  obtain ⟨⟨h1, h2⟩, -⟩ := C157_least f bits d dt m h
  have hle : m ≤ n := h2 (show d.val ≤ reached f dt.val n by rw [re n le_rfl, hd])
  have hge : n ≤ m := by
    have : d.val ≤ reached f dt.val m := h1
    rw [re m hle, hd] at this
    exact_mod_cast this
  rw [h, le_antisymm hle hge]

/-- C157: the program on the target, with 32-bit floating point and an `int` of at least 7 bits: it runs 50 passes and
ends with the estimate 1250 of the position and 50 of the velocity. -/
theorem C157_program (avr : Bool) (bits : ℕ) (hb : 7 ≤ bits) (p : Params (Flt binary32)) (hp : constants binary32 = .ok p)
    (d : Flt binary32) (hd : d.val = 50) :
    ∃ k x, KalmanTarget.program avr fltLess bits d p = .ok (k, x) ∧ k.system_state = x ∧
      (x.get 0 0).val = 1250 ∧ (x.get 1 0).val = 50 := by
  have hdt : p.dt.val = 1 := by
    unfold constants at hp
    obtain ⟨a, ha, hp⟩ := bind_eq_ok.1 hp
    obtain ⟨b, -, hp⟩ := bind_eq_ok.1 hp
    obtain ⟨c, -, hp⟩ := bind_eq_ok.1 hp
    cases hp
    cases TargetLoop.one_lit.symm.trans ha
    rfl
  have h50 := C157_seconds binary32 bits 50 (by decide) (by decide) (by decide +kernel)
    (lt_of_lt_of_le (by norm_num) (Nat.pow_le_pow_right (by norm_num) (show 6 ≤ bits - 1 by omega))) d p.dt
    (by rw [hd]; norm_num) hdt
  obtain ⟨k, x, h, hx, -⟩ := C156_forever avr p hp 50
  obtain ⟨h0, h1, -, -⟩ := C156_exact avr p hp 50 (by norm_num) k x h
  refine ⟨k, x, ?_, hx, by rw [h0]; norm_num, by rw [h1]; norm_num⟩
  unfold KalmanTarget.program
  rw [h50, bind_ok, h]

example : ∃ p d, constants binary32 = .ok p ∧ Flt.ofRat binary32 50 = .ok d ∧ d.val = 50 := by
  obtain ⟨p, -, -, -, -, -, -, hp, -⟩ := TargetRun.parts
  obtain ⟨d, hd, vd⟩ := Res.of_yields (show Res.yields (Flt.ofRat binary32 50) (fun d => decide (d.val = 50)) = true by
    decide +kernel)
  exact ⟨p, d, hp, hd, of_decide_eq_true vd⟩

end Verif
