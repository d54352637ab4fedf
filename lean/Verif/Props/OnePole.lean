import Verif.Model.OnePole
import Verif.Props.Biquad

/-
Properties C45-C47: include/dsp/onepole.hpp, include/dsp/onepole-design.hpp.
-/

namespace Verif
open Sig OnePole Topology
variable {T : Type}

/-- The one-pole filter of the examples. -/
def exOp : OnePole ℚ := ofBA 1 (1/2)

/-! ### C45 step and response -/

section ring
variable [CommRing T] [CNum T] [ExactRing T]

theorem OnePole.step_exact (q : OnePole T) (x : T) :
    q.step x = .ok (q.b0 * x - q.a1 * q.v1, { q with v1 := q.b0 * x - q.a1 * q.v1 }) := by
  unfold step
  simp only [ExactRing.mul_eq, ExactRing.sub_eq, bind_ok, mul_comm]

/-- **C45** From any state: `y` is the output for the input `x` iff `y[n] = b0 x[n] - a1 y[n-1]`, where
`y[-1]` is the initial state. -/
theorem C45_step_any_state (q : OnePole T) (x y : ℕ → T) : Runs step q x y ↔
    y 0 = q.coeff_b * x 0 - q.coeff_a * q.state ∧
      ∀ n, y (n + 1) = q.coeff_b * x (n + 1) - q.coeff_a * y n := by
  constructor
  · intro h
    obtain ⟨st, h0, hst⟩ := h.states
    simp only [step_exact, Except.ok.injEq, Prod.mk.injEq] at hst
    have hc : ∀ n, (st n).a1 = q.a1 ∧ (st n).b0 = q.b0 := by
      intro n
      induction n with
      | zero => rw [h0]; exact ⟨rfl, rfl⟩
      | succ n ih => rw [← (hst n).2]; exact ih
    have hv : ∀ n, (st (n + 1)).v1 = y n := by
      intro n
      rw [← (hst n).2, ← (hst n).1]
    refine ⟨?_, fun n => ?_⟩
    · rw [← (hst 0).1, h0]; rfl
    · rw [← (hst (n + 1)).1, hv, (hc _).1, (hc _).2]; rfl
  · rintro ⟨h0, h⟩
    let st : ℕ → OnePole T := fun n => match n with | 0 => q | n + 1 => { q with v1 := y n }
    refine Runs.iff_states.2 ⟨st, rfl, ?_⟩
    rintro (_ | n)
    · show q.step (x 0) = .ok (y 0, { q with v1 := y 0 })
      rw [step_exact, h0]; rfl
    · show step { q with v1 := y n } (x (n + 1)) = .ok (y (n + 1), { q with v1 := y (n + 1) })
      rw [step_exact, h]; rfl

/-- **C45** From reset (or fresh): the difference equation with zero past. -/
theorem C45_step (b0 a1 : T) (x y : ℕ → T) :
    Runs step (ofBA b0 a1) x y ↔ ∀ n, y n = b0 * x n - a1 * past y n 1 := by
  rw [C45_step_any_state]
  show y 0 = b0 * x 0 - a1 * CNum.zero ∧ (∀ n, y (n + 1) = b0 * x (n + 1) - a1 * y n) ↔ _
  rw [ExactRing.zero_eq]
  constructor
  · rintro ⟨h0, h⟩ (_ | n)
    · exact h0
    · exact h n
  · intro h
    exact ⟨h 0, fun n => h (n + 1)⟩

/-- **C45** The one-pole filter is the biquad with the coefficients `b0` and `a1` only. -/
theorem C45_is_biquad (b0 a1 : T) (x y : ℕ → T) :
    Runs step (ofBA b0 a1) x y ↔ Runs Biquad.step (Biquad.ofBA ⟨b0, 0, 0⟩ ⟨a1, 0⟩) x y := by
  rw [C45_step, C32_step]
  unfold DiffEq
  refine forall_congr' fun n => ?_
  rw [show b0 * x n + 0 * past x n 1 + 0 * past x n 2 - a1 * past y n 1 - 0 * past y n 2 =
    b0 * x n - a1 * past y n 1 by ring]

/-- **C45** A filter constructed from `B` only is a gain. -/
theorem C45_gain (b0 : T) (x y : ℕ → T) : Runs step (ofB b0) x y ↔ ∀ n, y n = b0 * x n := by
  have e : ofB b0 = ofBA b0 0 := by simp only [ofB, ofBA, ExactRing.zero_eq]
  rw [e, C45_step]
  simp only [zero_mul, sub_zero]

/-- **C45** A default-constructed filter is silent. -/
theorem C45_default (x y : ℕ → T) : Runs step (OnePole.default : OnePole T) x y ↔ ∀ n, y n = 0 := by
  have e : (OnePole.default : OnePole T) = ofB 0 := by
    simp only [OnePole.default, ofB, ExactRing.zero_eq]
  rw [e, C45_gain]
  simp only [zero_mul]

/-- **C45** Every input has exactly one output. -/
theorem C45_run_exists (q : OnePole T) (x : ℕ → T) : ∃! y, Runs step q x y := by
  obtain ⟨y, hy⟩ := Runs.exists (fun q x => ⟨_, step_exact q x⟩) q x
  exact ⟨y, hy, fun y' h => h.unique hy⟩

/-- **C45** Linearity, from rest. -/
theorem C45_linear (b0 a1 : T) {x x' y y' : ℕ → T} (c c' : T) (h : Runs step (ofBA b0 a1) x y)
    (h' : Runs step (ofBA b0 a1) x' y') :
    Runs step (ofBA b0 a1) (fun n => c * x n + c' * x' n) (fun n => c * y n + c' * y' n) := by
  rw [C45_is_biquad] at *
  exact C34_linear _ _ c c' h h'

/-- **C45** Time invariance, from rest. -/
theorem C45_time_invariant (b0 a1 : T) {x y : ℕ → T} (d : ℕ) (h : Runs step (ofBA b0 a1) x y) :
    Runs step (ofBA b0 a1) (delay d x) (delay d y) := by
  rw [C45_is_biquad] at *
  exact C34_time_invariant _ _ d h

/-- **C45** The impulse response is `b0 (-a1)^n`. -/
theorem C45_impulse (b0 a1 : T) (y : ℕ → T)
    (h : Runs step (ofBA b0 a1) (fun n => if n = 0 then 1 else 0) y) (n : ℕ) :
    y n = b0 * (-a1) ^ n := by
  rw [C45_step] at h
  induction n with
  | zero => rw [h 0]; simp [past]
  | succ n ih =>
    rw [h (n + 1), show past y (n + 1) 1 = y n from rfl, ih, if_neg (by omega), pow_succ]
    ring

end ring

/-- **C45** After any samples, `reset` gives the freshly constructed filter. -/
theorem C45_reset [CNum T] (q q' : OnePole T) (x : ℕ → T) (n : ℕ) (h : after step q x n = .ok q') :
    q'.reset = ofBA q.coeff_b q.coeff_a := by
  have : q'.a1 = q.a1 ∧ q'.b0 = q.b0 := by
    induction n generalizing q' with
    | zero => cases h; exact ⟨rfl, rfl⟩
    | succ n ih =>
      rw [after_succ, bind_eq_ok] at h
      obtain ⟨q1, h1, h2⟩ := h
      rw [bind_eq_ok] at h2
      obtain ⟨⟨y, q2⟩, h3, h4⟩ := h2
      cases h4
      have := ih q1 h1
      simp only [OnePole.step, bind_eq_ok, Except.ok.injEq, Prod.mk.injEq] at h3
      obtain ⟨_, _, _, _, _, _, rfl, rfl⟩ := h3
      exact this
  unfold OnePole.reset ofBA coeff_a coeff_b
  rw [this.1, this.2]

/-- **C35** Hence after any samples and `reset`, a one-pole filter answers every further input like a
freshly constructed one. -/
theorem C35_reset_onepole [CNum T] (q q' : OnePole T) (x x' : ℕ → T) (n k : ℕ)
    (h : after step q x n = .ok q') :
    out step q'.reset x' k = out step (ofBA q.coeff_b q.coeff_a) x' k := by
  rw [C45_reset q q' x n h]

/-- **C45** `response( f )` is `b0 / (1 + a1 exp( -2 pi i f ))`; undefined exactly if there is a pole. -/
theorem C45_response (q : OnePole ℝ) (f : ℝ) :
    let u := Complex.exp (-(2 * Real.pi * f * Complex.I))
    (1 + q.coeff_a * u ≠ 0 → q.response f = .ok (q.coeff_b / (1 + q.coeff_a * u))) ∧
    (1 + q.coeff_a * u = 0 → q.response f = .error .divByZero) := by
  intro u
  have e1 : Biquad.polar1 (-(2 * Real.pi * f)) = u := by
    rw [polar1_eq]
    push_cast
    congr 1
    ring
  unfold response
  simp only [e1]
  exact ⟨fun h => if_neg h, fun h => if_pos h⟩

/-- **C45** The response is that of the biquad with the same coefficients. -/
theorem C45_response_biquad (b0 a1 f : ℝ) :
    (ofBA b0 a1).response f = (Biquad.ofBA ⟨b0, 0, 0⟩ ⟨a1, 0⟩).response f := by
  have hf := response_formula (Biquad.ofBA ⟨b0, 0, 0⟩ ⟨a1, 0⟩) f
  simp only [Biquad.ofBA, Complex.ofReal_zero, zero_mul, add_zero] at hf
  rw [show (Biquad.ofBA ⟨b0, 0, 0⟩ ⟨a1, 0⟩).response f = _ from hf]
  have h := C45_response (ofBA b0 a1) f
  simp only [ofBA, coeff_a, coeff_b] at h
  split_ifs with hc
  · exact h.2 hc
  · exact h.1 hc

example : (ofBA 1 (1/2) : OnePole ℝ).response 0 = .ok (2/3 : ℂ) := by
  rw [(C45_response (ofBA 1 (1/2)) 0).1] <;> norm_num [ofBA, coeff_a, coeff_b]

example : ∃ y, Runs step exOp (fun _ => 1) y ∧ y 0 = 1 ∧ y 1 = 1/2 := by
  obtain ⟨y, hy, -⟩ := C45_run_exists exOp (fun _ => 1)
  have h := (C45_step 1 (1/2) _ y).1 hy
  have h0 := h 0
  have h1 := h 1
  simp [past] at h0 h1
  refine ⟨y, hy, h0, ?_⟩
  rw [h1, h0]
  norm_num

/-! ### C46 stability report

The property as expected does not hold: `poles()` is always 7 and `is_stable()` always true. -/

/-- **C46** (negation) `poles()` is 7 for every filter, so it is the pole only for `a1 = -7`. -/
theorem C46_poles_wrong (q : OnePole ℝ) :
    q.poles = .ok 7 ∧ (q.poles = .ok (-q.coeff_a : ℂ) ↔ q.coeff_a = -7) := by
  have h : q.poles = .ok 7 := by
    unfold poles solve RealFun.div
    rw [if_neg one_ne_zero]
    rfl
  refine ⟨h, ?_⟩
  rw [h, Except.ok.injEq]
  constructor
  · intro e
    have := congrArg Complex.re e
    simp at this
    linarith
  · intro e
    rw [e]
    simp

/-- **C46** `zeros()` is right: the transfer function `b0 z / (z + a1)` vanishes exactly there (if `b0` is not
zero and the pole is elsewhere). -/
theorem C46_zeros (q : OnePole ℝ) (hb : q.coeff_b ≠ 0) (ha : q.coeff_a ≠ 0) (z : ℂ) :
    (q.coeff_b * z / (z + q.coeff_a) = 0 ∧ z + q.coeff_a ≠ 0) ↔ z = q.zeros := by
  have hb' : (q.coeff_b : ℂ) ≠ 0 := by exact_mod_cast hb
  have ha' : (q.coeff_a : ℂ) ≠ 0 := by exact_mod_cast ha
  unfold zeros
  constructor
  · rintro ⟨h, h'⟩
    rw [div_eq_zero_iff] at h
    rcases h with h | h
    · exact (mul_eq_zero.1 h).resolve_left hb'
    · exact absurd h h'
  · rintro rfl
    exact ⟨by simp, by simpa using ha'⟩

example : (ofBA (1 : ℝ) (1 / 2)).coeff_b ≠ 0 ∧ (ofBA (1 : ℝ) (1 / 2)).coeff_a ≠ 0 := by
  simp [ofBA, coeff_a, coeff_b]

/-- **C46** (negation) A filter reported stable whose output for a bounded input is not bounded. -/
theorem C46_is_stable_wrong : ∃ (q : OnePole ℝ) (x y : ℕ → ℝ), q.is_stable = true ∧
    Runs step q x y ∧ (∀ n, |x n| ≤ 1) ∧ ∀ M, ∃ n, M < |y n| := by
  obtain ⟨y, hy, -⟩ := C45_run_exists (ofBA (1 : ℝ) (-2)) (fun n => if n = 0 then 1 else 0)
  refine ⟨_, _, y, rfl, hy, fun n => by split <;> simp, fun M => ?_⟩
  obtain ⟨n, hn⟩ := pow_unbounded_of_one_lt M (show (1 : ℝ) < 2 by norm_num)
  refine ⟨n, ?_⟩
  rw [C45_impulse 1 (-2) y hy]
  simpa using hn

/-- **C46** What holds: the report is right exactly for the filters whose pole `-a1` is in the closed
unit disc.  (Missing: `is_stable` is also true for all other filters.) -/
theorem C46_is_stable_partial (q : OnePole ℝ) :
    (q.is_stable = true ↔ ‖(-q.coeff_a : ℂ)‖ ≤ 1) ↔ |q.coeff_a| ≤ 1 := by
  rw [norm_neg, Complex.norm_real, Real.norm_eq_abs]
  simp [OnePole.is_stable]

/-- **C46** What the stability of the filter really is: all bounded inputs have bounded outputs iff
`|a1| < 1` (if `b0` is not 0). -/
theorem C46_bounded_iff (b0 a1 : ℝ) (hb : b0 ≠ 0) :
    (∀ x y : ℕ → ℝ, Runs step (ofBA b0 a1) x y → (∃ M, ∀ n, |x n| ≤ M) → ∃ M, ∀ n, |y n| ≤ M) ↔
      |a1| < 1 := by
  constructor
  · intro h
    by_contra hc
    rw [not_lt] at hc
    -- input (-sign a1)^n: no cancellation
    rcases le_total 0 a1 with h0 | h0
    · rw [abs_of_nonneg h0] at hc
      obtain ⟨y, hy, -⟩ := C45_run_exists (ofBA b0 a1) (fun n => (-1) ^ n)
      obtain ⟨M, hM⟩ := h _ y hy ⟨1, fun n => by simp⟩
      rw [C45_step] at hy
      have key : ∀ n : ℕ, ∃ c : ℝ, (n + 1 : ℝ) ≤ c ∧ y n = b0 * (-1) ^ n * c := by
        intro n
        induction n with
        | zero => exact ⟨1, by simp, by rw [hy 0]; simp [past]⟩
        | succ n ih =>
          obtain ⟨c, h1, h2⟩ := ih
          refine ⟨1 + a1 * c, ?_, ?_⟩
          · push_cast
            nlinarith [Nat.cast_nonneg (α := ℝ) n]
          · rw [hy, show past y (n + 1) 1 = y n from rfl, h2, pow_succ]
            ring
      obtain ⟨n, hn⟩ := exists_nat_gt (M / |b0|)
      obtain ⟨c, h1, h2⟩ := key n
      have := hM n
      rw [h2, abs_mul, abs_mul, abs_pow, abs_neg, abs_one, one_pow, mul_one,
        abs_of_nonneg (a := c) (by linarith [Nat.cast_nonneg (α := ℝ) n])] at this
      rw [div_lt_iff₀ (abs_pos.2 hb)] at hn
      nlinarith [abs_pos.2 hb]
    · rw [abs_of_nonpos h0] at hc
      obtain ⟨y, hy, -⟩ := C45_run_exists (ofBA b0 a1) (fun _ => 1)
      obtain ⟨M, hM⟩ := h _ y hy ⟨1, fun n => by simp⟩
      rw [C45_step] at hy
      have key : ∀ n : ℕ, ∃ c : ℝ, (n + 1 : ℝ) ≤ c ∧ y n = b0 * c := by
        intro n
        induction n with
        | zero => exact ⟨1, by simp, by rw [hy 0]; simp [past]⟩
        | succ n ih =>
          obtain ⟨c, h1, h2⟩ := ih
          refine ⟨1 - a1 * c, ?_, ?_⟩
          · push_cast
            nlinarith [Nat.cast_nonneg (α := ℝ) n]
          · rw [hy, show past y (n + 1) 1 = y n from rfl, h2]
            ring
      obtain ⟨n, hn⟩ := exists_nat_gt (M / |b0|)
      obtain ⟨c, h1, h2⟩ := key n
      have := hM n
      rw [h2, abs_mul, abs_of_nonneg (a := c) (by linarith [Nat.cast_nonneg (α := ℝ) n])] at this
      rw [div_lt_iff₀ (abs_pos.2 hb)] at hn
      nlinarith [abs_pos.2 hb]
  · rintro h x y hr ⟨M, hM⟩
    rw [C45_step] at hr
    have h1 : 0 < 1 - |a1| := by linarith
    have h0 : 0 ≤ M := le_trans (abs_nonneg _) (hM 0)
    refine ⟨|b0| * M / (1 - |a1|), fun n => ?_⟩
    have e : |b0| * M / (1 - |a1|) = |b0| * M + |a1| * (|b0| * M / (1 - |a1|)) := by
      field_simp; ring
    induction n with
    | zero =>
      rw [hr 0, show past y 0 1 = 0 from rfl, mul_zero, sub_zero, abs_mul, e]
      have : 0 ≤ |a1| * (|b0| * M / (1 - |a1|)) := by positivity
      have := mul_le_mul_of_nonneg_left (hM 0) (abs_nonneg b0)
      linarith
    | succ n ih =>
      rw [hr (n + 1), show past y (n + 1) 1 = y n from rfl, e]
      have h2 := mul_le_mul_of_nonneg_left (hM (n + 1)) (abs_nonneg b0)
      have h3 := mul_le_mul_of_nonneg_left ih (abs_nonneg a1)
      calc |b0 * x (n + 1) - a1 * y n| ≤ |b0 * x (n + 1)| + |a1 * y n| := abs_sub _ _
        _ ≤ _ := by rw [abs_mul, abs_mul]; exact add_le_add h2 h3

example : ((3/2 : ℝ) ≠ 0) ∧ |(-1/2 : ℝ)| < 1 := by norm_num [abs_lt]

/-! ### C47 designed filters -/

/-- **C47** The low-pass design: coefficients for `0 < f`, `0 < fs`. -/
theorem C47_low_pass_coeff (f fs : ℝ) (hf : 0 < f) (hs : 0 < fs) :
    ∃ c, designLowPass f fs = .ok c ∧ (make_onepole c).coeff_a = -Real.exp (-Real.pi * f / fs) ∧
      (make_onepole c).coeff_b = 1 - Real.exp (-Real.pi * f / fs) ∧ (make_onepole c).state = 0 ∧
      -1 < (make_onepole c).coeff_a ∧ (make_onepole c).coeff_a < 0 := by
  unfold designLowPass RealFun.div
  rw [if_neg hs.ne', bind_ok]
  refine ⟨_, rfl, ?_, ?_, ?_, ?_, ?_⟩
  · simp [make_onepole, ofBA, coeff_a]
  · simp [make_onepole, ofBA, coeff_b]
  · rfl
  · have : Real.exp (-1 * Real.pi * f / fs) < 1 := by
      rw [Real.exp_lt_one_iff]
      have := Real.pi_pos
      rw [div_neg_iff]
      right
      exact ⟨by nlinarith, hs⟩
    simpa [make_onepole, ofBA, coeff_a] using this
  · simpa [make_onepole, ofBA, coeff_a] using Real.exp_pos _

/-- **C47** The high-pass design: coefficients for `f < fs / 2`, `0 < fs`. -/
theorem C47_high_pass_coeff (f fs : ℝ) (hf : f < fs / 2) (hs : 0 < fs) :
    ∃ c, designHighPass f fs = .ok c ∧
      (make_onepole c).coeff_a = Real.exp (-Real.pi * (1 / 2 - f / fs)) ∧
      (make_onepole c).coeff_b = 1 - Real.exp (-Real.pi * (1 / 2 - f / fs)) ∧
      (make_onepole c).state = 0 ∧
      0 < (make_onepole c).coeff_a ∧ (make_onepole c).coeff_a < 1 := by
  unfold designHighPass RealFun.div
  rw [if_neg hs.ne', bind_ok]
  have e : Real.exp (-1 * Real.pi * (0.5 - f / fs)) = Real.exp (-Real.pi * (1 / 2 - f / fs)) := by
    norm_num
  have h1 : Real.exp (-Real.pi * (1 / 2 - f / fs)) < 1 := by
    rw [Real.exp_lt_one_iff]
    have : f / fs < 1 / 2 := by rw [div_lt_iff₀ hs]; linarith
    nlinarith [Real.pi_pos]
  refine ⟨_, rfl, ?_, ?_, ?_, ?_, ?_⟩
  · exact e
  · show 1 - |_| = _
    rw [e, abs_of_pos (Real.exp_pos _)]
  · rfl
  · exact Real.exp_pos _
  · show Real.exp _ < 1
    rw [e]
    exact h1

/-- **C47** A designed low-pass never leaves the range of its inputs (and its initial state 0). -/
theorem C47_low_pass_no_overshoot (f fs : ℝ) (hf : 0 < f) (hs : 0 < fs) (x y : ℕ → ℝ) (lo hi : ℝ)
    (h0 : lo ≤ 0 ∧ 0 ≤ hi) (c : ℝ × ℝ) (hc : designLowPass f fs = .ok c)
    (h : Runs step (make_onepole c) x y) (n : ℕ) (hx : ∀ k ≤ n, lo ≤ x k ∧ x k ≤ hi) :
    lo ≤ y n ∧ y n ≤ hi := by
  obtain ⟨c', h1, ha, hb, hst, h2, h3⟩ := C47_low_pass_coeff f fs hf hs
  obtain rfl : c' = c := Except.ok.inj (h1.symm.trans hc)
  rw [C45_step_any_state] at h
  have hb' : (make_onepole c').coeff_b = 1 + (make_onepole c').coeff_a := by rw [ha, hb]; ring
  rw [hb', hst] at h
  set a := (make_onepole c').coeff_a
  obtain ⟨hy0, hy⟩ := h
  induction n with
  | zero =>
    have := hx 0 le_rfl
    rw [hy0]
    constructor <;> nlinarith
  | succ n ih =>
    have ih := ih fun k hk => hx k (by omega)
    have hx' := hx (n + 1) le_rfl
    rw [hy]
    have e1 := mul_nonneg (show 0 ≤ 1 + a by linarith) (sub_nonneg.2 hx'.1)
    have e2 := mul_nonneg (show 0 ≤ 1 + a by linarith) (sub_nonneg.2 hx'.2)
    have e3 := mul_nonneg (show 0 ≤ -a by linarith) (sub_nonneg.2 ih.1)
    have e4 := mul_nonneg (show 0 ≤ -a by linarith) (sub_nonneg.2 ih.2)
    constructor <;> linarith

/-- **C47** A designed high-pass never exceeds the magnitude of its inputs. -/
theorem C47_high_pass_no_overshoot (f fs : ℝ) (hf : f < fs / 2) (hs : 0 < fs) (x y : ℕ → ℝ) (M : ℝ)
    (c : ℝ × ℝ) (hc : designHighPass f fs = .ok c) (h : Runs step (make_onepole c) x y) (n : ℕ)
    (hx : ∀ k ≤ n, |x k| ≤ M) : |y n| ≤ M := by
  obtain ⟨c', h1, ha, hb, hst, h2, h3⟩ := C47_high_pass_coeff f fs hf hs
  obtain rfl : c' = c := Except.ok.inj (h1.symm.trans hc)
  rw [C45_step_any_state] at h
  have hb' : (make_onepole c').coeff_b = 1 - (make_onepole c').coeff_a := by rw [ha, hb]
  rw [hb', hst] at h
  set a := (make_onepole c').coeff_a
  obtain ⟨hy0, hy⟩ := h
  have hM : 0 ≤ M := le_trans (abs_nonneg _) (hx 0 (by omega))
  induction n with
  | zero =>
    have := abs_le.1 (hx 0 le_rfl)
    rw [hy0, abs_le]
    constructor <;> nlinarith
  | succ n ih =>
    have ih := abs_le.1 (ih fun k hk => hx k (by omega))
    have := abs_le.1 (hx (n + 1) le_rfl)
    rw [hy, abs_le]
    constructor <;> nlinarith

theorem exp_tanh (t : ℝ) : (1 - Real.exp (-(2 * t))) / (1 + Real.exp (-(2 * t))) = Real.tanh t := by
  have hp := Real.exp_pos t
  have hn := Real.exp_pos (-t)
  have e : Real.exp (-(2 * t)) = Real.exp (-t) * Real.exp (-t) := by
    rw [← Real.exp_add]; congr 1; ring
  have e1 : Real.exp t * Real.exp (-t) = 1 := by rw [← Real.exp_add]; simp
  rw [Real.tanh_eq, e, div_eq_div_iff (by positivity) (by positivity)]
  linear_combination (-2 * Real.exp (-t)) * e1

/-- Response of a one-pole filter at DC and at the Nyquist frequency. -/
theorem onepole_dc_nyquist (q : OnePole ℝ) (h1 : -1 < q.coeff_a) (h2 : q.coeff_a < 1) :
    q.response 0 = .ok ((q.coeff_b / (1 + q.coeff_a) : ℝ) : ℂ) ∧
      q.response (1 / 2) = .ok ((q.coeff_b / (1 - q.coeff_a) : ℝ) : ℂ) := by
  have hu : Complex.exp (-(2 * Real.pi * (1 / 2 : ℝ) * Complex.I)) = -1 := by
    rw [← Complex.exp_neg_pi_mul_I]
    congr 1
    push_cast
    ring
  constructor
  · have hd : (1 : ℂ) + q.coeff_a ≠ 0 := by
      intro e
      have e' : (1 : ℝ) + q.coeff_a = 0 := by exact_mod_cast e
      linarith
    rw [(C45_response _ _).1] <;>
      simp only [Complex.ofReal_zero, mul_zero, zero_mul, neg_zero, Complex.exp_zero, mul_one]
    · push_cast; rfl
    · exact hd
  · have hd : (1 : ℂ) + q.coeff_a * -1 ≠ 0 := by
      intro e
      have e' : (1 : ℝ) + q.coeff_a * -1 = 0 := by exact_mod_cast e
      linarith
    rw [(C45_response _ _).1 (by rw [hu]; exact hd), hu]
    push_cast
    rw [mul_neg_one, ← sub_eq_add_neg]

/-- **C47** Unit gain of the low-pass at DC.  Its gain at the Nyquist frequency is
`tanh( pi f / (2 fs) )`: small, not zero. -/
theorem C47_low_pass_gain (f fs : ℝ) (hf : 0 < f) (hs : 0 < fs) :
    ∃ c, designLowPass f fs = .ok c ∧ (make_onepole c).response 0 = .ok 1 ∧
      (make_onepole c).response (1 / 2) = .ok (Real.tanh (Real.pi * f / fs / 2) : ℂ) := by
  obtain ⟨c, h1, ha, hb, -, h2, h3⟩ := C47_low_pass_coeff f fs hf hs
  obtain ⟨g1, g2⟩ := onepole_dc_nyquist _ h2 (by linarith)
  refine ⟨c, h1, ?_, ?_⟩
  · rw [g1, hb, ha, ← sub_eq_add_neg, div_self, Complex.ofReal_one]
    rw [ha] at h2
    linarith
  · rw [g2, hb, ha, sub_neg_eq_add, ← exp_tanh]
    have : -(2 * (Real.pi * f / fs / 2)) = -Real.pi * f / fs := by ring
    rw [this]

/-- **C47** Unit gain of the high-pass at the Nyquist frequency.  Its gain at DC is
`tanh( pi (1/2 - f/fs) / 2 )`: not zero, a constant input is attenuated, not removed. -/
theorem C47_high_pass_gain (f fs : ℝ) (hf : f < fs / 2) (hs : 0 < fs) :
    ∃ c, designHighPass f fs = .ok c ∧ (make_onepole c).response (1 / 2) = .ok 1 ∧
      (make_onepole c).response 0 = .ok (Real.tanh (Real.pi * (1 / 2 - f / fs) / 2) : ℂ) := by
  obtain ⟨c, h1, ha, hb, -, h2, h3⟩ := C47_high_pass_coeff f fs hf hs
  obtain ⟨g1, g2⟩ := onepole_dc_nyquist _ (by linarith) h3
  refine ⟨c, h1, ?_, ?_⟩
  · rw [g2, hb, ha, div_self, Complex.ofReal_one]
    rw [ha] at h3
    linarith
  · rw [g1, hb, ha, ← exp_tanh]
    have : -(2 * (Real.pi * (1 / 2 - f / fs) / 2)) = -Real.pi * (1 / 2 - f / fs) := by ring
    rw [this]

/-- Squared magnitude of the response. -/
theorem onepole_magnitude (q : OnePole ℝ) (h : |q.coeff_a| < 1) (g : ℝ) : ∃ H, q.response g = .ok H ∧
    ‖H‖ ^ 2 = q.coeff_b ^ 2 / (1 + 2 * q.coeff_a * Real.cos (2 * Real.pi * g) + q.coeff_a ^ 2) := by
  have hu : Complex.exp (-(2 * Real.pi * g * Complex.I)) =
      ⟨Real.cos (2 * Real.pi * g), -Real.sin (2 * Real.pi * g)⟩ := by
    have : Biquad.polar1 (-(2 * Real.pi * g)) = Complex.exp (-(2 * Real.pi * g * Complex.I)) := by
      rw [polar1_eq]
      push_cast
      congr 1
      ring
    rw [← this]
    unfold Biquad.polar1
    rw [Real.cos_neg, Real.sin_neg]
  have hsc := Real.sin_sq_add_cos_sq (2 * Real.pi * g)
  obtain ⟨h1, h2⟩ := abs_lt.1 h
  have hn : Complex.normSq (1 + q.coeff_a * Complex.exp (-(2 * Real.pi * g * Complex.I))) =
      1 + 2 * q.coeff_a * Real.cos (2 * Real.pi * g) + q.coeff_a ^ 2 := by
    rw [hu, Complex.normSq_apply]
    simp
    linear_combination q.coeff_a ^ 2 * hsc
  have hpos : 0 < 1 + 2 * q.coeff_a * Real.cos (2 * Real.pi * g) + q.coeff_a ^ 2 := by
    have c1 := Real.cos_le_one (2 * Real.pi * g)
    have c2 := Real.neg_one_le_cos (2 * Real.pi * g)
    rcases le_total 0 q.coeff_a with h0 | h0
    · nlinarith [mul_nonneg h0 (show 0 ≤ 1 + Real.cos (2 * Real.pi * g) by linarith)]
    · nlinarith [mul_nonneg (neg_nonneg.2 h0) (show 0 ≤ 1 - Real.cos (2 * Real.pi * g) by linarith)]
  refine ⟨_, (C45_response q g).1 ?_, ?_⟩
  · intro e
    rw [e, map_zero] at hn
    linarith
  · rw [norm_div, div_pow, ← Complex.normSq_eq_norm_sq, ← Complex.normSq_eq_norm_sq, hn,
      Complex.normSq_ofReal, ← pow_two]

theorem cos_lt_of_lt {g1 g2 : ℝ} (h1 : 0 ≤ g1) (h : g1 < g2) (h2 : g2 ≤ 1 / 2) :
    Real.cos (2 * Real.pi * g2) < Real.cos (2 * Real.pi * g1) := by
  have := Real.pi_pos
  exact Real.cos_lt_cos_of_nonneg_of_le_pi (by positivity) (by nlinarith) (by nlinarith)

/-- **C47** The gain of the low-pass decreases from DC to the Nyquist frequency. -/
theorem C47_low_pass_monotone (f fs : ℝ) (hf : 0 < f) (hs : 0 < fs) (c : ℝ × ℝ)
    (hc : designLowPass f fs = .ok c) (g1 g2 : ℝ) (h1 : 0 ≤ g1) (h : g1 < g2) (h2 : g2 ≤ 1 / 2) :
    ∃ H1 H2, (make_onepole c).response g1 = .ok H1 ∧ (make_onepole c).response g2 = .ok H2 ∧
      ‖H2‖ < ‖H1‖ := by
  obtain ⟨c', e1, ha, hb, -, l1, l2⟩ := C47_low_pass_coeff f fs hf hs
  obtain rfl : c' = c := Except.ok.inj (e1.symm.trans hc)
  have hl : |(make_onepole c').coeff_a| < 1 := abs_lt.2 ⟨l1, by linarith⟩
  obtain ⟨H1, r1, m1⟩ := onepole_magnitude _ hl g1
  obtain ⟨H2, r2, m2⟩ := onepole_magnitude _ hl g2
  refine ⟨H1, H2, r1, r2, ?_⟩
  have hcos := cos_lt_of_lt h1 h h2
  have hb0 : 0 < (make_onepole c').coeff_b := by rw [ha] at l1; rw [hb]; linarith
  refine lt_of_pow_lt_pow_left₀ 2 (norm_nonneg _) ?_
  rw [m1, m2]
  apply div_lt_div_of_pos_left (by positivity)
  · nlinarith [Real.cos_le_one (2 * Real.pi * g1), Real.neg_one_le_cos (2 * Real.pi * g1)]
  · nlinarith

/-- **C47** The gain of the high-pass increases from DC to the Nyquist frequency. -/
theorem C47_high_pass_monotone (f fs : ℝ) (hf : f < fs / 2) (hs : 0 < fs) (c : ℝ × ℝ)
    (hc : designHighPass f fs = .ok c) (g1 g2 : ℝ) (h1 : 0 ≤ g1) (h : g1 < g2) (h2 : g2 ≤ 1 / 2) :
    ∃ H1 H2, (make_onepole c).response g1 = .ok H1 ∧ (make_onepole c).response g2 = .ok H2 ∧
      ‖H1‖ < ‖H2‖ := by
  obtain ⟨c', e1, ha, hb, -, l1, l2⟩ := C47_high_pass_coeff f fs hf hs
  obtain rfl : c' = c := Except.ok.inj (e1.symm.trans hc)
  have hl : |(make_onepole c').coeff_a| < 1 := abs_lt.2 ⟨by linarith, l2⟩
  obtain ⟨H1, r1, m1⟩ := onepole_magnitude _ hl g1
  obtain ⟨H2, r2, m2⟩ := onepole_magnitude _ hl g2
  refine ⟨H1, H2, r1, r2, ?_⟩
  have hcos := cos_lt_of_lt h1 h h2
  have hb0 : 0 < (make_onepole c').coeff_b := by rw [ha] at l2; rw [hb]; linarith
  refine lt_of_pow_lt_pow_left₀ 2 (norm_nonneg _) ?_
  rw [m1, m2]
  apply div_lt_div_of_pos_left (by positivity)
  · nlinarith [Real.cos_le_one (2 * Real.pi * g2), Real.neg_one_le_cos (2 * Real.pi * g2)]
  · nlinarith

/-- **C47** Both designs have their pole strictly inside the unit circle, hence a bounded output for
every bounded input. -/
theorem C47_stable (f fs : ℝ) (hf : 0 < f) (hf2 : f < fs / 2) (c : ℝ × ℝ)
    (hc : designLowPass f fs = .ok c ∨ designHighPass f fs = .ok c) :
    |(make_onepole c).coeff_a| < 1 ∧
      ∀ x y : ℕ → ℝ, Runs step (make_onepole c) x y → (∃ M, ∀ n, |x n| ≤ M) → ∃ M, ∀ n, |y n| ≤ M := by
  have hs : 0 < fs := by linarith
  have key : |(make_onepole c).coeff_a| < 1 ∧ (make_onepole c).coeff_b ≠ 0 := by
    rcases hc with hc | hc
    · obtain ⟨c', e1, ha, hb, -, l1, l2⟩ := C47_low_pass_coeff f fs hf hs
      obtain rfl : c' = c := Except.ok.inj (e1.symm.trans hc)
      exact ⟨abs_lt.2 ⟨l1, by linarith⟩, by rw [ha] at l1; rw [hb]; linarith⟩
    · obtain ⟨c', e1, ha, hb, -, l1, l2⟩ := C47_high_pass_coeff f fs hf2 hs
      obtain rfl : c' = c := Except.ok.inj (e1.symm.trans hc)
      exact ⟨abs_lt.2 ⟨by linarith, l2⟩, by rw [ha] at l2; rw [hb]; linarith⟩
  exact ⟨key.1, (C46_bounded_iff _ _ key.2).2 key.1⟩

/-- **C47** Without the restriction `f < fs / 2` the high-pass design is unstable. -/
theorem C47_high_pass_above_nyquist (f fs : ℝ) (hf : fs / 2 ≤ f) (hs : 0 < fs) :
    ∃ c, designHighPass f fs = .ok c ∧ 1 ≤ (make_onepole c).coeff_a := by
  unfold designHighPass RealFun.div
  rw [if_neg hs.ne', bind_ok]
  refine ⟨_, rfl, ?_⟩
  show 1 ≤ Real.exp _
  rw [Real.one_le_exp_iff]
  have : 1 / 2 ≤ f / fs := by rw [le_div_iff₀ hs]; linarith
  norm_num
  nlinarith [Real.pi_pos]

example : (0 : ℝ) < 100 ∧ (0 : ℝ) < 1000 ∧ (100 : ℝ) < 1000 / 2 ∧ (1000 : ℝ) / 2 ≤ 600 := by norm_num

end Verif
