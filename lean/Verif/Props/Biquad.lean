import Mathlib.Analysis.SpecialFunctions.Pow.Real
import Verif.Lemmas.BiquadAnalysis

/-
Properties C32-C39: include/dsp/biquad.hpp.

`Runs step q x y`: fed with the sequence `x`, the object `q` delivers the sequence `y`, without
undefined behaviour.
-/

namespace Verif
open Sig Biquad Topology
variable {T : Type}

/-- A low-pass section for the examples: poles `1/2` and `-1/4`. -/
def exBq : Biquad ℚ := ofBA ⟨1, 2, 1⟩ ⟨-1/4, -1/8⟩

section ring
variable [CommRing T] [CNum T] [ExactRing T]

/-! ### C32 difference equation -/

/-- **C32** From rest, every input sequence has exactly one output sequence, and it is the one given
by the difference equation. -/
theorem C32_step (b : BqB T) (a : BqA T) (x y : ℕ → T) :
    Runs step (ofBA b a) x y ↔ DiffEq b.b0 b.b1 b.b2 a.a1 a.a2 x y := by
  obtain ⟨y', h⟩ := runs_df2_exists (ofBA b a) x
  have hd := runs_df2_diffEq rfl h
  constructor
  · exact fun h' => runs_df2_diffEq rfl h'
  · intro h'
    rw [h'.unique hd]
    exact h

/-- **C32** From any state whatsoever the difference equation holds from the third sample on. -/
theorem C32_step_any_state (q : Biquad T) (x y : ℕ → T) (h : Runs step q x y) (n : ℕ) :
    y (n + 2) = q.b.b0 * x (n + 2) + q.b.b1 * x (n + 1) + q.b.b2 * x n -
      q.a.a1 * y (n + 1) - q.a.a2 * y n := runs_df2_rec h n

/-- **C32** A filter constructed from `B` only is the moving average with these weights. -/
theorem C32_fir (b : BqB T) (x y : ℕ → T) :
    Runs step (ofB b) x y ↔ ∀ n, y n = b.b0 * x n + b.b1 * past x n 1 + b.b2 * past x n 2 := by
  have e : ofB b = ofBA b ⟨0, 0⟩ := by simp only [ofB, ofBA, zeroA, ExactRing.zero_eq]
  rw [e, C32_step]
  unfold DiffEq
  simp only [zero_mul, sub_zero]

/-- **C32** A default-constructed filter is silent. -/
theorem C32_default (x y : ℕ → T) : Runs step (Biquad.default : Biquad T) x y ↔ ∀ n, y n = 0 := by
  have e : (Biquad.default : Biquad T) = ofB ⟨0, 0, 0⟩ := by
    simp only [Biquad.default, ofB, zeroA, zeroB, ExactRing.zero_eq]
  rw [e, C32_fir]
  simp only [zero_mul, add_zero]

/-- The first outputs of the example for the input 1, 0, 0, … -/
example : let x : ℕ → ℚ := fun n => if n = 0 then 1 else 0
    out step exBq x 0 = .ok 1 ∧ out step exBq x 1 = .ok (9/4) ∧ out step exBq x 2 = .ok (27/16) := by
  intro x
  refine ⟨?_, ?_, ?_⟩ <;>
  · simp only [out, after, step, step_df2_exact, bind_ok, exBq, ofBA, zeroW, ExactRing.zero_eq, x]
    norm_num

/-! ### C33 the two forms -/

/-- **C33** From rest, direct form 2 and its transpose have the same outputs for every input. -/
theorem C33_df2_transposed (b : BqB T) (a : BqA T) (x : ℕ → T) (n : ℕ) :
    out step_df2 (ofBA b a) x n = out step_df2_transposed (ofBA b a) x n := by
  obtain ⟨y, h⟩ := runs_df2_exists (ofBA b a) x
  obtain ⟨y', h'⟩ := runs_df2t_exists (ofBA b a) x
  rw [h n, h' n, (runs_df2_diffEq rfl h).unique (runs_df2t_diffEq rfl h')]

/-- **C33** Not so from an arbitrary state: the state means something different in the two forms. -/
theorem C33_state_differs : ∃ (q : Biquad ℚ) (x : ℕ → ℚ),
    out step_df2 q x 0 ≠ out step_df2_transposed q x 0 :=
  ⟨⟨⟨0, 0⟩, ⟨0, 0, 0⟩, ⟨1, 0⟩⟩, fun _ => 0, by
    simp [out, after, step_df2_exact, step_df2_transposed_exact]⟩

example : let x : ℕ → ℚ := fun n => n + 1
    out step_df2_transposed exBq x 2 = .ok (147/16) ∧ out step_df2 exBq x 2 = .ok (147/16) := by
  intro x
  refine ⟨?_, ?_⟩ <;>
  · simp only [out, after, step_df2_exact, step_df2_transposed_exact, bind_ok, exBq, ofBA, zeroW,
      ExactRing.zero_eq, x]
    norm_num

/-! ### C34 linearity and time invariance -/

/-- **C34** The response to a linear combination is the linear combination of the responses. -/
theorem C34_linear (b : BqB T) (a : BqA T) {x x' y y' : ℕ → T} (c c' : T)
    (h : Runs step (ofBA b a) x y) (h' : Runs step (ofBA b a) x' y') :
    Runs step (ofBA b a) (fun n => c * x n + c' * x' n) (fun n => c * y n + c' * y' n) := by
  rw [C32_step] at *
  exact h.linear c c' h'

/-- **C34** A delayed input gives the equally delayed output. -/
theorem C34_time_invariant (b : BqB T) (a : BqA T) {x y : ℕ → T} (d : ℕ)
    (h : Runs step (ofBA b a) x y) : Runs step (ofBA b a) (delay d x) (delay d y) := by
  rw [C32_step] at *
  exact h.delay d

/-- **C34** The same for the transposed form. -/
theorem C34_linear_transposed (b : BqB T) (a : BqA T) {x x' y y' : ℕ → T} (c c' : T)
    (h : Runs step_df2_transposed (ofBA b a) x y) (h' : Runs step_df2_transposed (ofBA b a) x' y') :
    Runs step_df2_transposed (ofBA b a) (fun n => c * x n + c' * x' n)
      (fun n => c * y n + c' * y' n) := fun n => by
  rw [← C33_df2_transposed]
  exact C34_linear b a c c' (fun n => (C33_df2_transposed b a x n).trans (h n))
    (fun n => (C33_df2_transposed b a x' n).trans (h' n)) n

theorem C34_time_invariant_transposed (b : BqB T) (a : BqA T) {x y : ℕ → T} (d : ℕ)
    (h : Runs step_df2_transposed (ofBA b a) x y) :
    Runs step_df2_transposed (ofBA b a) (delay d x) (delay d y) := fun n => by
  rw [← C33_df2_transposed]
  exact C34_time_invariant b a d (fun n => (C33_df2_transposed b a x n).trans (h n)) n

/-- **C34** Every input sequence has a response (so the theorems above are not vacuous). -/
theorem C34_runs_exist (b : BqB T) (a : BqA T) (x : ℕ → T) :
    (∃ y, Runs step (ofBA b a) x y) ∧ ∃ y, Runs step_df2_transposed (ofBA b a) x y :=
  ⟨runs_df2_exists _ x, runs_df2t_exists _ x⟩

example : delay 2 (fun n => (n : ℚ) + 1) 1 = 0 ∧ delay 2 (fun n => (n : ℚ) + 1) 3 = 2 := by
  refine ⟨rfl, ?_⟩
  norm_num [delay, past]

end ring

/-! ### C35 reset -/

/-- **C35** Whatever a filter processed before, in whichever form, after `reset()` it is the freshly
constructed filter with its original coefficients.  Any numeric type. -/
theorem C35_reset_biquad [CNum T] (q q' : Biquad T) (x : ℕ → T) (n : ℕ)
    (h : after step q x n = .ok q' ∨ after step_df2_transposed q x n = .ok q') :
    q'.reset = ofBA q.coeff_b q.coeff_a := by
  have : q'.a = q.a ∧ q'.b = q.b := by
    rcases h with h | h
    · exact after_coeff (fun _ _ _ _ => step_df2_coeff) h
    · exact after_coeff (fun _ _ _ _ => step_df2_transposed_coeff) h
  unfold reset ofBA coeff_a coeff_b
  rw [this.1, this.2]

/-- **C35** Hence the same outputs as the fresh filter for every further input. -/
theorem C35_reset_biquad_outputs [CNum T] (q q' : Biquad T) (x x' : ℕ → T) (n k : ℕ)
    (h : after step q x n = .ok q') :
    out step q'.reset x' k = out step (ofBA q.coeff_b q.coeff_a) x' k := by
  rw [C35_reset_biquad q q' x n (.inl h)]

example : ∃ q', after step exBq (fun n => (n : ℚ)) 2 = .ok q' ∧ q' ≠ exBq ∧ q'.reset = exBq := by
  refine ⟨⟨⟨-1/4, -1/8⟩, ⟨1, 2, 1⟩, ⟨1, 0⟩⟩, ?_, ?_, rfl⟩
  · have : ∀ q : Biquad ℚ, after step q (fun n => (n : ℚ)) 2 = .ok
        { q with w := ⟨1 - q.a.a1 * (0 - q.a.a1 * q.w.v1 - q.a.a2 * q.w.v2) - q.a.a2 * q.w.v1,
                       0 - q.a.a1 * q.w.v1 - q.a.a2 * q.w.v2⟩ } := by
      intro q
      simp only [after, step, step_df2_exact, bind_ok]
      norm_num
    rw [this]
    norm_num [exBq, ofBA, zeroW, CNum.zero]
  · intro h
    have := congrArg (fun q => q.w.v1) h
    norm_num [exBq, ofBA, zeroW, CNum.zero] at this

/-! ### C36 frequency response -/

theorem polar1_eq (t : ℝ) : polar1 t = Complex.exp (t * Complex.I) := by
  apply Complex.ext
  · rw [Complex.exp_ofReal_mul_I_re]; rfl
  · rw [Complex.exp_ofReal_mul_I_im]; rfl

/-- The sinusoid with complex amplitude `A` and normalised frequency `f`. -/
noncomputable def sinusoid (A : ℂ) (f : ℝ) (n : ℕ) : ℝ :=
  (A * Complex.exp (2 * Real.pi * f * n * Complex.I)).re

theorem response_formula (q : Biquad ℝ) (f : ℝ) :
    let u := Complex.exp (-(2 * Real.pi * f * Complex.I))
    response q f = if 1 + q.a.a1 * u + q.a.a2 * u ^ 2 = 0 then .error .divByZero
      else .ok (((q.b.b0 : ℂ) + q.b.b1 * u + q.b.b2 * u ^ 2) / (1 + q.a.a1 * u + q.a.a2 * u ^ 2)) := by
  intro u
  have e1 : polar1 (-(2 * Real.pi * f)) = u := by
    rw [polar1_eq]
    push_cast
    congr 1
    ring
  have e2 : polar1 (-2 * (2 * Real.pi * f)) = u ^ 2 := by
    rw [polar1_eq, ← Complex.exp_nat_mul]
    push_cast
    congr 1
    ring
  unfold response
  simp only [e1, e2]

theorem poles_spec (q : Biquad ℝ) : ∃ p, q.poles = .ok p ∧ p.s0 + p.s1 = -(q.a.a1 : ℂ) ∧
    p.s0 * p.s1 = (q.a.a2 : ℂ) := by
  obtain ⟨s, h, h1, h2⟩ := solve_ok (a := 1) (b := q.a.a1) (c := q.a.a2) one_ne_zero
  rw [div_one] at h1 h2
  exact ⟨s, h, h1, h2⟩

/-- **C36** If both poles are strictly inside the unit circle then, from any initial state, the
output for an input that converges to a sinusoid of any amplitude, phase and frequency converges to
the sinusoid with the amplitude multiplied by `response( f )`. -/
theorem C36_response_limit_asymptotic (q : Biquad ℝ) (p : Solution) (hp : q.poles = .ok p)
    (h0 : ‖p.s0‖ < 1) (h1 : ‖p.s1‖ < 1) (f : ℝ) (A : ℂ) (x y : ℕ → ℝ)
    (hx : Filter.Tendsto (fun n => x n - sinusoid A f n) Filter.atTop (𝓝 0)) (h : Runs step q x y) :
    ∃ H, response q f = .ok H ∧
      Filter.Tendsto (fun n => y n - sinusoid (H * A) f n) Filter.atTop (𝓝 0) := by
  obtain ⟨p', hp', s1, s2⟩ := poles_spec q
  obtain rfl : p' = p := Except.ok.inj (hp'.symm.trans hp)
  set θ : ℂ := 2 * Real.pi * f * Complex.I with hθ
  have hf := response_formula q f
  simp only at hf
  set u := Complex.exp (-θ) with hu
  have hnu : ‖u‖ = 1 := by
    have : u = Complex.exp ((-(2 * Real.pi * f) : ℝ) * Complex.I) := by
      rw [hu, hθ]; push_cast; congr 1; ring
    rw [this, Complex.norm_exp_ofReal_mul_I]
  have hden : 1 + q.a.a1 * u + q.a.a2 * u ^ 2 ≠ 0 := by
    have e : 1 + q.a.a1 * u + q.a.a2 * u ^ 2 = (1 - p'.s0 * u) * (1 - p'.s1 * u) := by
      rw [← s2]
      linear_combination u * s1
    have hk : ∀ s : ℂ, ‖s‖ < 1 → 1 - s * u ≠ 0 := by
      intro s hs hz
      have : s * u = 1 := by linear_combination -hz
      have h2 := congrArg (‖·‖) this
      simp only [norm_mul, hnu, norm_one, mul_one] at h2
      linarith
    rw [e]
    exact mul_ne_zero (hk _ h0) (hk _ h1)
  rw [if_neg hden] at hf
  refine ⟨_, hf, ?_⟩
  set H := ((q.b.b0 : ℂ) + q.b.b1 * u + q.b.b2 * u ^ 2) / (1 + q.a.a1 * u + q.a.a2 * u ^ 2) with hH
  have hHe : H * (1 + q.a.a1 * u + q.a.a2 * u ^ 2) = q.b.b0 + q.b.b1 * u + q.b.b2 * u ^ 2 :=
    div_mul_cancel₀ _ hden
  have hexp : ∀ n : ℕ, Complex.exp (2 * Real.pi * f * (n : ℕ) * Complex.I) = Complex.exp (n * θ) := by
    intro n; rw [hθ]; congr 1; ring
  have hv1 : ∀ n : ℕ, Complex.exp ((n + 1 : ℕ) * θ) * u = Complex.exp (n * θ) := by
    intro n; rw [hu, ← Complex.exp_add]; congr 1; push_cast; ring
  have hcplx : ∀ n : ℕ, (sinusoid (H * A) f (n + 2) : ℝ) = q.b.b0 * sinusoid A f (n + 2) +
      q.b.b1 * sinusoid A f (n + 1) + q.b.b2 * sinusoid A f n -
      q.a.a1 * sinusoid (H * A) f (n + 1) - q.a.a2 * sinusoid (H * A) f n := by
    intro n
    have e1 := hv1 n
    have e2 := hv1 (n + 1)
    set v := Complex.exp ((n + 1 + 1 : ℕ) * θ) with hv
    have key : H * A * v = q.b.b0 * (A * v) + q.b.b1 * (A * (v * u)) + q.b.b2 * (A * (v * u * u)) -
        q.a.a1 * (H * A * (v * u)) - q.a.a2 * (H * A * (v * u * u)) := by
      linear_combination A * v * hHe
    unfold sinusoid
    rw [hexp, hexp, hexp, ← e1, ← e2]
    have := congrArg Complex.re key
    simp only [Complex.add_re, Complex.sub_re, Complex.re_ofReal_mul] at this
    exact this
  set e : ℕ → ℂ := fun n => ((y n - sinusoid (H * A) f n : ℝ) : ℂ) with he
  set d : ℕ → ℝ := fun n => q.b.b0 * (x (n + 2) - sinusoid A f (n + 2)) +
    q.b.b1 * (x (n + 1) - sinusoid A f (n + 1)) + q.b.b2 * (x n - sinusoid A f n) with hdd
  have hd : Filter.Tendsto (fun n => (d n : ℂ)) Filter.atTop (𝓝 0) := by
    have t2 := (Filter.tendsto_add_atTop_iff_nat 2).2 hx
    have t1 := (Filter.tendsto_add_atTop_iff_nat 1).2 hx
    have := ((t2.const_mul q.b.b0).add (t1.const_mul q.b.b1)).add (hx.const_mul q.b.b2)
    simp only [mul_zero, add_zero] at this
    have := (Complex.continuous_ofReal.tendsto 0).comp this
    simpa [Function.comp_def, hdd] using this
  have ht : Filter.Tendsto e Filter.atTop (𝓝 0) := by
    refine recurrence_tendsto h0 h1 hd fun n => ?_
    have r1 := C32_step_any_state q _ y h n
    have r2 := hcplx n
    have r3 : y (n + 2) - sinusoid (H * A) f (n + 2) =
        -q.a.a1 * (y (n + 1) - sinusoid (H * A) f (n + 1)) -
          q.a.a2 * (y n - sinusoid (H * A) f n) +
          (q.b.b0 * (x (n + 2) - sinusoid A f (n + 2)) + q.b.b1 * (x (n + 1) - sinusoid A f (n + 1)) +
            q.b.b2 * (x n - sinusoid A f n)) := by
      linear_combination r1 - r2
    rw [s1, s2]
    show ((y (n + 2) - sinusoid (H * A) f (n + 2) : ℝ) : ℂ) = _
    rw [r3]
    simp only [he, hdd]
    push_cast
    ring
  have := (Complex.continuous_re.tendsto 0).comp ht
  simpa [Function.comp_def, he] using this

/-- **C36** In particular for an input that is this sinusoid. -/
theorem C36_response_limit (q : Biquad ℝ) (p : Solution) (hp : q.poles = .ok p) (h0 : ‖p.s0‖ < 1)
    (h1 : ‖p.s1‖ < 1) (f : ℝ) (A : ℂ) (y : ℕ → ℝ) (h : Runs step q (sinusoid A f) y) :
    ∃ H, response q f = .ok H ∧
      Filter.Tendsto (fun n => y n - sinusoid (H * A) f n) Filter.atTop (𝓝 0) :=
  C36_response_limit_asymptotic q p hp h0 h1 f A _ y (by simp) h

/-- **C36** `response( f )` is the transfer function at `z = exp( 2 pi i f )`; it is undefined exactly
if there is a pole. -/
theorem C36_response_transfer (q : Biquad ℝ) (f : ℝ) :
    let z := Complex.exp (2 * Real.pi * f * Complex.I)
    (z ^ 2 + q.a.a1 * z + q.a.a2 ≠ 0 → response q f =
      .ok ((q.b.b0 * z ^ 2 + q.b.b1 * z + q.b.b2) / (z ^ 2 + q.a.a1 * z + q.a.a2))) ∧
    (z ^ 2 + q.a.a1 * z + q.a.a2 = 0 → response q f = .error .divByZero) := by
  intro z
  have hf := response_formula q f
  simp only at hf
  set u := Complex.exp (-(2 * Real.pi * f * Complex.I)) with hu
  have huz : u * z = 1 := by rw [hu, ← Complex.exp_add]; simp
  have hz : z ≠ 0 := Complex.exp_ne_zero _
  have e : (1 + q.a.a1 * u + q.a.a2 * u ^ 2) * z ^ 2 = z ^ 2 + q.a.a1 * z + q.a.a2 := by
    linear_combination (q.a.a1 * z + q.a.a2 * (u * z + 1)) * huz
  have e' : (q.b.b0 + q.b.b1 * u + q.b.b2 * u ^ 2) * z ^ 2 = q.b.b0 * z ^ 2 + q.b.b1 * z + q.b.b2 := by
    linear_combination (q.b.b1 * z + q.b.b2 * (u * z + 1)) * huz
  have hz2 : z ^ 2 ≠ 0 := pow_ne_zero _ hz
  constructor
  · intro h
    rw [← e] at h
    rw [hf, if_neg (left_ne_zero_of_mul h), ← e, ← e', mul_div_mul_right _ _ hz2]
  · intro h
    rw [← e] at h
    rw [hf, if_pos ((mul_eq_zero.1 h).resolve_right hz2)]

/-! ### C37 stability -/

/-- **C37** `is_stable()` tells whether all poles have modulus at most one. -/
theorem C37_is_stable_poles (q : Biquad ℝ) : ∃ s, q.is_stable = .ok s ∧
    (s = true ↔ ∀ z : ℂ, z ^ 2 + q.a.a1 * z + q.a.a2 = 0 → ‖z‖ ≤ 1) := by
  obtain ⟨p, hp, s1, s2⟩ := poles_spec q
  refine ⟨_, by unfold is_stable; rw [hp, bind_ok], ?_⟩
  have e : ∀ z : ℂ, z ^ 2 + q.a.a1 * z + q.a.a2 = (z - p.s0) * (z - p.s1) := by
    intro z
    linear_combination -s2 + z * s1
  rw [Bool.and_eq_true, decide_eq_true_iff, decide_eq_true_iff]
  constructor
  · rintro ⟨h0, h1⟩ z hz
    rw [e] at hz
    rcases mul_eq_zero.1 hz with h | h
    · rw [sub_eq_zero.1 h]; exact h0
    · rw [sub_eq_zero.1 h]; exact h1
  · intro h
    exact ⟨h _ (by rw [e]; ring), h _ (by rw [e]; ring)⟩

/-- **C37, partial** The English claim asks for `is_stable()`; this theorem needs both poles strictly
inside the unit circle.  Then every bounded input gives a bounded output from rest, with this
bound.  Missing: poles on the unit circle, for which the claim is false (`C37_integrator`). -/
theorem C37_bounded_partial (b : BqB ℝ) (a : BqA ℝ) (p : Solution) (hp : (ofBA b a).poles = .ok p)
    (h0 : ‖p.s0‖ < 1) (h1 : ‖p.s1‖ < 1) (x y : ℕ → ℝ) (M : ℝ) (hx : ∀ n, |x n| ≤ M)
    (h : Runs step (ofBA b a) x y) (n : ℕ) :
    |y n| ≤ (|b.b0| + |b.b1| + |b.b2|) * M / (1 - ‖p.s1‖) / (1 - ‖p.s0‖) := by
  obtain ⟨p', hp', s1, s2⟩ := poles_spec (ofBA b a)
  obtain rfl : p' = p := Except.ok.inj (hp'.symm.trans hp)
  have hd := (C32_step b a x y).1 h
  have hM : 0 ≤ M := le_trans (abs_nonneg _) (hx 0)
  have hpast : ∀ n k, |past x n k| ≤ M := by
    intro n k
    unfold past
    split
    · exact hx _
    · simpa using hM
  set v : ℕ → ℂ := fun n => ((b.b0 * x n + b.b1 * past x n 1 + b.b2 * past x n 2 : ℝ) : ℂ) with hv
  have hvb : ∀ n, ‖v n‖ ≤ (|b.b0| + |b.b1| + |b.b2|) * M := by
    intro n
    rw [hv]
    simp only [Complex.norm_real, Real.norm_eq_abs]
    calc |b.b0 * x n + b.b1 * past x n 1 + b.b2 * past x n 2|
        ≤ |b.b0 * x n| + |b.b1 * past x n 1| + |b.b2 * past x n 2| := abs_add_three _ _ _
      _ ≤ |b.b0| * M + |b.b1| * M + |b.b2| * M := by
          rw [abs_mul, abs_mul, abs_mul]
          have := mul_le_mul_of_nonneg_left (hx n) (abs_nonneg b.b0)
          have := mul_le_mul_of_nonneg_left (hpast n 1) (abs_nonneg b.b1)
          have := mul_le_mul_of_nonneg_left (hpast n 2) (abs_nonneg b.b2)
          linarith
      _ = _ := by ring
  have hdc : ∀ n, (y n : ℂ) = v n - (a.a1 : ℂ) * (past y n 1 : ℝ) - (a.a2 : ℂ) * (past y n 2 : ℝ) := by
    intro n
    rw [hv]
    push_cast
    exact_mod_cast congrArg (fun r : ℝ => (r : ℂ)) (hd n)
  have s1' : p'.s0 + p'.s1 = -(a.a1 : ℂ) := s1
  have s2' : p'.s0 * p'.s1 = (a.a2 : ℂ) := s2
  set u : ℕ → ℂ := fun n => (y n : ℂ) - p'.s0 * (past y n 1 : ℝ) with hu
  have hub : ∀ n, ‖u n‖ ≤ (|b.b0| + |b.b1| + |b.b2|) * M / (1 - ‖p'.s1‖) := by
    refine contraction_bounded h1 ?_ ?_ hvb
    · rw [hu]
      simp only [past_zero_one]
      rw [hdc 0]
      simp
    · intro n
      rw [hu]
      simp only [past_succ_one]
      rw [hdc (n + 1), past_succ_one]
      have : past y (n + 1) 2 = past y n 1 := by
        cases n with
        | zero => rfl
        | succ n => rw [past_succ_two, past_succ_one]
      rw [this]
      linear_combination -(y n : ℂ) * s1' + ((past y n 1 : ℝ) : ℂ) * s2'
  have := contraction_bounded h0 (u := fun n => (y n : ℂ)) (v := u) (by rw [hu]; simp)
    (fun n => by rw [hu]; simp) hub n
  rwa [Complex.norm_real, Real.norm_eq_abs] at this

/-- **C37, the code violates the claim**: the integrator `y[n] = x[n] + y[n-1]` reports to be stable,
and answers the constant input 1 with 1, 2, 3, … -/
theorem C37_integrator :
    let q : Biquad ℝ := ofBA ⟨1, 0, 0⟩ ⟨-1, 0⟩
    q.is_stable = .ok true ∧ Runs step q (fun _ => 1) (fun n => (n : ℝ) + 1) ∧
      ¬ ∃ B, ∀ n : ℕ, |(n : ℝ) + 1| ≤ B := by
  intro q
  refine ⟨?_, ?_, ?_⟩
  · obtain ⟨s, hs, h⟩ := C37_is_stable_poles q
    rw [hs]
    congr 1
    refine h.2 fun z hz => ?_
    have : z * (z - 1) = 0 := by
      have e : z ^ 2 + ((-1 : ℝ) : ℂ) * z + ((0 : ℝ) : ℂ) = 0 := hz
      push_cast at e
      linear_combination e
    rcases mul_eq_zero.1 this with h | h
    · rw [h]; simp
    · rw [sub_eq_zero.1 h]; simp
  · rw [C32_step]
    rintro (_ | _ | n)
    · simp [past]
    · norm_num [past]
    · simp only [past_succ_one, past_succ_two]
      push_cast
      ring
  · rintro ⟨B, hB⟩
    obtain ⟨n, hn⟩ := exists_nat_gt B
    have := (le_abs_self _).trans (hB n)
    linarith

/-- **C37** Decision in terms of the coefficients: the closed stability triangle. -/
theorem C37_triangle (q : Biquad ℝ) :
    q.is_stable = .ok true ↔ |q.a.a2| ≤ 1 ∧ |q.a.a1| ≤ 1 + q.a.a2 := by
  obtain ⟨p, hp, s1, s2⟩ := poles_spec q
  have hs : q.is_stable = .ok true ↔ ‖p.s0‖ ≤ 1 ∧ ‖p.s1‖ ≤ 1 := by
    unfold is_stable
    rw [hp, bind_ok, Except.ok.injEq, Bool.and_eq_true, decide_eq_true_iff, decide_eq_true_iff]
  rw [hs]
  exact triangle_le s1 s2

/-- **C37** Both poles are strictly inside iff the coefficients are in the open triangle: the
hypothesis of `C37_bounded_partial` and `C36_response_limit`. -/
theorem C37_triangle_open (q : Biquad ℝ) (p : Solution) (hp : q.poles = .ok p) :
    (‖p.s0‖ < 1 ∧ ‖p.s1‖ < 1) ↔ |q.a.a2| < 1 ∧ |q.a.a1| < 1 + q.a.a2 := by
  obtain ⟨p', hp', s1, s2⟩ := poles_spec q
  obtain rfl : p' = p := Except.ok.inj (hp'.symm.trans hp)
  exact triangle_lt s1 s2

example : |(-1/8 : ℝ)| < 1 ∧ |(-1/4 : ℝ)| < 1 + (-1/8) := by
  rw [abs_of_neg (by norm_num), abs_of_neg (by norm_num)]; norm_num

/-! ### C38 poles and zeros -/

/-- **C38** `poles()` is always defined and gives the roots of `z^2 + a1 z + a2` with multiplicity. -/
theorem C38_poles (q : Biquad ℝ) : ∃ p, q.poles = .ok p ∧
    ∀ z : ℂ, z ^ 2 + q.a.a1 * z + q.a.a2 = (z - p.s0) * (z - p.s1) := by
  obtain ⟨p, hp, s1, s2⟩ := poles_spec q
  exact ⟨p, hp, fun z => by linear_combination -s2 + z * s1⟩

/-- **C38** `zeros()` gives the roots of `b0 z^2 + b1 z + b2` with multiplicity, if `b0 ≠ 0` … -/
theorem C38_zeros (q : Biquad ℝ) (h : q.b.b0 ≠ 0) : ∃ p, q.zeros = .ok p ∧
    ∀ z : ℂ, q.b.b0 * z ^ 2 + q.b.b1 * z + q.b.b2 = q.b.b0 * ((z - p.s0) * (z - p.s1)) := by
  obtain ⟨s, hs, h1, h2⟩ := solve_ok (b := q.b.b1) (c := q.b.b2) h
  refine ⟨s, hs, fun z => ?_⟩
  have hc : (q.b.b0 : ℂ) ≠ 0 := by exact_mod_cast h
  push_cast at h1 h2
  have e1 : (q.b.b1 : ℂ) = -(q.b.b0 * (s.s0 + s.s1)) := by rw [h1]; field_simp
  have e2 : (q.b.b2 : ℂ) = q.b.b0 * (s.s0 * s.s1) := by rw [h2]; field_simp
  rw [e1, e2]
  ring

/-- **C38** … and divides by zero otherwise. -/
theorem C38_zeros_undefined (q : Biquad ℝ) (h : q.b.b0 = 0) : q.zeros = .error .divByZero := by
  unfold zeros
  rw [h]
  exact solve_zero _ _

/-- **C38** The quadratic formula, with the order of the roots: real roots come with the greater first, of conjugate
roots the first has positive imaginary part. -/
theorem C38_solve (a b c : ℝ) (ha : a ≠ 0) :
    (0 ≤ b ^ 2 - 4 * a * c → solve a b c = .ok
      ⟨(((-b / a + √(b ^ 2 - 4 * a * c) / |a|) / 2 : ℝ) : ℂ), (((-b / a - √(b ^ 2 - 4 * a * c) / |a|) / 2 : ℝ) : ℂ)⟩) ∧
    (b ^ 2 - 4 * a * c < 0 → solve a b c = .ok
      ⟨⟨-b / a / 2, √(4 * a * c - b ^ 2) / |a| / 2⟩, ⟨-b / a / 2, -(√(4 * a * c - b ^ 2) / |a| / 2)⟩⟩) := by
  have hD : ((⟨b / a * (b / a), 0⟩ : ℂ) - ((4 * (c / a) : ℝ) : ℂ)) = (((b ^ 2 - 4 * a * c) / a ^ 2 : ℝ) : ℂ) := by
    apply Complex.ext
    · simp only [Complex.sub_re, Complex.ofReal_re]; field_simp
    · simp only [Complex.sub_im, Complex.ofReal_im, sub_zero]
  have ha2 : 0 < a ^ 2 := by positivity
  have hq (x : ℝ) : √(x / a ^ 2) = √x / |a| := by rw [Real.sqrt_div' _ ha2.le, Real.sqrt_sq_eq_abs]
  constructor
  · intro h
    have e : (((b ^ 2 - 4 * a * c) / a ^ 2 : ℝ) : ℂ) ^ (1 / 2 : ℂ) = ((√(b ^ 2 - 4 * a * c) / |a| : ℝ) : ℂ) := by
      rw [← hq, Real.sqrt_eq_rpow, Complex.ofReal_cpow (by positivity)]; norm_num
    unfold solve
    rw [if_neg ha]
    simp only [hD, e]
    congr 2 <;> push_cast <;> ring
  · intro h
    have h' : (b ^ 2 - 4 * a * c) / a ^ 2 ≤ 0 := div_nonpos_of_nonpos_of_nonneg h.le ha2.le
    have e : (((b ^ 2 - 4 * a * c) / a ^ 2 : ℝ) : ℂ) ^ (1 / 2 : ℂ)
        = ((√(4 * a * c - b ^ 2) / |a| : ℝ) : ℂ) * Complex.I := by
      have h2 : -((b ^ 2 - 4 * a * c) / a ^ 2) = (4 * a * c - b ^ 2) / a ^ 2 := by ring
      have h3 : (0 : ℝ) ≤ (4 * a * c - b ^ 2) / a ^ 2 := by rw [← h2]; linarith
      rw [Complex.ofReal_cpow_of_nonpos h', ← Complex.ofReal_neg, h2, ← hq, Real.sqrt_eq_rpow,
        Complex.ofReal_cpow h3]
      congr 1
      · norm_num
      · rw [show (Real.pi : ℂ) * Complex.I * (1 / 2) = Real.pi / 2 * Complex.I by ring, Complex.exp_pi_div_two_mul_I]
    unfold solve
    rw [if_neg ha]
    simp only [hD, e]
    congr 2 <;> apply Complex.ext <;> simp <;> ring

example : solve 1 (-3) 2 = .ok ⟨2, 1⟩ := by
  rw [(C38_solve 1 (-3) 2 one_ne_zero).1 (by norm_num)]
  have : √((-3 : ℝ) ^ 2 - 4 * 1 * 2) = 1 := by norm_num
  rw [this]
  norm_num

/-- **C38** The two roots are real or conjugate. -/
theorem C38_real_or_conj (q : Biquad ℝ) (p : Solution) (h : q.poles = .ok p ∨ q.zeros = .ok p) :
    (p.s0.im = 0 ∧ p.s1.im = 0) ∨ p.s1 = (starRingEnd ℂ) p.s0 := by
  have key : ∀ a b c : ℝ, solve a b c = .ok p →
      (p.s0.im = 0 ∧ p.s1.im = 0) ∨ p.s1 = (starRingEnd ℂ) p.s0 := by
    intro a b c hs
    have ha : a ≠ 0 := by
      rintro rfl
      rw [solve_zero] at hs
      cases hs
    obtain ⟨s, h', h1, h2⟩ := solve_ok (b := b) (c := c) ha
    obtain rfl : s = p := Except.ok.inj (h'.symm.trans hs)
    exact real_or_conj (b := -(b / a)) (by rw [h1]; push_cast; rfl) h2
  rcases h with h | h
  · exact key _ _ _ h
  · exact key _ _ _ h

example : (ofBA (⟨1, 0, 1⟩ : BqB ℝ) ⟨0, 0⟩).b.b0 ≠ 0 := by norm_num [ofBA]

/-! ### C39 construction from zeros, poles and gain -/

/-- A pair of roots of a real quadratic: two reals, or a conjugate pair. -/
def Solution.Valid (s : Solution) : Prop :=
  (s.s0.im = 0 ∧ s.s1.im = 0) ∨ s.s1 = (starRingEnd ℂ) s.s0

/-- The same roots, in any order. -/
def Solution.Same (s t : Solution) : Prop :=
  (s.s0 = t.s0 ∧ s.s1 = t.s1) ∨ (s.s0 = t.s1 ∧ s.s1 = t.s0)

theorem to_coeff_spec {s : Solution} (h : s.Valid) :
    s.s0 + s.s1 = -((to_coeff s).1 : ℂ) ∧ s.s0 * s.s1 = ((to_coeff s).2 : ℂ) := by
  unfold to_coeff
  by_cases hi : s.s0.im = 0
  · have h1 : s.s1.im = 0 := by
      rcases h with h | h
      · exact h.2
      · rw [h]; simp [hi]
    rw [if_neg (not_not.2 hi)]
    constructor <;> apply Complex.ext <;> simp [hi, h1]
    ring
  · have hc : s.s1 = (starRingEnd ℂ) s.s0 := h.resolve_left fun h => hi h.1
    rw [if_pos hi, hc]
    constructor <;> apply Complex.ext <;> simp <;> ring

/-- **C39** A biquad constructed from valid pairs of zeros and poles and a non-zero gain `k` has
these zeros and poles and leading coefficient `k`, and starts from rest. -/
theorem C39_zpk (z p : Solution) (k : ℝ) (hz : z.Valid) (hp : p.Valid) (hk : k ≠ 0) :
    let q := ofZPK z p k
    (∃ p', q.poles = .ok p' ∧ p'.Same p) ∧ (∃ z', q.zeros = .ok z' ∧ z'.Same z) ∧
      q.coeff_b.b0 = k ∧ q.reset = q := by
  intro q
  refine ⟨?_, ?_, rfl, rfl⟩
  · obtain ⟨p', h, s1, s2⟩ := poles_spec q
    obtain ⟨t1, t2⟩ := to_coeff_spec hp
    exact ⟨p', h, roots_unique (s1.trans t1.symm) (s2.trans t2.symm)⟩
  · obtain ⟨z', h, s1, s2⟩ := solve_ok (a := k) (b := k * (to_coeff z).1) (c := k * (to_coeff z).2) hk
    obtain ⟨t1, t2⟩ := to_coeff_spec hz
    rw [mul_div_cancel_left₀ _ hk] at s1 s2
    exact ⟨z', h, roots_unique (s1.trans t1.symm) (s2.trans t2.symm)⟩

/-- **C39** For other pairs the second root is ignored: with a non-real first root it is taken to be
its conjugate, otherwise its imaginary part is dropped. -/
theorem C39_ignored (z p : Solution) (k : ℝ) :
    ofZPK z p k = ofZPK (if z.s0.im = 0 then ⟨z.s0, z.s1.re⟩ else ⟨z.s0, (starRingEnd ℂ) z.s0⟩)
      (if p.s0.im = 0 then ⟨p.s0, p.s1.re⟩ else ⟨p.s0, (starRingEnd ℂ) p.s0⟩) k := by
  have key : ∀ s : Solution, to_coeff s =
      to_coeff (if s.s0.im = 0 then ⟨s.s0, s.s1.re⟩ else ⟨s.s0, (starRingEnd ℂ) s.s0⟩) := by
    intro s
    by_cases h : s.s0.im = 0
    · simp [to_coeff, h]
    · simp [to_coeff, h]
  unfold ofZPK
  rw [← key, ← key]

/-- **C39** Round trip: zeros, poles and leading coefficient of a biquad with `b0 ≠ 0` reconstruct its
coefficients. -/
theorem C39_roundtrip (b : BqB ℝ) (a : BqA ℝ) (hb : b.b0 ≠ 0) :
    ∃ z p, (ofBA b a).zeros = .ok z ∧ (ofBA b a).poles = .ok p ∧ ofZPK z p b.b0 = ofBA b a := by
  obtain ⟨z, hz, z1, z2⟩ := solve_ok (b := b.b1) (c := b.b2) hb
  obtain ⟨p, hp, p1, p2⟩ := poles_spec (ofBA b a)
  refine ⟨z, p, hz, hp, ?_⟩
  obtain ⟨t1, t2⟩ := to_coeff_spec (C38_real_or_conj (ofBA b a) z (.inr hz))
  obtain ⟨u1, u2⟩ := to_coeff_spec (C38_real_or_conj (ofBA b a) p (.inl hp))
  rw [z1, neg_inj] at t1
  rw [z2] at t2
  rw [p1, neg_inj] at u1
  rw [p2] at u2
  have e1 : b.b1 / b.b0 = (to_coeff z).1 := by exact_mod_cast t1
  have e2 : b.b2 / b.b0 = (to_coeff z).2 := by exact_mod_cast t2
  have e3 : a.a1 = (to_coeff p).1 := by exact_mod_cast u1
  have e4 : a.a2 = (to_coeff p).2 := by exact_mod_cast u2
  unfold ofZPK
  rw [← e1, ← e2, ← e3, ← e4, mul_div_cancel₀ _ hb, mul_div_cancel₀ _ hb]
  rfl

example : Solution.Valid ⟨1/2, -1/4⟩ ∧ Solution.Valid ⟨⟨1/2, 1/4⟩, ⟨1/2, -1/4⟩⟩ ∧
    ¬ Solution.Valid ⟨⟨1/2, 1/4⟩, 1⟩ := by
  refine ⟨.inl ?_, .inr ?_, ?_⟩
  · constructor <;> norm_num
  · apply Complex.ext <;> simp; norm_num
  · rintro (h | h)
    · norm_num at h
    · have := congrArg Complex.re h
      norm_num at this

end Verif
