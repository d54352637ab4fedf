import Mathlib.Analysis.SpecificLimits.Basic
import Mathlib.Analysis.SpecificLimits.Normed
import Mathlib.Analysis.SpecialFunctions.Trigonometric.Basic
import Mathlib.Tactic.FieldSimp
import Mathlib.Tactic.Linarith
import Verif.Lemmas.Biquad

/- Lemmas on roots, decaying recurrences and bounded responses. -/

namespace Verif
open Topology

/-- The square root squares back. -/
theorem csqrt_sq (z : ℂ) : (z ^ (1 / 2 : ℂ)) * (z ^ (1 / 2 : ℂ)) = z := by
  have := Complex.cpow_nat_inv_pow z (n := 2) (by norm_num)
  rw [pow_two] at this
  simpa using this

theorem solve_ok {a b c : ℝ} (ha : a ≠ 0) :
    ∃ s, Biquad.solve a b c = .ok s ∧ s.s0 + s.s1 = -((b / a : ℝ) : ℂ) ∧ s.s0 * s.s1 = ((c / a : ℝ) : ℂ) := by
  unfold Biquad.solve
  rw [if_neg ha]
  refine ⟨_, rfl, ?_, ?_⟩
  · show (_ + _) / 2 + (_ - _) / 2 = _
    ring
  · show (_ + _) / 2 * ((_ - _) / 2) = _
    have h := csqrt_sq ((⟨b / a * (b / a), 0⟩ : ℂ) - ((4 * (c / a) : ℝ) : ℂ))
    have e : (⟨b / a * (b / a), 0⟩ : ℂ) = ((b / a : ℝ) : ℂ) * ((b / a : ℝ) : ℂ) := by
      apply Complex.ext <;> simp
    set ds := ((⟨b / a * (b / a), 0⟩ : ℂ) - ((4 * (c / a) : ℝ) : ℂ)) ^ (1 / 2 : ℂ) with hds
    rw [e] at h
    push_cast at h ⊢
    linear_combination (-1 / 4 : ℂ) * h

theorem solve_zero (b c : ℝ) : Biquad.solve 0 b c = .error .divByZero := if_pos rfl

/-- Two roots with real sum and product are real or conjugate. -/
theorem real_or_conj {s0 s1 : ℂ} {b c : ℝ} (h1 : s0 + s1 = (b : ℂ)) (h2 : s0 * s1 = (c : ℂ)) :
    (s0.im = 0 ∧ s1.im = 0) ∨ s1 = (starRingEnd ℂ) s0 := by
  have i1 := congrArg Complex.im h1
  have i2 := congrArg Complex.im h2
  simp at i1 i2
  by_cases h : s0.im = 0
  · left
    exact ⟨h, by linarith⟩
  · right
    have e : s1.im = -s0.im := by linarith
    rw [e] at i2
    have : s0.im * (s1.re - s0.re) = 0 := by linarith
    rcases mul_eq_zero.1 this with h' | h'
    · exact absurd h' h
    · apply Complex.ext
      · simp; linarith
      · simp; linarith

/-- The monic quadratic determines its roots. -/
theorem roots_unique {s0 s1 p0 p1 : ℂ} (h1 : s0 + s1 = p0 + p1) (h2 : s0 * s1 = p0 * p1) :
    (s0 = p0 ∧ s1 = p1) ∨ (s0 = p1 ∧ s1 = p0) := by
  have h : (s0 - p0) * (s0 - p1) = 0 := by linear_combination s0 * h1 - h2
  rcases mul_eq_zero.1 h with h | h
  · left
    have e : s0 = p0 := by linear_combination h
    exact ⟨e, by linear_combination h1 - e⟩
  · right
    have e : s0 = p1 := by linear_combination h
    exact ⟨e, by linear_combination h1 - e⟩

/-- A contraction driven by a bounded sequence is bounded. -/
theorem contraction_bounded {p : ℂ} (hp : ‖p‖ < 1) {u v : ℕ → ℂ} {M : ℝ}
    (h0 : u 0 = v 0) (hs : ∀ n, u (n + 1) = p * u n + v (n + 1)) (hv : ∀ n, ‖v n‖ ≤ M) (n : ℕ) :
    ‖u n‖ ≤ M / (1 - ‖p‖) := by
  have h1 : 0 < 1 - ‖p‖ := by linarith
  have hM : 0 ≤ M := le_trans (norm_nonneg _) (hv 0)
  induction n with
  | zero =>
    rw [h0, le_div_iff₀ h1]
    have := hv 0
    have := norm_nonneg p
    nlinarith
  | succ n ih =>
    rw [hs]
    have e : M / (1 - ‖p‖) = ‖p‖ * (M / (1 - ‖p‖)) + M := by field_simp; ring
    calc ‖p * u n + v (n + 1)‖ ≤ ‖p‖ * ‖u n‖ + ‖v (n + 1)‖ := by
          rw [← norm_mul]; exact norm_add_le _ _
      _ ≤ ‖p‖ * (M / (1 - ‖p‖)) + M :=
          add_le_add (mul_le_mul_of_nonneg_left ih (norm_nonneg _)) (hv _)
      _ = _ := e.symm

/-- A contraction driven by a vanishing sequence vanishes. -/
theorem contraction_tendsto {p : ℂ} (hp : ‖p‖ < 1) {u v : ℕ → ℂ}
    (hs : ∀ n, u (n + 1) = p * u n + v n) (hv : Filter.Tendsto v Filter.atTop (𝓝 0)) :
    Filter.Tendsto u Filter.atTop (𝓝 0) := by
  rw [Metric.tendsto_atTop] at hv ⊢
  intro ε hε
  have h1 : 0 < 1 - ‖p‖ := by linarith
  obtain ⟨N, hN⟩ := hv (ε / 2 * (1 - ‖p‖)) (by positivity)
  simp only [dist_zero_right] at hN ⊢
  have key : ∀ k, ‖u (N + k)‖ ≤ ‖p‖ ^ k * ‖u N‖ + ε / 2 := by
    intro k
    induction k with
    | zero => simp; linarith
    | succ k ih =>
      rw [← add_assoc, hs]
      have h2 := (hN (N + k) (by omega)).le
      calc ‖p * u (N + k) + v (N + k)‖ ≤ ‖p‖ * ‖u (N + k)‖ + ‖v (N + k)‖ := by
            rw [← norm_mul]; exact norm_add_le _ _
        _ ≤ ‖p‖ * (‖p‖ ^ k * ‖u N‖ + ε / 2) + ε / 2 * (1 - ‖p‖) :=
            add_le_add (mul_le_mul_of_nonneg_left ih (norm_nonneg _)) h2
        _ = _ := by ring
  have ht := tendsto_pow_atTop_nhds_zero_of_lt_one (norm_nonneg p) hp
  have ht2 := ht.mul_const ‖u N‖
  rw [zero_mul, Metric.tendsto_atTop] at ht2
  obtain ⟨K, hK⟩ := ht2 (ε / 2) (by positivity)
  refine ⟨N + K, fun n hn => ?_⟩
  obtain ⟨k, rfl⟩ := Nat.exists_eq_add_of_le (show N ≤ n by omega)
  have h3 := hK k (by omega)
  rw [dist_zero_right, Real.norm_of_nonneg (by positivity)] at h3
  have := key k
  linarith

/-- Solutions of a recurrence with characteristic roots inside the unit circle, driven by a vanishing
sequence, vanish. -/
theorem recurrence_tendsto {p0 p1 : ℂ} (h0 : ‖p0‖ < 1) (h1 : ‖p1‖ < 1) {e v : ℕ → ℂ}
    (hv : Filter.Tendsto v Filter.atTop (𝓝 0))
    (he : ∀ n, e (n + 2) = (p0 + p1) * e (n + 1) - p0 * p1 * e n + v n) :
    Filter.Tendsto e Filter.atTop (𝓝 0) := by
  have hd : Filter.Tendsto (fun n => e (n + 1) - p0 * e n) Filter.atTop (𝓝 0) := by
    refine contraction_tendsto h1 (v := v) (fun n => ?_) hv
    rw [he]
    ring
  exact contraction_tendsto h0 (fun n => by ring) hd

/-- Real coefficients of two roots that are real or conjugate. -/
theorem root_cases {s0 s1 : ℂ} {a1 a2 : ℝ} (h1 : s0 + s1 = -(a1 : ℂ)) (h2 : s0 * s1 = (a2 : ℂ)) :
    (∃ r t : ℝ, s0 = r ∧ s1 = t ∧ a1 = -(r + t) ∧ a2 = r * t) ∨
      (‖s0‖ = ‖s1‖ ∧ a2 = ‖s0‖ ^ 2 ∧ a1 = -2 * s0.re) := by
  rcases real_or_conj (b := -a1) (by rw [h1]; push_cast; rfl) h2 with ⟨i0, i1⟩ | h
  · left
    have e0 : s0 = (s0.re : ℂ) := by apply Complex.ext <;> simp [i0]
    have e1 : s1 = (s1.re : ℂ) := by apply Complex.ext <;> simp [i1]
    refine ⟨s0.re, s1.re, e0, e1, ?_, ?_⟩
    · have := congrArg Complex.re h1
      simp at this
      linarith
    · have := congrArg Complex.re h2
      simp [i0, i1] at this
      linarith
  · right
    subst h
    refine ⟨by simp, ?_, ?_⟩
    · have : ((‖s0‖ ^ 2 : ℝ) : ℂ) = (a2 : ℂ) := by
        rw [← h2, Complex.mul_conj, Complex.normSq_eq_norm_sq]
      exact_mod_cast this.symm
    · have := congrArg Complex.re h1
      simp at this
      linarith

/-- The closed stability triangle. -/
theorem triangle_le {s0 s1 : ℂ} {a1 a2 : ℝ} (h1 : s0 + s1 = -(a1 : ℂ)) (h2 : s0 * s1 = (a2 : ℂ)) :
    (‖s0‖ ≤ 1 ∧ ‖s1‖ ≤ 1) ↔ |a2| ≤ 1 ∧ |a1| ≤ 1 + a2 := by
  rcases root_cases h1 h2 with ⟨r, t, rfl, rfl, rfl, rfl⟩ | ⟨e, rfl, rfl⟩
  · simp only [Complex.norm_real, Real.norm_eq_abs, abs_le]
    constructor
    · rintro ⟨⟨_, _⟩, ⟨_, _⟩⟩
      refine ⟨⟨?_, ?_⟩, ?_, ?_⟩ <;> nlinarith
    · rintro ⟨⟨h3, h4⟩, h5, h6⟩
      have f1 : 0 ≤ (1 - r) * (1 - t) := by linarith
      have f2 : 0 ≤ (1 + r) * (1 + t) := by linarith
      have key : ∀ r t : ℝ, r * t ≤ 1 → 0 ≤ (1 - r) * (1 - t) → r ≤ 1 := by
        intro r t h f
        by_contra hc
        have : 1 ≤ t := by
          by_contra ht
          have := mul_neg_of_neg_of_pos (show 1 - r < 0 by linarith) (show 0 < 1 - t by linarith)
          linarith
        nlinarith
      refine ⟨⟨?_, key r t h4 f1⟩, ?_, key t r (by linarith) (by linarith)⟩
      · have := key (-r) (-t) (by linarith) (by linarith)
        linarith
      · have := key (-t) (-r) (by linarith) (by linarith)
        linarith
  · have hr := Complex.abs_re_le_norm s0
    have h0 := norm_nonneg s0
    rw [← e, and_self, abs_of_nonneg (by positivity), abs_mul, abs_neg, abs_two]
    constructor
    · intro h
      constructor <;> nlinarith
    · rintro ⟨h, -⟩
      nlinarith

/-- The open stability triangle. -/
theorem triangle_lt {s0 s1 : ℂ} {a1 a2 : ℝ} (h1 : s0 + s1 = -(a1 : ℂ)) (h2 : s0 * s1 = (a2 : ℂ)) :
    (‖s0‖ < 1 ∧ ‖s1‖ < 1) ↔ |a2| < 1 ∧ |a1| < 1 + a2 := by
  rcases root_cases h1 h2 with ⟨r, t, rfl, rfl, rfl, rfl⟩ | ⟨e, rfl, rfl⟩
  · simp only [Complex.norm_real, Real.norm_eq_abs, abs_lt]
    constructor
    · rintro ⟨⟨_, _⟩, ⟨_, _⟩⟩
      refine ⟨⟨?_, ?_⟩, ?_, ?_⟩ <;> nlinarith
    · rintro ⟨⟨h3, h4⟩, h5, h6⟩
      have f1 : 0 < (1 - r) * (1 - t) := by linarith
      have f2 : 0 < (1 + r) * (1 + t) := by linarith
      have key : ∀ r t : ℝ, r * t < 1 → 0 < (1 - r) * (1 - t) → r < 1 := by
        intro r t h f
        by_contra hc
        have : 1 ≤ t := by
          by_contra ht
          have := mul_nonpos_of_nonpos_of_nonneg (show 1 - r ≤ 0 by linarith)
            (show 0 ≤ 1 - t by linarith)
          linarith
        nlinarith
      refine ⟨⟨?_, key r t h4 f1⟩, ?_, key t r (by linarith) (by linarith)⟩
      · have := key (-r) (-t) (by linarith) (by linarith)
        linarith
      · have := key (-t) (-r) (by linarith) (by linarith)
        linarith
  · have hr := Complex.abs_re_le_norm s0
    have h0 := norm_nonneg s0
    rw [← e, and_self, abs_of_nonneg (by positivity), abs_mul, abs_neg, abs_two]
    constructor
    · intro h
      constructor <;> nlinarith
    · rintro ⟨h, -⟩
      nlinarith

end Verif
