import Verif.Lemmas.Filter
import Verif.Model.Biquad
import Verif.Spec.Num

/- Lemmas on the biquad: exact steps, coefficients preserved. -/

namespace Verif
namespace Biquad
open Sig
variable {T : Type}

theorem step_df2_coeff [CNum T] {q q' : Biquad T} {x y : T} (h : q.step_df2 x = .ok (y, q')) :
    q'.a = q.a ∧ q'.b = q.b := by
  unfold step_df2 at h
  simp only [bind_eq_ok, Except.ok.injEq, Prod.mk.injEq] at h
  obtain ⟨_, -, _, -, _, -, _, -, _, -, _, -, _, -, _, -, _, -, -, rfl⟩ := h
  exact ⟨rfl, rfl⟩

theorem step_df2_transposed_coeff [CNum T] {q q' : Biquad T} {x y : T}
    (h : q.step_df2_transposed x = .ok (y, q')) : q'.a = q.a ∧ q'.b = q.b := by
  unfold step_df2_transposed at h
  simp only [bind_eq_ok, Except.ok.injEq, Prod.mk.injEq] at h
  obtain ⟨_, -, _, -, _, -, _, -, _, -, _, -, _, -, _, -, _, -, -, rfl⟩ := h
  exact ⟨rfl, rfl⟩

theorem after_coeff [CNum T] {step : Biquad T → T → Res (T × Biquad T)}
    (hs : ∀ q x y q', step q x = .ok (y, q') → q'.a = q.a ∧ q'.b = q.b) {q q' : Biquad T}
    {x : ℕ → T} {n : ℕ} (h : after step q x n = .ok q') : q'.a = q.a ∧ q'.b = q.b := by
  induction n generalizing q' with
  | zero => cases h; exact ⟨rfl, rfl⟩
  | succ n ih =>
    rw [after_succ, bind_eq_ok] at h
    obtain ⟨q1, h1, h2⟩ := h
    rw [bind_eq_ok] at h2
    obtain ⟨⟨y, q2⟩, h3, h4⟩ := h2
    cases h4
    have e1 := ih h1
    have e2 := hs _ _ _ _ h3
    exact ⟨e2.1.trans e1.1, e2.2.trans e1.2⟩

section ring
variable [CommRing T] [CNum T] [ExactRing T]

theorem step_df2_exact (q : Biquad T) (x : T) :
    q.step_df2 x =
      .ok (q.b.b0 * (x - q.a.a1 * q.w.v1 - q.a.a2 * q.w.v2) + q.b.b1 * q.w.v1 + q.b.b2 * q.w.v2,
        { q with w := { v1 := x - q.a.a1 * q.w.v1 - q.a.a2 * q.w.v2, v2 := q.w.v1 } }) := by
  unfold step_df2
  simp only [ExactRing.add_eq, ExactRing.sub_eq, ExactRing.mul_eq, bind_ok]

theorem step_df2_transposed_exact (q : Biquad T) (x : T) :
    q.step_df2_transposed x =
      .ok (q.b.b0 * x + q.w.v1,
        { q with w := { v1 := q.b.b1 * x - q.a.a1 * (q.b.b0 * x + q.w.v1) + q.w.v2,
                        v2 := q.b.b2 * x - q.a.a2 * (q.b.b0 * x + q.w.v1) } }) := by
  unfold step_df2_transposed
  simp only [ExactRing.add_eq, ExactRing.sub_eq, ExactRing.mul_eq, bind_ok]

theorem zeroW_eq : (zeroW : BqW T) = ⟨0, 0⟩ := by
  unfold zeroW
  rw [ExactRing.zero_eq]

theorem runs_df2_diffEq {q : Biquad T} (hw : q.w = zeroW) {x y : ℕ → T}
    (h : Runs step_df2 q x y) : DiffEq q.b.b0 q.b.b1 q.b.b2 q.a.a1 q.a.a2 x y := by
  obtain ⟨st, h0, hst⟩ := h.states
  simp only [step_df2_exact, Except.ok.injEq, Prod.mk.injEq] at hst
  have hc : ∀ n, (st n).a = q.a ∧ (st n).b = q.b := by
    intro n
    induction n with
    | zero => rw [h0]; exact ⟨rfl, rfl⟩
    | succ n ih => rw [← (hst n).2]; exact ih
  rw [zeroW_eq] at hw
  have w0 : (st 0).w = ⟨0, 0⟩ := by rw [h0, hw]
  have hw' : ∀ n, (st (n + 1)).w =
      ⟨x n - q.a.a1 * (st n).w.v1 - q.a.a2 * (st n).w.v2, (st n).w.v1⟩ := by
    intro n
    rw [← (hst n).2, (hc n).1]
  have hy : ∀ n, y n = q.b.b0 * (x n - q.a.a1 * (st n).w.v1 - q.a.a2 * (st n).w.v2) +
      q.b.b1 * (st n).w.v1 + q.b.b2 * (st n).w.v2 := by
    intro n
    rw [← (hst n).1, (hc n).1, (hc n).2]
  rintro (_ | _ | n)
  · rw [hy 0, w0]; simp
  · simp only [zero_add]
    rw [show past x 1 1 = x 0 from rfl, show past y 1 1 = y 0 from rfl, hy 1, hy 0, hw' 0, w0]
    simp
    ring
  · rw [past_succ_two, past_succ_two, past_succ_one, past_succ_one, hy (n + 2), hy (n + 1), hy n,
      hw' (n + 1), hw' n]
    ring

theorem runs_df2t_diffEq {q : Biquad T} (hw : q.w = zeroW) {x y : ℕ → T}
    (h : Runs step_df2_transposed q x y) : DiffEq q.b.b0 q.b.b1 q.b.b2 q.a.a1 q.a.a2 x y := by
  obtain ⟨st, h0, hst⟩ := h.states
  simp only [step_df2_transposed_exact, Except.ok.injEq, Prod.mk.injEq] at hst
  have hc : ∀ n, (st n).a = q.a ∧ (st n).b = q.b := by
    intro n
    induction n with
    | zero => rw [h0]; exact ⟨rfl, rfl⟩
    | succ n ih => rw [← (hst n).2]; exact ih
  rw [zeroW_eq] at hw
  have w0 : (st 0).w = ⟨0, 0⟩ := by rw [h0, hw]
  have hy : ∀ n, y n = q.b.b0 * x n + (st n).w.v1 := by
    intro n
    rw [← (hst n).1, (hc n).2]
  have hw' : ∀ n, (st (n + 1)).w =
      ⟨q.b.b1 * x n - q.a.a1 * y n + (st n).w.v2, q.b.b2 * x n - q.a.a2 * y n⟩ := by
    intro n
    rw [hy n, ← (hst n).2, (hc n).1, (hc n).2]
  rintro (_ | _ | n)
  · rw [hy 0, w0]; simp
  · simp only [zero_add]
    rw [show past x 1 1 = x 0 from rfl, show past y 1 1 = y 0 from rfl, hy 1, hw' 0, w0]
    simp
    ring
  · rw [past_succ_two, past_succ_two, past_succ_one, past_succ_one, hy (n + 2), hw' (n + 1), hw' n]
    ring

/-- From any state, the difference equation holds from the third sample on. -/
theorem runs_df2_rec {q : Biquad T} {x y : ℕ → T} (h : Runs step_df2 q x y) (n : ℕ) :
    y (n + 2) = q.b.b0 * x (n + 2) + q.b.b1 * x (n + 1) + q.b.b2 * x n -
      q.a.a1 * y (n + 1) - q.a.a2 * y n := by
  obtain ⟨st, h0, hst⟩ := h.states
  simp only [step_df2_exact, Except.ok.injEq, Prod.mk.injEq] at hst
  have hc : ∀ n, (st n).a = q.a ∧ (st n).b = q.b := by
    intro n
    induction n with
    | zero => rw [h0]; exact ⟨rfl, rfl⟩
    | succ n ih => rw [← (hst n).2]; exact ih
  have hw' : ∀ n, (st (n + 1)).w =
      ⟨x n - q.a.a1 * (st n).w.v1 - q.a.a2 * (st n).w.v2, (st n).w.v1⟩ := by
    intro n
    rw [← (hst n).2, (hc n).1]
  have hy : ∀ n, y n = q.b.b0 * (x n - q.a.a1 * (st n).w.v1 - q.a.a2 * (st n).w.v2) +
      q.b.b1 * (st n).w.v1 + q.b.b2 * (st n).w.v2 := by
    intro n
    rw [← (hst n).1, (hc n).1, (hc n).2]
  rw [hy (n + 2), hy (n + 1), hy n, hw' (n + 1), hw' n]
  ring

theorem runs_df2t_rec {q : Biquad T} {x y : ℕ → T} (h : Runs step_df2_transposed q x y) (n : ℕ) :
    y (n + 2) = q.b.b0 * x (n + 2) + q.b.b1 * x (n + 1) + q.b.b2 * x n -
      q.a.a1 * y (n + 1) - q.a.a2 * y n := by
  obtain ⟨st, h0, hst⟩ := h.states
  simp only [step_df2_transposed_exact, Except.ok.injEq, Prod.mk.injEq] at hst
  have hc : ∀ n, (st n).a = q.a ∧ (st n).b = q.b := by
    intro n
    induction n with
    | zero => rw [h0]; exact ⟨rfl, rfl⟩
    | succ n ih => rw [← (hst n).2]; exact ih
  have hy : ∀ n, y n = q.b.b0 * x n + (st n).w.v1 := by
    intro n
    rw [← (hst n).1, (hc n).2]
  have hw' : ∀ n, (st (n + 1)).w =
      ⟨q.b.b1 * x n - q.a.a1 * y n + (st n).w.v2, q.b.b2 * x n - q.a.a2 * y n⟩ := by
    intro n
    rw [hy n, ← (hst n).2, (hc n).1, (hc n).2]
  rw [hy (n + 2), hw' (n + 1), hw' n]
  ring

theorem runs_df2_exists (q : Biquad T) (x : ℕ → T) : ∃ y, Runs step_df2 q x y :=
  Runs.exists (fun q x => ⟨_, step_df2_exact q x⟩) q x

theorem runs_df2t_exists (q : Biquad T) (x : ℕ → T) : ∃ y, Runs step_df2_transposed q x y :=
  Runs.exists (fun q x => ⟨_, step_df2_transposed_exact q x⟩) q x

end ring
end Biquad
end Verif
