import Mathlib.RingTheory.PowerSeries.Inverse
import Mathlib.Tactic.Ring
import Mathlib.Tactic.LinearCombination
import Verif.Lemmas.Loop
import Verif.Spec.Filter

/- Lemmas on running filters, difference equations and z-transforms. -/

namespace Verif
namespace Sig
variable {σ T : Type}

theorem after_succ (step : σ → T → Res (T × σ)) (s : σ) (x : ℕ → T) (n : ℕ) :
    after step s x (n + 1) = (after step s x n >>= fun s' => step s' (x n) >>= fun r => .ok r.2) := rfl

theorem out_def (step : σ → T → Res (T × σ)) (s : σ) (x : ℕ → T) (n : ℕ) :
    out step s x n = (after step s x n >>= fun s' => step s' (x n) >>= fun r => .ok r.1) := rfl

/-- The outcome depends on the samples seen so far only. -/
theorem after_congr (step : σ → T → Res (T × σ)) (s : σ) {x x' : ℕ → T} {n : ℕ}
    (h : ∀ k < n, x k = x' k) : after step s x n = after step s x' n := by
  induction n with
  | zero => rfl
  | succ n ih =>
    rw [after_succ, after_succ, ih fun k hk => h k (by omega), h n (by omega)]

theorem out_congr (step : σ → T → Res (T × σ)) (s : σ) {x x' : ℕ → T} {n : ℕ}
    (h : ∀ k ≤ n, x k = x' k) : out step s x n = out step s x' n := by
  rw [out_def, out_def, after_congr step s fun k hk => h k hk.le, h n le_rfl]

theorem Runs.unique {step : σ → T → Res (T × σ)} {s : σ} {x y y' : ℕ → T} (h : Runs step s x y)
    (h' : Runs step s x y') : y = y' := by
  funext n
  exact Except.ok.inj ((h n).symm.trans (h' n))

/-- In a run, all intermediate states exist. -/
theorem Runs.states {step : σ → T → Res (T × σ)} {s : σ} {x y : ℕ → T} (h : Runs step s x y) :
    ∃ st : ℕ → σ, st 0 = s ∧ ∀ n, step (st n) (x n) = .ok (y n, st (n + 1)) := by
  have hex : ∀ n, ∃ s', after step s x n = .ok s' := by
    intro n
    have := h n
    rw [out_def, bind_eq_ok] at this
    obtain ⟨s', h1, -⟩ := this
    exact ⟨s', h1⟩
  choose st hst using hex
  refine ⟨st, (Except.ok.inj (hst 0)).symm, fun n => ?_⟩
  have h1 := h n
  have h2 := hst (n + 1)
  rw [out_def, hst n, bind_ok, bind_eq_ok] at h1
  obtain ⟨r, h3, h4⟩ := h1
  rw [after_succ, hst n, bind_ok, h3, bind_ok] at h2
  rw [h3, ← Except.ok.inj h4, ← Except.ok.inj h2]

theorem runs_of_states {step : σ → T → Res (T × σ)} {s : σ} {x y : ℕ → T} (st : ℕ → σ)
    (h0 : st 0 = s) (h : ∀ n, step (st n) (x n) = .ok (y n, st (n + 1))) :
    Runs step s x y ∧ ∀ n, after step s x n = .ok (st n) := by
  have ha : ∀ n, after step s x n = .ok (st n) := by
    intro n
    induction n with
    | zero => rw [h0]; rfl
    | succ n ih => rw [after_succ, ih, bind_ok, h n, bind_ok]
  exact ⟨fun n => by rw [out_def, ha n, bind_ok, h n, bind_ok], ha⟩

theorem Runs.iff_states {step : σ → T → Res (T × σ)} {s : σ} {x y : ℕ → T} :
    Runs step s x y ↔
      ∃ st : ℕ → σ, st 0 = s ∧ ∀ n, step (st n) (x n) = .ok (y n, st (n + 1)) :=
  ⟨Runs.states, fun ⟨st, h0, h⟩ => (runs_of_states st h0 h).1⟩

/-- If every step is defined, there is a run. -/
theorem Runs.exists {step : σ → T → Res (T × σ)} (h : ∀ s x, ∃ r, step s x = .ok r) (s : σ)
    (x : ℕ → T) : ∃ y, Runs step s x y := by
  choose f hf using h
  let st : ℕ → σ := fun n => Nat.rec s (fun n s => (f s (x n)).2) n
  exact ⟨fun n => (f (st n) (x n)).1, (runs_of_states st rfl fun n => hf _ _).1⟩

/-- As `Runs.exists`, for states satisfying an invariant. -/
theorem Runs.exists_inv {step : σ → T → Res (T × σ)} (P : σ → Prop)
    (h : ∀ s x, P s → ∃ r, step s x = .ok r ∧ P r.2) {s : σ} (h0 : P s)
    (x : ℕ → T) : ∃ y, Runs step s x y := by
  have hex : ∀ n, ∃ s', after step s x n = .ok s' ∧ P s' := by
    intro n
    induction n with
    | zero => exact ⟨s, rfl, h0⟩
    | succ n ih =>
      obtain ⟨s', h1, p1⟩ := ih
      obtain ⟨r, h2, p2⟩ := h s' (x n) p1
      exact ⟨r.2, by rw [after_succ, h1, bind_ok, h2, bind_ok], p2⟩
  have : ∀ n, ∃ y, out step s x n = .ok y := by
    intro n
    obtain ⟨s', h1, p1⟩ := hex n
    obtain ⟨r, h2, -⟩ := h s' (x n) p1
    exact ⟨r.1, by rw [out_def, h1, bind_ok, h2, bind_ok]⟩
  choose y hy using this
  exact ⟨y, hy⟩

section past
variable [Zero T]

@[simp] theorem past_zero (x : ℕ → T) (n : ℕ) : past x n 0 = x n := by simp [past]
@[simp] theorem past_zero_one (x : ℕ → T) : past x 0 1 = 0 := rfl
@[simp] theorem past_zero_two (x : ℕ → T) : past x 0 2 = 0 := rfl
@[simp] theorem past_one_two (x : ℕ → T) : past x 1 2 = 0 := rfl
@[simp] theorem past_succ_one (x : ℕ → T) (n : ℕ) : past x (n + 1) 1 = x n := by simp [past]
@[simp] theorem past_succ_two (x : ℕ → T) (n : ℕ) : past x (n + 2) 2 = x n := by simp [past]

end past

section ring
variable [CommRing T]
open PowerSeries

theorem coeff_poly2_mul (c0 c1 c2 : T) (x : ℕ → T) (n : ℕ) :
    coeff n (poly2 c0 c1 c2 * ztrans x) = c0 * x n + c1 * past x n 1 + c2 * past x n 2 := by
  unfold poly2 ztrans
  rw [add_mul, add_mul, map_add, map_add, mul_assoc, mul_assoc, coeff_C_mul, coeff_C_mul,
    coeff_C_mul, coeff_mk, coeff_X_pow_mul']
  have : coeff n (X * mk x) = past x n 1 := by
    have := coeff_X_pow_mul' (mk x) 1 n
    rw [pow_one] at this
    rw [this]
    unfold past
    split <;> simp
  rw [this]
  congr 2
  unfold past
  split <;> simp

/-- A difference equation is an equation of z-transforms. -/
theorem diffEq_iff (b0 b1 b2 a1 a2 : T) (x y : ℕ → T) :
    DiffEq b0 b1 b2 a1 a2 x y ↔ poly2 1 a1 a2 * ztrans y = poly2 b0 b1 b2 * ztrans x := by
  rw [PowerSeries.ext_iff]
  refine forall_congr' fun n => ?_
  rw [coeff_poly2_mul, coeff_poly2_mul]
  constructor <;> intro h <;> linear_combination h

theorem isUnit_poly2 (a1 a2 : T) : IsUnit (poly2 1 a1 a2) := by
  rw [PowerSeries.isUnit_iff_constantCoeff]
  unfold poly2
  simp

theorem ztrans_inj {x y : ℕ → T} (h : ztrans x = ztrans y) : x = y := by
  funext n
  have := congrArg (coeff n) h
  simpa [ztrans] using this

theorem DiffEq.unique {b0 b1 b2 a1 a2 : T} {x y y' : ℕ → T} (h : DiffEq b0 b1 b2 a1 a2 x y)
    (h' : DiffEq b0 b1 b2 a1 a2 x y') : y = y' := by
  rw [diffEq_iff] at h h'
  exact ztrans_inj ((isUnit_poly2 a1 a2).mul_left_cancel (h.trans h'.symm))

theorem DiffEq.linear {b0 b1 b2 a1 a2 : T} {x x' y y' : ℕ → T} (c c' : T)
    (h : DiffEq b0 b1 b2 a1 a2 x y) (h' : DiffEq b0 b1 b2 a1 a2 x' y') :
    DiffEq b0 b1 b2 a1 a2 (fun n => c * x n + c' * x' n) (fun n => c * y n + c' * y' n) := by
  have hp : ∀ (u u' : ℕ → T) n k, past (fun n => c * u n + c' * u' n) n k =
      c * past u n k + c' * past u' n k := by
    intro u u' n k
    unfold past
    split <;> ring
  intro n
  rw [hp, hp, hp, hp]
  linear_combination c * h n + c' * h' n

theorem ztrans_delay (d : ℕ) (x : ℕ → T) : ztrans (delay d x) = X ^ d * ztrans x := by
  ext n
  unfold ztrans delay past
  rw [coeff_mk, coeff_X_pow_mul']
  split <;> simp

theorem DiffEq.delay {b0 b1 b2 a1 a2 : T} {x y : ℕ → T} (d : ℕ) (h : DiffEq b0 b1 b2 a1 a2 x y) :
    DiffEq b0 b1 b2 a1 a2 (delay d x) (delay d y) := by
  rw [diffEq_iff] at *
  rw [ztrans_delay, ztrans_delay, mul_left_comm, h, mul_left_comm]

end ring
end Sig
end Verif
