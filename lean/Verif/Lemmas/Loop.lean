import Verif.Model.Cpp

/- Lemmas on the counting loop and on `Res`. -/

namespace Verif

@[simp] theorem bind_ok {α β : Type} (a : α) (f : α → Res β) :
    ((Except.ok a : Res α) >>= f) = f a := rfl
@[simp] theorem bind_error {α β : Type} (e : Err) (f : α → Res β) :
    ((Except.error e : Res α) >>= f) = .error e := rfl
@[simp] theorem bind_ok' {α β : Type} (a : α) (f : α → Res β) :
    (Except.ok a : Res α).bind f = f a := rfl
@[simp] theorem bind_error' {α β : Type} (e : Err) (f : α → Res β) :
    (Except.error e : Res α).bind f = .error e := rfl

theorem bind_eq_ok {α β : Type} {x : Res α} {f : α → Res β} {b : β} :
    (x >>= f) = .ok b ↔ ∃ a, x = .ok a ∧ f a = .ok b := by
  cases x <;> simp

theorem bind_eq_error {α β : Type} {x : Res α} {f : α → Res β} {e : Err} :
    (x >>= f) = .error e ↔ x = .error e ∨ ∃ a, x = .ok a ∧ f a = .error e := by
  cases x <;> simp

@[simp] theorem forRange_zero {σ : Type} (body : Nat → σ → Res σ) (s : σ) :
    forRange 0 body s = .ok s := rfl

theorem forRange_succ {σ : Type} (n : Nat) (body : Nat → σ → Res σ) (s : σ) :
    forRange (n + 1) body s = (forRange n body s >>= body n) := rfl

/-- Invariant rule: the loop runs to completion and the invariant holds at the end. -/
theorem forRange_inv {σ : Type} (P : Nat → σ → Prop) {n : Nat} {body : Nat → σ → Res σ} {s : σ}
    (h0 : P 0 s)
    (hstep : ∀ i, i < n → ∀ s, P i s → ∃ s', body i s = .ok s' ∧ P (i + 1) s') :
    ∃ s', forRange n body s = .ok s' ∧ P n s' := by
  induction n with
  | zero => exact ⟨s, rfl, h0⟩
  | succ n ih =>
    obtain ⟨s1, h1, p1⟩ := ih (fun i hi => hstep i (Nat.lt_succ_of_lt hi))
    obtain ⟨s2, h2, p2⟩ := hstep n (Nat.lt_succ_self n) s1 p1
    exact ⟨s2, by rw [forRange_succ, h1, bind_ok, h2], p2⟩

/-- A failing iteration ends the loop with that failure. -/
theorem forRange_error {σ : Type} (P : Nat → σ → Prop) {n k : Nat} {body : Nat → σ → Res σ} {s : σ}
    {e : Err} (hk : k < n) (h0 : P 0 s)
    (hstep : ∀ i, i < k → ∀ s, P i s → ∃ s', body i s = .ok s' ∧ P (i + 1) s')
    (hfail : ∀ s, P k s → body k s = .error e) :
    forRange n body s = .error e := by
  induction n with
  | zero => omega
  | succ n ih =>
    rw [forRange_succ]
    by_cases hkn : k < n
    · rw [ih hkn]; rfl
    · obtain rfl : k = n := by omega
      obtain ⟨s1, h1, p1⟩ := forRange_inv P h0 hstep
      rw [h1, bind_ok, hfail s1 p1]

/-- Two loops with the same bound and pointwise equal bodies agree. -/
theorem forRange_congr {σ : Type} {n : Nat} {b b' : Nat → σ → Res σ} {s : σ}
    (h : ∀ i, i < n → ∀ s, b i s = b' i s) : forRange n b s = forRange n b' s := by
  induction n with
  | zero => rfl
  | succ n ih =>
    rw [forRange_succ, forRange_succ, ih (fun i hi => h i (Nat.lt_succ_of_lt hi))]
    cases forRange n b' s with
    | error e => rfl
    | ok a => exact h n (Nat.lt_succ_self n) a

end Verif
