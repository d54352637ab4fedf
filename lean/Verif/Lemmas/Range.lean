import Mathlib.Algebra.Order.Group.Unbundled.Int
import Mathlib.Tactic.Linarith
import Mathlib.Tactic.Ring
import Verif.Lemmas.Loop
import Verif.Spec.Range

/- Helper lemmas about ranges. -/

namespace Verif
open Range

namespace IntTy

theorem two_pow_split {n : Nat} (h : 1 ≤ n) : (2 : Int) ^ n = 2 * 2 ^ (n - 1) := by
  obtain ⟨m, rfl⟩ : ∃ m, n = m + 1 := ⟨n - 1, by omega⟩
  simp [pow_succ, mul_comm]

theorem bits_pos (t : IntTy) : 1 ≤ t.bits := by
  have := t.bits_eq
  omega

theorem Has.convert {t : IntTy} {v : Int} (h : t.Has v) : t.convert v = v := by
  obtain ⟨h0, h1⟩ := h
  have h2 := two_pow_split t.bits_pos
  unfold lo at h0
  unfold hi at h1
  unfold IntTy.convert
  cases hs : t.signed
  · simp only [hs, Bool.false_eq_true, if_false] at *
    exact Int.emod_eq_of_lt h0 (by omega)
  · simp only [hs, if_true] at *
    rw [Int.emod_eq_of_lt (by omega) (by omega)]
    ring

theorem Has.result {t : IntTy} {v : Int} (h : t.Has v) : t.result v = .ok v := by
  obtain ⟨h0, h1⟩ := h
  unfold lo at h0
  unfold hi at h1
  unfold IntTy.result checked
  cases hs : t.signed
  · simp only [hs, Bool.false_eq_true, if_false] at *
    rw [Int.emod_eq_of_lt h0 (by omega)]
  · simp only [hs, if_true] at *
    rw [if_pos ⟨h0, by omega⟩]

theorem Has.promote {p : Platform} {t : IntTy} {v : Int} (h : t.Has v) :
    (t.promote p).Has v := by
  unfold IntTy.promote
  split
  · rename_i hlt
    obtain ⟨h0, h1⟩ := h
    have hle : (2 : Int) ^ t.bits ≤ 2 ^ (p.intBits - 1) := pow_le_pow_right₀ (by norm_num) (by omega)
    have h2 := two_pow_split t.bits_pos
    have hpos : (0 : Int) < 2 ^ (t.bits - 1) := by positivity
    unfold lo at h0
    unfold hi at h1
    unfold Has lo hi
    simp only [if_true]
    cases hs : t.signed <;> simp only [hs, Bool.false_eq_true, if_false, if_true] at * <;> omega
  · exact h

theorem result_overflow {t : IntTy} (hs : t.signed = true) {v : Int} (h : t.hi < v) :
    t.result v = .error .overflow := by
  unfold hi at h
  unfold IntTy.result checked
  simp only [hs, if_true] at *
  rw [if_neg (by omega)]

theorem promote_wide {p : Platform} {t : IntTy} (h : p.intBits ≤ t.bits) : t.promote p = t := by
  unfold IntTy.promote
  rw [if_neg (by omega)]

theorem zero_has {t : IntTy} : t.lo ≤ 0 := by
  unfold lo
  have : (0 : Int) < 2 ^ (t.bits - 1) := by positivity
  split <;> omega

end IntTy

namespace Range
variable {T I : Type} {deref : I → T} {next : I → Res I} {bne : I → I → Bool} {last : I}

/-- A loop that goes through the iterators `it k, it (k+1), ..., it (k+n)`. -/
theorem visit_seq (it : ℕ → I) (n m k : ℕ)
    (h : ∀ j, k ≤ j → j < k + n → bne (it j) last = true ∧ next (it j) = .ok (it (j + 1))) :
    visit deref next bne last (n + m) (it k) =
      (visit deref next bne last m (it (k + n))).bind fun r =>
        .ok ((List.range n).map (fun j => deref (it (k + j))) ++ r.1, r.2) := by
  induction n generalizing k with
  | zero =>
    rw [Nat.zero_add, Nat.add_zero]
    cases visit deref next bne last m (it k) <;> rfl
  | succ n ih =>
    rw [Nat.succ_add]
    obtain ⟨h1, h2⟩ := h k le_rfl (by omega)
    have := ih (k + 1) (fun j hj hj' => h j (by omega) (by omega))
    rw [visit, if_pos h1, h2, bind_ok, this, Nat.add_right_comm k 1 n]
    cases visit deref next bne last m (it (k + n + 1)) with
    | error e => rfl
    | ok r =>
      simp only [Except.bind, List.range_succ_eq_map, List.map_cons, List.map_map, List.cons_append]
      show Except.ok _ = _
      have : (List.range n).map (fun j => deref (it (k + 1 + j))) =
          (List.range n).map ((fun j => deref (it (k + j))) ∘ Nat.succ) := by
        apply List.map_congr_left
        intro j _
        simp only [Function.comp, Nat.succ_eq_add_one]
        rw [Nat.add_right_comm, Nat.add_assoc]
      rw [this]
      rfl

/-- A loop that stops after `K` iterations. -/
theorem visit_stop (it : ℕ → I) (K : ℕ)
    (h : ∀ j, j < K → bne (it j) last = true ∧ next (it j) = .ok (it (j + 1)))
    (hK : bne (it K) last = false) (fuel : ℕ) :
    visit deref next bne last fuel (it 0) =
      .ok ((List.range (min fuel K)).map (fun j => deref (it j)), decide (K ≤ fuel)) := by
  rcases Nat.lt_or_ge fuel K with hlt | hge
  · have := visit_seq (deref := deref) it fuel 0 0 (fun j _ hj => h j (by omega))
    rw [Nat.add_zero] at this
    rw [this]
    simp only [Nat.zero_add, visit, (h fuel hlt).1, Except.bind, List.append_nil, min_eq_left hlt.le,
      Bool.not_true, decide_eq_false (Nat.not_le.2 hlt)]
  · have := visit_seq (deref := deref) it K (fuel - K) 0 (fun j _ hj => h j (by omega))
    rw [Nat.add_sub_cancel' hge] at this
    have hv : visit deref next bne last (fuel - K) (it (0 + K)) = .ok ([], true) := by
      rw [Nat.zero_add]
      cases fuel - K with
      | zero => rw [visit, hK]; rfl
      | succ n => rw [visit, hK]; rfl
    rw [this, hv]
    simp only [Nat.zero_add, Except.bind, List.append_nil, min_eq_right hge, decide_eq_true hge]

/-- A loop that is undefined at the end of iteration `K`. -/
theorem visit_error (it : ℕ → I) (K : ℕ) {e : Err}
    (h : ∀ j, j < K → bne (it j) last = true ∧ next (it j) = .ok (it (j + 1)))
    (hK : bne (it K) last = true) (he : next (it K) = .error e) (fuel : ℕ) :
    visit deref next bne last fuel (it 0) = if fuel ≤ K then
      .ok ((List.range fuel).map (fun j => deref (it j)), false) else .error e := by
  split
  · rename_i hle
    have := visit_seq (deref := deref) it fuel 0 0 (fun j _ hj => h j (by omega))
    rw [Nat.add_zero] at this
    rw [this]
    have hb : bne (it fuel) last = true := by
      rcases Nat.lt_or_ge fuel K with hlt | hge
      · exact (h fuel hlt).1
      · rw [show fuel = K by omega]; exact hK
    simp only [Nat.zero_add, visit, hb, Except.bind, List.append_nil, Bool.not_true]
  · rename_i hgt
    obtain ⟨m, rfl⟩ : ∃ m, fuel = K + (m + 1) := ⟨fuel - K - 1, by omega⟩
    rw [visit_seq (deref := deref) it K (m + 1) 0 (fun j _ hj => h j (by omega)), Nat.zero_add, visit,
      if_pos hK, he]
    rfl

/-- A loop that never ends. -/
theorem visit_forever (it : ℕ → I)
    (h : ∀ j, bne (it j) last = true ∧ next (it j) = .ok (it (j + 1))) (fuel : ℕ) :
    visit deref next bne last fuel (it 0) =
      .ok ((List.range fuel).map (fun j => deref (it j)), false) := by
  have := visit_seq (deref := deref) it fuel 0 0 (fun j _ _ => h j)
  rw [Nat.add_zero] at this
  rw [this]
  simp only [Nat.zero_add, visit, (h fuel).1, Except.bind, List.append_nil, Bool.not_true]

theorem Iter.next_ok {p : Platform} {t : IntTy} {v : Int} (h0 : t.Has (v + 1)) :
    Iter.next (t.num p) ⟨v⟩ = .ok ⟨v + 1⟩ := by
  show ((t.promote p).result (v + 1)).bind _ = _
  rw [(h0.promote).result]
  show Except.ok (Iter.mk (t.convert (v + 1))) = _
  rw [h0.convert]

theorem StepIter.next_ok {p : Platform} {t : IntTy} {c f a s : Int} {inf : Bool}
    (h1 : t.Has (f + 1)) (h2 : t.Has ((f + 1) * s)) (h3 : t.Has (a + (f + 1) * s)) :
    StepIter.next (t.num p) ⟨c, f, a, s, inf⟩ = .ok ⟨a + (f + 1) * s, f + 1, a, s, inf⟩ := by
  show ((t.promote p).result (f + 1)).bind _ = _
  rw [(h1.promote).result]
  show ((t.promote p).result (t.convert (f + 1) * s)).bind _ = _
  rw [h1.convert, (h2.promote).result]
  show ((t.promote p).result (a + (f + 1) * s)).bind _ = _
  rw [(h3.promote).result]
  show Except.ok _ = _
  rw [show (t.num p).store (a + (f + 1) * s) = t.convert (a + (f + 1) * s) from rfl, h3.convert,
    show (t.num p).store (f + 1) = t.convert (f + 1) from rfl, h1.convert]

/-- The increment overflows if the product or the sum does. -/
theorem StepIter.next_err {p : Platform} {t : IntTy} (hs : t.signed = true)
    (hw : p.intBits ≤ t.bits) {c f a s : Int} {inf : Bool} (h1 : t.Has (f + 1))
    (h : t.hi < (f + 1) * s ∨ t.Has ((f + 1) * s) ∧ t.hi < a + (f + 1) * s) :
    StepIter.next (t.num p) ⟨c, f, a, s, inf⟩ = .error .overflow := by
  have hp := IntTy.promote_wide hw
  show ((t.promote p).result (f + 1)).bind _ = _
  rw [(h1.promote).result]
  show ((t.promote p).result (t.convert (f + 1) * s)).bind _ = _
  rw [h1.convert, hp]
  rcases h with h | ⟨h2, h⟩
  · rw [IntTy.result_overflow hs h]
    rfl
  · rw [h2.result]
    show ((t.promote p).result (a + (f + 1) * s)).bind _ = _
    rw [hp, IntTy.result_overflow hs h]
    rfl

end Range
end Verif
