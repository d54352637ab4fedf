import Verif.Lemmas.Ieee
import Verif.Lemmas.Range
import Verif.Model.FloatRange

/-
Stepping ranges in floating point.
-/

namespace Verif
namespace FloatRange
open Ieee Range
variable (f : Format)

theorem rnd_digits_eq {x : ℚ} (h : ∃ n e : ℤ, |n| < 2 ^ f.p ∧ f.q ≤ e ∧ x = n * 2 ^ e) : rnd f x = x := by
  have := rnd_nearest f x x h
  rw [sub_self, abs_zero] at this
  exact sub_eq_zero.1 (abs_nonpos_iff.1 this)

theorem rnd_rnd (x : ℚ) : rnd f (rnd f x) = rnd f x := rnd_digits_eq f (rnd_digits f x)

/-- Natural numbers up to `2 ^ p` are not rounded. -/
theorem rnd_nat {k : ℕ} (hk : k ≤ 2 ^ f.p) : rnd f k = k := by
  have h2 := f.two_le
  have hq := f.q_le
  apply rnd_digits_eq
  rcases hk.lt_or_eq with h1 | h1
  · refine ⟨k, 0, ?_, by omega, by push_cast; simp⟩
    rw [Nat.abs_cast]
    exact_mod_cast h1
  · refine ⟨1, f.p, ?_, by omega, ?_⟩
    · rw [abs_one]
      exact one_lt_pow₀ (by norm_num) (by omega)
    · rw [h1, zpow_natCast]
      push_cast
      ring

/-- Counting stops at `2 ^ p`. -/
theorem rnd_count (k : ℕ) : rnd f (((min k (2 ^ f.p) : ℕ) : ℚ) + 1) = (min (k + 1) (2 ^ f.p) : ℕ) := by
  have h2 := f.two_le
  have hq := f.q_le
  rcases Nat.lt_or_ge k (2 ^ f.p) with h | h
  · rw [min_eq_left h.le, min_eq_left (show k + 1 ≤ 2 ^ f.p from h), ← Nat.cast_succ]
    exact rnd_nat f h
  · rw [min_eq_right h, min_eq_right (by omega)]
    have e1 : ((2 ^ f.p : ℕ) : ℚ) = ((2 ^ (f.p - 1) : ℤ) : ℚ) * 2 ^ (1 : ℤ) := by
      obtain ⟨p, hp⟩ : ∃ p, f.p = p + 1 := ⟨f.p - 1, by omega⟩
      rw [hp, Nat.add_sub_cancel]
      push_cast
      ring
    rw [e1]
    apply rnd_add_small f (by omega) le_rfl (pow_lt_pow_right₀ (by norm_num) (by omega)) zero_le_one
    right
    refine ⟨by norm_num, ?_⟩
    obtain ⟨p, hp⟩ : ∃ p, f.p = p + 2 := ⟨f.p - 2, by omega⟩
    rw [hp, show p + 2 - 1 = p + 1 by omega, pow_succ]
    omega

/-- Element `k` of a stepping range, if there is no overflow. -/
def elt (a s : ℚ) (k : ℕ) : ℚ := rnd f (a + rnd f ((min k (2 ^ f.p) : ℕ) * s))

variable {f}

theorem elt_zero (a : Flt f) (s : ℚ) : elt f a.val s 0 = a.val := by
  rw [elt, Nat.zero_min, Nat.cast_zero, zero_mul, rnd_zero, add_zero]
  exact rnd_rep f a.rep

theorem elt_mono (a : ℚ) {s : ℚ} (hs : 0 ≤ s) {j k : ℕ} (h : j ≤ k) : elt f a s j ≤ elt f a s k := by
  apply rnd_mono
  gcongr
  apply rnd_mono
  gcongr

theorem elt_stalls (a s : ℚ) {k : ℕ} (h : 2 ^ f.p ≤ k) : elt f a s k = elt f a s (2 ^ f.p) := by
  rw [elt, elt, min_eq_right h, min_self]

/-- What a loop that has a result has visited. -/
theorem visit_inv (a s b : Flt f) (last : StepIter (Flt f)) (hb : last.current = b) (fuel : ℕ) :
    ∀ (k : ℕ) (i : StepIter (Flt f)) (l) (d), i.first = a → i.step = s → i.infinite = false →
      i.factor.val = (min k (2 ^ f.p) : ℕ) → i.current.val = elt f a.val s.val k →
      |rnd f ((min k (2 ^ f.p) : ℕ) * s.val)| ≤ f.max →
      visit StepIter.deref (StepIter.next (Flt.num f)) (StepIter.bne (Flt.num f)) last fuel i = .ok (l, d) →
      (∀ j (h : j < l.length), l[j].val = elt f a.val s.val (k + j) ∧ l[j].val < b.val ∧
        |rnd f ((min (k + j) (2 ^ f.p) : ℕ) * s.val)| ≤ f.max) ∧
      (d = true → l.length ≤ fuel ∧ b.val ≤ elt f a.val s.val (k + l.length)) ∧
      (d = false → l.length = fuel ∧ elt f a.val s.val (k + fuel) < b.val) := by
  induction fuel with
  | zero =>
    intro k i l d h1 h2 h3 h4 h5 h6 h
    obtain ⟨rfl, rfl⟩ := Prod.mk.inj (Except.ok.inj h)
    refine ⟨fun j h => absurd h (Nat.not_lt_zero _), fun h => ⟨le_rfl, ?_⟩, fun h => ⟨rfl, ?_⟩⟩
    · simpa [StepIter.bne, StepIter.beq, h3, Flt.num, hb, h5] using h
    · simpa [StepIter.bne, StepIter.beq, h3, Flt.num, hb, h5] using h
  | succ fuel ih =>
    intro k i l d h1 h2 h3 h4 h5 h6 h
    rw [visit] at h
    split_ifs at h with hc
    · obtain ⟨i', e, h⟩ := bind_eq_ok.1 h
      obtain ⟨⟨l', d'⟩, e', h⟩ := bind_eq_ok.1 h
      obtain ⟨rfl, rfl⟩ := Prod.mk.inj (Except.ok.inj h)
      obtain ⟨c, ec, e⟩ := bind_eq_ok.1 e
      obtain ⟨m, em, e⟩ := bind_eq_ok.1 e
      obtain ⟨v, ev, e⟩ := bind_eq_ok.1 e
      cases e
      have hc' := Flt.ofRat_eq ec
      have hm := Flt.ofRat_eq em
      have hv := Flt.ofRat_eq ev
      rw [h4] at hc'
      rw [show (Flt.num f).one.val = 1 from rfl, rnd_count] at hc'
      simp only [Flt.num] at hm hv
      rw [hc', h2] at hm
      rw [h1, hm] at hv
      have hm' : |rnd f ((min (k + 1) (2 ^ f.p) : ℕ) * s.val)| ≤ f.max := by
        rw [← hm]
        exact m.rep.2
      obtain ⟨g1, g2, g3⟩ := ih (k + 1) _ l' d' (by exact h1) (by exact h2) (by exact h3) hc' hv hm' e'
      refine ⟨?_, ?_, ?_⟩
      · intro j hj
        match j with
        | 0 =>
          refine ⟨h5, ?_, h6⟩
          simpa [StepIter.bne, StepIter.beq, h3, Flt.num, hb, h5, StepIter.deref] using hc
        | j + 1 =>
          obtain ⟨g, g'⟩ := g1 j (by simpa using hj)
          rw [show k + (j + 1) = k + 1 + j by omega]
          exact ⟨g, g'⟩
      · intro hd
        obtain ⟨g, g'⟩ := g2 hd
        refine ⟨by simpa using g, ?_⟩
        rw [List.length_cons, show k + (l'.length + 1) = k + 1 + l'.length by omega]
        exact g'
      · intro hd
        obtain ⟨g, g'⟩ := g3 hd
        refine ⟨by simpa using g, ?_⟩
        rw [show k + (fuel + 1) = k + 1 + fuel by omega]
        exact g'
    · obtain ⟨rfl, rfl⟩ := Prod.mk.inj (Except.ok.inj h)
      refine ⟨fun j h => absurd h (Nat.not_lt_zero _), fun h => ⟨Nat.zero_le _, ?_⟩, fun h => nomatch h⟩
      simpa [StepIter.bne, StepIter.beq, h3, Flt.num, hb, h5] using hc

/-- `x` rounded. -/
def near (f : Format) (x : ℚ) : Flt f :=
  if h : |rnd f x| ≤ f.max then ⟨rnd f x, rnd_digits f x, h⟩ else Flt.zero

theorem ofRat_near {x : ℚ} (h : |rnd f x| ≤ f.max) : Flt.ofRat f x = .ok (near f x) := by
  rw [Flt.ofRat, dif_pos h, near, dif_pos h]

theorem near_val {x : ℚ} (h : |rnd f x| ≤ f.max) : (near f x).val = rnd f x := by
  rw [near, dif_pos h]

/-- No overflow up to element `k`. -/
def NoOverflow (f : Format) (a s : ℚ) (k : ℕ) : Prop :=
  ((min k (2 ^ f.p) : ℕ) : ℚ) ≤ f.max ∧ |rnd f ((min k (2 ^ f.p) : ℕ) * s)| ≤ f.max ∧ |elt f a s k| ≤ f.max

/-- The iterator at element `k`. -/
def at_ (a s : Flt f) (k : ℕ) : StepIter (Flt f) :=
  ⟨near f (a.val + rnd f ((min k (2 ^ f.p) : ℕ) * s.val)), near f (min k (2 ^ f.p) : ℕ), a, s, false⟩

theorem at_zero (a s : Flt f) : at_ a s 0 = StepIter.make (Flt.num f) a s false := by
  have e0 : (near f ((0 : ℕ) : ℚ)) = Flt.zero := by
    unfold near
    split_ifs with h
    · simp [rnd_zero, Flt.zero]
    · rfl
  have e1 : near f a.val = a := by
    have := rnd_rep f a.rep
    rw [near, dif_pos (by rw [this]; exact a.rep.2)]
    cases a
    congr
  rw [at_, Nat.zero_min, e0, Nat.cast_zero, zero_mul, rnd_zero, add_zero, e1]
  rfl

theorem at_next {a s : Flt f} {k : ℕ} (h : NoOverflow f a.val s.val k) (h' : NoOverflow f a.val s.val (k + 1)) :
    StepIter.next (Flt.num f) (at_ a s k) = .ok (at_ a s (k + 1)) := by
  have nat : ∀ j : ℕ, |rnd f ((min j (2 ^ f.p) : ℕ) : ℚ)| = (min j (2 ^ f.p) : ℕ) := fun j => by
    rw [rnd_nat f (min_le_right _ _), Nat.abs_cast]
  have hv : (at_ a s k).factor.val = (min k (2 ^ f.p) : ℕ) := by
    have := near_val (f := f) (by rw [nat]; exact h.1)
    rw [rnd_nat f (min_le_right _ _)] at this
    exact this
  have hv' : (near f ((min (k + 1) (2 ^ f.p) : ℕ) : ℚ)).val = (min (k + 1) (2 ^ f.p) : ℕ) := by
    have := near_val (f := f) (by rw [nat]; exact h'.1)
    rw [rnd_nat f (min_le_right _ _)] at this
    exact this
  have e1 : (Flt.num f).add (at_ a s k).factor (Flt.num f).one =
      .ok (near f ((min (k + 1) (2 ^ f.p) : ℕ) : ℚ)) := by
    show Flt.ofRat f ((at_ a s k).factor.val + 1) = _
    rw [hv]
    have hc := rnd_count f k
    unfold Flt.ofRat near
    rw [dif_pos (by rw [hc, Nat.abs_cast]; exact h'.1), dif_pos (by rw [nat]; exact h'.1)]
    congr 2
    rw [hc, rnd_nat f (min_le_right _ _)]
  have e2 : (Flt.num f).mul (near f ((min (k + 1) (2 ^ f.p) : ℕ) : ℚ)) s =
      .ok (near f ((min (k + 1) (2 ^ f.p) : ℕ) * s.val)) := by
    show Flt.ofRat f (_ * s.val) = _
    rw [hv']
    exact ofRat_near h'.2.1
  have e3 : (Flt.num f).add a (near f ((min (k + 1) (2 ^ f.p) : ℕ) * s.val)) =
      .ok (near f (a.val + rnd f ((min (k + 1) (2 ^ f.p) : ℕ) * s.val))) := by
    show Flt.ofRat f (a.val + _) = _
    rw [near_val h'.2.1]
    exact ofRat_near h'.2.2
  rw [StepIter.next, e1, bind_ok]
  show ((Flt.num f).mul (near f ((min (k + 1) (2 ^ f.p) : ℕ) : ℚ)) s >>= fun m =>
    (Flt.num f).add a m >>= fun c => _) = _
  rw [e2, bind_ok, e3, bind_ok]
  rfl

theorem at_bne {a s : Flt f} (b : Flt f) {k : ℕ} (h : |elt f a.val s.val k| ≤ f.max) :
    StepIter.bne (Flt.num f) (at_ a s k) (StepIter.make (Flt.num f) b s false) =
      decide (elt f a.val s.val k < b.val) := by
  have e : (at_ a s k).current.val = elt f a.val s.val k := near_val h
  show (!(true && decide (b.val ≤ (at_ a s k).current.val))) = _
  rw [e, Bool.true_and, ← decide_not]
  exact decide_eq_decide.2 not_le

/-- The first element that is not below the end. -/
theorem visit_first {a s b : Flt f} {K : ℕ} (hf : ∀ j ≤ K, NoOverflow f a.val s.val j)
    (hlt : ∀ j < K, elt f a.val s.val j < b.val) (hK : b.val ≤ elt f a.val s.val K) (fuel : ℕ) :
    (rangeStep (Flt.num f) a b s).visitStep (Flt.num f) fuel =
      .ok ((List.range (min fuel K)).map (fun j => near f (a.val + rnd f ((min j (2 ^ f.p) : ℕ) * s.val))),
        decide (K ≤ fuel)) := by
  have := visit_stop (deref := StepIter.deref) (next := StepIter.next (Flt.num f))
    (bne := StepIter.bne (Flt.num f)) (last := StepIter.make (Flt.num f) b s false) (at_ a s) K ?_ ?_ fuel
  · rw [at_zero] at this
    exact this
  · intro j hj
    exact ⟨by rw [at_bne b (hf j hj.le).2.2, decide_eq_true_iff]; exact hlt j hj,
      at_next (hf j hj.le) (hf (j + 1) hj)⟩
  · rw [at_bne b (hf K le_rfl).2.2, decide_eq_false_iff_not, not_lt]
    exact hK

theorem visit_never {a s b : Flt f} (hf : ∀ j, NoOverflow f a.val s.val j)
    (hlt : ∀ j, elt f a.val s.val j < b.val) (fuel : ℕ) :
    (rangeStep (Flt.num f) a b s).visitStep (Flt.num f) fuel =
      .ok ((List.range fuel).map (fun j => near f (a.val + rnd f ((min j (2 ^ f.p) : ℕ) * s.val))), false) := by
  have := visit_forever (deref := StepIter.deref) (next := StepIter.next (Flt.num f))
    (bne := StepIter.bne (Flt.num f)) (last := StepIter.make (Flt.num f) b s false) (at_ a s) ?_ fuel
  · rw [at_zero] at this
    exact this
  · intro j
    exact ⟨by rw [at_bne b (hf j).2.2, decide_eq_true_iff]; exact hlt j, at_next (hf j) (hf (j + 1))⟩

end FloatRange
end Verif
