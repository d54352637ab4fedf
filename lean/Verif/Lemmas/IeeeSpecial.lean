import Verif.Lemmas.Ieee
import Verif.Lemmas.Refine
import Verif.Spec.IeeeSpecial
import Verif.Lemmas.Cascade
import Verif.Lemmas.Filter
import Verif.Model.KalmanSimOutput
import Mathlib.Tactic.IntervalCases

/-
Lemmas on floating point with infinities, NaN and signed zeros.
-/

namespace Verif
namespace XFlt
variable {f : Ieee.Format}

theorem rnd_zero : Ieee.rnd f 0 = 0 := by
  unfold Ieee.rnd
  have : Ieee.roundEven (0 / 2 ^ Ieee.lastDigit f 0) = 0 := by
    have := Ieee.roundEven_int 0
    simpa using this
  rw [this]; simp

theorem round_is {s x} {c : Flt f} (h : Flt.ofRat f x = .ok c) : Is (round f s x) c := by
  unfold Flt.ofRat at h
  split at h
  · rename_i hm
    cases h
    unfold round
    split
    · rename_i hx
      refine ⟨rfl, ?_⟩
      change 0 = Ieee.rnd f x
      rw [hx, rnd_zero]
    · split
      · rename_i h0
        exact ⟨rfl, h0.symm⟩
      · exact ⟨rfl, rfl⟩
  · cases h

theorem round_fin {s x} (h : (round f s x).isFinite = true) : ∃ c, Flt.ofRat f x = .ok c ∧ Is (round f s x) c := by
  have hm : |Ieee.rnd f x| ≤ f.max := by
    by_contra hm
    unfold round at h
    split at h
    · rename_i hx
      rw [hx, rnd_zero, abs_zero] at hm
      exact hm (zero_le_one.trans (Flt.one_le_max f))
    · cases h
  have h' : Flt.ofRat f x = .ok ⟨Ieee.rnd f x, Ieee.rnd_digits f x, hm⟩ := dif_pos hm
  exact ⟨_, h', round_is h'⟩

theorem round_zero {s x} (h : x = 0) : round f s x = zero s := if_pos h

theorem round_small {s x} (h : |Ieee.rnd f x| ≤ f.max) : (round f s x).isFinite = true ∧ (round f s x).val = Ieee.rnd f x :=
  round_is (c := ⟨Ieee.rnd f x, Ieee.rnd_digits f x, h⟩) (dif_pos h)

theorem round_large {s x} (h : f.max < |Ieee.rnd f x|) : round f s x = inf (decide (x < 0)) := by
  unfold round
  rw [if_neg, dif_neg h.not_ge]
  rintro rfl
  rw [rnd_zero, abs_zero] at h
  exact absurd (zero_le_one.trans (Flt.one_le_max f)) h.not_ge

theorem round_zero_sign {s x} (h : x = 0) : (round f s x).sign = s := by rw [round_zero h]; rfl

theorem round_sign {s x} (h : x ≠ 0) : (round f s x).sign = decide (x < 0) := by
  unfold round
  rw [if_neg h]
  split
  · split
    · rfl
    · rename_i h0
      change decide (Ieee.rnd f x < 0) = _
      rcases lt_or_gt_of_ne h with hx | hx
      · have : Ieee.rnd f x ≤ 0 := by
          have := Ieee.rnd_mono (f := f) hx.le
          rwa [rnd_zero] at this
        rw [decide_eq_true hx, decide_eq_true (lt_of_le_of_ne this h0)]
      · have : 0 ≤ Ieee.rnd f x := by
          have := Ieee.rnd_mono (f := f) hx.le
          rwa [rnd_zero] at this
        rw [decide_eq_false hx.not_gt, decide_eq_false this.not_gt]
  · rfl

theorem sign_mul {x y : ℚ} (hx : x ≠ 0) (hy : y ≠ 0) : decide (x * y < 0) = (decide (x < 0) ^^ decide (y < 0)) := by
  rcases lt_or_gt_of_ne hx with h | h <;> rcases lt_or_gt_of_ne hy with h' | h'
  · rw [decide_eq_true h, decide_eq_true h', decide_eq_false (mul_pos_of_neg_of_neg h h').not_gt]; rfl
  · rw [decide_eq_true h, decide_eq_false h'.not_gt, decide_eq_true (mul_neg_of_neg_of_pos h h')]; rfl
  · rw [decide_eq_false h.not_gt, decide_eq_true h', decide_eq_true (mul_neg_of_pos_of_neg h h')]; rfl
  · rw [decide_eq_false h.not_gt, decide_eq_false h'.not_gt, decide_eq_false (mul_pos h h').not_gt]; rfl

theorem sign_div {x y : ℚ} (hx : x ≠ 0) (hy : y ≠ 0) : decide (x / y < 0) = (decide (x < 0) ^^ decide (y < 0)) := by
  rw [div_eq_mul_inv, sign_mul hx (inv_ne_zero hy)]
  simp

theorem neg_is {a : XFlt f} {a' : Flt f} (h : Is a a') : Is a.neg a'.neg := by
  obtain ⟨h1, h2⟩ := h
  cases a
  · exact absurd h1 Bool.false_ne_true
  · exact absurd h1 Bool.false_ne_true
  · refine ⟨rfl, ?_⟩
    change 0 = -a'.val
    rw [← h2]; rfl
  · refine ⟨rfl, ?_⟩
    change -_ = -a'.val
    rw [← h2]; rfl

theorem isFinite_neg (a : XFlt f) : a.neg.isFinite = a.isFinite := by cases a <;> rfl
theorem val_neg (a : XFlt f) : a.neg.val = -a.val := by cases a <;> simp [neg, val, Flt.neg]

theorem add_eq {a b : XFlt f} (ha : a.isFinite = true) (hb : b.isFinite = true) :
    a.add b = round f (a.sign && b.sign) (a.val + b.val) := by
  cases a <;> cases b <;> first | rfl | exact absurd ha Bool.false_ne_true | exact absurd hb Bool.false_ne_true

theorem mul_eq {a b : XFlt f} (ha : a.isFinite = true) (hb : b.isFinite = true) :
    a.mul b = round f (a.sign ^^ b.sign) (a.val * b.val) := by
  cases a <;> cases b <;> first | rfl | exact absurd ha Bool.false_ne_true | exact absurd hb Bool.false_ne_true

theorem div_eq {a b : XFlt f} (ha : a.isFinite = true) (hb : b.isFinite = true) (h0 : b.val ≠ 0) :
    a.div b = round f (a.sign ^^ b.sign) (a.val / b.val) := by
  cases a <;> cases b <;> first | rfl | exact absurd ha Bool.false_ne_true | exact absurd hb Bool.false_ne_true | exact absurd rfl h0

theorem add_fin {a b : XFlt f} (h : (a.add b).isFinite = true) : a.isFinite = true ∧ b.isFinite = true := by
  cases a <;> cases b <;> first | exact ⟨rfl, rfl⟩ | (simp only [add] at h; try split at h) <;> cases h

theorem mul_fin {a b : XFlt f} (h : (a.mul b).isFinite = true) : a.isFinite = true ∧ b.isFinite = true := by
  cases a <;> cases b <;> first | exact ⟨rfl, rfl⟩ | exact absurd h Bool.false_ne_true

theorem sub_fin {a b : XFlt f} (h : (a.sub b).isFinite = true) : a.isFinite = true ∧ b.isFinite = true := by
  have := add_fin h
  rwa [isFinite_neg] at this

theorem refines : Refines (Is (f := f)) where
  zero := ⟨rfl, rfl⟩
  one := ⟨rfl, rfl⟩
  add ha hb c hc := ⟨_, rfl, by rw [add_eq ha.1 hb.1, ha.2, hb.2]; exact round_is hc⟩
  sub {a b a' b'} ha hb c hc := ⟨_, rfl, by
    unfold sub
    rw [add_eq ha.1 ((isFinite_neg b).trans hb.1), val_neg, ha.2, hb.2, ← sub_eq_add_neg]
    exact round_is hc⟩
  mul ha hb c hc := ⟨_, rfl, by rw [mul_eq ha.1 hb.1, ha.2, hb.2]; exact round_is hc⟩
  div {a b a' b'} ha hb c hc := by
    change (if b'.val = 0 then _ else _) = _ at hc
    split at hc
    · cases hc
    · rename_i h0
      rw [← hb.2] at h0
      exact ⟨_, rfl, by rw [div_eq ha.1 hb.1 h0, ha.2, hb.2]; exact round_is hc⟩
  neg ha c hc := ⟨_, rfl, by cases hc; exact neg_is ha⟩
  nonZero {a a'} h := by
    obtain ⟨h1, h2⟩ := h
    change nonZero a = decide (a'.val ≠ 0)
    rw [← h2]
    cases a
    · exact absurd h1 Bool.false_ne_true
    · exact absurd h1 Bool.false_ne_true
    · rfl
    · rename_i x h
      exact (decide_eq_true h).symm

theorem refines_lit (n : Int) : Follows (Is (f := f)) (CLit.lit n) (CLit.lit n) :=
  fun _ hc => ⟨_, rfl, round_is hc⟩

/-- The arithmetic on finite operands with a finite result is that of `Flt`. -/
theorem add_back {a b : XFlt f} {a' b' : Flt f} (ha : Is a a') (hb : Is b b') (h : (a.add b).isFinite = true) :
    ∃ c, CNum.add a' b' = .ok c ∧ Is (a.add b) c := by
  rw [add_eq ha.1 hb.1] at h ⊢
  obtain ⟨c, h1, h2⟩ := round_fin h
  rw [ha.2, hb.2] at h1
  exact ⟨c, h1, h2⟩

theorem sub_back {a b : XFlt f} {a' b' : Flt f} (ha : Is a a') (hb : Is b b') (h : (a.sub b).isFinite = true) :
    ∃ c, CNum.sub a' b' = .ok c ∧ Is (a.sub b) c := by
  obtain ⟨c, h1, h2⟩ := add_back ha (neg_is hb) h
  refine ⟨c, ?_, h2⟩
  rw [← h1]
  change Flt.ofRat f (a'.val - b'.val) = Flt.ofRat f (a'.val + -b'.val)
  rw [sub_eq_add_neg]

theorem mul_back {a b : XFlt f} {a' b' : Flt f} (ha : Is a a') (hb : Is b b') (h : (a.mul b).isFinite = true) :
    ∃ c, CNum.mul a' b' = .ok c ∧ Is (a.mul b) c := by
  rw [mul_eq ha.1 hb.1] at h ⊢
  obtain ⟨c, h1, h2⟩ := round_fin h
  rw [ha.2, hb.2] at h1
  exact ⟨c, h1, h2⟩

/-! ### Not finite -/

theorem bad_add {a b : XFlt f} (h : a.Bad ∨ b.Bad) : (a.add b).Bad := by
  by_contra hc
  obtain ⟨h1, h2⟩ := add_fin (Bool.not_eq_false _ ▸ hc)
  rcases h with h | h
  · exact absurd (h.symm.trans h1) Bool.false_ne_true
  · exact absurd (h.symm.trans h2) Bool.false_ne_true

theorem bad_sub {a b : XFlt f} (h : a.Bad ∨ b.Bad) : (a.sub b).Bad :=
  bad_add (h.imp_right fun h => (isFinite_neg b).trans h)

theorem bad_mul {a b : XFlt f} (h : a.Bad ∨ b.Bad) : (a.mul b).Bad := by
  by_contra hc
  obtain ⟨h1, h2⟩ := mul_fin (Bool.not_eq_false _ ▸ hc)
  rcases h with h | h
  · exact absurd (h.symm.trans h1) Bool.false_ne_true
  · exact absurd (h.symm.trans h2) Bool.false_ne_true

theorem lit22 {T : Type} (A : Mat T 2 2) : ∃ a b c d, A = ⟨#v[a, b, c, d]⟩ :=
  ⟨A.storage[0], A.storage[1], A.storage[2], A.storage[3], by
    cases A; congr 1; ext i hi; simp only at *; interval_cases i <;> rfl⟩
theorem lit21 {T : Type} (A : Mat T 2 1) : ∃ a b, A = ⟨#v[a, b]⟩ :=
  ⟨A.storage[0], A.storage[1], by cases A; congr 1; ext i hi; simp only at *; interval_cases i <;> rfl⟩
theorem lit12 {T : Type} (A : Mat T 1 2) : ∃ a b, A = ⟨#v[a, b]⟩ :=
  ⟨A.storage[0], A.storage[1], by cases A; congr 1; ext i hi; simp only at *; interval_cases i <;> rfl⟩
theorem lit11 {T : Type} (A : Mat T 1 1) : ∃ a, A = ⟨#v[a]⟩ :=
  ⟨A.storage[0], by cases A; congr 1; ext i hi; simp only at *; interval_cases i; rfl⟩

theorem all22 {a b c d : XFlt f} : AllBad (⟨#v[a, b, c, d]⟩ : Mat _ 2 2) ↔ a.Bad ∧ b.Bad ∧ c.Bad ∧ d.Bad := by
  refine ⟨fun h => ⟨h 0 (by decide), h 1 (by decide), h 2 (by decide), h 3 (by decide)⟩, fun h i hi => ?_⟩
  interval_cases i
  exacts [h.1, h.2.1, h.2.2.1, h.2.2.2]
theorem all21 {a b : XFlt f} : AllBad (⟨#v[a, b]⟩ : Mat _ 2 1) ↔ a.Bad ∧ b.Bad := by
  refine ⟨fun h => ⟨h 0 (by decide), h 1 (by decide)⟩, fun h i hi => ?_⟩
  interval_cases i
  exacts [h.1, h.2]
theorem some22 {a b c d : XFlt f} : SomeBad (⟨#v[a, b, c, d]⟩ : Mat _ 2 2) ↔ a.Bad ∨ b.Bad ∨ c.Bad ∨ d.Bad := by
  refine ⟨?_, ?_⟩
  · rintro ⟨i, hi, h⟩
    interval_cases i
    exacts [.inl h, .inr (.inl h), .inr (.inr (.inl h)), .inr (.inr (.inr h))]
  · rintro (h | h | h | h)
    exacts [⟨0, by decide, h⟩, ⟨1, by decide, h⟩, ⟨2, by decide, h⟩, ⟨3, by decide, h⟩]
theorem some21 {a b : XFlt f} : SomeBad (⟨#v[a, b]⟩ : Mat _ 2 1) ↔ a.Bad ∨ b.Bad := by
  refine ⟨?_, ?_⟩
  · rintro ⟨i, hi, h⟩
    interval_cases i
    exacts [.inl h, .inr h]
  · rintro (h | h)
    exacts [⟨0, by decide, h⟩, ⟨1, by decide, h⟩]
theorem some11 {a : XFlt f} : SomeBad (⟨#v[a]⟩ : Mat _ 1 1) ↔ a.Bad := by
  refine ⟨?_, fun h => ⟨0, by decide, h⟩⟩
  rintro ⟨i, hi, h⟩
  interval_cases i
  exact h

/-! ### Small matrices, explicitly -/

/-- `+0` -/
abbrev z : XFlt f := zero false

theorem mulVec22 (a b c d x y : XFlt f) : (⟨#v[a, b, c, d]⟩ : Mat _ 2 2).mulVec ⟨#v[x, y]⟩ =
    .ok ⟨#v[(z.add (a.mul x)).add (b.mul y), (z.add (c.mul x)).add (d.mul y)]⟩ := rfl
theorem mul22 (a b c d x y v w : XFlt f) : (⟨#v[a, b, c, d]⟩ : Mat _ 2 2).mul ⟨#v[x, y, v, w]⟩ =
    .ok ⟨#v[(z.add (a.mul x)).add (b.mul v), (z.add (a.mul y)).add (b.mul w),
      (z.add (c.mul x)).add (d.mul v), (z.add (c.mul y)).add (d.mul w)]⟩ := rfl
theorem add22 (a b c d x y v w : XFlt f) : (⟨#v[a, b, c, d]⟩ : Mat _ 2 2).add ⟨#v[x, y, v, w]⟩ =
    .ok ⟨#v[a.add x, b.add y, c.add v, d.add w]⟩ := rfl
theorem sub22 (a b c d x y v w : XFlt f) : (⟨#v[a, b, c, d]⟩ : Mat _ 2 2).sub ⟨#v[x, y, v, w]⟩ =
    .ok ⟨#v[a.sub x, b.sub y, c.sub v, d.sub w]⟩ := rfl
theorem add21 (a b x y : XFlt f) : (⟨#v[a, b]⟩ : Mat _ 2 1).add ⟨#v[x, y]⟩ = .ok ⟨#v[a.add x, b.add y]⟩ := rfl
theorem sub21 (a b x y : XFlt f) : (⟨#v[a, b]⟩ : Mat _ 2 1).sub ⟨#v[x, y]⟩ = .ok ⟨#v[a.sub x, b.sub y]⟩ := rfl
theorem mulS21 (a b x : XFlt f) : (⟨#v[a, b]⟩ : Mat _ 2 1).mulS x = .ok ⟨#v[a.mul x, b.mul x]⟩ := rfl
theorem transposed (a b c d : XFlt f) : (⟨#v[a, b, c, d]⟩ : Mat _ 2 2).transposed22 = .ok ⟨#v[a, c, b, d]⟩ := rfl
theorem mulM21 (a b x : XFlt f) : (⟨#v[a, b]⟩ : Mat _ 2 1).mulM11 ⟨#v[x]⟩ = .ok ⟨#v[a.mul x, b.mul x]⟩ := rfl
theorem dot12 (a b x y : XFlt f) : Mat.dot (⟨#v[a, b]⟩ : Mat _ 1 2) ⟨#v[x, y]⟩ =
    .ok ((z.add (a.mul x)).add (b.mul y)) := rfl
theorem sub11 (a x : XFlt f) : (⟨#v[a]⟩ : Mat _ 1 1).sub11s x = .ok (a.sub x) := rfl
theorem add11 (a x : XFlt f) : (⟨#v[a]⟩ : Mat _ 1 1).add11s x = .ok (a.add x) := rfl
theorem rowT (a b : XFlt f) : (⟨#v[a, b]⟩ : Mat _ 1 2).transposedRow = .ok ⟨#v[a, b]⟩ := rfl
theorem vecMul12 (a b x y v w : XFlt f) : Mat.vecMul (⟨#v[a, b]⟩ : Mat _ 1 2) (⟨#v[x, y, v, w]⟩ : Mat _ 2 2) =
    .ok ⟨#v[(z.add (x.mul a)).add (v.mul b), (z.add (y.mul a)).add (w.mul b)]⟩ := rfl
theorem outer21 (a b x y : XFlt f) : Mat.outer (⟨#v[a, b]⟩ : Mat _ 2 1) ⟨#v[x, y]⟩ =
    .ok ⟨#v[a.mul x, a.mul y, b.mul x, b.mul y]⟩ := rfl
theorem eye2 : Mat.eye (XFlt f) 2 = .ok ⟨#v[CNum.one, z, z, CNum.one]⟩ := rfl
theorem inv22 (a b c d : XFlt f) : (⟨#v[a, b, c, d]⟩ : Mat _ 2 2).inverted22 =
    .ok (let e := div (CNum.one : XFlt f) ((a.mul d).sub (b.mul c));
      ⟨#v[e.mul d, e.neg.mul c, e.neg.mul b, e.mul a]⟩) := rfl
theorem invS (a : XFlt f) : ∃ x, Mat.invertedS a = .ok x := by
  unfold Mat.invertedS
  split
  · exact ⟨_, rfl⟩
  · exact ⟨_, rfl⟩

/-! ### The estimator -/

variable {m u : Dim}

theorem control_ok (B : Mat (XFlt f) 2 u.val) (v) : ∃ a b, Kalman.control u B v = .ok ⟨#v[a, b]⟩ ∧
    (SomeBad v → a.Bad ∧ b.Bad) := by
  cases u
  · obtain ⟨a, b, rfl⟩ := lit21 B
    obtain ⟨x, rfl⟩ := lit11 v
    refine ⟨_, _, mulM21 a b x, fun h => ?_⟩
    have h := some11.1 h
    exact ⟨bad_mul (.inr h), bad_mul (.inr h)⟩
  · obtain ⟨a, b, c, d, rfl⟩ := lit22 B
    obtain ⟨x, y, rfl⟩ := lit21 v
    refine ⟨_, _, mulVec22 a b c d x y, fun h => ?_⟩
    rcases some21.1 h with h | h
    · exact ⟨bad_add (.inl (bad_add (.inr (bad_mul (.inr h))))), bad_add (.inl (bad_add (.inr (bad_mul (.inr h)))))⟩
    · exact ⟨bad_add (.inr (bad_mul (.inr h))), bad_add (.inr (bad_mul (.inr h)))⟩

theorem predictState_ok (A : Mat (XFlt f) 2 2) (B : Mat (XFlt f) 2 u.val) (x v) :
    ∃ x', Kalman.predictState A B x v = .ok x' ∧ (SomeBad x ∨ SomeBad v → AllBad x') := by
  obtain ⟨p, q, hc, hb⟩ := control_ok B v
  obtain ⟨a, b, c, d, rfl⟩ := lit22 A
  obtain ⟨x, y, rfl⟩ := lit21 x
  apply Exists.intro
  apply And.intro
  · unfold Kalman.predictState
    rw [mulVec22, bind_ok, hc, bind_ok, add21]
  · intro h
    rw [all21]
    rcases h with h | h
    · rcases some21.1 h with h | h
      · exact ⟨bad_add (.inl (bad_add (.inl (bad_add (.inr (bad_mul (.inr h))))))),
          bad_add (.inl (bad_add (.inl (bad_add (.inr (bad_mul (.inr h)))))))⟩
      · exact ⟨bad_add (.inl (bad_add (.inr (bad_mul (.inr h))))), bad_add (.inl (bad_add (.inr (bad_mul (.inr h)))))⟩
    · exact ⟨bad_add (.inr (hb h).1), bad_add (.inr (hb h).2)⟩

theorem predictCov_ok (A P Q : Mat (XFlt f) 2 2) :
    ∃ P', Kalman.predictCov A P Q = .ok P' ∧ (SomeBad P → AllBad P') := by
  obtain ⟨a, b, c, d, rfl⟩ := lit22 A
  obtain ⟨x, y, v, w, rfl⟩ := lit22 P
  obtain ⟨q, r, s, t, rfl⟩ := lit22 Q
  apply Exists.intro
  apply And.intro
  · unfold Kalman.predictCov
    rw [mul22, bind_ok, transposed, bind_ok, mul22, bind_ok, add22]
  · intro h
    have l {a b : XFlt f} (h : a.Bad) := bad_add (f := f) (a := a) (b := b) (.inl h)
    have r {a b : XFlt f} (h : b.Bad) := bad_add (f := f) (a := a) (b := b) (.inr h)
    have ml {a b : XFlt f} (h : a.Bad) := bad_mul (f := f) (a := a) (b := b) (.inl h)
    have mr {a b : XFlt f} (h : b.Bad) := bad_mul (f := f) (a := a) (b := b) (.inr h)
    rw [all22]
    rcases some22.1 h with h | h | h | h
    · exact ⟨l (l (r (ml (l (r (mr h)))))), l (l (r (ml (l (r (mr h)))))), l (l (r (ml (l (r (mr h)))))),
        l (l (r (ml (l (r (mr h))))))⟩
    · exact ⟨l (r (ml (l (r (mr h))))), l (r (ml (l (r (mr h))))), l (r (ml (l (r (mr h))))), l (r (ml (l (r (mr h)))))⟩
    · exact ⟨l (l (r (ml (r (mr h))))), l (l (r (ml (r (mr h))))), l (l (r (ml (r (mr h))))), l (l (r (ml (r (mr h)))))⟩
    · exact ⟨l (r (ml (r (mr h)))), l (r (ml (r (mr h)))), l (r (ml (r (mr h)))), l (r (ml (r (mr h))))⟩

theorem gain_ok (P : Mat (XFlt f) 2 2) (H : Mat (XFlt f) m.val 2) (V) :
    ∃ K, Kalman.gain m P H V = .ok K ∧ (AllBad P → AllBad K) := by
  obtain ⟨x, y, v, w, rfl⟩ := lit22 P
  cases m
  · obtain ⟨a, b, rfl⟩ := lit12 H
    obtain ⟨r, rfl⟩ := lit11 V
    obtain ⟨s, hs⟩ := invS (r.add ((z.add (((z.add (x.mul a)).add (v.mul b)).mul a)).add
      (((z.add (y.mul a)).add (w.mul b)).mul b)))
    apply Exists.intro
    apply And.intro
    · unfold Kalman.gain
      simp only
      rw [rowT, bind_ok, mulVec22, bind_ok, vecMul12, bind_ok, bind_ok, dot12, bind_ok, add11, bind_ok, hs, bind_ok, mulS21]
    · intro h
      obtain ⟨h1, h2, h3, h4⟩ := all22.1 h
      exact all21.2 ⟨bad_mul (.inl (bad_add (.inr (bad_mul (.inl h2))))), bad_mul (.inl (bad_add (.inr (bad_mul (.inl h4)))))⟩
  · obtain ⟨a, b, c, d, rfl⟩ := lit22 H
    obtain ⟨q, r, s, t, rfl⟩ := lit22 V
    apply Exists.intro
    apply And.intro
    · unfold Kalman.gain
      simp only
      rw [transposed, bind_ok, mul22, bind_ok, mul22, bind_ok, bind_ok, mul22, bind_ok, add22, bind_ok, inv22, bind_ok, mul22]
    · intro h
      obtain ⟨h1, h2, h3, h4⟩ := all22.1 h
      have k1 {a c : XFlt f} : (a.add (y.mul c)).Bad := bad_add (.inr (bad_mul (.inl h2)))
      have k2 {a c : XFlt f} : (a.add (w.mul c)).Bad := bad_add (.inr (bad_mul (.inl h4)))
      exact all22.2 ⟨bad_add (.inr (bad_mul (.inl k1))), bad_add (.inr (bad_mul (.inl k1))),
        bad_add (.inr (bad_mul (.inl k2))), bad_add (.inr (bad_mul (.inl k2)))⟩

/-- The gain for two measurements, by the covariance of the innovation. -/
theorem gain_two (P H V : Mat (XFlt f) 2 2) : ∃ S W, innovationCov P H V = .ok S ∧
    (do P.mul (← H.transposed22)) = .ok W ∧ Kalman.gain .two P H V = (do W.mul (← S.inverted22)) := by
  obtain ⟨x, y, v, w, rfl⟩ := lit22 P
  obtain ⟨a, b, c, d, rfl⟩ := lit22 H
  obtain ⟨q, r, s, t, rfl⟩ := lit22 V
  apply Exists.intro
  apply Exists.intro
  apply And.intro
  · unfold innovationCov
    rw [mul22, bind_ok, transposed, bind_ok, mul22, bind_ok, add22]
  apply And.intro
  · rw [transposed, bind_ok, mul22]
  · unfold Kalman.gain
    simp only
    rw [transposed, bind_ok, mul22, bind_ok, mul22, bind_ok, bind_ok, mul22, bind_ok, add22, bind_ok, inv22, bind_ok]

theorem correctState_ok (x : ColVec (XFlt f) 2) (K : Mat (XFlt f) 2 m.val) (H zm) :
    ∃ x', Kalman.correctState m x K H zm = .ok x' ∧ (AllBad x ∨ AllBad K ∨ SomeBad zm → AllBad x') := by
  obtain ⟨x, y, rfl⟩ := lit21 x
  cases m
  · obtain ⟨a, b, rfl⟩ := lit12 H
    obtain ⟨k, l, rfl⟩ := lit21 K
    obtain ⟨r, rfl⟩ := lit11 zm
    apply Exists.intro
    apply And.intro
    · unfold Kalman.correctState
      simp only
      rw [dot12, bind_ok, sub11, bind_ok, mulS21, bind_ok, add21]
    · intro h
      rw [all21]
      rcases h with h | h | h
      · have h := all21.1 h
        exact ⟨bad_add (.inl h.1), bad_add (.inl h.2)⟩
      · have h := all21.1 h
        exact ⟨bad_add (.inr (bad_mul (.inl h.1))), bad_add (.inr (bad_mul (.inl h.2)))⟩
      · have h := some11.1 h
        exact ⟨bad_add (.inr (bad_mul (.inr (bad_sub (.inl h))))), bad_add (.inr (bad_mul (.inr (bad_sub (.inl h)))))⟩
  · obtain ⟨a, b, c, d, rfl⟩ := lit22 H
    obtain ⟨k, l, p, q, rfl⟩ := lit22 K
    obtain ⟨r, s, rfl⟩ := lit21 zm
    apply Exists.intro
    apply And.intro
    · unfold Kalman.correctState
      simp only
      rw [mulVec22, bind_ok, sub21, bind_ok, mulVec22, bind_ok, add21]
    · intro h
      rw [all21]
      rcases h with h | h | h
      · have h := all21.1 h
        exact ⟨bad_add (.inl h.1), bad_add (.inl h.2)⟩
      · have h := all22.1 h
        exact ⟨bad_add (.inr (bad_add (.inr (bad_mul (.inl h.2.1))))),
          bad_add (.inr (bad_add (.inr (bad_mul (.inl h.2.2.2)))))⟩
      · rcases some21.1 h with h | h
        · exact ⟨bad_add (.inr (bad_add (.inl (bad_add (.inr (bad_mul (.inr (bad_sub (.inl h))))))))),
            bad_add (.inr (bad_add (.inl (bad_add (.inr (bad_mul (.inr (bad_sub (.inl h)))))))))⟩
        · exact ⟨bad_add (.inr (bad_add (.inr (bad_mul (.inr (bad_sub (.inl h))))))),
            bad_add (.inr (bad_add (.inr (bad_mul (.inr (bad_sub (.inl h)))))))⟩

theorem correctCov_ok (K : Mat (XFlt f) 2 m.val) (H P) :
    ∃ P', Kalman.correctCov m K H P = .ok P' ∧ (AllBad P → AllBad P') := by
  obtain ⟨x, y, v, w, rfl⟩ := lit22 P
  obtain ⟨k, l, p, q, hg⟩ : ∃ k l p q, Kalman.gainH m K H = .ok ⟨#v[k, l, p, q]⟩ := by
    cases m
    · obtain ⟨a, b, rfl⟩ := lit12 H
      obtain ⟨k, l, rfl⟩ := lit21 K
      exact ⟨_, _, _, _, outer21 k l a b⟩
    · obtain ⟨a, b, c, d, rfl⟩ := lit22 H
      obtain ⟨k, l, p, q, rfl⟩ := lit22 K
      exact ⟨_, _, _, _, mul22 k l p q a b c d⟩
  apply Exists.intro
  apply And.intro
  · unfold Kalman.correctCov
    rw [eye2, bind_ok, hg, bind_ok, sub22, bind_ok, mul22]
  · intro h
    obtain ⟨h1, h2, h3, h4⟩ := all22.1 h
    exact all22.2 ⟨bad_add (.inr (bad_mul (.inr h3))), bad_add (.inr (bad_mul (.inr h4))),
      bad_add (.inr (bad_mul (.inr h3))), bad_add (.inr (bad_mul (.inr h4)))⟩

theorem update_eq {k : Kalman (XFlt f) m u} {v zm x1 P1 K x2 P2} (hx1 : Kalman.predictState k.A k.B k.xhat v = .ok x1)
    (hP1 : Kalman.predictCov k.A k.P k.Q = .ok P1) (hK : Kalman.gain m P1 k.H k.R = .ok K)
    (hx2 : Kalman.correctState m x1 K k.H zm = .ok x2) (hP2 : Kalman.correctCov m K k.H P1 = .ok P2) :
    k.update v zm = .ok { k with t := k.t.add k.dt, xhat := x2, P := P2, K := some K } := by
  unfold Kalman.update
  rw [show CNum.add k.t k.dt = .ok (k.t.add k.dt) from rfl, bind_ok, hx1, bind_ok, hP1, bind_ok, hK, bind_ok, hx2,
    bind_ok, hP2, bind_ok]

theorem update_ok (k : Kalman (XFlt f) m u) (v zm) : ∃ k', k.update v zm = .ok k' ∧
    (SomeBad k.xhat ∨ SomeBad v ∨ SomeBad zm ∨ SomeBad k.P → AllBad k'.xhat) ∧
    (SomeBad k.P → AllBad k'.P ∧ ∃ K, k'.K = some K ∧ AllBad K) := by
  obtain ⟨x1, hx1, bx1⟩ := predictState_ok k.A k.B k.xhat v
  obtain ⟨P1, hP1, bP1⟩ := predictCov_ok k.A k.P k.Q
  obtain ⟨K, hK, bK⟩ := gain_ok P1 k.H k.R
  obtain ⟨x2, hx2, bx2⟩ := correctState_ok x1 K k.H zm
  obtain ⟨P2, hP2, bP2⟩ := correctCov_ok K k.H P1
  refine ⟨_, update_eq hx1 hP1 hK hx2 hP2, ?_, ?_⟩
  · rintro (h | h | h | h)
    · exact bx2 (.inl (bx1 (.inl h)))
    · exact bx2 (.inl (bx1 (.inr h)))
    · exact bx2 (.inr (.inr h))
    · exact bx2 (.inr (.inl (bK (bP1 h))))
  · exact fun h => ⟨bP2 (bP1 h), K, rfl, bK (bP1 h)⟩

/-! ### Filters -/

open Biquad Sig Cascade

theorem poison {σ : Type} {step : σ → XFlt f → Res (XFlt f × σ)} (I B : σ → Prop)
    (h : ∀ s x, I s → ∃ y s', step s x = .ok (y, s') ∧ I s' ∧ (x.Bad ∨ B s → y.Bad ∧ B s')) (s : σ) (hs : I s)
    (x : ℕ → XFlt f) (n : ℕ) : (∃ s', after step s x n = .ok s' ∧ I s' ∧ (B s ∨ (∃ k < n, (x k).Bad) → B s')) ∧
      ∃ y, out step s x n = .ok y ∧ (B s ∨ (∃ k ≤ n, (x k).Bad) → y.Bad) := by
  have key : ∃ s', after step s x n = .ok s' ∧ I s' ∧ (B s ∨ (∃ k < n, (x k).Bad) → B s') := by
    induction n with
    | zero => exact ⟨s, rfl, hs, fun h => h.elim id fun ⟨k, hk, _⟩ => absurd hk (Nat.not_lt_zero k)⟩
    | succ n ih =>
      obtain ⟨s', h1, h2, h3⟩ := ih
      obtain ⟨y, s'', h4, h5, h6⟩ := h s' (x n) h2
      refine ⟨s'', by rw [after_succ, h1, bind_ok, h4, bind_ok], h5, fun hb => ?_⟩
      rcases hb with hb | ⟨k, hk, hb⟩
      · exact (h6 (.inr (h3 (.inl hb)))).2
      · rcases Nat.lt_succ_iff_lt_or_eq.1 hk with hk | rfl
        · exact (h6 (.inr (h3 (.inr ⟨k, hk, hb⟩)))).2
        · exact (h6 (.inl hb)).2
  refine ⟨key, ?_⟩
  obtain ⟨s', h1, h2, h3⟩ := key
  obtain ⟨y, s'', h4, -, h6⟩ := h s' (x n) h2
  refine ⟨y, by rw [out_def, h1, bind_ok, h4, bind_ok], fun hb => ?_⟩
  rcases hb with hb | ⟨k, hk, hb⟩
  · exact (h6 (.inr (h3 (.inl hb)))).1
  · rcases hk.lt_or_eq with hk | rfl
    · exact (h6 (.inr (h3 (.inr ⟨k, hk, hb⟩)))).1
    · exact (h6 (.inl hb)).1

theorem df2_eq (q : Biquad (XFlt f)) (x : XFlt f) : q.step_df2 x =
    .ok (let w := (x.sub (q.a.a1.mul q.w.v1)).sub (q.a.a2.mul q.w.v2);
      (((q.b.b0.mul w).add (q.b.b1.mul q.w.v1)).add (q.b.b2.mul q.w.v2), { q with w := ⟨w, q.w.v1⟩ })) := rfl

theorem df2_poison (q : Biquad (XFlt f)) (x : XFlt f) : ∃ y q', q.step_df2 x = .ok (y, q') ∧
    (x.Bad ∨ q.w.v1.Bad ∨ q.w.v2.Bad → y.Bad ∧ (q'.w.v1.Bad ∨ q'.w.v2.Bad)) := by
  refine ⟨_, _, df2_eq q x, fun h => ?_⟩
  have hw : ((x.sub (q.a.a1.mul q.w.v1)).sub (q.a.a2.mul q.w.v2)).Bad := by
    rcases h with h | h | h
    · exact bad_sub (.inl (bad_sub (.inl h)))
    · exact bad_sub (.inl (bad_sub (.inr (bad_mul (.inr h)))))
    · exact bad_sub (.inr (bad_mul (.inr h)))
  exact ⟨bad_add (.inl (bad_add (.inl (bad_mul (.inr hw))))), .inl hw⟩

theorem dft_eq (q : Biquad (XFlt f)) (x : XFlt f) : q.step_df2_transposed x =
    .ok (let y := (q.b.b0.mul x).add q.w.v1;
      (y, { q with w := ⟨((q.b.b1.mul x).sub (q.a.a1.mul y)).add q.w.v2, (q.b.b2.mul x).sub (q.a.a2.mul y)⟩ })) := rfl

theorem dft_poison (q : Biquad (XFlt f)) (x : XFlt f) : ∃ y q', q.step_df2_transposed x = .ok (y, q') ∧
    (x.Bad ∨ q.w.v1.Bad → y.Bad ∧ q'.w.v1.Bad) ∧ (q.w.v2.Bad → q'.w.v1.Bad) := by
  refine ⟨_, _, dft_eq q x, fun h => ?_, fun h => bad_add (.inr h)⟩
  have hy : ((q.b.b0.mul x).add q.w.v1).Bad := by
    rcases h with h | h
    · exact bad_add (.inl (bad_mul (.inr h)))
    · exact bad_add (.inr h)
  exact ⟨hy, bad_add (.inl (bad_sub (.inr (bad_mul (.inr hy)))))⟩

theorem onepole_poison (q : OnePole (XFlt f)) (x : XFlt f) : ∃ y q', q.step x = .ok (y, q') ∧
    (x.Bad ∨ q.v1.Bad → y.Bad ∧ q'.v1.Bad) := by
  refine ⟨(x.mul q.b0).sub (q.v1.mul q.a1), { q with v1 := (x.mul q.b0).sub (q.v1.mul q.a1) }, rfl, fun h => ?_⟩
  have hy : ((x.mul q.b0).sub (q.v1.mul q.a1)).Bad := by
    rcases h with h | h
    · exact bad_sub (.inl (bad_mul (.inl h)))
    · exact bad_sub (.inr (bad_mul (.inl h)))
  exact ⟨hy, hy⟩

theorem list_poison {σ : Type} {step : σ → XFlt f → Res (XFlt f × σ)} (B : σ → Prop)
    (h : ∀ s x, ∃ y s', step s x = .ok (y, s') ∧ (x.Bad ∨ B s → y.Bad ∧ B s')) (l : List σ) (x : XFlt f) :
    ∃ y l', stepList step l x = .ok (y, l') ∧ l'.length = l.length ∧
      (x.Bad ∨ (∃ s ∈ l, B s) → y.Bad ∧ (l ≠ [] → ∃ s ∈ l', B s)) := by
  induction l generalizing x with
  | nil => exact ⟨x, [], rfl, rfl, fun h => ⟨h.elim id fun ⟨s, hs, _⟩ => absurd hs (List.not_mem_nil), fun h => absurd rfl h⟩⟩
  | cons q l ih =>
    obtain ⟨y, q', h1, h2⟩ := h q x
    obtain ⟨w, l', h3, h4, h5⟩ := ih y
    refine ⟨w, q' :: l', by rw [stepList, h1, bind_ok]; simp only [h3, bind_ok], by rw [List.length_cons, h4, List.length_cons], fun hb => ?_⟩
    have hq : x.Bad ∨ B q → w.Bad ∧ (q :: l ≠ [] → ∃ s ∈ q' :: l', B s) := fun hb =>
      ⟨(h5 (.inl (h2 hb).1)).1, fun _ => ⟨q', List.mem_cons_self, (h2 hb).2⟩⟩
    rcases hb with hb | ⟨s, hs, hb⟩
    · exact hq (.inl hb)
    · rcases List.mem_cons.1 hs with rfl | hs
      · exact hq (.inr hb)
      · obtain ⟨h6, h7⟩ := h5 (.inr ⟨s, hs, hb⟩)
        obtain ⟨t, ht, h8⟩ := h7 (List.ne_nil_of_mem hs)
        exact ⟨h6, fun _ => ⟨t, List.mem_cons_of_mem _ ht, h8⟩⟩

/-- Outputs that are finite are those of the arithmetic without infinities. -/
theorem df2_back {q : Biquad (XFlt f)} {q' : Biquad (Flt f)} {x x'} (h : Refine.Sections Is q q') (hx : Is x x') {y p}
    (hs : q.step_df2 x = .ok (y, p)) (hy : y.isFinite = true) :
    ∃ y' p', q'.step_df2 x' = .ok (y', p') ∧ Is y y' ∧ Refine.Sections Is p p' := by
  rw [df2_eq] at hs
  cases hs
  obtain ⟨f1, f2⟩ := add_fin hy
  obtain ⟨f3, f4⟩ := add_fin f1
  obtain ⟨f5, f6⟩ := mul_fin f3
  obtain ⟨f7, f8⟩ := sub_fin f6
  obtain ⟨f9, f10⟩ := sub_fin f7
  obtain ⟨c1, e1, i1⟩ := mul_back h.a1 h.v1 f10
  obtain ⟨c2, e2, i2⟩ := sub_back hx i1 f7
  obtain ⟨c3, e3, i3⟩ := mul_back h.a2 h.v2 f8
  obtain ⟨c4, e4, i4⟩ := sub_back i2 i3 f6
  obtain ⟨c5, e5, i5⟩ := mul_back h.b0 i4 f3
  obtain ⟨c6, e6, i6⟩ := mul_back h.b1 h.v1 f4
  obtain ⟨c7, e7, i7⟩ := add_back i5 i6 f1
  obtain ⟨c8, e8, i8⟩ := mul_back h.b2 h.v2 f2
  obtain ⟨c9, e9, i9⟩ := add_back i7 i8 hy
  refine ⟨c9, { q' with w := ⟨c4, q'.w.v1⟩ }, ?_, i9, h.a1, h.a2, h.b0, h.b1, h.b2, i4, h.v1⟩
  unfold Biquad.step_df2
  rw [e1, bind_ok, e2, bind_ok, e3, bind_ok, e4, bind_ok, e5, bind_ok, e6, bind_ok, e7, bind_ok, e8, bind_ok, e9, bind_ok]

end XFlt
end Verif
