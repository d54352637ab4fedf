import Verif.Lemmas.IeeeSpecial
import Verif.Props.Kalman
import Verif.Props.Biquad
import Verif.Props.KalmanSimError

/-
Properties C127 and C128: the programs in floating point with infinities, NaN and signed zeros.
-/

namespace Verif
open XFlt Refine Sig

variable {f : Ieee.Format} {m u : Dim}

/-! ## C127 Infinities and NaN never leave the estimator or a filter -/

/-- C127: in floating point the estimator's `update` always completes, and if a measurement, the control, the
state or the covariance contains an infinity or a NaN, no component of the estimate afterwards is finite,
whatever the system. -/
theorem C127_update (k : Kalman (XFlt f) m u) (v : ColVec (XFlt f) u.val) (z : ColVec (XFlt f) m.val) :
    ∃ k', k.update v z = .ok k' ∧
      (SomeBad k.xhat ∨ SomeBad v ∨ SomeBad z ∨ SomeBad k.P → AllBad k'.system_state) ∧
      (SomeBad k.P → AllBad k'.estimation_error_covariance ∧ ∃ K, k'.kalman_gain = .ok K ∧ AllBad K) := by
  obtain ⟨k', h, h1, h2⟩ := update_ok k v z
  refine ⟨k', h, h1, fun hP => ⟨(h2 hP).1, ?_⟩⟩
  obtain ⟨K, hK, hb⟩ := (h2 hP).2
  exact ⟨K, by unfold Kalman.kalman_gain; rw [hK], hb⟩

/-- C127: after one measurement or control that is not finite, the estimate never contains a finite number again. -/
theorem C127_forever (k : Kalman (XFlt f) m u) (ds es : List (ColVec (XFlt f) u.val × ColVec (XFlt f) m.val))
    (v : ColVec (XFlt f) u.val) (z : ColVec (XFlt f) m.val) (h : SomeBad v ∨ SomeBad z) :
    ∃ k', k.run (ds ++ (v, z) :: es) = .ok k' ∧ AllBad k'.system_state := by
  have bad (es) : ∀ k : Kalman (XFlt f) m u, AllBad k.xhat → ∃ k', k.run es = .ok k' ∧ AllBad k'.xhat := by
    induction es with
    | nil => exact fun k hk => ⟨k, rfl, hk⟩
    | cons d es ih =>
      intro k hk
      obtain ⟨k', h1, h2, -⟩ := update_ok k d.1 d.2
      obtain ⟨k'', h3, h4⟩ := ih k' (h2 (.inl ⟨0, by decide, hk 0 (by decide)⟩))
      exact ⟨k'', by rw [Kalman.run, h1, bind_ok]; exact h3, h4⟩
  induction ds generalizing k with
  | nil =>
    obtain ⟨k', h1, h2, -⟩ := update_ok k v z
    obtain ⟨k'', h3, h4⟩ := bad es k' (h2 (h.elim (fun h => .inr (.inl h)) fun h => .inr (.inr (.inl h))))
    exact ⟨k'', by rw [List.nil_append, Kalman.run, h1, bind_ok]; exact h3, h4⟩
  | cons d ds ih =>
    obtain ⟨k', h1, -⟩ := update_ok k d.1 d.2
    obtain ⟨k'', h3, h4⟩ := ih k'
    exact ⟨k'', by rw [List.cons_append, Kalman.run, h1, bind_ok]; exact h3, h4⟩

/-- C127: gain and covariance are as if nothing had happened: they are those of any other run of that length. -/
theorem C127_unnoticed (k k₁ k₂ : Kalman (XFlt f) m u) (ds es : List (ColVec (XFlt f) u.val × ColVec (XFlt f) m.val))
    (hl : ds.length = es.length) (h₁ : k.run ds = .ok k₁) (h₂ : k.run es = .ok k₂) :
    k₁.kalman_gain = k₂.kalman_gain ∧ k₁.estimation_error_covariance = k₂.estimation_error_covariance :=
  have h := C13_data_independent k k k₁ k₂ ds es rfl rfl rfl rfl rfl rfl rfl rfl hl h₁ h₂
  ⟨h.1, h.2.1⟩

/-- C127: a biquad section (`step`, `step_df2`) delivers no finite number from the first input on that is not
finite, whatever its coefficients: also if it has no feedback. -/
theorem C127_biquad (q : Biquad (XFlt f)) (x : ℕ → XFlt f) (n : ℕ) :
    ∃ y, out Biquad.step q x n = .ok y ∧ ((∃ k ≤ n, (x k).Bad) → y.Bad) := by
  obtain ⟨-, y, h1, h2⟩ := poison (fun _ => True) (fun q : Biquad (XFlt f) => q.w.v1.Bad ∨ q.w.v2.Bad)
    (fun q x _ => by
      obtain ⟨y, q', h1, h2⟩ := df2_poison q x
      exact ⟨y, q', h1, trivial, h2⟩) q trivial x n
  exact ⟨y, h1, fun h => h2 (.inr h)⟩

/-- C127: nor does the transposed form. -/
theorem C127_transposed (q : Biquad (XFlt f)) (x : ℕ → XFlt f) (n : ℕ) :
    ∃ y, out Biquad.step_df2_transposed q x n = .ok y ∧ ((∃ k ≤ n, (x k).Bad) → y.Bad) := by
  obtain ⟨-, y, h1, h2⟩ := poison (fun _ => True) (fun q : Biquad (XFlt f) => q.w.v1.Bad)
    (fun q x _ => by
      obtain ⟨y, q', h1, h2, -⟩ := dft_poison q x
      exact ⟨y, q', h1, trivial, h2⟩) q trivial x n
  exact ⟨y, h1, fun h => h2 (.inr h)⟩

/-- C127: nor does a one-pole filter. -/
theorem C127_onepole (q : OnePole (XFlt f)) (x : ℕ → XFlt f) (n : ℕ) :
    ∃ y, out OnePole.step q x n = .ok y ∧ ((∃ k ≤ n, (x k).Bad) → y.Bad) := by
  obtain ⟨-, y, h1, h2⟩ := poison (fun _ => True) (fun q : OnePole (XFlt f) => q.v1.Bad)
    (fun q x _ => by
      obtain ⟨y, q', h1, h2⟩ := onepole_poison q x
      exact ⟨y, q', h1, trivial, h2⟩) q trivial x n
  exact ⟨y, h1, fun h => h2 (.inr h)⟩

/-- C127: nor does a cascade, with either form, that has at least one section. -/
theorem C127_cascade {N : ℕ} (c : Cascade (XFlt f) N) (hc : c.next ≤ N) (h0 : 0 < c.next) (x : ℕ → XFlt f) (n : ℕ) :
    (∃ y, out Cascade.step c x n = .ok y ∧ ((∃ k ≤ n, (x k).Bad) → y.Bad)) ∧
    ∃ y, out Cascade.step_df2_transposed c x n = .ok y ∧ ((∃ k ≤ n, (x k).Bad) → y.Bad) := by
  have key (g : Biquad (XFlt f) → XFlt f → Res (XFlt f × Biquad (XFlt f))) (B : Biquad (XFlt f) → Prop)
      (hg : ∀ q x, ∃ y q', g q x = .ok (y, q') ∧ (x.Bad ∨ B q → y.Bad ∧ B q')) :
      ∃ y, out (Cascade.stepWith g) c x n = .ok y ∧ ((∃ k ≤ n, (x k).Bad) → y.Bad) := by
    obtain ⟨-, y, h1, h2⟩ := poison (fun c : Cascade (XFlt f) N => c.WF ∧ 0 < c.next)
      (fun c : Cascade (XFlt f) N => ∃ q ∈ c.toList, B q) (fun c x hc => by
        obtain ⟨y, l, h1, h2, h3⟩ := list_poison B hg c.toList x
        rcases Cascade.stepWith_spec g hc.1 x with ⟨e, he, -⟩ | ⟨y', c', h4, h5, h6⟩
        · rw [h1] at he; cases he
        · rw [h1] at h6
          cases h6
          refine ⟨y, c', h4, ⟨?_, by rw [h5]; exact hc.2⟩, fun hb => ⟨(h3 hb).1, (h3 hb).2 fun h => ?_⟩⟩
          · unfold Cascade.WF; rw [h5]; exact hc.1
          · have := Cascade.length_toList hc.1
            rw [h, List.length_nil] at this
            exact absurd hc.2 (by omega)) c ⟨hc, h0⟩ x n
    exact ⟨y, h1, fun h => h2 (.inr h)⟩
  refine ⟨key _ (fun q => q.w.v1.Bad ∨ q.w.v2.Bad) fun q x => df2_poison q x, key _ (fun q => q.w.v1.Bad) fun q x => ?_⟩
  obtain ⟨y, q', h1, h2, -⟩ := dft_poison q x
  exact ⟨y, q', h1, h2⟩

/-- A moving average of three samples, in `float`; it has no feedback. -/
def exFir : Biquad (XFlt Ieee.binary32) := Biquad.ofB ⟨CNum.one, CNum.one, CNum.one⟩

/-- One infinite sample: all outputs from there on are NaN or infinite, although the average is over three samples. -/
example : out Biquad.step exFir (fun n => if n = 1 then inf false else z) 0 = .ok z ∧
    ∀ n, 1 ≤ n → ∃ y, out Biquad.step exFir (fun n => if n = 1 then inf false else z) n = .ok y ∧ y.Bad := by
  refine ⟨by decide +kernel, fun n hn => ?_⟩
  obtain ⟨y, h1, h2⟩ := C127_biquad exFir (fun n => if n = 1 then inf false else z) n
  exact ⟨y, h1, h2 ⟨1, hn, rfl⟩⟩

/-- A constant state, measured directly, in `double`. -/
def exEst : Kalman (XFlt Ieee.binary64) .one .one :=
  Kalman.init false CNum.one (Mat.mk22 CNum.one z z CNum.one) (Mat.fill 2 1 z) ⟨#v[CNum.one, z]⟩ (Mat.fill 2 2 z)
    (Mat.fill 1 1 CNum.one) (Mat.mk22 CNum.one z z CNum.one) (Mat.fill 2 1 z)

/-- A good measurement, a NaN and a good measurement: the state measured and the other one are lost. -/
example : ∃ k', exEst.run ([(Mat.fill 1 1 z, Mat.fill 1 1 CNum.one)] ++ (Mat.fill 1 1 z, Mat.fill 1 1 nan) ::
    [(Mat.fill 1 1 z, Mat.fill 1 1 CNum.one)]) = .ok k' ∧ AllBad k'.system_state :=
  C127_forever exEst _ _ _ _ (.inr ⟨0, by decide, rfl⟩)

/-! ## C128 Floating point with and without infinities -/

/-- C128: sums of the arithmetic of the model are those of IEEE 754. -/
theorem C128_add (a b : XFlt f) :
    (a.isFinite = true → b.isFinite = true →
      (|Ieee.rnd f (a.val + b.val)| ≤ f.max → (a.add b).isFinite = true ∧ (a.add b).val = Ieee.rnd f (a.val + b.val)) ∧
      (f.max < |Ieee.rnd f (a.val + b.val)| → a.add b = inf (decide (a.val + b.val < 0))) ∧
      (a.val + b.val = 0 → a.add b = zero (a.sign && b.sign))) ∧
    (∀ s, b.isFinite = true → (inf s).add b = inf s) ∧ (∀ s, (inf s : XFlt f).add (inf s) = inf s) ∧
    (∀ s, (inf s : XFlt f).add (inf !s) = nan) ∧ nan.add b = nan ∧ a.add b = b.add a := by
  refine ⟨fun ha hb => ?_, fun s hb => ?_, fun s => by cases s <;> rfl, fun s => by cases s <;> rfl, rfl, ?_⟩
  · rw [add_eq ha hb]
    exact ⟨round_small, round_large, round_zero⟩
  · cases b <;> first | rfl | exact absurd hb Bool.false_ne_true
  · cases a <;> cases b <;>
      first | rfl | (rw [add_eq rfl rfl, add_eq rfl rfl, Bool.and_comm, add_comm]) |
        (rename_i s t; cases s <;> cases t <;> rfl)

/-- C128: a difference is the sum with the operand negated. -/
theorem C128_sub (a b : XFlt f) : a.sub b = a.add b.neg ∧ (b.isFinite = true → b.neg.isFinite = true ∧ b.neg.val = -b.val) ∧
    (b ≠ nan → b.neg.sign = !b.sign) := by
  refine ⟨rfl, fun h => ⟨(isFinite_neg b).trans h, val_neg b⟩, fun h => ?_⟩
  cases b with
  | nan => exact absurd rfl h
  | inf s => rfl
  | zero s => rfl
  | num x h0 =>
    change decide (-x.val < 0) = !decide (x.val < 0)
    rcases lt_or_gt_of_ne h0 with h | h
    · rw [decide_eq_true h, decide_eq_false (by linarith : ¬ -x.val < 0)]; rfl
    · rw [decide_eq_false h.not_gt, decide_eq_true (by linarith : -x.val < 0)]; rfl

/-- C128: products of the arithmetic of the model are those of IEEE 754. -/
theorem C128_mul (a b : XFlt f) :
    (a.isFinite = true → b.isFinite = true →
      (|Ieee.rnd f (a.val * b.val)| ≤ f.max → (a.mul b).isFinite = true ∧ (a.mul b).val = Ieee.rnd f (a.val * b.val)) ∧
      (f.max < |Ieee.rnd f (a.val * b.val)| → a.mul b = inf (decide (a.val * b.val < 0))) ∧
      (a.val * b.val = 0 → a.mul b = zero (a.sign ^^ b.sign))) ∧
    (∀ s, b ≠ nan → b.nonZero = true → (inf s).mul b = inf (s ^^ b.sign)) ∧
    (∀ s t, (inf s : XFlt f).mul (zero t) = nan) ∧ nan.mul b = nan ∧ a.mul b = b.mul a := by
  refine ⟨fun ha hb => ?_, fun s hb h0 => ?_, fun s t => rfl, rfl, ?_⟩
  · rw [mul_eq ha hb]
    exact ⟨round_small, round_large, round_zero⟩
  · cases b <;> first | rfl | exact absurd rfl hb | exact absurd h0 Bool.false_ne_true
  · cases a <;> cases b <;>
      first | rfl | (rw [mul_eq rfl rfl, mul_eq rfl rfl, Bool.xor_comm, mul_comm]) |
        exact congrArg inf (Bool.xor_comm _ _)

/-- C128: quotients of the arithmetic of the model are those of IEEE 754. -/
theorem C128_div (a b : XFlt f) :
    (a.isFinite = true → b.isFinite = true → b.val ≠ 0 →
      (|Ieee.rnd f (a.val / b.val)| ≤ f.max → (a.div b).isFinite = true ∧ (a.div b).val = Ieee.rnd f (a.val / b.val)) ∧
      (f.max < |Ieee.rnd f (a.val / b.val)| → a.div b = inf (decide (a.val / b.val < 0))) ∧
      (a.val / b.val = 0 → a.div b = zero (a.sign ^^ b.sign))) ∧
    (∀ t, a ≠ nan → a.nonZero = true → a.div (zero t) = inf (a.sign ^^ t)) ∧
    (∀ s t, (zero s : XFlt f).div (zero t) = nan) ∧ (∀ s t, (inf s : XFlt f).div (inf t) = nan) ∧
    (∀ s, b.isFinite = true → (inf s).div b = inf (s ^^ b.sign)) ∧
    (∀ t, a.isFinite = true → a.div (inf t) = zero (a.sign ^^ t)) ∧ nan.div b = nan ∧ a.div nan = nan := by
  refine ⟨fun ha hb h0 => ?_, fun t ha h0 => ?_, fun s t => rfl, fun s t => rfl, fun s hb => ?_, fun t ha => ?_, rfl, ?_⟩
  · rw [div_eq ha hb h0]
    exact ⟨round_small, round_large, round_zero⟩
  · cases a <;> first | rfl | exact absurd rfl ha | exact absurd h0 Bool.false_ne_true
  · cases b <;> first | rfl | exact absurd hb Bool.false_ne_true
  · cases a <;> first | rfl | exact absurd ha Bool.false_ne_true
  · cases a <;> rfl

/-- C128: the sign of a result is that of the exact result, also when it rounds to zero or overflows; that of products
and quotients is the product of the signs of the operands, also for zeros and infinities. -/
theorem C128_sign (a b : XFlt f) :
    (a.isFinite = true → b.isFinite = true → a.val + b.val ≠ 0 → (a.add b).sign = decide (a.val + b.val < 0)) ∧
    (a.mul b ≠ nan → (a.mul b).sign = (a.sign ^^ b.sign)) ∧ (a.div b ≠ nan → (a.div b).sign = (a.sign ^^ b.sign)) := by
  refine ⟨fun ha hb h0 => ?_, fun h => ?_, fun h => ?_⟩
  · rw [add_eq ha hb]
    exact round_sign h0
  · cases a <;> cases b <;> first | rfl | exact absurd rfl h | exact round_zero_sign (zero_mul _) |
      exact round_zero_sign (mul_zero _) |
      (rename_i x hx y hy; exact (round_sign (mul_ne_zero hx hy)).trans (sign_mul hx hy))
  · cases a <;> cases b <;> first | rfl | exact absurd rfl h | exact round_zero_sign (zero_div _) |
      (rename_i x hx y hy; exact (round_sign (div_ne_zero hx hy)).trans (sign_div hx hy))

/-- C128: a comparison with zero is true for everything but the two zeros, in particular for NaN; the reciprocal of the
scalar inversion is thus NaN for NaN, zero for infinities, and only the zeros are mapped to zero without dividing. -/
theorem C128_inverted (a : XFlt f) :
    (CNum.isNonZero a = true ↔ a.isFinite = false ∨ a.val ≠ 0) ∧
    Mat.invertedS (nan : XFlt f) = .ok nan ∧ (∀ s, Mat.invertedS (inf s : XFlt f) = .ok (zero s)) ∧
    (∀ s, Mat.invertedS (zero s : XFlt f) = .ok (zero false)) ∧
    (a.isFinite = true → a.val ≠ 0 → |Ieee.rnd f (1 / a.val)| ≤ f.max →
      ∃ w, Mat.invertedS a = .ok w ∧ w.isFinite = true ∧ w.val = Ieee.rnd f (1 / a.val)) := by
  refine ⟨?_, rfl, fun s => ?_, fun s => rfl, fun ha h0 hm => ?_⟩
  · cases a with
    | nan => exact ⟨fun _ => .inl rfl, fun _ => rfl⟩
    | inf s => exact ⟨fun _ => .inl rfl, fun _ => rfl⟩
    | zero s => exact ⟨fun h => absurd h Bool.false_ne_true, fun h => h.elim (fun h => absurd h.symm Bool.false_ne_true)
        fun h => absurd rfl h⟩
    | num x h => exact ⟨fun _ => .inr h, fun _ => rfl⟩
  · cases s <;> rfl
  · cases a with
    | nan => exact absurd rfl h0
    | inf s => exact absurd rfl h0
    | zero s => exact absurd rfl h0
    | num x h =>
      refine ⟨_, rfl, ?_⟩
      change ((num Flt.one one_ne_zero : XFlt f).div (num x h)).isFinite = true ∧ _
      rw [div_eq (a := num Flt.one one_ne_zero) (b := num x h) rfl rfl h]
      exact round_small hm

/-- Half the smallest positive number, negated, rounds to the zero with the sign bit set. -/
example : (round Ieee.binary64 false (-1 / 2 ^ 1075)) = zero true := by decide +kernel

/-- C128: whenever a run of the estimator succeeds in the arithmetic without infinities, it delivers the same
numbers with them. -/
theorem C128_kalman (k : Kalman (XFlt f) m u) (k' : Kalman (Flt f) m u) (ds ds') (hk : Ests Is k k')
    (hd : List.Forall₂ (fun d d' => Mats Is d.1 d'.1 ∧ Mats Is d.2 d'.2) ds ds') :
    Follows (Ests Is) (k.run ds) (k'.run ds') := Refine.run refines hd hk

/-- C128: so does a biquad section in either form, a cascade in either form, and a one-pole filter. -/
theorem C128_filters {N : ℕ} :
    (∀ {q : Biquad (XFlt f)} {q' : Biquad (Flt f)} {x x'}, Sections Is q q' → Is x x' →
      Follows (fun s s' => Is s.1 s'.1 ∧ Sections Is s.2 s'.2) (q.step x) (q'.step x') ∧
      Follows (fun s s' => Is s.1 s'.1 ∧ Sections Is s.2 s'.2) (q.step_df2_transposed x) (q'.step_df2_transposed x')) ∧
    (∀ {c : Cascade (XFlt f) N} {c' : Cascade (Flt f) N} {x x'}, Cascades Is c c' → Is x x' →
      Follows (fun s s' => Is s.1 s'.1 ∧ Cascades Is s.2 s'.2) (c.step x) (c'.step x') ∧
      Follows (fun s s' => Is s.1 s'.1 ∧ Cascades Is s.2 s'.2) (c.step_df2_transposed x) (c'.step_df2_transposed x')) ∧
    (∀ {q : OnePole (XFlt f)} {q' : OnePole (Flt f)} {x x'}, OnePoles Is q q' → Is x x' →
      Follows (fun s s' => Is s.1 s'.1 ∧ OnePoles Is s.2 s'.2) (q.step x) (q'.step x')) :=
  ⟨fun hq hx => ⟨Refine.step_df2 refines hq hx, Refine.step_df2_transposed refines hq hx⟩,
    fun hc hx => ⟨Refine.stepWith (fun hq hx => Refine.step_df2 refines hq hx) hc hx,
      Refine.stepWith (fun hq hx => Refine.step_df2_transposed refines hq hx) hc hx⟩,
    fun hq hx => Refine.step_onepole refines hq hx⟩

/-- C128: a biquad section runs without error in the arithmetic without infinities up to sample `n` exactly if all
outputs up to `n` with infinities are finite; and then they are the same. -/
theorem C128_exact (q : Biquad (XFlt f)) (q' : Biquad (Flt f)) (x : ℕ → XFlt f) (x' : ℕ → Flt f) (hq : Sections Is q q')
    (hx : ∀ n, Is (x n) (x' n)) (n : ℕ) :
    ((∃ y', out Biquad.step q' x' n = .ok y') ↔ ∀ k ≤ n, ∃ y, out Biquad.step q x k = .ok y ∧ y.isFinite = true) ∧
    ∀ y', out Biquad.step q' x' n = .ok y' → ∃ y, out Biquad.step q x n = .ok y ∧ Is y y' := by
  have fwd (n : ℕ) : Follows (Sections Is) (after Biquad.step q x n) (after Biquad.step q' x' n) := by
    induction n with
    | zero => exact .ok hq
    | succ n ih =>
      rw [after_succ, after_succ]
      exact .bind ih fun s s' hs => .bind (Refine.step_df2 refines hs (hx n)) fun r r' hr => .ok hr.2
  have fwd' (n : ℕ) : Follows Is (out Biquad.step q x n) (out Biquad.step q' x' n) := by
    rw [out_def, out_def]
    exact .bind (fwd n) fun s s' hs => .bind (Refine.step_df2 refines hs (hx n)) fun r r' hr => .ok hr.1
  refine ⟨⟨?_, ?_⟩, fun y' h => fwd' n y' h⟩
  · rintro ⟨y', h⟩ k hk
    obtain ⟨y, h1⟩ : ∃ y, out Biquad.step q' x' k = .ok y := by
      rcases hk.lt_or_eq with hk | rfl
      · rw [out_def] at h
        obtain ⟨s, hs, -⟩ := bind_eq_ok.1 h
        have : ∀ j, k + 1 ≤ j → ∀ s, after Biquad.step q' x' j = .ok s → ∃ s, after Biquad.step q' x' (k + 1) = .ok s := by
          intro j hj
          induction j, hj using Nat.le_induction with
          | base => exact fun s hs => ⟨s, hs⟩
          | succ j hj ih =>
            intro s hs
            rw [after_succ] at hs
            obtain ⟨s', hs', -⟩ := bind_eq_ok.1 hs
            exact ih s' hs'
        obtain ⟨s', hs'⟩ := this n hk s hs
        rw [after_succ] at hs'
        obtain ⟨t, ht, hs'⟩ := bind_eq_ok.1 hs'
        obtain ⟨r, hr, -⟩ := bind_eq_ok.1 hs'
        exact ⟨r.1, by rw [out_def, ht, bind_ok, hr, bind_ok]⟩
      · exact ⟨y', h⟩
    obtain ⟨w, h2, h3⟩ := fwd' k y h1
    exact ⟨w, h2, h3.1⟩
  · intro h
    have key : ∀ j ≤ n, ∃ s s', after Biquad.step q x j = .ok s ∧ after Biquad.step q' x' j = .ok s' ∧ Sections Is s s' := by
      intro j hj
      induction j with
      | zero => exact ⟨q, q', rfl, rfl, hq⟩
      | succ j ih =>
        obtain ⟨s, s', h1, h2, h3⟩ := ih (by omega)
        obtain ⟨y, hy, hf⟩ := h j (by omega)
        rw [out_def, h1, bind_ok] at hy
        obtain ⟨r, hr, hy⟩ := bind_eq_ok.1 hy
        cases hy
        obtain ⟨y', p', h4, -, h5⟩ := df2_back h3 (hx j) hr hf
        exact ⟨r.2, p', by rw [after_succ, h1, bind_ok, hr, bind_ok],
          by rw [after_succ, h2, bind_ok, show s'.step (x' j) = _ from h4, bind_ok], h5⟩
    obtain ⟨s, s', h1, h2, h3⟩ := key n le_rfl
    obtain ⟨y, hy, hf⟩ := h n le_rfl
    rw [out_def, h1, bind_ok] at hy
    obtain ⟨r, hr, hy⟩ := bind_eq_ok.1 hy
    cases hy
    obtain ⟨y', p', h4, -, -⟩ := df2_back h3 (hx n) hr hf
    exact ⟨y', by rw [out_def, h2, bind_ok, show s'.step (x' n) = _ from h4, bind_ok]⟩

/-- C128: if the determinant as computed is zero, no element of the inverse is finite. -/
theorem C128_singular (S : Mat (XFlt f) 2 2) (s : Bool) (h : det S = zero s) : ∃ V, S.inverted22 = .ok V ∧ AllBad V := by
  obtain ⟨a, b, c, d, rfl⟩ := lit22 S
  have h : (a.mul d).sub (b.mul c) = zero s := h
  refine ⟨_, inv22 a b c d, ?_⟩
  rw [h]
  have e : (div (CNum.one : XFlt f) (zero s)).Bad := by
    cases s <;> rfl
  have e' : (div (CNum.one : XFlt f) (zero s)).neg.Bad := (isFinite_neg _).trans e
  exact all22.2 ⟨bad_mul (.inl e), bad_mul (.inl e'), bad_mul (.inl e'), bad_mul (.inl e)⟩

/-- C128: with two measurements of which the covariance is singular as computed, `update` completes and no element
of the gain or the estimate is finite afterwards. -/
theorem C128_singular_update (k : Kalman (XFlt f) .two u) (v : ColVec (XFlt f) u.val) (z : ColVec (XFlt f) 2)
    (P S : Mat (XFlt f) 2 2) (hP : Kalman.predictCov k.A k.P k.Q = .ok P) (hS : innovationCov P k.H k.R = .ok S) (s : Bool)
    (hd : det S = zero s) :
    ∃ k' K, k.update v z = .ok k' ∧ k'.kalman_gain = .ok K ∧ AllBad K ∧ AllBad k'.system_state := by
  obtain ⟨V, hV, bV⟩ := C128_singular S s hd
  obtain ⟨S', W, h1, -, h2⟩ := gain_two P k.H k.R
  rw [hS] at h1
  cases h1
  rw [hV, bind_ok] at h2
  obtain ⟨a, b, c, d, rfl⟩ := lit22 V
  obtain ⟨x, y, v', w, rfl⟩ := lit22 W
  obtain ⟨b1, b2, b3, b4⟩ := all22.1 bV
  rw [mul22] at h2
  have bK : AllBad (⟨#v[(XFlt.z.add (x.mul a)).add (y.mul c), (XFlt.z.add (x.mul b)).add (y.mul d),
      (XFlt.z.add (v'.mul a)).add (w.mul c), (XFlt.z.add (v'.mul b)).add (w.mul d)]⟩ : Mat (XFlt f) 2 2) :=
    all22.2 ⟨bad_add (.inr (bad_mul (.inr b3))), bad_add (.inr (bad_mul (.inr b4))), bad_add (.inr (bad_mul (.inr b3))),
      bad_add (.inr (bad_mul (.inr b4)))⟩
  obtain ⟨x1, hx1, -⟩ := predictState_ok k.A k.B k.xhat v
  obtain ⟨x2, hx2, bx2⟩ := correctState_ok x1 _ k.H z
  obtain ⟨P2, hP2, -⟩ := correctCov_ok (m := .two) _ k.H P
  exact ⟨_, _, update_eq hx1 hP h2 hx2 hP2, rfl, bK, bx2 (.inr (.inl bK))⟩

/-- C128: if the determinant as computed overflows and the elements are finite, all elements of the inverse are zero. -/
theorem C128_overflow (S : Mat (XFlt f) 2 2) (s : Bool) (hS : AllFinite S) (h : det S = inf s) :
    ∃ V, S.inverted22 = .ok V ∧ AllZero V := by
  obtain ⟨a, b, c, d, rfl⟩ := lit22 S
  have h : (a.mul d).sub (b.mul c) = inf s := h
  refine ⟨_, inv22 a b c d, ?_⟩
  rw [h]
  have e (t : Bool) (x : XFlt f) (hx : x.isFinite = true) : ∃ s, (zero t).mul x = zero s := by
    rw [mul_eq rfl hx]
    exact ⟨_, round_zero (zero_mul _)⟩
  have e1 : div (CNum.one : XFlt f) (inf s) = zero s := by
    cases s <;> rfl
  rw [e1]
  intro i hi
  interval_cases i
  exacts [e _ _ (hS 3 (by decide)), e _ _ (hS 2 (by decide)), e _ _ (hS 1 (by decide)), e _ _ (hS 0 (by decide))]

/-- C128: with two measurements, finite covariances and a determinant that overflows, the gain is zero: the
measurement is ignored. -/
theorem C128_overflow_update (k : Kalman (XFlt f) .two u) (v : ColVec (XFlt f) u.val) (z : ColVec (XFlt f) 2)
    (P S W : Mat (XFlt f) 2 2) (hP : Kalman.predictCov k.A k.P k.Q = .ok P) (hS : innovationCov P k.H k.R = .ok S)
    (hW : (do P.mul (← k.H.transposed22)) = .ok W) (fS : AllFinite S) (fW : AllFinite W) (s : Bool) (hd : det S = inf s) :
    ∃ k' K, k.update v z = .ok k' ∧ k'.kalman_gain = .ok K ∧ AllZero K := by
  obtain ⟨V, hV, bV⟩ := C128_overflow S s fS hd
  obtain ⟨S', W', h1, h3, h2⟩ := gain_two P k.H k.R
  rw [hS] at h1
  cases h1
  rw [hW] at h3
  cases h3
  rw [hV, bind_ok] at h2
  obtain ⟨x1, hx1, -⟩ := predictState_ok k.A k.B k.xhat v
  obtain ⟨a, b, c, d, rfl⟩ := lit22 V
  obtain ⟨x, y, v', w, rfl⟩ := lit22 W
  rw [mul22] at h2
  obtain ⟨x2, hx2, -⟩ := correctState_ok (m := .two) x1 _ k.H z
  obtain ⟨P2, hP2, -⟩ := correctCov_ok (m := .two) _ k.H P
  refine ⟨_, _, update_eq hx1 hP h2 hx2 hP2, rfl, ?_⟩
  obtain ⟨sa, ha⟩ : ∃ s, a = zero s := bV 0 (by decide)
  obtain ⟨sb, hb⟩ : ∃ s, b = zero s := bV 1 (by decide)
  obtain ⟨sc, hc⟩ : ∃ s, c = zero s := bV 2 (by decide)
  obtain ⟨se, he⟩ : ∃ s, d = zero s := bV 3 (by decide)
  subst ha hb hc he
  have e (t : Bool) (x : XFlt f) (hx : x.isFinite = true) : ∃ s, x.mul (zero t) = zero s := by
    rw [mul_eq hx rfl]
    exact ⟨_, round_zero (mul_zero _)⟩
  have key (s t : Bool) (x y : XFlt f) (hx : x.isFinite = true) (hy : y.isFinite = true) :
      ∃ r, (XFlt.z.add (x.mul (zero s))).add (y.mul (zero t)) = zero r := by
    obtain ⟨s1, h1⟩ := e s x hx
    obtain ⟨t1, h2⟩ := e t y hy
    rw [h1, h2, show XFlt.z.add (zero s1) = zero (false && s1) from (add_eq rfl rfl).trans (round_zero (add_zero 0))]
    exact ⟨_, (add_eq rfl rfl).trans (round_zero (add_zero 0))⟩
  have f0 : x.isFinite = true := fW 0 (by decide)
  have f1 : y.isFinite = true := fW 1 (by decide)
  have f2 : v'.isFinite = true := fW 2 (by decide)
  have f3 : w.isFinite = true := fW 3 (by decide)
  intro i hi
  interval_cases i
  exacts [key _ _ _ _ f0 f1, key _ _ _ _ f0 f1, key _ _ _ _ f2 f3, key _ _ _ _ f2 f3]

/-- The number `1e20` in `float`. -/
def big : XFlt Ieee.binary32 := round Ieee.binary32 false (10 ^ 20)

/-- An estimator of two constants, both measured, with the variances `r` of the measurements and `p` of the start. -/
def exTwo (r p : XFlt Ieee.binary32) : Kalman (XFlt Ieee.binary32) .two .one :=
  Kalman.init false CNum.one (Mat.mk22 CNum.one XFlt.z XFlt.z CNum.one) (Mat.fill 2 1 XFlt.z)
    (Mat.mk22 CNum.one XFlt.z XFlt.z CNum.one) (Mat.fill 2 2 XFlt.z)
    (Mat.mk22 r XFlt.z XFlt.z r) (Mat.mk22 p XFlt.z XFlt.z p) (Mat.fill 2 1 XFlt.z)

/-- Starting with a variance of `1e20`, the determinant `1e40` overflows and the gain is zero, in `float`. -/
example (v : ColVec (XFlt Ieee.binary32) 1) (z : ColVec (XFlt Ieee.binary32) 2) :
    ∃ k' K, (exTwo CNum.one big).update v z = .ok k' ∧ k'.kalman_gain = .ok K ∧ AllZero K := by
  have key (k : Kalman (XFlt Ieee.binary32) .two .one) (h : Res.yields (Kalman.predictCov k.A k.P k.Q)
      (fun P => Res.yields (innovationCov P k.H k.R) (fun S => decide (AllFinite S ∧ det S = inf false)) &&
        Res.yields (do P.mul (← k.H.transposed22)) fun W => decide (AllFinite W)) = true) :
      ∃ k' K, k.update v z = .ok k' ∧ k'.kalman_gain = .ok K ∧ AllZero K := by
    obtain ⟨P, hP, h⟩ := Res.of_yields h
    obtain ⟨h1, h2⟩ := Bool.and_eq_true_iff.1 h
    obtain ⟨S, hS, h1⟩ := Res.of_yields h1
    obtain ⟨W, hW, h2⟩ := Res.of_yields h2
    exact C128_overflow_update k v z P S W hP hS hW (of_decide_eq_true h1).1 (of_decide_eq_true h2) false
      (of_decide_eq_true h1).2
  exact key _ (by decide +kernel)

/-- So the estimate remains 0 where exact arithmetic moves it to the measurement, which is 1. -/
example : Res.yields ((exTwo CNum.one big).update (Mat.fill 1 1 XFlt.z) (Mat.fill 2 1 CNum.one))
    (fun k' => decide (AllZero k'.system_state)) = true := by decide +kernel

/-- Exact measurements of quantities known exactly: the determinant is zero, and the estimates are lost. -/
example (v : ColVec (XFlt Ieee.binary32) 1) (z : ColVec (XFlt Ieee.binary32) 2) :
    ∃ k' K, (exTwo XFlt.z XFlt.z).update v z = .ok k' ∧ k'.kalman_gain = .ok K ∧ AllBad K ∧ AllBad k'.system_state := by
  have key (k : Kalman (XFlt Ieee.binary32) .two .one) (h : Res.yields (Kalman.predictCov k.A k.P k.Q)
      (fun P => Res.yields (innovationCov P k.H k.R) (fun S => decide (det S = zero false))) = true) :
      ∃ k' K, k.update v z = .ok k' ∧ k'.kalman_gain = .ok K ∧ AllBad K ∧ AllBad k'.system_state := by
    obtain ⟨P, hP, h⟩ := Res.of_yields h
    obtain ⟨S, hS, h⟩ := Res.of_yields h
    exact C128_singular_update k v z P S hP hS false (of_decide_eq_true h)
  exact key _ (by decide +kernel)

/-- C128: the simulation kalman-sim in `double` with infinities and NaN modelled: for up to 50 passes and draws of
at most 16 in magnitude it completes, all its readings are finite, and they agree with those in exact arithmetic. -/
theorem C128_simulation (p : KalmanSim.Params (XFlt Ieee.binary64)) (p' : KalmanSim.Params (Flt Ieee.binary64))
    (hp' : KalmanSim.constants Ieee.binary64 = .ok p') (hp : Parms Is p p')
    (gs : List (XFlt Ieee.binary64 × XFlt Ieee.binary64 × XFlt Ieee.binary64))
    (gs' : List (Flt Ieee.binary64 × Flt Ieee.binary64 × Flt Ieee.binary64))
    (hg : List.Forall₂ (fun g g' => Is g.1 g'.1 ∧ Is g.2.1 g'.2.1 ∧ Is g.2.2 g'.2.2) gs gs')
    (hl : gs.length ≤ 50) (hs : SmallDraws gs') :
    ∃ rs ss, KalmanSim.main false p gs = .ok rs ∧
      KalmanSim.main (T := ℝ) false ⟨1, 10, 1 / 5⟩ (gs'.map fun g => ((g.1.val : ℝ), (g.2.1.val : ℝ), (g.2.2.val : ℝ))) =
        .ok ss ∧ rs.length = gs.length ∧ List.Forall₂ (fun x y => ∃ x', Rows Is x x' ∧ Agree x' y) rs ss := by
  obtain ⟨rs', ss, h1, h2, h3, h4⟩ := C126_close p' hp' gs' (hg.length_eq ▸ hl) hs
  obtain ⟨rs, h5, h6⟩ := Refine.main refines refines_lit false hp hg _ h1
  refine ⟨rs, ss, h5, h2, h6.length_eq.trans (h3.trans hg.length_eq.symm), ?_⟩
  clear h1 h2 h3 h5
  induction h6 generalizing ss with
  | nil => cases h4; exact .nil
  | cons hx _ ih =>
    cases h4 with
    | cons hy h4 => exact .cons ⟨_, hx, hy⟩ (ih _ h4)

/-- A number of the arithmetic without infinities in that with infinities. -/
def ofFlt (x : Flt f) : XFlt f := if h : x.val = 0 then zero false else num x h

theorem ofFlt_is (x : Flt f) : Is (ofFlt x) x := by
  unfold ofFlt
  split
  · exact ⟨rfl, by assumption |> Eq.symm⟩
  · exact ⟨rfl, rfl⟩

/-- The hypotheses are met: all constants and draws without infinities are such. -/
example (gs : List (Flt Ieee.binary64 × Flt Ieee.binary64 × Flt Ieee.binary64)) (hl : gs.length ≤ 50) (hs : SmallDraws gs) :
    ∃ p', KalmanSim.constants Ieee.binary64 = .ok p' ∧ ∃ rs, KalmanSim.main false
      ⟨ofFlt p'.dt, ofFlt p'.measnoise, ofFlt p'.accelnoise⟩ (gs.map fun g => (ofFlt g.1, ofFlt g.2.1, ofFlt g.2.2)) =
        .ok rs ∧ rs.length = gs.length := by
  obtain ⟨p, hp, -⟩ := Res.of_yields
    (show Res.yields (KalmanSim.constants Ieee.binary64) (fun _ => true) = true by decide +kernel)
  obtain ⟨rs, -, h1, -, h2, -⟩ := C128_simulation
    ⟨ofFlt p.dt, ofFlt p.measnoise, ofFlt p.accelnoise⟩ p hp ⟨ofFlt_is _, ofFlt_is _, ofFlt_is _⟩
    (gs.map fun g => (ofFlt g.1, ofFlt g.2.1, ofFlt g.2.2)) gs
    (by
      clear hl hs
      induction gs with
      | nil => exact .nil
      | cons g gs ih => exact .cons ⟨ofFlt_is _, ofFlt_is _, ofFlt_is _⟩ ih)
    (by rwa [List.length_map]) hs
  exact ⟨p, hp, rs, h1, h2.trans (List.length_map _)⟩

/-- A section with coefficient `a1`, in `float`. -/
def exPole (a1 : Flt Ieee.binary32) : Biquad (Flt Ieee.binary32) :=
  Biquad.ofBA ⟨CNum.one, CNum.zero, CNum.zero⟩ ⟨a1, CNum.zero⟩

/-- A section with a pole at 2 and the input 1: with infinities all outputs up to the twentieth are finite, and not
all up to the 130th. -/
example : ∃ a : Flt Ieee.binary32, a.val = -2 ∧ ∀ q, Sections Is q (exPole a) →
    (∀ k ≤ 20, ∃ y, out Biquad.step q (fun _ => CNum.one) k = .ok y ∧ y.isFinite = true) ∧
    ¬∀ k ≤ 130, ∃ y, out Biquad.step q (fun _ => CNum.one) k = .ok y ∧ y.isFinite = true := by
  obtain ⟨a, ha, h⟩ := Res.of_yields (show Res.yields (Flt.ofRat Ieee.binary32 (-2)) (fun a => decide (a.val = -2) &&
    Res.yields (out Biquad.step (exPole a) (fun _ => CNum.one) 20) (fun _ => true) &&
    !Res.yields (out Biquad.step (exPole a) (fun _ => CNum.one) 130) (fun _ => true)) = true by decide +kernel)
  obtain ⟨h1, h3⟩ := Bool.and_eq_true_iff.1 h
  obtain ⟨h1, h2⟩ := Bool.and_eq_true_iff.1 h1
  obtain ⟨y, h2, -⟩ := Res.of_yields h2
  have one : Is (CNum.one : XFlt Ieee.binary32) CNum.one := ⟨rfl, rfl⟩
  refine ⟨a, of_decide_eq_true h1, fun q hq => ⟨?_, fun h => ?_⟩⟩
  · exact (C128_exact q _ _ _ hq (fun _ => one) 20).1.1 ⟨y, h2⟩
  · obtain ⟨y, hy⟩ := (C128_exact q _ _ _ hq (fun _ => one) 130).1.2 h
    rw [hy] at h3
    exact absurd h3 Bool.false_ne_true

end Verif
