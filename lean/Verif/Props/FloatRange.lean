import Verif.Lemmas.FloatRange
import Verif.Props.Ieee

/-
Property C112: stepping ranges over `double` and `float`, and the frequency sweeps of the examples.
-/

namespace Verif
open Ieee Range FloatRange
variable {f : Format}

/-! ## C112: elements -/

theorem rnd_roundsTo (x : ℚ) (c : Flt f) (h : c.val = rnd f x) : RoundsTo f x c :=
  ⟨fun d => by rw [h]; exact rnd_nearest f x _ d.rep.1,
    fun d h1 h2 => by rw [h] at h1 h2 ⊢; exact rnd_tie f x d.val d.rep.1 h1 h2⟩

/-- **C112** Element `k` of `range( a, b, s )` is `a` plus `k s`, each operation rounded once: errors do not
accumulate with `k`.  (Up to `2 ^ p`, see `C112_stops` for what happens then.)  All elements are below `b`, and for
positive `s` in ascending order, though not strictly. -/
theorem C112_elements {a b s : Flt f} {fuel : ℕ} {l : List (Flt f)} {d : Bool}
    (h : (rangeStep (Flt.num f) a b s).visitStep (Flt.num f) fuel = .ok (l, d)) :
    (∀ k (hk : k < l.length), k ≤ 2 ^ f.p → (∃ c : Flt f, RoundsTo f (k * s.val) c ∧ RoundsTo f (a.val + c.val) l[k]) ∧
        |l[k].val - (a.val + k * s.val)| ≤
          1 / 2 ^ f.p * (|a.val + k * s.val| + (1 + 1 / 2 ^ f.p) * |k * s.val|)) ∧
      (∀ x ∈ l, x.val < b.val) ∧ (0 ≤ s.val → l.Pairwise fun x y => x.val ≤ y.val) ∧
      (d = false → l.length = fuel) := by
  have h0 : (StepIter.make (Flt.num f) a s false).current.val = elt f a.val s.val 0 := (elt_zero a s.val).symm
  obtain ⟨h1, -, h3⟩ := visit_inv a s b _ rfl fuel 0 (.make (Flt.num f) a s false) l d rfl rfl rfl
    (show (0 : ℚ) = _ by simp) h0 (by simp [rnd_zero, zero_le_one.trans (Flt.one_le_max f)]) h
  simp only [Nat.zero_add] at h1
  refine ⟨?_, ?_, ?_, fun hd => (h3 hd).1⟩
  · intro k hk hk'
    obtain ⟨e, -, hm⟩ := h1 k hk
    rw [min_eq_left hk'] at hm
    rw [elt, min_eq_left hk'] at e
    refine ⟨⟨⟨_, rnd_digits f (k * s.val), hm⟩, rnd_roundsTo _ _ rfl, rnd_roundsTo _ _ e⟩, ?_⟩
    obtain ⟨m, hm⟩ := rep_multiple f s.rep
    obtain ⟨n, hn⟩ := rep_multiple f a.rep
    have r1 := rnd_multiple f (x := k * s.val) (k * m) (by rw [hm]; push_cast; ring)
    have hd : ∃ j : ℤ, rnd f (k * s.val) = j * 2 ^ f.q := by
      obtain ⟨j, i, -, hi, hj⟩ := rnd_digits f (k * s.val)
      obtain ⟨t, ht⟩ := Int.eq_ofNat_of_zero_le (sub_nonneg.2 hi)
      refine ⟨j * 2 ^ t, ?_⟩
      rw [hj, show i = t + f.q by omega, zpow_add₀ (by norm_num), zpow_natCast]
      push_cast
      ring
    obtain ⟨j, hj⟩ := hd
    have r2 := rnd_multiple f (x := a.val + rnd f (k * s.val)) (n + j) (by rw [hn, hj]; push_cast; ring)
    rw [← e] at r2
    set u : ℚ := 1 / 2 ^ f.p with hu
    have hu0 : 0 ≤ u := by positivity
    have t1 : |a.val + rnd f (k * s.val)| ≤ |a.val + k * s.val| + u * |k * s.val| := by
      calc _ = |(a.val + k * s.val) + (rnd f (k * s.val) - k * s.val)| := by ring_nf
        _ ≤ _ := (abs_add_le _ _).trans (by gcongr)
    calc _ = |(l[k].val - (a.val + rnd f (k * s.val))) + (rnd f (k * s.val) - k * s.val)| := by ring_nf
      _ ≤ u * (|a.val + k * s.val| + u * |k * s.val|) + u * |k * s.val| :=
        (abs_add_le _ _).trans (add_le_add (r2.trans (by gcongr)) r1)
      _ = _ := by ring
  · intro x hx
    obtain ⟨k, hk, rfl⟩ := List.getElem_of_mem hx
    exact (h1 k hk).2.1
  · intro hs
    rw [List.pairwise_iff_getElem]
    intro i j hi hj hij
    rw [(h1 i hi).1, (h1 j hj).1]
    exact elt_mono _ hs hij.le

/-! ## C112: end of the loop -/

/-- **C112** The count of steps is of the floating-point type and stays at `2 ^ p`.  So if the end is beyond `a` plus
`2 ^ p` steps the loop never ends, and otherwise it does. -/
theorem C112_stops {a b s c d : Flt f} (hs : 0 ≤ s.val) (hp : 2 ^ f.p ≤ f.max)
    (hc : RoundsTo f (2 ^ f.p * s.val) c) (hc' : 2 ^ f.p * s.val ≤ f.max)
    (hd : RoundsTo f (a.val + c.val) d) (hd' : a.val + c.val ≤ f.max) :
    (b.val ≤ d.val → ∃ l : List (Flt f), l.length ≤ 2 ^ f.p ∧
      ∀ fuel, 2 ^ f.p ≤ fuel → (rangeStep (Flt.num f) a b s).visitStep (Flt.num f) fuel = .ok (l, true)) ∧
    (d.val < b.val → ∀ fuel, ∃ l : List (Flt f), l.length = fuel ∧
      (rangeStep (Flt.num f) a b s).visitStep (Flt.num f) fuel = .ok (l, false)) := by
  have round : ∀ {x : ℚ} {c : Flt f}, RoundsTo f x c → |x| ≤ f.max → c.val = rnd f x := by
    intro x c h hx
    obtain ⟨y, ey, hy⟩ := Flt.ofRat_ok hx
    rw [C101_unique h (rnd_roundsTo x y hy), hy]
  have hks : ∀ k : ℕ, k ≤ 2 ^ f.p → 0 ≤ (k : ℚ) * s.val ∧ (k : ℚ) * s.val ≤ 2 ^ f.p * s.val := by
    intro k hk
    refine ⟨by positivity, ?_⟩
    gcongr
    exact_mod_cast hk
  have e1 : c.val = rnd f (2 ^ f.p * s.val) := round hc (by rw [abs_of_nonneg (by positivity)]; exact hc')
  have hc0 : 0 ≤ c.val := by rw [e1]; exact rnd_nonneg f (by positivity)
  have ha := abs_le.1 a.rep.2
  have e2 : d.val = rnd f (a.val + c.val) := round hd (abs_le.2 ⟨by linarith, hd'⟩)
  have ed : elt f a.val s.val (2 ^ f.p) = d.val := by
    rw [elt, min_self, e2, e1]
    push_cast
    rfl
  have hf : ∀ k, NoOverflow f a.val s.val k := by
    intro k
    have hk : min k (2 ^ f.p) ≤ 2 ^ f.p := min_le_right _ _
    have r0 := rnd_nonneg f (hks _ hk).1
    have r1 := rnd_mono f (hks _ hk).2
    rw [← e1] at r1
    refine ⟨?_, ?_, ?_⟩
    · refine le_trans ?_ hp
      exact_mod_cast hk
    · exact rnd_le_max f (by rw [abs_of_nonneg (hks _ hk).1]; exact (hks _ hk).2.trans hc')
    · exact rnd_le_max f (abs_le.2 ⟨by linarith, by linarith⟩)
  constructor
  · intro hb
    have hex : ∃ K, b.val ≤ elt f a.val s.val K := ⟨2 ^ f.p, by rw [ed]; exact hb⟩
    have hK : Nat.find hex ≤ 2 ^ f.p := Nat.find_min' hex (by rw [ed]; exact hb)
    refine ⟨(List.range (Nat.find hex)).map fun j => near f (a.val + rnd f ((min j (2 ^ f.p) : ℕ) * s.val)), ?_,
      fun fuel hfuel => ?_⟩
    rotate_left
    · have := visit_first (fun j _ => hf j) (fun j hj => not_le.1 (Nat.find_min hex hj)) (Nat.find_spec hex) fuel
      rw [this, min_eq_right (hK.trans hfuel), decide_eq_true (hK.trans hfuel)]
    · rw [List.length_map, List.length_range]
      exact hK
  · intro hb fuel
    refine ⟨_, ?_, visit_never hf (fun j => ?_) fuel⟩
    · rw [List.length_map, List.length_range]
    · rcases Nat.lt_or_ge j (2 ^ f.p) with h | h
      · exact (elt_mono _ hs h.le).trans_lt (by rw [ed]; exact hb)
      · rw [elt_stalls _ _ h, ed]
        exact hb

/-- **C112** `for ( auto x : range( 0.0f, 1e8f, 1.0f ) )` never ends. -/
theorem C112_never_wrong (fuel : ℕ) : ∃ l : List (Flt binary32), l.length = fuel ∧
    (rangeStep (Flt.num binary32) Flt.zero (.lit _ 390625 8 (by decide +kernel)) Flt.one).visitStep
      (Flt.num binary32) fuel = .ok (l, false) := by
  have hr : RoundsTo binary32 (2 ^ 24) (.lit _ 1 24 (by decide +kernel)) :=
    rnd_roundsTo _ _ (by decide +kernel)
  refine (C112_stops (c := .lit _ 1 24 (by decide +kernel)) (d := .lit _ 1 24 (by decide +kernel)) (by decide +kernel) (by decide +kernel)
    ?_ (by decide +kernel) ?_ (by decide +kernel)).2 (by decide +kernel) fuel
  · show RoundsTo binary32 (2 ^ 24 * 1) _
    rw [mul_one]
    exact hr
  · show RoundsTo binary32 (0 + 1 * 2 ^ (24 : ℤ)) _
    rw [zero_add, one_mul]
    exact hr

/-! ## C112: the sweeps -/

/-- What the sweeps need of a format, and of the number of steps. -/
structure Sweepable (f : Format) (n : ℕ) : Prop where
  pos : 1 ≤ n
  small : 4 * n ≤ 2 ^ f.p
  digits : 4 ≤ f.p
  range : f.q + 2 * f.p ≤ -1

namespace Sweepable
variable {n : ℕ} (h : Sweepable f n)
include h

omit h in
theorem max_ge (f : Format) : 2 ^ f.p - 1 ≤ f.max := by
  unfold Format.max
  have h1 : (1 : ℚ) ≤ 2 ^ f.p := one_le_pow₀ (by norm_num)
  have h2 : (1 : ℚ) ≤ 2 ^ f.top := one_le_zpow₀ (by norm_num) f.top_nonneg
  nlinarith

theorem pow_ge : (16 : ℚ) ≤ 2 ^ f.p := by
  calc (16 : ℚ) = 2 ^ 4 := by norm_num
    _ ≤ _ := pow_le_pow_right₀ (by norm_num) h.digits

theorem rnd_half : rnd f (1 / 2) = 1 / 2 := by
  apply rnd_digits_eq
  refine ⟨1, -1, ?_, ?_, by norm_num⟩
  · rw [abs_one]
    exact one_lt_pow₀ (by norm_num) (by have := h.digits; omega)
  · have := h.range
    omega

theorem half_ok : ∃ c : Flt f, Flt.ofRat f (1 / 2) = .ok c ∧ c.val = 1 / 2 := by
  obtain ⟨c, h1, h2⟩ := Flt.ofRat_ok (f := f) (x := 1 / 2) (by
    have := max_ge f; have := h.pow_ge; rw [abs_of_pos (by norm_num)]; linarith)
  exact ⟨c, h1, by rw [h2, h.rnd_half]⟩

/-- The step is within rounding of what it should be. -/
theorem step_ok : ∃ s : Flt f, fstep f (n + 1) = .ok s ∧
    |s.val - 1 / (2 * n)| ≤ 1 / 2 ^ f.p * (1 / (2 * n)) := by
  obtain ⟨c, ec, hc⟩ := h.half_ok
  have hM := max_ge f
  have hP := h.pow_ge
  have hn : (1 : ℚ) ≤ n := by exact_mod_cast h.pos
  have hn4 : 4 * (n : ℚ) ≤ 2 ^ f.p := by exact_mod_cast h.small
  have en : rnd f n = n := rnd_nat f (by have := h.small; omega)
  obtain ⟨m, em, hm⟩ := Flt.ofRat_ok (f := f) (x := n) (by rw [Nat.abs_cast]; linarith)
  obtain ⟨x, ex, hx⟩ := Flt.ofRat_ok (f := f) (x := 1 / (2 * n)) (by
    rw [abs_of_pos (by positivity), div_le_iff₀ (by positivity)]; nlinarith)
  have es : CNum.sub c Flt.zero = .ok c := by
    show Flt.ofRat f (c.val - 0) = _
    rw [sub_zero]
    exact Flt.ofRat_val c
  have hm' : m.val = n := by rw [hm, en]
  refine ⟨x, ?_, ?_⟩
  · unfold fstep
    rw [ec, bind_ok, es, bind_ok, Nat.cast_succ, add_sub_cancel_right, em, bind_ok]
    show (if m.val = 0 then _ else Flt.ofRat f (c.val / m.val)) = _
    rw [hm', if_neg (by positivity), hc, show (1 / 2 / n : ℚ) = 1 / (2 * n) by field_simp]
    exact ex
  · rw [hx]
    rcases rnd_cases f (1 / (2 * n : ℚ)) with ⟨h1, -⟩ | h1
    · exfalso
      have h2 := abs_lt_grid f (x := 1 / (2 * n : ℚ))
      rw [h1, ← zpow_natCast, ← zpow_add₀ (by norm_num), abs_of_pos (by positivity),
        div_lt_iff₀ (by positivity)] at h2
      have h3 : (2 : ℚ) ^ ((f.p : ℤ) + f.q) ≤ 2 ^ (-1 - (f.p : ℤ)) :=
        zpow_le_zpow_right₀ (by norm_num) (by have := h.range; omega)
      have h4 : (2 : ℚ) ^ (-1 - (f.p : ℤ)) * (2 * 2 ^ f.p) = 1 := by
        rw [← zpow_natCast, ← zpow_one_add₀ (by norm_num), ← zpow_add₀ (by norm_num)]
        norm_num
      have h5 : (2 : ℚ) ^ ((f.p : ℤ) + f.q) * (2 * n) ≤ 2 ^ (-1 - (f.p : ℤ)) * (2 * 2 ^ f.p) := by
        gcongr
        linarith
      linarith
    · rwa [abs_of_pos (show (0 : ℚ) < 1 / (2 * n) by positivity)] at h1

omit h in
/-- The multiples of the step are within rounding of what they should be. -/
theorem mul_near (s : Flt f) (k : ℕ) : |rnd f (k * s.val) - k * s.val| ≤ 1 / 2 ^ f.p * |k * s.val| := by
  obtain ⟨m, hm⟩ := rep_multiple f s.rep
  exact rnd_multiple f (k * m) (by rw [hm]; push_cast; ring)

end Sweepable

/-! Estimates for `u = 1 / 2 ^ p`, `t = 1 / ( 2 n )` and a step `s` near `t`. -/

structure NearStep (n t u s : ℚ) : Prop where
  n1 : 1 ≤ n
  u0 : 0 < u
  u16 : 16 * u ≤ 1
  un : 4 * (u * n) ≤ 1
  t0 : 0 < t
  tn : t * n = 1 / 2
  lo : t * (1 - u) ≤ s
  hi : s ≤ t * (1 + u)

namespace NearStep
variable {n t u s : ℚ} (h : NearStep n t u s)
include h

theorem t_le : t ≤ 1 / 2 := by nlinarith [h.n1, h.t0, h.tn]
theorem u_le : 2 * u ≤ t := by nlinarith [h.n1, h.t0, h.tn, h.un, h.u0]
theorem s_pos : 0 < s := lt_of_lt_of_le (mul_pos h.t0 (by linarith [h.u16])) h.lo
theorem s_le : s ≤ 1 := h.hi.trans (by nlinarith [h.t_le, h.u16, h.u0, h.t0])
theorem s_ge : t * (15 / 16) ≤ s := le_trans (by nlinarith [h.u16, h.t0]) h.lo

theorem ns_le : n * s ≤ 1 / 2 * (1 + u) := by
  calc n * s ≤ n * (t * (1 + u)) := mul_le_mul_of_nonneg_left h.hi (by linarith [h.n1])
    _ = _ := by rw [← h.tn]; ring

theorem ns_ge : 1 / 2 * (1 - u) ≤ n * s := by
  calc 1 / 2 * (1 - u) = n * (t * (1 - u)) := by rw [← h.tn]; ring
    _ ≤ _ := mul_le_mul_of_nonneg_left h.lo (by linarith [h.n1])

theorem ks_le {k : ℚ} (hk : k ≤ n + 2) : k * s ≤ 4 := by
  calc k * s ≤ (n + 2) * s := mul_le_mul_of_nonneg_right hk h.s_pos.le
    _ = n * s + 2 * s := by ring
    _ ≤ _ := by linarith [h.ns_le, h.s_le, h.u16]

theorem below {b e : ℚ} (hb : (1 / 2 + s) * (1 - u) ≤ b) (he : e ≤ n * s * (1 + u)) : e < b := by
  have h1 : n * s * (1 + u) ≤ 1 / 2 * (1 + u) * (1 + u) :=
    mul_le_mul_of_nonneg_right h.ns_le (by linarith [h.u0])
  have h2 : (1 / 2 + t * (1 - u)) * (1 - u) ≤ (1 / 2 + s) * (1 - u) :=
    mul_le_mul_of_nonneg_right (by linarith [h.lo]) (by linarith [h.u16])
  have h3 := h.u_le
  have h4 := h.u0
  have h5 := h.u16
  have h6 : 2 * u * ((1 - u) * (1 - u)) ≤ t * ((1 - u) * (1 - u)) :=
    mul_le_mul_of_nonneg_right h3 (mul_self_nonneg _)
  have h7 : u * u ≤ u * (1 / 16) := mul_le_mul_of_nonneg_left (by linarith) h4.le
  have h8 : 0 ≤ u * u * u := by positivity
  nlinarith

theorem beyond {b e : ℚ} (hb : b ≤ (1 / 2 + s) * (1 + u)) (he : (n + 2) * s * (1 - u) ≤ e) : b ≤ e := by
  have h1 := h.ns_ge
  have h2 := h.s_ge
  have h3 := h.u_le
  have h4 := h.u0
  have h5 := h.u16
  have h7 : u * u ≤ u * (1 / 16) := mul_le_mul_of_nonneg_left (by linarith) h4.le
  have h8 : 1 / 2 * (1 - u) * (1 - u) ≤ n * s * (1 - u) := mul_le_mul_of_nonneg_right h1 (by linarith)
  have h9 : s * u ≤ s * (1 / 16) := mul_le_mul_of_nonneg_left (by linarith) h.s_pos.le
  nlinarith

theorem error {k e : ℚ} (hk : 0 ≤ k) (h1 : k * s * (1 - u) ≤ e) (h2 : e ≤ k * s * (1 + u)) :
    |e - k * t| ≤ 3 * u * (k * t) := by
  have hk0 : 0 ≤ k * t := mul_nonneg hk h.t0.le
  have h4 := h.u0
  have h5 := h.u16
  have r1 : k * t * (1 - u) ≤ k * s := by rw [mul_assoc]; exact mul_le_mul_of_nonneg_left h.lo hk
  have r2 : k * s ≤ k * t * (1 + u) := by rw [mul_assoc]; exact mul_le_mul_of_nonneg_left h.hi hk
  have r3 : k * t * (1 - u) * (1 - u) ≤ k * s * (1 - u) := mul_le_mul_of_nonneg_right r1 (by linarith)
  have r4 : k * s * (1 + u) ≤ k * t * (1 + u) * (1 + u) := mul_le_mul_of_nonneg_right r2 (by linarith)
  have r5 : k * t * (u * u) ≤ k * t * u :=
    mul_le_mul_of_nonneg_left (by nlinarith) hk0
  have r6 : 0 ≤ k * t * (u * u) := by positivity
  rw [abs_le]
  constructor <;> nlinarith

/-- `( k + 1 ) s` rounded twice. -/
theorem error' {k e : ℚ} (hk : 0 ≤ k) (h1 : (s + k * s * (1 - u)) * (1 - u) ≤ e)
    (h2 : e ≤ (s + k * s * (1 + u)) * (1 + u)) : |e - (k + 1) * t| ≤ 4 * u * ((k + 1) * t) := by
  have hu := h.u0
  have h5 := h.u16
  have hs := h.s_pos
  have hks : 0 ≤ k * s := mul_nonneg hk hs.le
  have hk1 : 0 ≤ k + 1 := by linarith
  have hT : 0 ≤ (k + 1) * t := mul_nonneg hk1 h.t0.le
  have a1 : (k + 1) * s * (1 - u) * (1 - u) ≤ e := by
    refine le_trans ?_ h1
    apply mul_le_mul_of_nonneg_right _ (by linarith)
    nlinarith
  have a2 : e ≤ (k + 1) * s * (1 + u) * (1 + u) := by
    refine h2.trans ?_
    apply mul_le_mul_of_nonneg_right _ (by linarith)
    nlinarith
  have b1 : (k + 1) * t * (1 - u) ≤ (k + 1) * s := by rw [mul_assoc]; exact mul_le_mul_of_nonneg_left h.lo hk1
  have b2 : (k + 1) * s ≤ (k + 1) * t * (1 + u) := by rw [mul_assoc]; exact mul_le_mul_of_nonneg_left h.hi hk1
  have c1 : (k + 1) * t * ((1 - u) * (1 - u) * (1 - u)) ≤ e := by
    refine le_trans ?_ a1
    calc _ = (k + 1) * t * (1 - u) * ((1 - u) * (1 - u)) := by ring
      _ ≤ (k + 1) * s * ((1 - u) * (1 - u)) := mul_le_mul_of_nonneg_right b1 (mul_self_nonneg _)
      _ = _ := by ring
  have c2 : e ≤ (k + 1) * t * ((1 + u) * (1 + u) * (1 + u)) := by
    refine a2.trans ?_
    calc _ = (k + 1) * s * ((1 + u) * (1 + u)) := by ring
      _ ≤ (k + 1) * t * (1 + u) * ((1 + u) * (1 + u)) := mul_le_mul_of_nonneg_right b2 (mul_self_nonneg _)
      _ = _ := by ring
  have d1 : 1 - 4 * u ≤ (1 - u) * (1 - u) * (1 - u) := by nlinarith [mul_pos hu hu]
  have d2 : (1 + u) * (1 + u) * (1 + u) ≤ 1 + 4 * u := by nlinarith [mul_pos hu hu]
  have e1 := mul_le_mul_of_nonneg_left d1 hT
  have e2 := mul_le_mul_of_nonneg_left d2 hT
  rw [abs_le]
  constructor <;> linarith

end NearStep

/-- **C112** The sweep over `N` frequencies from 0 to 1/2: in every format and for every `N` up to a quarter of `2 ^ p`,
the loop ends after `N` or `N + 1` frequencies, and frequency `k` is `k / ( 2 ( N - 1 ) )` up to a relative error of 3
roundings. -/
theorem C112_sweep (N : ℕ) (hN : 2 ≤ N) (hN' : 4 * (N - 1) ≤ 2 ^ f.p) (hp : 4 ≤ f.p) (hq : f.q + 2 * f.p ≤ -1) :
    ∃ l : List (Flt f), (∀ fuel, N + 1 ≤ fuel → sweep f N fuel = .ok (l, true)) ∧
      (l.length = N ∨ l.length = N + 1) ∧
      ∀ k (hk : k < l.length),
        |l[k].val - k / (2 * (N - 1))| ≤ 3 / 2 ^ f.p * (k / (2 * (N - 1))) := by
  obtain ⟨n, rfl⟩ : ∃ n, N = n + 1 := ⟨N - 1, by omega⟩
  have h : Sweepable f n := ⟨by omega, by simpa using hN', hp, hq⟩
  have hM := Sweepable.max_ge f
  have hP := h.pow_ge
  have hn : (1 : ℚ) ≤ n := by exact_mod_cast h.pos
  have hn4 : 4 * (n : ℚ) ≤ 2 ^ f.p := by exact_mod_cast h.small
  obtain ⟨c, ec, hc⟩ := h.half_ok
  obtain ⟨s, es, hs⟩ := h.step_ok
  obtain ⟨u, hu⟩ : ∃ u : ℚ, u = 1 / 2 ^ f.p := ⟨_, rfl⟩
  obtain ⟨t, ht⟩ : ∃ t : ℚ, t = 1 / (2 * n) := ⟨_, rfl⟩
  rw [← hu, ← ht, abs_le] at hs
  have huP : u * 2 ^ f.p = 1 := by rw [hu]; field_simp
  have hu0 : 0 < u := by rw [hu]; positivity
  have hne : NearStep n t u s.val := ⟨hn, hu0, by nlinarith, by nlinarith, by rw [ht]; positivity,
    by rw [ht]; field_simp, by linarith [hs.1], by linarith [hs.2]⟩
  have hs0 := hne.s_pos
  have hs3 := hne.s_le
  -- the end
  obtain ⟨b, eb, hb⟩ := Flt.ofRat_ok (f := f) (x := 1 / 2 + s.val) (by
    rw [abs_of_pos (by linarith)]; linarith)
  have hb' : |b.val - (1 / 2 + s.val)| ≤ u * (1 / 2 + s.val) := by
    obtain ⟨m, hm⟩ := rep_multiple f s.rep
    obtain ⟨j, hj⟩ := rep_multiple f c.rep
    have := rnd_multiple f (x := 1 / 2 + s.val) (j + m) (by rw [← hc, hm, hj]; push_cast; ring)
    rwa [← hb, ← hu, abs_of_pos (show 0 < 1 / 2 + s.val by linarith)] at this
  rw [abs_le] at hb'
  -- the elements
  have he : ∀ k, k ≤ n + 2 → elt f (Flt.zero : Flt f).val s.val k = rnd f (k * s.val) := by
    intro k hk
    rw [elt, min_eq_left (by have := h.small; have : 2 ^ 4 ≤ 2 ^ f.p := Nat.pow_le_pow_right (by norm_num) hp; omega)]
    show rnd f (0 + _) = _
    rw [zero_add, rnd_rnd]
  have hr : ∀ k : ℕ, k * s.val * (1 - u) ≤ rnd f (k * s.val) ∧ rnd f (k * s.val) ≤ k * s.val * (1 + u) := by
    intro k
    have := Sweepable.mul_near s k
    rw [abs_of_nonneg (show 0 ≤ (k : ℚ) * s.val by positivity), abs_le, ← hu] at this
    constructor <;> linarith [this.1, this.2]
  have hf : ∀ j ≤ n + 2, NoOverflow f (Flt.zero : Flt f).val s.val j := by
    intro j hj
    have hj' : (j : ℚ) ≤ n + 2 := by exact_mod_cast hj
    have hj2 : j ≤ 2 ^ f.p := by
      have := h.small
      have : 2 ^ 4 ≤ 2 ^ f.p := Nat.pow_le_pow_right (by norm_num) hp
      omega
    have h1 : (j : ℚ) * s.val ≤ 4 := hne.ks_le hj'
    have h2 : |rnd f (j * s.val)| ≤ f.max := by
      rw [abs_of_nonneg (rnd_nonneg f (by positivity))]
      have := (hr j).2
      have : (j : ℚ) * s.val * (1 + u) ≤ 4 * 2 := mul_le_mul h1 (by linarith [hne.u16]) (by linarith) (by norm_num)
      linarith
    refine ⟨?_, ?_, ?_⟩
    · rw [min_eq_left hj2]
      linarith
    · rw [min_eq_left hj2]
      exact h2
    · rw [he j hj]
      exact h2
  have hlt : ∀ j ≤ n, elt f (Flt.zero : Flt f).val s.val j < b.val := by
    intro j hj
    refine (elt_mono _ hs0.le hj).trans_lt ?_
    rw [he n (by omega)]
    exact hne.below (by linarith [hb'.1]) (hr n).2
  have hge : b.val ≤ elt f (Flt.zero : Flt f).val s.val (n + 2) := by
    rw [he _ le_rfl]
    have h1 := (hr (n + 2)).1
    push_cast at h1
    exact hne.beyond (by linarith [hb'.2]) (by exact_mod_cast h1)
  have key : ∀ K, (K = n + 1 ∨ K = n + 2) → (∀ j < K, elt f (Flt.zero : Flt f).val s.val j < b.val) →
      b.val ≤ elt f (Flt.zero : Flt f).val s.val K →
      ∃ l : List (Flt f), (∀ fuel, n + 1 + 1 ≤ fuel → sweep f (n + 1) fuel = .ok (l, true)) ∧
      (l.length = n + 1 ∨ l.length = n + 1 + 1) ∧ ∀ k (hk : k < l.length),
        |l[k].val - k / (2 * (((n + 1 : ℕ) : ℚ) - 1))| ≤ 3 / 2 ^ f.p * (k / (2 * (((n + 1 : ℕ) : ℚ) - 1))) := by
    intro K hK g1 g2
    refine ⟨(List.range K).map
        (fun j => near f ((Flt.zero : Flt f).val + rnd f ((min j (2 ^ f.p) : ℕ) * s.val))),
      fun fuel hfuel => ?_, ?_, ?_⟩
    · have := visit_first (fun j hj => hf j (by omega)) g1 g2 fuel
      rw [min_eq_right (by omega), decide_eq_true (by omega)] at this
      unfold sweep
      rw [ec, bind_ok, es, bind_ok, show CNum.add c s = Flt.ofRat f (c.val + s.val) from rfl, hc, eb, bind_ok]
      exact this
    · rw [List.length_map, List.length_range]
      omega
    · intro k hk
      have hk' : k < K := by simpa using hk
      rw [List.getElem_map, List.getElem_range, near_val (hf k (by omega)).2.2]
      have : rnd f ((Flt.zero : Flt f).val + rnd f ((min k (2 ^ f.p) : ℕ) * s.val)) = rnd f (k * s.val) :=
        he k (by omega)
      rw [this, Nat.cast_succ, add_sub_cancel_right, show (k : ℚ) / (2 * n) = k * t by rw [ht]; ring,
        show (3 : ℚ) / 2 ^ f.p = 3 * u by rw [hu]; ring]
      exact hne.error (Nat.cast_nonneg _) (hr k).1 (hr k).2
  rcases lt_or_ge (elt f (Flt.zero : Flt f).val s.val (n + 1)) b.val with g | g
  · refine key (n + 2) (.inr rfl) (fun j hj => ?_) hge
    rcases (show j ≤ n ∨ j = n + 1 by omega) with h1 | rfl
    · exact hlt j h1
    · exact g
  · exact key (n + 1) (.inl rfl) (fun j hj => hlt j (by omega)) g

/-- **C112** The sweep without the ends has `N - 2` or `N - 1` frequencies, all below 1/2, and frequency `k` is
`( k + 1 ) / ( 2 ( N - 1 ) )` up to a relative error of 4 roundings. -/
theorem C112_inner_sweep (N : ℕ) (hN : 3 ≤ N) (hN' : 8 * (N - 1) ≤ 2 ^ f.p) (hp : 4 ≤ f.p)
    (hq : f.q + 2 * f.p ≤ -1) :
    ∃ l : List (Flt f), (∀ fuel, N ≤ fuel → innerSweep f N fuel = .ok (l, true)) ∧
      (l.length = N - 2 ∨ l.length = N - 1) ∧
      ∀ k (hk : k < l.length), l[k].val < 1 / 2 ∧
        |l[k].val - (k + 1) / (2 * (N - 1))| ≤ 4 / 2 ^ f.p * ((k + 1) / (2 * (N - 1))) := by
  obtain ⟨m, rfl⟩ : ∃ m, N = m + 2 + 1 := ⟨N - 3, by omega⟩
  obtain ⟨n, hnm⟩ : ∃ n, n = m + 2 := ⟨_, rfl⟩
  have hN8 : 8 * n ≤ 2 ^ f.p := by rw [hnm]; simpa using hN'
  have h : Sweepable f n := ⟨by omega, by omega, hp, hq⟩
  have hM := Sweepable.max_ge f
  have hP := h.pow_ge
  have hn : (1 : ℚ) ≤ n := by exact_mod_cast h.pos
  have hn8 : 8 * (n : ℚ) ≤ 2 ^ f.p := by exact_mod_cast hN8
  obtain ⟨c, ec, hc⟩ := h.half_ok
  obtain ⟨s, es, hs⟩ := h.step_ok
  obtain ⟨u, hu⟩ : ∃ u : ℚ, u = 1 / 2 ^ f.p := ⟨_, rfl⟩
  obtain ⟨t, ht⟩ : ∃ t : ℚ, t = 1 / (2 * n) := ⟨_, rfl⟩
  rw [← hu, ← ht, abs_le] at hs
  have huP : u * 2 ^ f.p = 1 := by rw [hu]; field_simp
  have hu0 : 0 < u := by rw [hu]; positivity
  have hun : 8 * (u * n) ≤ 1 := by nlinarith
  have hne : NearStep n t u s.val := ⟨hn, hu0, by nlinarith, by nlinarith, by rw [ht]; positivity,
    by rw [ht]; field_simp, by linarith [hs.1], by linarith [hs.2]⟩
  have hs0 := hne.s_pos
  have hs3 := hne.s_le
  have hsm : ∀ k, k ≤ n → k ≤ 2 ^ f.p := fun k hk => by omega
  -- the elements
  have he : ∀ k, k ≤ n → |elt f s.val s.val k - (k + 1) * t| ≤ 4 * u * ((k + 1) * t) := by
    intro k hk
    have h1 := Sweepable.mul_near s k
    obtain ⟨j, hj⟩ := rep_multiple f s.rep
    have hd : ∃ j : ℤ, rnd f (k * s.val) = j * 2 ^ f.q := by
      obtain ⟨j, i, -, hi, hj⟩ := rnd_digits f (k * s.val)
      obtain ⟨t, ht⟩ := Int.eq_ofNat_of_zero_le (sub_nonneg.2 hi)
      refine ⟨j * 2 ^ t, ?_⟩
      rw [hj, show i = t + f.q by omega, zpow_add₀ (by norm_num), zpow_natCast]
      push_cast
      ring
    obtain ⟨i, hi⟩ := hd
    have h2 := rnd_multiple f (x := s.val + rnd f (k * s.val)) (j + i) (by rw [hi, Int.cast_add, add_mul, ← hj])
    have hr0 : 0 ≤ rnd f (k * s.val) := rnd_nonneg f (by positivity)
    rw [← hu, abs_of_nonneg (show 0 ≤ (k : ℚ) * s.val by positivity), abs_le] at h1
    rw [← hu, abs_of_nonneg (show 0 ≤ s.val + rnd f (k * s.val) by linarith), abs_le] at h2
    rw [elt, min_eq_left (hsm k hk)]
    apply hne.error' (Nat.cast_nonneg _)
    · have : (s.val + k * s.val * (1 - u)) * (1 - u) ≤ (s.val + rnd f (k * s.val)) * (1 - u) :=
        mul_le_mul_of_nonneg_right (by linarith [h1.1]) (by linarith [hne.u16])
      linarith [h2.1]
    · have : (s.val + rnd f (k * s.val)) * (1 + u) ≤ (s.val + k * s.val * (1 + u)) * (1 + u) :=
        mul_le_mul_of_nonneg_right (by linarith [h1.2]) (by linarith)
      linarith [h2.2]
  have hT : ∀ k : ℕ, k ≤ n → (k + 1) * t ≤ 1 := fun k hk => by
    have : (k : ℚ) ≤ n := by exact_mod_cast hk
    calc (k + 1) * t ≤ (n + 1) * t := mul_le_mul_of_nonneg_right (by linarith) hne.t0.le
      _ = t * n + t := by ring
      _ ≤ 1 := by linarith [hne.tn, hne.t_le]
  have hf : ∀ j ≤ n, NoOverflow f s.val s.val j := by
    intro j hj
    have hj' : (j : ℚ) ≤ n := by exact_mod_cast hj
    have h1 : (j : ℚ) * s.val ≤ 4 := hne.ks_le (by linarith)
    refine ⟨?_, ?_, ?_⟩
    · rw [min_eq_left (hsm j hj)]
      linarith
    · rw [min_eq_left (hsm j hj)]
      exact rnd_le_max f (by rw [abs_of_nonneg (by positivity)]; linarith)
    · have h2 := abs_le.1 (he j hj)
      have h3 := hT j hj
      have h4 : 0 ≤ (j + 1) * t := mul_nonneg (by positivity) hne.t0.le
      have h5 : 4 * u * ((j + 1) * t) ≤ 1 / 4 * 1 := mul_le_mul (by linarith [hne.u16]) h3 h4 (by norm_num)
      exact abs_le.2 ⟨by linarith [h2.1], by linarith [h2.2]⟩
  have hut : 4 * u ≤ t := by nlinarith [hne.tn, hne.t0]
  have hm2 : (m : ℚ) + 1 = n - 1 := by rw [hnm]; push_cast; ring
  have hlt : ∀ j ≤ m, elt f s.val s.val j < c.val := by
    intro j hj
    refine (elt_mono _ hs0.le hj).trans_lt ?_
    have h2 := (abs_le.1 (he m (by omega))).2
    have h3 : ((m : ℚ) + 1) * t = 1 / 2 - t := by rw [hm2, ← hne.tn]; ring
    rw [h3] at h2
    have h4 : 4 * u * (1 / 2 - t) < t := by nlinarith [hne.t0, hne.u0, hne.t_le]
    rw [hc]
    linarith
  have hge : c.val ≤ elt f s.val s.val (m + 2) := by
    rw [← hnm]
    have h2 := (abs_le.1 (he n le_rfl)).1
    have h3 : ((n : ℚ) + 1) * t = 1 / 2 + t := by rw [← hne.tn]; ring
    rw [h3] at h2
    have h4 : 4 * u * (1 / 2 + t) ≤ t := by nlinarith [hne.t0, hne.u0, hne.t_le]
    rw [hc]
    linarith
  have key : ∀ K, (K = m + 1 ∨ K = m + 2) → (∀ j < K, elt f s.val s.val j < c.val) →
      c.val ≤ elt f s.val s.val K →
      ∃ l : List (Flt f), (∀ fuel, m + 2 + 1 ≤ fuel → innerSweep f (m + 2 + 1) fuel = .ok (l, true)) ∧
      (l.length = m + 2 + 1 - 2 ∨ l.length = m + 2 + 1 - 1) ∧ ∀ k (hk : k < l.length), l[k].val < 1 / 2 ∧
        |l[k].val - (k + 1) / (2 * (((m + 2 + 1 : ℕ) : ℚ) - 1))| ≤
          4 / 2 ^ f.p * ((k + 1) / (2 * (((m + 2 + 1 : ℕ) : ℚ) - 1))) := by
    intro K hK g1 g2
    refine ⟨(List.range K).map (fun j => near f (s.val + rnd f ((min j (2 ^ f.p) : ℕ) * s.val))),
      fun fuel hfuel => ?_, ?_, ?_⟩
    · have := visit_first (fun j hj => hf j (by omega)) g1 g2 fuel
      rw [min_eq_right (by omega), decide_eq_true (by omega)] at this
      unfold innerSweep
      rw [← hnm, ec, bind_ok, es, bind_ok,
        show CNum.add Flt.zero s = Flt.ofRat f (0 + s.val) from rfl, zero_add, Flt.ofRat_val, bind_ok]
      exact this
    · rw [List.length_map, List.length_range]
      omega
    · intro k hk
      have hk' : k < K := by simpa using hk
      have e : (near f (s.val + rnd f ((min k (2 ^ f.p) : ℕ) * s.val))).val = elt f s.val s.val k :=
        near_val (hf k (by omega)).2.2
      rw [List.getElem_map, List.getElem_range, e, Nat.cast_succ, add_sub_cancel_right, ← hnm,
        show ((k : ℚ) + 1) / (2 * n) = (k + 1) * t by rw [ht]; ring,
        show (4 : ℚ) / 2 ^ f.p = 4 * u by rw [hu]; ring]
      exact ⟨by rw [← hc]; exact g1 k hk', he k (by omega)⟩
  rcases lt_or_ge (elt f s.val s.val (m + 1)) c.val with g | g
  · refine key (m + 2) (.inr rfl) (fun j hj => ?_) hge
    rcases (show j ≤ m ∨ j = m + 1 by omega) with h1 | rfl
    · exact hlt j h1
    · exact g
  · exact key (m + 1) (.inl rfl) (fun j hj => hlt j (by omega)) g

/-- **C112** For the numbers of the examples, 101 and 201 (and in `double`), the sweep has exactly `N` frequencies and ends at
1/2; the sweep without the ends has `N - 2` and stays below 1/2. -/
theorem C112_sweep_examples :
    (∀ fuel, 102 ≤ fuel → ∃ l : List (Flt binary64), sweep binary64 101 fuel = .ok (l, true) ∧ l.length = 101 ∧
      ∃ x, l.getLast? = some x ∧ x.val = 1 / 2) ∧
    (∀ fuel, 202 ≤ fuel → ∃ l : List (Flt binary64), sweep binary64 201 fuel = .ok (l, true) ∧ l.length = 201 ∧
      ∃ x, l.getLast? = some x ∧ x.val = 1 / 2) ∧
    (∀ fuel, 101 ≤ fuel → ∃ l : List (Flt binary64), innerSweep binary64 101 fuel = .ok (l, true) ∧
      l.length = 99) := by
  refine ⟨?_, ?_, ?_⟩
  · intro fuel hfuel
    obtain ⟨l, h1, -, -⟩ := C112_sweep (f := binary64) 101 (by norm_num) (by decide) (by decide) (by decide)
    have h := h1 102 (by norm_num)
    have e : Res.yields (sweep binary64 101 102) (fun r => r.1.length == 101 &&
      r.1.getLast?.any (fun x => x.val == 1 / 2)) = true := by decide +kernel
    rw [h] at e
    obtain ⟨e1, e2⟩ := Bool.and_eq_true_iff.1 e
    rw [Option.any_eq_true] at e2
    obtain ⟨x, e2, e3⟩ := e2
    exact ⟨l, h1 fuel hfuel, by simpa using e1, x, e2, by simpa using e3⟩
  · intro fuel hfuel
    obtain ⟨l, h1, -, -⟩ := C112_sweep (f := binary64) 201 (by norm_num) (by decide) (by decide) (by decide)
    have h := h1 202 (by norm_num)
    have e : Res.yields (sweep binary64 201 202) (fun r => r.1.length == 201 &&
      r.1.getLast?.any (fun x => x.val == 1 / 2)) = true := by decide +kernel
    rw [h] at e
    obtain ⟨e1, e2⟩ := Bool.and_eq_true_iff.1 e
    rw [Option.any_eq_true] at e2
    obtain ⟨x, e2, e3⟩ := e2
    exact ⟨l, h1 fuel hfuel, by simpa using e1, x, e2, by simpa using e3⟩
  · intro fuel hfuel
    obtain ⟨l, h1, -, -⟩ := C112_inner_sweep (f := binary64) 101 (by norm_num) (by decide) (by decide) (by decide)
    have h := h1 101 (by norm_num)
    have e : Res.yields (innerSweep binary64 101 101) (fun r => r.1.length == 99) = true := by decide +kernel
    rw [h] at e
    exact ⟨l, h1 fuel hfuel, by simpa [Res.yields] using e⟩

/-- **C112** But a sweep of 7 frequencies has an eighth, beyond the largest frequency 1/2; and without the ends there are
6 instead of 5. -/
theorem C112_sweep_wrong : (∀ fuel, 8 ≤ fuel → ∃ l : List (Flt binary64),
    sweep binary64 7 fuel = .ok (l, true) ∧ l.length = 8 ∧ ∃ x ∈ l, 1 / 2 < x.val) ∧
    ∀ fuel, 7 ≤ fuel → ∃ l : List (Flt binary64), innerSweep binary64 7 fuel = .ok (l, true) ∧ l.length = 6 := by
  constructor
  rotate_left
  · intro fuel hfuel
    obtain ⟨l, h1, -, -⟩ := C112_inner_sweep (f := binary64) 7 (by norm_num) (by decide) (by decide) (by decide)
    have h := h1 7 (by norm_num)
    have e : Res.yields (innerSweep binary64 7 7) (fun r => r.1.length == 6) = true := by decide +kernel
    rw [h] at e
    exact ⟨l, h1 fuel hfuel, by simpa [Res.yields] using e⟩
  intro fuel hfuel
  obtain ⟨l, h1, -, -⟩ := C112_sweep (f := binary64) 7 (by norm_num) (by decide) (by decide) (by decide)
  have h := h1 8 (by norm_num)
  have e : Res.yields (sweep binary64 7 8) (fun r => r.1.length == 8 &&
    r.1.any (fun x => decide (1 / 2 < x.val))) = true := by decide +kernel
  rw [h] at e
  obtain ⟨e1, e2⟩ := Bool.and_eq_true_iff.1 e
  rw [List.any_eq_true] at e2
  obtain ⟨x, e2, e3⟩ := e2
  exact ⟨l, h1 fuel hfuel, by simpa using e1, x, e2, by simpa using e3⟩

/-- A range with a result, and one that ends: 0, 1/4, 1/2, 3/4. -/
example : ∃ l, (rangeStep (Flt.num binary64) Flt.zero Flt.one (.lit _ 1 (-2) (by decide +kernel))).visitStep
    (Flt.num binary64) 10 = .ok (l, true) ∧ l.map Flt.val = [0, 1 / 4, 1 / 2, 3 / 4] := by
  have h : Res.yields ((rangeStep (Flt.num binary64) Flt.zero Flt.one (.lit _ 1 (-2) (by decide +kernel))).visitStep
    (Flt.num binary64) 10) (fun r => r.2 && r.1.map Flt.val == [0, 1 / 4, 1 / 2, 3 / 4]) = true := by decide +kernel
  obtain ⟨⟨l, d⟩, h1, h2⟩ := Res.of_yields h
  obtain ⟨rfl, h3⟩ := Bool.and_eq_true_iff.1 h2
  exact ⟨l, h1, by simpa using h3⟩

end Verif
