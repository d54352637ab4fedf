import Verif.Lemmas.ChebyshevFloat

/-
The sections of the Chebyshev filters in floating point.
-/

namespace Verif.ChebyshevFloat
open DesignFloat Ieee

variable {F : Ieee.Format}

/-! ### The numerators -/

theorem numerator1 {low : Bool} {s W0 Wi c : Flt F} {x : BqB (Flt F) × BqA (Flt F)} (hs : s.val = sign low)
    (h : section1 s W0 Wi c = .ok x) : x.1.b2 = x.1.b0 ∧ x.1.b1.val = sign low * (2 * x.1.b0.val) := by
  obtain ⟨e, he, h⟩ := bind_eq_ok.1 h
  obtain ⟨p, hp, h⟩ := bind_eq_ok.1 h
  obtain ⟨q, hq, h⟩ := bind_eq_ok.1 h
  obtain ⟨D, hD, h⟩ := bind_eq_ok.1 h
  obtain ⟨g, hg, h⟩ := bind_eq_ok.1 h
  obtain ⟨G, hG, h⟩ := bind_eq_ok.1 h
  obtain ⟨two, h2, h⟩ := bind_eq_ok.1 h
  obtain ⟨m, hm, h⟩ := bind_eq_ok.1 h
  obtain ⟨m1, hm1, h⟩ := bind_eq_ok.1 h
  obtain ⟨m2, hm2, h⟩ := bind_eq_ok.1 h
  obtain ⟨a1, ha1, h⟩ := bind_eq_ok.1 h
  obtain ⟨N, hN, h⟩ := bind_eq_ok.1 h
  obtain ⟨a2, ha2, h⟩ := bind_eq_ok.1 h
  obtain ⟨sa1, hsa1, h⟩ := bind_eq_ok.1 h
  obtain ⟨Gs, hGs, h⟩ := bind_eq_ok.1 h
  obtain ⟨two', h2', h⟩ := bind_eq_ok.1 h
  obtain ⟨b1, hb1, h⟩ := bind_eq_ok.1 h
  obtain rfl := Except.ok.inj h
  refine ⟨rfl, ?_⟩
  change b1.val = sign low * (2 * G.val)
  rw [twice_val' h2' hb1, mul_sign hs hGs]
  ring

theorem numerator2 {low : Bool} {s W0 Wi c : Flt F} {x : BqB (Flt F) × BqA (Flt F)} (hs : s.val = sign low)
    (h : section2 s W0 Wi c = .ok x) : x.1.b2 = x.1.b0 ∧ |x.1.b1.val| ≤ 2 * |x.1.b0.val| := by
  obtain ⟨e, he, h⟩ := bind_eq_ok.1 h
  obtain ⟨p, hp, h⟩ := bind_eq_ok.1 h
  obtain ⟨q, hq, h⟩ := bind_eq_ok.1 h
  obtain ⟨D, hD, h⟩ := bind_eq_ok.1 h
  obtain ⟨g, hg, h⟩ := bind_eq_ok.1 h
  obtain ⟨G, hG, h⟩ := bind_eq_ok.1 h
  obtain ⟨two, h2, h⟩ := bind_eq_ok.1 h
  obtain ⟨m, hm, h⟩ := bind_eq_ok.1 h
  obtain ⟨m2, hm2, h⟩ := bind_eq_ok.1 h
  obtain ⟨g', hg', h⟩ := bind_eq_ok.1 h
  obtain ⟨b1, hb1, h⟩ := bind_eq_ok.1 h
  obtain ⟨two', h2', h⟩ := bind_eq_ok.1 h
  obtain ⟨k1, hk1, h⟩ := bind_eq_ok.1 h
  obtain ⟨k, hk, h⟩ := bind_eq_ok.1 h
  obtain ⟨k2, hk2, h⟩ := bind_eq_ok.1 h
  obtain ⟨a1, ha1, h⟩ := bind_eq_ok.1 h
  obtain ⟨N, hN, h⟩ := bind_eq_ok.1 h
  obtain ⟨a2, ha2, h⟩ := bind_eq_ok.1 h
  obtain ⟨sa1, hsa1, h⟩ := bind_eq_ok.1 h
  obtain ⟨Gs, hGs, h⟩ := bind_eq_ok.1 h
  obtain ⟨gb1, hgb1, h⟩ := bind_eq_ok.1 h
  obtain rfl := Except.ok.inj h
  refine ⟨rfl, ?_⟩
  change |gb1.val| ≤ 2 * |G.val|
  have q0 := square_nonneg hq
  have i1 : |m.val| ≤ g'.val := by
    rw [sub_val hm, add_val hg', one_val, abs_le, ← rnd_neg]
    exact ⟨rnd_mono F (by linarith), rnd_mono F (by linarith)⟩
  have i2 : |b1.val| ≤ 2 := by
    refine quotient_le hb1 (rnd_rep F two_rep) ?_ ((abs_nonneg _).trans i1)
    rw [twice_val h2 hm2, abs_mul, abs_two]
    linarith
  rw [Flt.ofRat_eq (show Flt.ofRat F (Gs.val * b1.val) = .ok gb1 from hgb1), mul_sign hs hGs]
  have i3 : |sign low * G.val * b1.val| ≤ 2 * |G.val| := by
    rw [abs_mul, abs_mul, sign_abs, one_mul, mul_comm]
    exact mul_le_mul_of_nonneg_right i2 (abs_nonneg _)
  have i4 : rnd F (2 * |G.val|) = 2 * |G.val| := by
    rcases abs_choice G.val with h | h <;> rw [h]
    · exact rnd_twice G
    · rw [mul_neg, rnd_neg, rnd_twice]
  obtain ⟨j1, j2⟩ := abs_le.1 i3
  rw [abs_le]
  have r1 := rnd_mono F j1
  have r2 := rnd_mono F j2
  rw [rnd_neg] at r1
  rw [i4] at r1 r2
  exact ⟨r1, r2⟩

/-! ### The denominators -/

theorem disc1 {s W0 Wi c : Flt F} {x : BqB (Flt F) × BqA (Flt F)} (h0 : 0 ≤ W0.val) (hc : c.val ≤ 0)
    (h : section1 s W0 Wi c = .ok x) : |x.2.a2.val| ≤ 1 := by
  obtain ⟨e, he, h⟩ := bind_eq_ok.1 h
  obtain ⟨p, hp, h⟩ := bind_eq_ok.1 h
  obtain ⟨q, hq, h⟩ := bind_eq_ok.1 h
  obtain ⟨D, hD, h⟩ := bind_eq_ok.1 h
  obtain ⟨g, hg, h⟩ := bind_eq_ok.1 h
  obtain ⟨G, hG, h⟩ := bind_eq_ok.1 h
  obtain ⟨two, h2, h⟩ := bind_eq_ok.1 h
  obtain ⟨m, hm, h⟩ := bind_eq_ok.1 h
  obtain ⟨m1, hm1, h⟩ := bind_eq_ok.1 h
  obtain ⟨m2, hm2, h⟩ := bind_eq_ok.1 h
  obtain ⟨a1, ha1, h⟩ := bind_eq_ok.1 h
  obtain ⟨N, hN, h⟩ := bind_eq_ok.1 h
  obtain ⟨a2, ha2, h⟩ := bind_eq_ok.1 h
  obtain ⟨sa1, hsa1, h⟩ := bind_eq_ok.1 h
  obtain ⟨Gs, hGs, h⟩ := bind_eq_ok.1 h
  obtain ⟨two', h2', h⟩ := bind_eq_ok.1 h
  obtain ⟨b1, hb1, h⟩ := bind_eq_ok.1 h
  obtain rfl := Except.ok.inj h
  exact a2_le_one (mid_nonpos he h0 hc) (square_nonneg hp) (square_nonneg hq) hN hD ha2

theorem disc2 {s W0 Wi c : Flt F} {x : BqB (Flt F) × BqA (Flt F)} (h0 : 0 ≤ W0.val) (hc : c.val ≤ 0)
    (h : section2 s W0 Wi c = .ok x) : |x.2.a2.val| ≤ 1 := by
  obtain ⟨e, he, h⟩ := bind_eq_ok.1 h
  obtain ⟨p, hp, h⟩ := bind_eq_ok.1 h
  obtain ⟨q, hq, h⟩ := bind_eq_ok.1 h
  obtain ⟨D, hD, h⟩ := bind_eq_ok.1 h
  obtain ⟨g, hg, h⟩ := bind_eq_ok.1 h
  obtain ⟨G, hG, h⟩ := bind_eq_ok.1 h
  obtain ⟨two, h2, h⟩ := bind_eq_ok.1 h
  obtain ⟨m, hm, h⟩ := bind_eq_ok.1 h
  obtain ⟨m2, hm2, h⟩ := bind_eq_ok.1 h
  obtain ⟨g', hg', h⟩ := bind_eq_ok.1 h
  obtain ⟨b1, hb1, h⟩ := bind_eq_ok.1 h
  obtain ⟨two', h2', h⟩ := bind_eq_ok.1 h
  obtain ⟨k1, hk1, h⟩ := bind_eq_ok.1 h
  obtain ⟨k, hk, h⟩ := bind_eq_ok.1 h
  obtain ⟨k2, hk2, h⟩ := bind_eq_ok.1 h
  obtain ⟨a1, ha1, h⟩ := bind_eq_ok.1 h
  obtain ⟨N, hN, h⟩ := bind_eq_ok.1 h
  obtain ⟨a2, ha2, h⟩ := bind_eq_ok.1 h
  obtain ⟨sa1, hsa1, h⟩ := bind_eq_ok.1 h
  obtain ⟨Gs, hGs, h⟩ := bind_eq_ok.1 h
  obtain ⟨gb1, hgb1, h⟩ := bind_eq_ok.1 h
  obtain rfl := Except.ok.inj h
  exact a2_le_one (mid_nonpos he h0 hc) (square_nonneg hp) (square_nonneg hq) hN hD ha2

theorem weight_pos {W0 Wi c : ℚ} (h0 : 0 ≤ W0) : 1 ≤ weight W0 Wi c := by
  unfold weight
  have : 0 ≤ 2 * (W0 * |c|) := by positivity
  nlinarith [sq_nonneg W0, sq_nonneg Wi]

theorem weight_eq {W0 Wi c : ℚ} (hc : c ≤ 0) : weight W0 Wi c = 1 - 2 * W0 * c + W0 ^ 2 + Wi ^ 2 := by
  rw [weight, abs_of_nonpos hc]; ring

theorem sign_sub (low : Bool) (x y : ℚ) : |sign low * x - sign low * y| = |x - y| := by
  rw [← mul_sub, abs_mul, sign_abs, one_mul]

theorem denominator1 (hF : Usual F) {low : Bool} {s W0 Wi c : Flt F} {x : BqB (Flt F) × BqA (Flt F)}
    (hs : s.val = sign low) (h0 : 0 ≤ W0.val) (hc : c.val ≤ 0) (h : section1 s W0 Wi c = .ok x) :
    Near (32 * unit F) ⟨x.1, x.2⟩ (exact .type1 low W0.val Wi.val c.val) ∧
      (Clear F W0.val Wi.val c.val → InTriangle x.2.a1.val x.2.a2.val) := by
  have hnum := numerator1 hs h
  obtain ⟨e, he, h⟩ := bind_eq_ok.1 h
  obtain ⟨p, hp, h⟩ := bind_eq_ok.1 h
  obtain ⟨q, hq, h⟩ := bind_eq_ok.1 h
  obtain ⟨D, hD, h⟩ := bind_eq_ok.1 h
  obtain ⟨g, hg, h⟩ := bind_eq_ok.1 h
  obtain ⟨G, hG, h⟩ := bind_eq_ok.1 h
  obtain ⟨two, h2, h⟩ := bind_eq_ok.1 h
  obtain ⟨m, hm, h⟩ := bind_eq_ok.1 h
  obtain ⟨m1, hm1, h⟩ := bind_eq_ok.1 h
  obtain ⟨m2, hm2, h⟩ := bind_eq_ok.1 h
  obtain ⟨a1, ha1, h⟩ := bind_eq_ok.1 h
  obtain ⟨N, hN, h⟩ := bind_eq_ok.1 h
  obtain ⟨a2, ha2, h⟩ := bind_eq_ok.1 h
  obtain ⟨sa1, hsa1, h⟩ := bind_eq_ok.1 h
  obtain ⟨Gs, hGs, h⟩ := bind_eq_ok.1 h
  obtain ⟨two', h2', h⟩ := bind_eq_ok.1 h
  obtain ⟨b1, hb1, h⟩ := bind_eq_ok.1 h
  obtain rfl := Except.ok.inj h
  have u0 := unit_pos (f := F)
  have u1 := unit_le hF.1
  have ht := tiny_part u0 u1 (tiny_le hF.2.1)
  have t0 := tiny_nonneg (f := F)
  obtain ⟨-, p1, q1⟩ := terms_error h0 hc he hp hq
  have eD := den_error hF h0 hc he hp hq hD
  have eN := num_error hF h0 hc he hp hq hN
  have W1 := weight_pos (Wi := Wi.val) (c := c.val) h0
  set W := weight W0.val Wi.val c.val with hW
  have hE : 0 ≤ 2 * (W0.val * |c.val|) := by positivity
  have hP : 0 ≤ W0.val ^ 2 := sq_nonneg _
  have hQ : 0 ≤ Wi.val ^ 2 := sq_nonneg _
  have hWd : W = 1 + 2 * (W0.val * |c.val|) + (W0.val ^ 2 + Wi.val ^ 2) := by rw [hW, weight]; ring
  have uW : unit F * W = unit F + unit F * (2 * (W0.val * |c.val|)) + unit F * W0.val ^ 2 + unit F * Wi.val ^ 2 := by
    rw [hWd]; ring
  have v1 : 0 ≤ unit F * (2 * (W0.val * |c.val|)) := by positivity
  have v2 : 0 ≤ unit F * W0.val ^ 2 := by positivity
  have v3 : 0 ≤ unit F * Wi.val ^ 2 := by positivity
  have eg := add_step u0 u1 p1 q1 (abs_of_nonneg hP).le (abs_of_nonneg hQ).le (add_err hg)
  have em := add_step u0 u1 p1 q1 (abs_of_nonneg hP).le (abs_of_nonneg hQ).le (add_err hm)
  have em1 := sub_step (y := 1) (Y := 1) (β := 0) u0 u1 em (by simp) (abs_of_nonneg (add_nonneg hP hQ)).le
    (abs_one (α := ℚ)).le (sub_one_err hm1)
  have hc' : |m1.val - (W0.val ^ 2 + Wi.val ^ 2 - 1)| ≤ 31 / 10 * (unit F * W) := by
    refine em1.trans ?_
    rw [uW, mul_add (unit F), mul_add (unit F)]
    linarith
  have hg' : |g.val - (W0.val ^ 2 + Wi.val ^ 2)| ≤ 21 / 10 * (unit F * W) := by
    refine eg.trans ?_
    rw [uW, mul_add (unit F)]
    linarith
  have d1 := (div_err ha1).2
  rw [twice_val h2 hm2] at d1
  obtain ⟨D0, r1, r2, r3⟩ := section_core u0 u1 ht hE (add_nonneg hP hQ) hWd eD eN hc' d1 (div_err ha2).2
  have r0 := gain_core u0 u1 ht W1 eD (by rw [abs_of_nonneg (add_nonneg hP hQ)]; linarith) hg' (div_err hG).2
  have s1 : sa1.val = sign low * a1.val := sign_mul hs hsa1
  have hWe : W = 1 - 2 * W0.val * c.val + W0.val ^ 2 + Wi.val ^ 2 := weight_eq hc
  have hNe : 1 - 2 * (W0.val * |c.val|) + (W0.val ^ 2 + Wi.val ^ 2) = 1 + 2 * W0.val * c.val + W0.val ^ 2 + Wi.val ^ 2 := by
    rw [abs_of_nonpos hc]; ring
  rw [hNe] at r2
  refine ⟨?_, fun hcl => ?_⟩
  · unfold Near exact
    simp only
    rw [← hWe]
    refine ⟨by linarith, ?_, ?_, ?_, by linarith⟩
    · have := hnum.2
      simp only at this
      rw [this, sign_sub]
      have e1 : 2 * G.val - 2 * (W0.val ^ 2 + Wi.val ^ 2) / W = 2 * (G.val - (W0.val ^ 2 + Wi.val ^ 2) / W) := by ring
      rw [e1, abs_mul, abs_two]
      linarith
    · linarith
    · rw [s1, sign_sub]
      linarith
  · have := r3 hcl.1 hcl.2.1 hcl.2.2
    refine ⟨this.1, ?_⟩
    change |sa1.val| < _
    rw [s1, abs_mul, sign_abs, one_mul]
    exact this.2

theorem denominator2 (hF : Usual F) {low : Bool} {s W0 Wi c : Flt F} {x : BqB (Flt F) × BqA (Flt F)}
    (hs : s.val = sign low) (h0 : 0 ≤ W0.val) (hc : c.val ≤ 0) (h : section2 s W0 Wi c = .ok x) :
    Near (32 * unit F) ⟨x.1, x.2⟩ (exact .type2 low W0.val Wi.val c.val) ∧
      (Clear F W0.val Wi.val c.val → InTriangle x.2.a1.val x.2.a2.val) := by
  obtain ⟨e, he, h⟩ := bind_eq_ok.1 h
  obtain ⟨p, hp, h⟩ := bind_eq_ok.1 h
  obtain ⟨q, hq, h⟩ := bind_eq_ok.1 h
  obtain ⟨D, hD, h⟩ := bind_eq_ok.1 h
  obtain ⟨g, hg, h⟩ := bind_eq_ok.1 h
  obtain ⟨G, hG, h⟩ := bind_eq_ok.1 h
  obtain ⟨two, h2, h⟩ := bind_eq_ok.1 h
  obtain ⟨m, hm, h⟩ := bind_eq_ok.1 h
  obtain ⟨m2, hm2, h⟩ := bind_eq_ok.1 h
  obtain ⟨g', hg', h⟩ := bind_eq_ok.1 h
  obtain ⟨b1, hb1, h⟩ := bind_eq_ok.1 h
  obtain ⟨two', h2', h⟩ := bind_eq_ok.1 h
  obtain ⟨k1, hk1, h⟩ := bind_eq_ok.1 h
  obtain ⟨k, hk, h⟩ := bind_eq_ok.1 h
  obtain ⟨k2, hk2, h⟩ := bind_eq_ok.1 h
  obtain ⟨a1, ha1, h⟩ := bind_eq_ok.1 h
  obtain ⟨N, hN, h⟩ := bind_eq_ok.1 h
  obtain ⟨a2, ha2, h⟩ := bind_eq_ok.1 h
  obtain ⟨sa1, hsa1, h⟩ := bind_eq_ok.1 h
  obtain ⟨Gs, hGs, h⟩ := bind_eq_ok.1 h
  obtain ⟨gb1, hgb1, h⟩ := bind_eq_ok.1 h
  obtain rfl := Except.ok.inj h
  have u0 := unit_pos (f := F)
  have u1 := unit_le hF.1
  have ht := tiny_part u0 u1 (tiny_le hF.2.1)
  have t0 := tiny_nonneg (f := F)
  obtain ⟨-, p1, q1⟩ := terms_error h0 hc he hp hq
  have eD := den_error hF h0 hc he hp hq hD
  have eN := num_error hF h0 hc he hp hq hN
  have W1 := weight_pos (Wi := Wi.val) (c := c.val) h0
  set W := weight W0.val Wi.val c.val with hW
  have hE : 0 ≤ 2 * (W0.val * |c.val|) := by positivity
  have hP : 0 ≤ W0.val ^ 2 := sq_nonneg _
  have hQ : 0 ≤ Wi.val ^ 2 := sq_nonneg _
  have hWd : W = 1 + 2 * (W0.val * |c.val|) + (W0.val ^ 2 + Wi.val ^ 2) := by rw [hW, weight]; ring
  have uW : unit F * W = unit F + unit F * (2 * (W0.val * |c.val|)) + unit F * W0.val ^ 2 + unit F * Wi.val ^ 2 := by
    rw [hWd]; ring
  have v1 : 0 ≤ unit F * (2 * (W0.val * |c.val|)) := by positivity
  have v2 : 0 ≤ unit F * W0.val ^ 2 := by positivity
  have v3 : 0 ≤ unit F * Wi.val ^ 2 := by positivity
  have o1 : |(1 : ℚ) - 1| ≤ 0 := by norm_num
  have eg := add_step u0 u1 o1 q1 (abs_one (α := ℚ)).le (abs_of_nonneg hQ).le (one_add_err hg)
  have em := sub_step u0 u1 o1 q1 (abs_one (α := ℚ)).le (abs_of_nonneg hQ).le (one_sub_err hm)
  have ek1 := sub_step u0 u1 o1 p1 (abs_one (α := ℚ)).le (abs_of_nonneg hP).le (one_sub_err hk1)
  have ek := sub_step (A := 1 + W0.val ^ 2) u0 u1 ek1 q1 (by rw [abs_le]; constructor <;> linarith)
    (abs_of_nonneg hQ).le (sub_err hk)
  have hc' : |-k.val - (W0.val ^ 2 + Wi.val ^ 2 - 1)| ≤ 31 / 10 * (unit F * W) := by
    rw [show -k.val - (W0.val ^ 2 + Wi.val ^ 2 - 1) = -(k.val - (1 - W0.val ^ 2 - Wi.val ^ 2)) by ring, abs_neg]
    refine ek.trans ?_
    rw [uW]
    change 65 / 64 * (65 / 64 * (0 + (unit F * W0.val ^ 2 + 2 ^ F.q / 2)) + unit F * (1 + W0.val ^ 2) +
      (unit F * Wi.val ^ 2 + 2 ^ F.q / 2)) + unit F * (1 + W0.val ^ 2 + Wi.val ^ 2) ≤ _
    rw [mul_add (unit F), mul_add (unit F), mul_add (unit F)]
    linarith
  have hgW : |g.val - (1 + Wi.val ^ 2)| ≤ 21 / 10 * (unit F * W) := by
    refine eg.trans ?_
    rw [uW, mul_add (unit F)]
    linarith
  have d1 : |-a1.val - 2 * -k.val / D.val| ≤ unit F * |2 * -k.val / D.val| + 2 ^ F.q / 2 := by
    have d1 := (div_err ha1).2
    rw [twice_val h2' hk2] at d1
    rw [show 2 * -k.val / D.val = -(2 * k.val / D.val) by ring, abs_neg,
      show -a1.val - -(2 * k.val / D.val) = -(a1.val - 2 * k.val / D.val) by ring, abs_neg]
    exact d1
  obtain ⟨D0, r1, r2, r3⟩ := section_core u0 u1 ht hE (add_nonneg hP hQ) hWd eD eN hc' d1 (div_err ha2).2
  have r0 := gain_core u0 u1 ht W1 eD (by rw [abs_of_nonneg (by linarith : 0 ≤ 1 + Wi.val ^ 2)]; linarith) hgW
    (div_err hG).2
  -- the middle coefficient of the numerator
  have hV : 0 < 1 + Wi.val ^ 2 := by linarith
  have uV : unit F * (1 + Wi.val ^ 2) = unit F + unit F * Wi.val ^ 2 := by ring
  have em' : |m.val - (1 - Wi.val ^ 2)| ≤ 21 / 10 * (unit F * (1 + Wi.val ^ 2)) := by
    refine em.trans ?_; rw [uV]; linarith
  have eg' : |g'.val - (1 + Wi.val ^ 2)| ≤ 21 / 10 * (unit F * (1 + Wi.val ^ 2)) := by
    refine (add_step u0 u1 o1 q1 (abs_one (α := ℚ)).le (abs_of_nonneg hQ).le (one_add_err hg')).trans ?_
    rw [uV]; linarith
  have hb1' := (div_err hb1).2
  rw [twice_val h2 hm2] at hb1'
  have bq : |b1.val - 2 * (1 - Wi.val ^ 2) / (1 + Wi.val ^ 2)| ≤ 12 * unit F ∧ |b1.val| ≤ 2 := by
    have huV : unit F * (1 + Wi.val ^ 2) ≤ 1 / 64 * (1 + Wi.val ^ 2) := mul_le_mul_of_nonneg_right u1 hV.le
    have g0 : 0 < g'.val := by linarith [(abs_le.1 eg').1]
    have i1 : |m.val| ≤ g'.val := by
      rw [sub_val hm, add_val hg', one_val, abs_le, ← rnd_neg]
      have := square_nonneg hq
      exact ⟨rnd_mono F (by linarith), rnd_mono F (by linarith)⟩
    have i2 : |b1.val| ≤ 2 := by
      refine quotient_le hb1 (rnd_rep F two_rep) ?_ g0.le
      rw [twice_val h2 hm2, abs_mul, abs_two]
      linarith
    refine ⟨ratio_core u0 u1 ht hV ?_ em' eg' i1 hb1', i2⟩
    rw [abs_le]
    constructor <;> linarith
  have s1 : sa1.val = sign low * a1.val := sign_mul hs hsa1
  have hWe : W = 1 - 2 * W0.val * c.val + W0.val ^ 2 + Wi.val ^ 2 := weight_eq hc
  have hNe : 1 - 2 * (W0.val * |c.val|) + (W0.val ^ 2 + Wi.val ^ 2) = 1 + 2 * W0.val * c.val + W0.val ^ 2 + Wi.val ^ 2 := by
    rw [abs_of_nonpos hc]; ring
  rw [hNe] at r2
  have hW0 : 0 < W := by linarith
  have gain : |(1 + Wi.val ^ 2) / W| ≤ 1 := by
    rw [abs_div, abs_of_pos hW0, abs_of_pos hV, div_le_one hW0]; linarith
  have gb : |gb1.val - sign low * (2 * (1 - Wi.val ^ 2) / W)| ≤ 32 * unit F := by
    have e0 := mul_err hgb1
    rw [mul_sign hs hGs] at e0
    have e1 : sign low * (2 * (1 - Wi.val ^ 2) / W) =
        sign low * ((1 + Wi.val ^ 2) / W * (2 * (1 - Wi.val ^ 2) / (1 + Wi.val ^ 2))) := by
      have := hV.ne'
      field_simp
    rw [e1]
    exact product_core u0 u1 ht (sign_abs low) r0 gain bq.1 bq.2 e0
  refine ⟨?_, fun hcl => ?_⟩
  · unfold Near exact
    simp only
    rw [← hWe]
    refine ⟨by linarith, gb, by linarith, ?_, by linarith⟩
    rw [s1, sign_sub]
    have e1 : -a1.val - 2 * (W0.val ^ 2 + Wi.val ^ 2 - 1) / W = -(a1.val - 2 * (1 - W0.val ^ 2 - Wi.val ^ 2) / W) := by
      ring
    rw [e1, abs_neg] at r1
    linarith
  · have := r3 hcl.1 hcl.2.1 hcl.2.2
    refine ⟨this.1, ?_⟩
    change |sa1.val| < _
    rw [s1, abs_mul, sign_abs, one_mul, ← abs_neg]
    exact this.2

/-! ### The first-order section -/

theorem firstNumerator {low : Bool} {s W0 : Flt F} {x : BqB (Flt F) × BqA (Flt F)} (hs : s.val = sign low)
    (h : first s W0 = .ok x) : x.1.b2.val = 0 ∧ x.1.b1.val = sign low * x.1.b0.val := by
  obtain ⟨w, hw, h⟩ := bind_eq_ok.1 h
  obtain ⟨G, hG, h⟩ := bind_eq_ok.1 h
  obtain ⟨two, h2, h⟩ := bind_eq_ok.1 h
  obtain ⟨t, ht, h⟩ := bind_eq_ok.1 h
  obtain ⟨y, hy, h⟩ := bind_eq_ok.1 h
  obtain ⟨a1, ha1, h⟩ := bind_eq_ok.1 h
  obtain ⟨b1, hb1, h⟩ := bind_eq_ok.1 h
  obtain rfl := Except.ok.inj h
  exact ⟨rfl, sign_mul hs hb1⟩

theorem firstSection {low : Bool} {s W0 : Flt F} {x : BqB (Flt F) × BqA (Flt F)} (hs : s.val = sign low)
    (h0 : 0 ≤ W0.val) (h : first s W0 = .ok x) :
    x.1.b2.val = 0 ∧ x.1.b1.val = sign low * x.1.b0.val ∧ x.2.a2.val = 0 ∧ |x.2.a1.val| ≤ 1 ∧
      (Usual F → ClearFirst F W0.val → |x.2.a1.val| < 1) := by
  obtain ⟨w, hw, h⟩ := bind_eq_ok.1 h
  obtain ⟨G, hG, h⟩ := bind_eq_ok.1 h
  obtain ⟨two, h2, h⟩ := bind_eq_ok.1 h
  obtain ⟨t, ht, h⟩ := bind_eq_ok.1 h
  obtain ⟨y, hy, h⟩ := bind_eq_ok.1 h
  obtain ⟨a1, ha1, h⟩ := bind_eq_ok.1 h
  obtain ⟨b1, hb1, h⟩ := bind_eq_ok.1 h
  obtain rfl := Except.ok.inj h
  have w1 : 1 ≤ w.val := by
    rw [add_val hw, one_val, ← rnd_one (F := F)]
    exact rnd_mono F (by rw [rnd_one]; linarith)
  have w0 : 0 < w.val := by linarith
  obtain ⟨-, vG⟩ := div_val hG
  rw [one_val] at vG
  have g0 : 0 ≤ G.val := by rw [vG]; exact rnd_nonneg F (by positivity)
  have g1 : G.val ≤ 1 := by
    rw [vG, ← rnd_one (F := F)]
    exact rnd_mono F (by rw [rnd_one, div_le_one w0]; exact w1)
  have vy := sub_val hy
  rw [twice_val h2 ht, one_val] at vy
  have va := sign_mul hs ha1
  refine ⟨rfl, sign_mul hs hb1, rfl, ?_, fun hp hcl => ?_⟩
  · change |a1.val| ≤ 1
    rw [va, abs_mul, sign_abs, one_mul, vy, abs_le]
    have r1 := rnd_mono F (x := -1) (y := 2 * G.val - 1) (by linarith)
    have r2 := rnd_mono F (x := 2 * G.val - 1) (y := 1) (by linarith)
    rw [rnd_neg, rnd_one] at r1
    rw [rnd_one] at r2
    exact ⟨r1, r2⟩
  · change |a1.val| < 1
    rw [va, abs_mul, sign_abs, one_mul]
    have u0 := unit_pos (f := F)
    have u1 := unit_le hp.1
    obtain ⟨c1, c2⟩ := hcl
    have ew := one_add_err hw
    rw [abs_of_nonneg (by linarith : 0 ≤ 1 + W0.val)] at ew
    have eG := (div_err hG).2
    rw [one_val] at eG
    have ey := sub_one_err hy
    rw [twice_val h2 ht] at ey
    exact first_core u0 u1 (tiny_le hp.2.1) c1 (by linarith) ew eG ey g0 g1

/-- The accuracy of the first-order section. -/
theorem firstAccuracy (hF : Usual F) {low : Bool} {s W0 : Flt F} {x : BqB (Flt F) × BqA (Flt F)} (hs : s.val = sign low)
    (h0 : 0 ≤ W0.val) (h : first s W0 = .ok x) : Near (32 * unit F) ⟨x.1, x.2⟩ (exactFirst low W0.val) := by
  obtain ⟨w, hw, h⟩ := bind_eq_ok.1 h
  obtain ⟨G, hG, h⟩ := bind_eq_ok.1 h
  obtain ⟨two, h2, h⟩ := bind_eq_ok.1 h
  obtain ⟨t, ht, h⟩ := bind_eq_ok.1 h
  obtain ⟨y, hy, h⟩ := bind_eq_ok.1 h
  obtain ⟨a1, ha1, h⟩ := bind_eq_ok.1 h
  obtain ⟨b1, hb1, h⟩ := bind_eq_ok.1 h
  obtain rfl := Except.ok.inj h
  have u0 := unit_pos (f := F)
  have u1 := unit_le hF.1
  have te := tiny_part u0 u1 (tiny_le hF.2.1)
  have ew := one_add_err hw
  rw [abs_of_nonneg (by linarith : 0 ≤ 1 + W0.val)] at ew
  have eG := (div_err hG).2
  rw [one_val] at eG
  have ey := sub_one_err hy
  rw [twice_val h2 ht] at ey
  have uW : 0 ≤ unit F * (1 + W0.val) := by positivity
  have g := gain_core (P := 1) (N := 1) u0 u1 te (by linarith : 1 ≤ 1 + W0.val) (ew.trans (by linarith))
    (by rw [abs_one]; linarith) (by rw [sub_self, abs_zero]; positivity) eG
  have hG1 : |2 * G.val - 1| ≤ 2 := by
    have h1 : |1 / (1 + W0.val)| ≤ 1 := by
      rw [abs_of_pos (by positivity), div_le_one (by positivity)]
      linarith
    have h2 : 0 ≤ 1 / (1 + W0.val) := by positivity
    rw [abs_le] at *
    constructor <;> linarith
  have ey' : |y.val - (2 * G.val - 1)| ≤ 2 * unit F := by
    have := mul_le_mul_of_nonneg_left hG1 u0.le
    linarith
  have e1 : (1 - W0.val) / (1 + W0.val) = 2 * (1 / (1 + W0.val)) - 1 := by
    have : (1 : ℚ) + W0.val ≠ 0 := by linarith
    field_simp
    ring
  unfold Near exactFirst
  simp only
  refine ⟨by linarith, ?_, ?_, ?_, ?_⟩
  · rw [sign_mul hs hb1, sign_sub]
    linarith
  · change |(0 : ℚ) - 0| ≤ _
    rw [sub_self, abs_zero]
    positivity
  · rw [sign_mul hs ha1, sign_sub, e1]
    rw [abs_le] at *
    constructor <;> linarith
  · change |(0 : ℚ) - 0| ≤ _
    rw [sub_self, abs_zero]
    positivity

/-! ### The sections of a design -/

theorem sections_list {T : Type} [CNum T] [CLit T] {N : ℤ} {s W0 : T} {body : ℤ → Res (BqB T × BqA T)} {coeff : Digital T}
    (h : sections N s W0 body = .ok coeff) : ∃ l : List (BqB T × BqA T), coeff.b = l.map Prod.fst ∧
      coeff.a = l.map Prod.snd ∧ coeff.N = N ∧ l.length = (N % 2).toNat + ((N - N % 2) / 2).toNat ∧
      (N % 2 = 1 → ∃ x, l.head? = some x ∧ first s W0 = .ok x) ∧
      ∀ x ∈ l, (N % 2 = 1 ∧ first s W0 = .ok x) ∨ ∃ i : ℤ, 1 ≤ i ∧ 2 * i ≤ N ∧ body i = .ok x := by
  obtain ⟨c0, h0, h⟩ := bind_eq_ok.1 h
  have key : ∀ n : ℕ, (n : ℤ) ≤ ((N - N % 2) / 2).toNat → ∀ c,
      forRange n (fun k coeff => do .ok (coeff.push (← body (k + 1)))) c0 = .ok c →
      ∃ l : List (BqB T × BqA T), c.b = l.map Prod.fst ∧ c.a = l.map Prod.snd ∧ c.N = N ∧
        l.length = (N % 2).toNat + n ∧ (N % 2 = 1 → ∃ x, l.head? = some x ∧ first s W0 = .ok x) ∧
        ∀ x ∈ l, (N % 2 = 1 ∧ first s W0 = .ok x) ∨ ∃ i : ℤ, 1 ≤ i ∧ 2 * i ≤ N ∧ body i = .ok x := by
    intro n
    induction n with
    | zero =>
      intro _ c hc
      obtain rfl := Except.ok.inj hc
      unfold start at h0
      split_ifs at h0 with hr
      · obtain ⟨x, hx, h0⟩ := bind_eq_ok.1 h0
        obtain rfl := Except.ok.inj h0
        refine ⟨[x], rfl, rfl, rfl, by rw [hr]; rfl, fun _ => ⟨x, rfl, hx⟩, fun y hy => .inl ⟨hr, ?_⟩⟩
        rw [List.mem_singleton.1 hy, hx]
      · obtain rfl := Except.ok.inj h0
        refine ⟨[], rfl, rfl, rfl, ?_, fun h1 => absurd h1 hr, fun y hy => absurd hy List.not_mem_nil⟩
        have : N % 2 = 0 := by omega
        rw [this]
        rfl
    | succ n ih =>
      intro hn c hc
      rw [forRange_succ] at hc
      obtain ⟨c1, h1, hc⟩ := bind_eq_ok.1 hc
      obtain ⟨x, hx, hc⟩ := bind_eq_ok.1 hc
      obtain rfl := Except.ok.inj hc
      obtain ⟨l, hb, ha, hN, hl, hh, hall⟩ := ih (by push_cast at hn; omega) c1 h1
      refine ⟨l ++ [x], ?_, ?_, hN, ?_, fun h1 => ?_, fun y hy => ?_⟩
      · change c1.b ++ [x.1] = _
        rw [hb, List.map_append]
        rfl
      · change c1.a ++ [x.2] = _
        rw [ha, List.map_append]
        rfl
      · rw [List.length_append, hl]
        rfl
      · obtain ⟨y, hy, hf⟩ := hh h1
        exact ⟨y, by rw [List.head?_append, hy, Option.some_or], hf⟩
      · rcases List.mem_append.1 hy with hy | hy
        · exact hall y hy
        · rw [List.mem_singleton.1 hy]
          exact .inr ⟨n + 1, by omega, by push_cast at hn; omega, hx⟩
  exact key _ le_rfl coeff h

/-- The second-order section of a type. -/
def sectionOf {T : Type} [CNum T] [CLit T] : Kind → T → T → T → T → Res (BqB T × BqA T)
  | .type1 => section1
  | .type2 => section2

theorem order_sgn {T : Type} [CNum T] [CLit T] {M : Math T} {low : Bool} {fs fpass fstop Apass Astop s Wpass Wstop epass estop : T} {N : ℤ}
    (ho : order M low fs fpass fstop Apass Astop = .ok (s, Wpass, Wstop, epass, estop, N)) : sgn low = .ok s := by
  obtain ⟨two, -, ho⟩ := bind_eq_ok.1 ho
  obtain ⟨half, -, ho⟩ := bind_eq_ok.1 ho
  split_ifs at ho
  obtain ⟨s', hs', ho⟩ := bind_eq_ok.1 ho
  simp only [bind_eq_ok] at ho
  obtain ⟨_, -, _, -, _, -, _, -, _, -, _, -, _, -, _, -, _, -, _, -, _, -, _, -, ho⟩ := ho
  rw [hs', (Prod.mk.inj (Except.ok.inj ho)).1]

theorem design_list {M : Math (Flt F)} {k : Kind} {low : Bool} {fs fpass fstop Apass Astop : Flt F}
    {coeff : Digital (Flt F)} (h : design M k low fs fpass fstop Apass Astop = .ok coeff) :
    ∃ l : List (BqB (Flt F) × BqA (Flt F)), coeff.b = l.map Prod.fst ∧ coeff.a = l.map Prod.snd ∧
      l.length = (coeff.N % 2).toNat + ((coeff.N - coeff.N % 2) / 2).toNat ∧
      ∃ s : Flt F, s.val = sign low ∧
      (coeff.N % 2 = 1 → ∃ x W0, l.head? = some x ∧ FirstValue M k low fs fpass fstop Apass Astop W0 ∧ first s W0 = .ok x) ∧
      ∀ x ∈ l,
        (∃ W0, FirstValue M k low fs fpass fstop Apass Astop W0 ∧ first s W0 = .ok x) ∨
        (∃ W0 Wi c, Values M k low fs fpass fstop Apass Astop W0 Wi c ∧ sectionOf k s W0 Wi c = .ok x) := by
  have hsgn {s Wpass Wstop epass estop : Flt F} {N : ℤ}
      (ho : order M low fs fpass fstop Apass Astop = .ok (s, Wpass, Wstop, epass, estop, N)) : s.val = sign low :=
    sgn_val (order_sgn ho)
  cases k with
  | type1 =>
    obtain ⟨⟨s, Wpass, Wstop, epass, estop, N⟩, ho, h⟩ := bind_eq_ok.1 h
    obtain ⟨a, ha, h⟩ := bind_eq_ok.1 h
    obtain ⟨x, hx, h⟩ := bind_eq_ok.1 h
    obtain ⟨W0, hW0, h⟩ := bind_eq_ok.1 h
    obtain ⟨l, hb, hA, hN, hl, hh, hall⟩ := sections_list h
    refine ⟨l, hb, hA, hN ▸ hl, s, hsgn ho, fun h1 => ?_, fun y hy => ?_⟩
    · rw [hN] at h1
      obtain ⟨y, hy, hf⟩ := hh h1
      exact ⟨y, W0, hy, ⟨s, Wpass, Wstop, epass, estop, N, a, x, ho, h1, ha, hx, hW0⟩, hf⟩
    rcases hall y hy with ⟨hr, hf⟩ | ⟨i, i1, i2, hi⟩
    · exact .inl ⟨W0, ⟨s, Wpass, Wstop, epass, estop, N, a, x, ho, hr, ha, hx, hW0⟩, hf⟩
    · obtain ⟨th, hth, hi⟩ := bind_eq_ok.1 hi
      obtain ⟨z, hz, hi⟩ := bind_eq_ok.1 hi
      obtain ⟨Wi, hWi, hi⟩ := bind_eq_ok.1 hi
      obtain ⟨c, hc, hi⟩ := bind_eq_ok.1 hi
      exact .inr ⟨W0, Wi, c, ⟨s, Wpass, Wstop, epass, estop, N, a, x, th, z, i, ho, ha, hx, hW0, i1, i2, hth, hz, hc, hWi⟩, hi⟩
  | type2 =>
    obtain ⟨⟨s, Wpass, Wstop, epass, estop, N⟩, ho, h⟩ := bind_eq_ok.1 h
    obtain ⟨a, ha, h⟩ := bind_eq_ok.1 h
    obtain ⟨x, hx, h⟩ := bind_eq_ok.1 h
    obtain ⟨W0, hW0, h⟩ := bind_eq_ok.1 h
    obtain ⟨l, hb, hA, hN, hl, hh, hall⟩ := sections_list h
    refine ⟨l, hb, hA, hN ▸ hl, s, hsgn ho, fun h1 => ?_, fun y hy => ?_⟩
    · rw [hN] at h1
      obtain ⟨y, hy, hf⟩ := hh h1
      exact ⟨y, W0, hy, ⟨s, Wpass, Wstop, epass, estop, N, a, x, ho, h1, ha, hx, hW0⟩, hf⟩
    rcases hall y hy with ⟨hr, hf⟩ | ⟨i, i1, i2, hi⟩
    · exact .inl ⟨W0, ⟨s, Wpass, Wstop, epass, estop, N, a, x, ho, hr, ha, hx, hW0⟩, hf⟩
    · obtain ⟨th, hth, hi⟩ := bind_eq_ok.1 hi
      obtain ⟨z, hz, hi⟩ := bind_eq_ok.1 hi
      obtain ⟨Wi, hWi, hi⟩ := bind_eq_ok.1 hi
      obtain ⟨c, hc, hi⟩ := bind_eq_ok.1 hi
      exact .inr ⟨W0, Wi, c, ⟨s, Wpass, Wstop, epass, estop, N, a, x, th, z, i, ho, ha, hx, hW0, i1, i2, hth, hz, hc, hWi⟩, hi⟩

end Verif.ChebyshevFloat
