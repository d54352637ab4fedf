import Verif.Lemmas.ChebyshevFloatSections
import Verif.Props.DesignFloat

/-
C136, C137: the Chebyshev filter designs with rounding.
-/

namespace Verif
open ChebyshevFloat DesignFloat

/-! ### Real numbers -/

namespace ChebyshevFloat

theorem real_angle (N i : ℤ) : angle realMath N i = Design.angle N i := by
  unfold angle Design.angle
  split_ifs with h
  · change (do CNum.div (← (CNum.mul Real.pi (← CLit.lit (N - 1 + 2 * i)))) (← CLit.lit (2 * N)) : Res ℝ) = _
    have e1 : (CLit.lit (N - 1 + 2 * i) : Res ℝ) = .ok (N - 1 + 2 * i) := congrArg Except.ok (by push_cast; ring)
    have e2 : (CLit.lit (2 * N) : Res ℝ) = .ok (2 * N) := congrArg Except.ok (by push_cast; ring)
    rw [e1, bind_ok, e2]
    rfl
  · rfl

theorem real_sgn (low : Bool) : (sgn low : Res ℝ) = .ok (Design.sgn low) := by
  cases low
  · exact congrArg Except.ok (by norm_num [Design.sgn])
  · rfl

theorem real_pow (low : Bool) (x : ℝ) : realMath.pow x (Design.sgn low) = Design.powSign low x := by
  change (if x = 0 ∧ Design.sgn low < 0 then (.error .divByZero : Res ℝ) else .ok (x ^ Design.sgn low)) = _
  cases low
  · simp only [Design.powSign, Design.sgn, RealFun.div, Bool.false_eq_true, if_false]
    by_cases h : x = 0
    · rw [if_pos ⟨h, by norm_num⟩, if_pos h]
    · rw [if_neg (fun h' => h h'.1), if_neg h, Real.rpow_neg_one, one_div]
  · simp only [Design.powSign, Design.sgn, if_true]
    rw [if_neg (by norm_num), Real.rpow_one]

theorem real_ripple (A : ℝ) : ripple realMath A = RealFun.sqrt (RealFun.pow10 (A / 10) - 1) := by
  change (do realMath.sqrt (← CNum.sub (← realMath.pow10 (← CNum.div A (← CLit.lit 10))) CNum.one) : Res ℝ) = _
  have e1 : (CLit.lit 10 : Res ℝ) = .ok 10 := rfl
  have e2 : (CNum.div A 10 : Res ℝ) = .ok (A / 10) := if_neg (by norm_num)
  rw [e1, bind_ok, e2]
  rfl

theorem real_order (low : Bool) (fs fpass fstop Apass Astop : ℝ) :
    order realMath low fs fpass fstop Apass Astop =
      (Design.chebyshev_order low fs fpass fstop Apass Astop).map fun x => (Design.sgn low, x) := by
  unfold order Design.chebyshev_order
  have e1 : (CLit.lit 2 : Res ℝ) = .ok 2 := rfl
  have e2 : (CNum.div fs 2 : Res ℝ) = .ok (fs / 2) := if_neg (by norm_num)
  have hlt (x y : ℝ) : (!realMath.lt x y) = true ↔ ¬ x < y := by
    change (!decide (x < y)) = true ↔ _
    simp
  have hdiv (a b : ℝ) : (CNum.div a b : Res ℝ) = RealFun.div a b := rfl
  have hpre (f : ℝ) : DesignFloat.prewarp realMath.toMath f fs = Design.prewarp f fs := rfl
  have hac (x : ℝ) : realMath.acosh x = RealFun.acosh x := rfl
  have hci (x : ℝ) : realMath.ceilInt x = RealFun.ceilInt x := rfl
  rw [e1, bind_ok, e2, bind_ok]
  simp only [hlt, real_sgn, bind_ok, real_pow, real_ripple, hdiv, hpre, hac, hci]
  split_ifs
  rotate_left
  · rfl
  · rfl
  cases Design.prewarp fpass fs with
  | error e => rfl
  | ok x =>
  simp only [bind_ok]
  cases Design.powSign low x with
  | error e => rfl
  | ok Wpass =>
  simp only [bind_ok]
  cases Design.prewarp fstop fs with
  | error e => rfl
  | ok y =>
  simp only [bind_ok]
  cases Design.powSign low y with
  | error e => rfl
  | ok Wstop =>
  simp only [bind_ok]
  cases RealFun.sqrt (RealFun.pow10 (Apass / 10) - 1) with
  | error e => rfl
  | ok epass =>
  simp only [bind_ok]
  cases RealFun.sqrt (RealFun.pow10 (Astop / 10) - 1) with
  | error e => rfl
  | ok estop =>
  simp only [bind_ok]
  cases RealFun.div estop epass with
  | error e => rfl
  | ok t =>
  simp only [bind_ok]
  cases RealFun.acosh t with
  | error e => rfl
  | ok t1 =>
  simp only [bind_ok]
  cases RealFun.div Wstop Wpass with
  | error e => rfl
  | ok t2 =>
  simp only [bind_ok]
  cases RealFun.acosh t2 with
  | error e => rfl
  | ok t3 =>
  simp only [bind_ok]
  cases RealFun.div t1 t3 with
  | error e => rfl
  | ok Nex =>
  simp only [bind_ok]
  cases RealFun.ceilInt Nex <;> rfl

/-- The coefficients in the one and the other form. -/
def same (d : Design.Digital) : Digital ℝ := ⟨d.b, d.a, d.N⟩

theorem same_push (d : Design.Digital) (b : BqB ℝ) (a : BqA ℝ) : same (d.push b a) = (same d).push (b, a) := rfl
theorem map_ok {α β : Type} (f : α → β) (a : α) : Except.map f (.ok a : Res α) = .ok (f a) := rfl
theorem map_error {α β : Type} (f : α → β) (e : Err) : Except.map f (.error e : Res α) = .error e := rfl

theorem real_start (s W0 : ℝ) (r N : ℤ) : start r N s W0 = (Design.firstOrder r s W0 ⟨[], [], N⟩).map same := by
  unfold Design.firstOrder start first
  have hadd (a b : ℝ) : (CNum.add a b : Res ℝ) = .ok (a + b) := rfl
  have hsub (a b : ℝ) : (CNum.sub a b : Res ℝ) = .ok (a - b) := rfl
  have hmul (a b : ℝ) : (CNum.mul a b : Res ℝ) = .ok (a * b) := rfl
  have hdiv (a b : ℝ) : (CNum.div a b : Res ℝ) = RealFun.div a b := rfl
  have hone : (CNum.one : ℝ) = 1 := rfl
  have hzero : (CNum.zero : ℝ) = 0 := rfl
  have h2 : (CLit.lit 2 : Res ℝ) = .ok 2 := rfl
  split_ifs with h
  · simp only [hadd, hsub, hmul, hone, hzero, h2, bind_ok, hdiv]
    cases RealFun.div 1 (1 + W0) <;> rfl
  · rfl

theorem real_loop (n : ℕ) (body : ℤ → Res (BqB ℝ × BqA ℝ)) (body' : ℤ → Design.Digital → Res Design.Digital)
    (h : ∀ i d, (body' i d).map same = do .ok ((same d).push (← body i))) (d : Design.Digital) :
    forRange n (fun k coeff => do .ok (coeff.push (← body (k + 1)))) (same d) =
      (forRange n (fun k d => body' (k + 1) d) d).map same := by
  induction n with
  | zero => rfl
  | succ n ih =>
    rw [forRange_succ, forRange_succ, ih]
    cases forRange n (fun k d => body' (k + 1) d) d with
    | error e => rfl
    | ok d' => exact (h (n + 1) d').symm

/-- `bind_ok` as an equation only, not as a definitional unfolding. -/
theorem ok_bind {α β : Type} (a : α) (f : α → Res β) : ((Except.ok a : Res α) >>= f) = f a := id rfl

theorem map_do {α : Type} (x : Res α) {f : α → Res Design.Digital} {g : α → Res (BqB ℝ × BqA ℝ)} (d : Design.Digital)
    (h : ∀ a, Except.map same (f a) = (g a >>= fun y => .ok ((same d).push y))) :
    Except.map same (x >>= f) = ((x >>= g) >>= fun y => .ok ((same d).push y)) := by
  cases x with
  | error e => rfl
  | ok a => exact h a

theorem real_section1 (N i : ℤ) (s W0 Wpass : ℝ) (d : Design.Digital) :
    Except.map same (do
      let th ← Design.angle N i
      let G ← RealFun.div (W0 * W0 + Wpass * Real.sin th * (Wpass * Real.sin th))
        (1 - 2 * W0 * Real.cos th + W0 * W0 + Wpass * Real.sin th * (Wpass * Real.sin th))
      let a1 ← RealFun.div (2 * (W0 * W0 + Wpass * Real.sin th * (Wpass * Real.sin th) - 1))
        (1 - 2 * W0 * Real.cos th + W0 * W0 + Wpass * Real.sin th * (Wpass * Real.sin th))
      let a2 ← RealFun.div (1 + 2 * W0 * Real.cos th + W0 * W0 + Wpass * Real.sin th * (Wpass * Real.sin th))
        (1 - 2 * W0 * Real.cos th + W0 * W0 + Wpass * Real.sin th * (Wpass * Real.sin th))
      .ok (d.push ⟨G, G * s * 2, G⟩ ⟨s * a1, a2⟩) : Res Design.Digital) =
    (do .ok ((same d).push (← (do
      let th ← angle realMath N i
      let Wi ← CNum.mul Wpass (← realMath.sin th)
      section1 s W0 Wi (← realMath.cos th) : Res (BqB ℝ × BqA ℝ)))) : Res (Digital ℝ)) := by
  have hadd (a b : ℝ) : (CNum.add a b : Res ℝ) = .ok (a + b) := rfl
  have hsub (a b : ℝ) : (CNum.sub a b : Res ℝ) = .ok (a - b) := rfl
  have hmul (a b : ℝ) : (CNum.mul a b : Res ℝ) = .ok (a * b) := rfl
  have hdiv (a b : ℝ) : (CNum.div a b : Res ℝ) = RealFun.div a b := rfl
  have hone : (CNum.one : ℝ) = 1 := rfl
  have h2 : (CLit.lit 2 : Res ℝ) = .ok 2 := rfl
  have hsin (x : ℝ) : realMath.sin x = .ok (Real.sin x) := rfl
  have hcos (x : ℝ) : realMath.cos x = .ok (Real.cos x) := rfl
  rw [real_angle]
  cases Design.angle N i with
  | error e => simp only [map_error, bind_error]
  | ok th =>
    simp only [section1, mid, den, num, ok_bind, hsin, hcos, hmul, hadd, hsub, hdiv, hone, h2]
    simp only [RealFun.div]
    split_ifs <;> simp only [map_ok, map_error, ok_bind, bind_error, same_push]

theorem real_section2 (N i : ℤ) (s W0 Wstop : ℝ) (d : Design.Digital) :
    Except.map same (do
      let th ← Design.angle N i
      let Wi ← RealFun.div (Real.sin th) Wstop
      let G ← RealFun.div (1 + Wi * Wi) (1 - 2 * W0 * Real.cos th + W0 * W0 + Wi * Wi)
      let b1 ← RealFun.div (2 * (1 - Wi * Wi)) (1 + Wi * Wi)
      let a1 ← RealFun.div (2 * (1 - W0 * W0 - Wi * Wi)) (1 - 2 * W0 * Real.cos th + W0 * W0 + Wi * Wi)
      let a2 ← RealFun.div (1 + 2 * W0 * Real.cos th + W0 * W0 + Wi * Wi) (1 - 2 * W0 * Real.cos th + W0 * W0 + Wi * Wi)
      .ok (d.push ⟨G, G * s * b1, G⟩ ⟨s * a1, a2⟩) : Res Design.Digital) =
    (do .ok ((same d).push (← (do
      let th ← angle realMath N i
      let Wi ← CNum.div (← realMath.sin th) Wstop
      section2 s W0 Wi (← realMath.cos th) : Res (BqB ℝ × BqA ℝ)))) : Res (Digital ℝ)) := by
  have hadd (a b : ℝ) : (CNum.add a b : Res ℝ) = .ok (a + b) := rfl
  have hsub (a b : ℝ) : (CNum.sub a b : Res ℝ) = .ok (a - b) := rfl
  have hmul (a b : ℝ) : (CNum.mul a b : Res ℝ) = .ok (a * b) := rfl
  have hdiv (a b : ℝ) : (CNum.div a b : Res ℝ) = RealFun.div a b := rfl
  have hone : (CNum.one : ℝ) = 1 := rfl
  have h2 : (CLit.lit 2 : Res ℝ) = .ok 2 := rfl
  have hsin (x : ℝ) : realMath.sin x = .ok (Real.sin x) := rfl
  have hcos (x : ℝ) : realMath.cos x = .ok (Real.cos x) := rfl
  rw [real_angle]
  refine map_do _ d fun th => ?_
  have e : (do
      let Wi ← CNum.div (← realMath.sin th) Wstop
      section2 s W0 Wi (← realMath.cos th) : Res (BqB ℝ × BqA ℝ)) =
      (RealFun.div (Real.sin th) Wstop >>= fun Wi => section2 s W0 Wi (Real.cos th)) := by
    rw [hsin, ok_bind, hdiv, hcos]
    simp only [ok_bind]
  rw [e]
  refine map_do _ d fun Wi => ?_
  simp only [section2, mid, den, num, ok_bind, hmul, hadd, hsub, hdiv, hone, h2]
  simp only [RealFun.div]
  split_ifs <;> simp only [map_ok, map_error, ok_bind, bind_error, same_push]

theorem real_asinhN (estop : ℝ) (N : ℤ) : asinhN realMath estop N = RealFun.div (Real.arsinh estop) N := rfl

theorem real_least (A : ℝ) : least realMath A = max A 0.01 := by
  change (if decide (A < 0.01) = true then (0.01 : ℝ) else A) = _
  by_cases h : A < 0.01
  · rw [if_pos (by simpa using h), max_eq_right h.le]
  · rw [if_neg (by simpa using h), max_eq_left (not_lt.1 h)]

end ChebyshevFloat

/-- C136: for real numbers the designs for any numeric type are those analysed before. -/
theorem C136_real (low : Bool) (fs fpass fstop Apass Astop : ℝ) :
    chebyshev1_lp_hp realMath low fs fpass fstop Apass Astop =
      (Design.chebyshev1_lp_hp low fs fpass fstop Apass Astop).map (fun d => ⟨d.b, d.a, d.N⟩) ∧
    chebyshev2_lp_hp realMath low fs fpass fstop Apass Astop =
      (Design.chebyshev2_lp_hp low fs fpass fstop Apass Astop).map (fun d => ⟨d.b, d.a, d.N⟩) := by
  unfold chebyshev1_lp_hp chebyshev2_lp_hp Design.chebyshev1_lp_hp Design.chebyshev2_lp_hp
  rw [real_least, real_least]
  generalize max Apass 0.01 = Apass
  generalize max Astop 0.01 = Astop
  unfold chebyshev1_lp_hp_impl chebyshev2_lp_hp_impl Design.chebyshev1_lp_hp_impl Design.chebyshev2_lp_hp_impl
  rw [real_order]
  cases Design.chebyshev_order low fs fpass fstop Apass Astop with
  | error e => simp only [map_error, bind_error, and_self]
  | ok x =>
    obtain ⟨Wpass, Wstop, epass, estop, N⟩ := x
    have hsinh (x : ℝ) : realMath.sinh x = .ok (Real.sinh x) := rfl
    have hmul (a b : ℝ) : (CNum.mul a b : Res ℝ) = .ok (a * b) := rfl
    have hdiv (a b : ℝ) : (CNum.div a b : Res ℝ) = RealFun.div a b := rfl
    rw [show Except.map (fun x => (Design.sgn low, x)) (Except.ok (Wpass, Wstop, epass, estop, N) : Res _) =
      .ok (Design.sgn low, Wpass, Wstop, epass, estop, N) from map_ok _ _]
    simp only [ok_bind, real_asinhN]
    cases RealFun.div (Real.arsinh estop) N with
    | error e => simp only [map_error, bind_error, and_self]
    | ok a =>
      simp only [ok_bind, hsinh, hmul (Real.sinh a) Wpass]
      rw [hdiv (Real.sinh a) Wstop]
      refine ⟨?_, ?_⟩
      · unfold sections
        rw [real_start]
        cases Design.firstOrder (N % 2) (Design.sgn low) (Real.sinh a * Wpass) ⟨[], [], N⟩ with
        | error e => simp only [map_error, bind_error]
        | ok d =>
          simp only [map_ok, ok_bind, Design.forOneTo]
          exact real_loop _ _ _ (fun i d => real_section1 N i (Design.sgn low) (Real.sinh a * Wpass) Wpass d) d
      · cases RealFun.div (Real.sinh a) Wstop with
        | error e => simp only [map_error, bind_error]
        | ok W0 =>
          simp only [ok_bind]
          unfold sections
          rw [real_start]
          cases Design.firstOrder (N % 2) (Design.sgn low) W0 ⟨[], [], N⟩ with
          | error e => simp only [map_error, bind_error]
          | ok d =>
            simp only [map_ok, ok_bind, Design.forOneTo]
            exact real_loop _ _ _ (fun i d => real_section2 N i (Design.sgn low) W0 Wstop d) d

variable {F : Ieee.Format}

/-! ### Poles -/

private theorem zip_fst_snd {α β : Type} (l : List (α × β)) : (l.map Prod.fst).zip (l.map Prod.snd) = l := by
  induction l with
  | nil => rfl
  | cons x l ih => rw [List.map_cons, List.map_cons, List.zip_cons_cons, ih]

private theorem root_real {a1 a2 : ℚ} (h2 : |a2| ≤ 1) (z : ℂ) (hz : z ^ 2 + a1 * z + a2 = 0) (hi : z.im ≠ 0) : ‖z‖ ≤ 1 := by
  have e1 := congrArg Complex.im hz
  have e2 := congrArg Complex.re hz
  simp only [pow_two, Complex.add_im, Complex.mul_im, Complex.add_re, Complex.mul_re, Complex.ratCast_re,
    Complex.ratCast_im, Complex.zero_im, Complex.zero_re] at e1 e2
  have e3 : 2 * z.re + (a1 : ℝ) = 0 := by
    have : z.im * (2 * z.re + (a1 : ℝ)) = 0 := by linarith
    exact (mul_eq_zero.1 this).resolve_left hi
  have e4 : ‖z‖ ^ 2 = (a2 : ℝ) := by
    rw [← Complex.normSq_eq_norm_sq, Complex.normSq_apply]
    have : (a1 : ℝ) = -2 * z.re := by linarith
    rw [this] at e2
    linarith
  have h2' : (a2 : ℝ) ≤ 1 := by exact_mod_cast (abs_le.1 h2).2
  nlinarith [norm_nonneg z]

/-- C136: whatever the functions of `<cmath>` deliver, a Chebyshev design in floating point for which no term of a
denominator is lost against the others has its poles inside the unit circle. -/
theorem C136_stable (hF : Usual F) (M : ChebyshevFloat.Math (Flt F)) (k : Kind) (low : Bool) (fs fpass fstop Apass Astop : Flt F)
    (coeff : Digital (Flt F)) (h : design M k low fs fpass fstop Apass Astop = .ok coeff)
    (h1 : ∀ W0, FirstValue M k low fs fpass fstop Apass Astop W0 → 0 ≤ W0.val ∧ ClearFirst F W0.val)
    (h2 : ∀ W0 Wi c, Values M k low fs fpass fstop Apass Astop W0 Wi c →
      0 ≤ W0.val ∧ c.val ≤ 0 ∧ Clear F W0.val Wi.val c.val) :
    coeff.b.length = coeff.a.length ∧ ∀ a ∈ coeff.a, ∀ z : ℂ, z ^ 2 + (a.a1.val : ℂ) * z + (a.a2.val : ℂ) = 0 → ‖z‖ < 1 := by
  obtain ⟨l, hb, ha, -, s, hs, -, hl⟩ := design_list h
  refine ⟨by rw [hb, ha, List.length_map, List.length_map], fun a hA => ?_⟩
  rw [ha] at hA
  obtain ⟨x, hx, rfl⟩ := List.mem_map.1 hA
  refine poles_inside ?_
  rcases hl x hx with ⟨W0, hv, hf⟩ | ⟨W0, Wi, c, hv, hf⟩
  · obtain ⟨n0, hc⟩ := h1 W0 hv
    obtain ⟨-, -, a2, -, hlt⟩ := firstSection hs n0 hf
    unfold InTriangle
    rw [a2, abs_zero, add_zero]
    exact ⟨zero_lt_one, hlt hF hc⟩
  · obtain ⟨n0, c0, hc⟩ := h2 W0 Wi c hv
    cases k with
    | type1 => exact (denominator1 hF hs n0 c0 hf).2 hc
    | type2 => exact (denominator2 hF hs n0 c0 hf).2 hc

/-- C136: the coefficients of a Chebyshev design in floating point are within 32 roundoffs of the exact ones for the
values computed from the specification; there are half as many sections as the order, rounded up. -/
theorem C136_accuracy (hF : Usual F) (M : ChebyshevFloat.Math (Flt F)) (k : Kind) (low : Bool) (fs fpass fstop Apass Astop : Flt F)
    (coeff : Digital (Flt F)) (h : design M k low fs fpass fstop Apass Astop = .ok coeff)
    (h1 : ∀ W0, FirstValue M k low fs fpass fstop Apass Astop W0 → 0 ≤ W0.val)
    (h2 : ∀ W0 Wi c, Values M k low fs fpass fstop Apass Astop W0 Wi c → 0 ≤ W0.val ∧ c.val ≤ 0) :
    (0 ≤ coeff.N → (coeff.a.length : ℤ) = (coeff.N + 1) / 2) ∧
    ∀ x ∈ coeff.b.zip coeff.a,
      (∃ W0, FirstValue M k low fs fpass fstop Apass Astop W0 ∧
        Near (32 * unit F) ⟨x.1, x.2⟩ (exactFirst low W0.val)) ∨
      (∃ W0 Wi c, Values M k low fs fpass fstop Apass Astop W0 Wi c ∧
        Near (32 * unit F) ⟨x.1, x.2⟩ (ChebyshevFloat.exact k low W0.val Wi.val c.val)) := by
  obtain ⟨l, hb, ha, hn, s, hs, -, hl⟩ := design_list h
  refine ⟨fun h0 => ?_, fun x hx => ?_⟩
  · rw [ha, List.length_map, hn]
    omega
  · rw [hb, ha, zip_fst_snd] at hx
    rcases hl x hx with ⟨W0, hv, hf⟩ | ⟨W0, Wi, c, hv, hf⟩
    · exact .inl ⟨W0, hv, firstAccuracy hF hs (h1 W0 hv) hf⟩
    · obtain ⟨n0, c0⟩ := h2 W0 Wi c hv
      refine .inr ⟨W0, Wi, c, hv, ?_⟩
      cases k with
      | type1 => exact (denominator1 hF hs n0 c0 hf).1
      | type2 => exact (denominator2 hF hs n0 c0 hf).1

/-- C136: in any format, and for any loss of terms, no section has a pole outside the unit circle that is not real: only
a real pole can be pushed out by rounding, and that of the first-order section cannot. -/
theorem C136_complex (M : ChebyshevFloat.Math (Flt F)) (k : Kind) (low : Bool) (fs fpass fstop Apass Astop : Flt F)
    (coeff : Digital (Flt F)) (h : design M k low fs fpass fstop Apass Astop = .ok coeff)
    (h1 : ∀ W0, FirstValue M k low fs fpass fstop Apass Astop W0 → 0 ≤ W0.val)
    (h2 : ∀ W0 Wi c, Values M k low fs fpass fstop Apass Astop W0 Wi c → 0 ≤ W0.val ∧ c.val ≤ 0) :
    (∀ a ∈ coeff.a, ∀ z : ℂ, z ^ 2 + (a.a1.val : ℂ) * z + (a.a2.val : ℂ) = 0 → z.im ≠ 0 → ‖z‖ ≤ 1) ∧
    (coeff.N % 2 = 1 → ∃ a, coeff.a.head? = some a ∧
      ∀ z : ℂ, z ^ 2 + (a.a1.val : ℂ) * z + (a.a2.val : ℂ) = 0 → ‖z‖ ≤ 1) := by
  obtain ⟨l, hb, ha, -, s, hs, hh, hl⟩ := design_list h
  refine ⟨fun a hA z hz hi => root_real ?_ z hz hi, fun hodd => ?_⟩
  · rw [ha] at hA
    obtain ⟨x, hx, rfl⟩ := List.mem_map.1 hA
    rcases hl x hx with ⟨W0, hv, hf⟩ | ⟨W0, Wi, c, hv, hf⟩
    · rw [(firstSection hs (h1 W0 hv) hf).2.2.1, abs_zero]
      exact zero_le_one
    · obtain ⟨n0, c0⟩ := h2 W0 Wi c hv
      cases k with
      | type1 => exact disc1 n0 c0 hf
      | type2 => exact disc2 n0 c0 hf
  · obtain ⟨x, W0, hx, hv, hf⟩ := hh hodd
    refine ⟨x.2, by rw [ha, List.head?_map, hx]; rfl, fun z hz => ?_⟩
    obtain ⟨-, -, a2, a1, -⟩ := firstSection hs (h1 W0 hv) hf
    rw [a2] at hz
    have hz' : z * (z + (x.2.a1.val : ℂ)) = 0 := by push_cast at hz; linear_combination hz
    rcases mul_eq_zero.1 hz' with h | h
    · rw [h, norm_zero]
      exact zero_le_one
    · rw [eq_neg_of_add_eq_zero_left h, norm_neg, ← Complex.ofReal_ratCast, Complex.norm_real, Real.norm_eq_abs]
      exact_mod_cast a1

/-! ### Zeros -/

private theorem circle_first {low : Bool} {b0 b1 b2 : ℚ} (h0 : b0 ≠ 0) (h1 : b1 = sign low * b0) (h2 : b2 = 0) :
    (∀ z : ℂ, z ≠ 0 → (b0 : ℂ) * z ^ 2 + (b1 : ℂ) * z + (b2 : ℂ) = 0 → ‖z‖ = 1) ∧
      ∃ t : ℝ, (b0 : ℂ) * Complex.exp (t * Complex.I) ^ 2 + (b1 : ℂ) * Complex.exp (t * Complex.I) + (b2 : ℂ) = 0 := by
  have h0' : (b0 : ℂ) ≠ 0 := by exact_mod_cast h0
  have e (z : ℂ) : (b0 : ℂ) * z ^ 2 + (b1 : ℂ) * z + (b2 : ℂ) = b0 * z * (z + (sign low : ℚ)) := by
    rw [h1, h2]; push_cast; ring
  constructor
  · intro z z0 hz
    rw [e, mul_eq_zero, or_iff_right (mul_ne_zero h0' z0)] at hz
    rw [eq_neg_of_add_eq_zero_left hz, norm_neg]
    cases low <;> norm_num [sign]
  · cases low
    · refine ⟨0, ?_⟩
      rw [e]
      norm_num [sign]
    · refine ⟨Real.pi, ?_⟩
      rw [e, Complex.exp_pi_mul_I]
      norm_num [sign]

private theorem circle_zeros {b0 b1 b2 : ℚ} (h0 : b0 ≠ 0) (h1 : |b1| ≤ 2 * |b0|) (h2 : b2 = b0) :
    (∀ z : ℂ, z ≠ 0 → (b0 : ℂ) * z ^ 2 + (b1 : ℂ) * z + (b2 : ℂ) = 0 → ‖z‖ = 1) ∧
      ∃ t : ℝ, (b0 : ℂ) * Complex.exp (t * Complex.I) ^ 2 + (b1 : ℂ) * Complex.exp (t * Complex.I) + (b2 : ℂ) = 0 := by
  have h0' : (b0 : ℝ) ≠ 0 := by exact_mod_cast h0
  have h0c : (b0 : ℂ) ≠ 0 := by exact_mod_cast h0
  have h1' : |(b1 : ℝ)| ≤ 2 * |(b0 : ℝ)| := by exact_mod_cast h1
  set c : ℝ := -(b1 / (2 * b0)) with hc
  have hc1 : |c| ≤ 1 := by
    rw [hc, abs_neg, abs_div, abs_mul, abs_two]
    exact div_le_one_of_le₀ h1' (by positivity)
  obtain ⟨c1, c2⟩ := abs_le.1 hc1
  have hcos := Real.cos_arccos c1 c2
  set t := Real.arccos c
  have hb1 : (b1 : ℂ) = -(2 * b0 * (Real.cos t : ℂ)) := by
    rw [hcos, hc]
    push_cast
    field_simp
  have hE : Complex.exp (t * Complex.I) * Complex.exp (-(t * Complex.I)) = 1 := by
    rw [← Complex.exp_add, add_neg_cancel, Complex.exp_zero]
  have h2c : 2 * (Real.cos t : ℂ) = Complex.exp (t * Complex.I) + Complex.exp (-(t * Complex.I)) := by
    rw [Complex.ofReal_cos, Complex.two_cos, neg_mul]
  have e (z : ℂ) : (b0 : ℂ) * z ^ 2 + (b1 : ℂ) * z + (b2 : ℂ)
      = b0 * ((z - Complex.exp (t * Complex.I)) * (z - Complex.exp (-(t * Complex.I)))) := by
    rw [hb1, h2]
    linear_combination (-(b0 : ℂ) * z) * h2c - (b0 : ℂ) * hE
  constructor
  · intro z _ hz
    rw [e, mul_eq_zero, or_iff_right h0c, mul_eq_zero, sub_eq_zero, sub_eq_zero] at hz
    rcases hz with h | h
    · rw [h, Complex.norm_exp_ofReal_mul_I]
    · rw [h, ← neg_mul, ← Complex.ofReal_neg, Complex.norm_exp_ofReal_mul_I]
  · refine ⟨t, ?_⟩
    rw [e, sub_self, zero_mul, mul_zero]

/-- C137: the zeros of a type 1 design in floating point are exact: they lie at -1 for low-pass and at +1 for high-pass
filters. -/
theorem C137_type1 (M : ChebyshevFloat.Math (Flt F)) (low : Bool) (fs fpass fstop Apass Astop : Flt F)
    (coeff : Digital (Flt F)) (h : design M .type1 low fs fpass fstop Apass Astop = .ok coeff) :
    ∀ b ∈ coeff.b, b.b0.val ≠ 0 → ∀ z : ℂ, z ≠ 0 →
      ((b.b0.val : ℂ) * z ^ 2 + (b.b1.val : ℂ) * z + (b.b2.val : ℂ) = 0 ↔ z = if low then -1 else 1) := by
  obtain ⟨l, hb, -, -, s, hs, -, hl⟩ := design_list h
  intro b hB b0 z z0
  rw [hb] at hB
  obtain ⟨x, hx, rfl⟩ := List.mem_map.1 hB
  have b0' : ((x.1.b0.val : ℚ) : ℂ) ≠ 0 := by exact_mod_cast b0
  have hs2 : ((sign low : ℚ) : ℂ) ^ 2 = 1 := by cases low <;> norm_num [sign]
  have hs3 : (if low then -1 else 1 : ℂ) = -((sign low : ℚ) : ℂ) := by cases low <;> norm_num [sign]
  rw [hs3]
  rcases hl x hx with ⟨W0, hv, hf⟩ | ⟨W0, Wi, c, hv, hf⟩
  · obtain ⟨e2, e1⟩ := firstNumerator hs hf
    have e3 : (x.1.b0.val : ℂ) * z ^ 2 + (x.1.b1.val : ℂ) * z + (x.1.b2.val : ℂ)
        = x.1.b0.val * z * (z + (sign low : ℚ)) := by
      rw [e1, e2]; push_cast; ring
    rw [e3, mul_eq_zero, or_iff_right (mul_ne_zero b0' z0), add_eq_zero_iff_eq_neg]
  · obtain ⟨e2, e1⟩ := numerator1 hs hf
    have e3 : (x.1.b0.val : ℂ) * z ^ 2 + (x.1.b1.val : ℂ) * z + (x.1.b2.val : ℂ)
        = x.1.b0.val * (z + (sign low : ℚ)) ^ 2 := by
      rw [e1, e2]; push_cast; linear_combination (-(x.1.b0.val : ℂ)) * hs2
    rw [e3, mul_eq_zero, or_iff_right b0', pow_eq_zero_iff two_ne_zero, add_eq_zero_iff_eq_neg]

/-- C137: the zeros of a type 2 design in floating point lie on the unit circle, so some frequency is rejected
completely. -/
theorem C137_type2 (M : ChebyshevFloat.Math (Flt F)) (low : Bool) (fs fpass fstop Apass Astop : Flt F)
    (coeff : Digital (Flt F)) (h : design M .type2 low fs fpass fstop Apass Astop = .ok coeff) :
    ∀ b ∈ coeff.b, b.b0.val ≠ 0 →
      (∀ z : ℂ, z ≠ 0 → (b.b0.val : ℂ) * z ^ 2 + (b.b1.val : ℂ) * z + (b.b2.val : ℂ) = 0 → ‖z‖ = 1) ∧
      ∃ t : ℝ, (b.b0.val : ℂ) * Complex.exp (t * Complex.I) ^ 2 + (b.b1.val : ℂ) * Complex.exp (t * Complex.I)
        + (b.b2.val : ℂ) = 0 := by
  obtain ⟨l, hb, -, -, s, hs, -, hl⟩ := design_list h
  intro b hB b0
  rw [hb] at hB
  obtain ⟨x, hx, rfl⟩ := List.mem_map.1 hB
  rcases hl x hx with ⟨W0, hv, hf⟩ | ⟨W0, Wi, c, hv, hf⟩
  · obtain ⟨e2, e1⟩ := firstNumerator hs hf
    exact circle_first b0 e1 e2
  · obtain ⟨e2, e1⟩ := numerator2 hs hf
    exact circle_zeros b0 e1 (by rw [e2])

/-! ### A case -/

/-- Functions that deliver the same everywhere, for the examples. -/
def constChebyshev {f : Ieee.Format} (K S Y C : Flt f) (N : ℤ) : ChebyshevFloat.Math (Flt f) where
  toMath := constMath K K
  pow x _ := .ok x
  acosh _ := .ok CNum.one
  asinh _ := .ok CNum.one
  sinh _ := .ok S
  sin _ := .ok Y
  cos _ := .ok C
  ceilInt _ := .ok N
  lt _ _ := true
  hundredth := CNum.one

/-- The conditions of C136 hold for the design of order 3 with `W0` = 1, `Wi` = 1/2 and the cosine -1/2, and there it
completes; some `b0` is not zero. -/
theorem C136_case : ∃ (M : ChebyshevFloat.Math (Flt Ieee.binary32)) (x : Flt Ieee.binary32) (coeff : Digital (Flt Ieee.binary32)),
    design M .type2 false x x x x x = .ok coeff ∧ coeff.N = 3 ∧ (∀ b ∈ coeff.b, b.b0.val ≠ 0) ∧
    (∃ W0, FirstValue M .type2 false x x x x x W0) ∧ (∃ W0 Wi c, Values M .type2 false x x x x x W0 Wi c) ∧
    (∀ W0, FirstValue M .type2 false x x x x x W0 → 0 ≤ W0.val ∧ ClearFirst Ieee.binary32 W0.val) ∧
    (∀ W0 Wi c, Values M .type2 false x x x x x W0 Wi c →
      0 ≤ W0.val ∧ c.val ≤ 0 ∧ Clear Ieee.binary32 W0.val Wi.val c.val) := by
  obtain ⟨Y, -, h⟩ := Res.of_yields (r := Flt.ofRat Ieee.binary32 (1 / 2)) (q := fun Y => Y.val == 1 / 2 &&
    Res.yields (Flt.ofRat Ieee.binary32 (-(1 / 2))) fun C => C.val == -(1 / 2) &&
    Res.yields (order (constChebyshev CNum.one CNum.one Y C 3) false CNum.one CNum.one CNum.one CNum.one CNum.one) (fun t =>
      t.2.2.1.val == 1 && t.2.2.2.2.2 == 3 &&
      (Res.yields (asinhN (constChebyshev CNum.one CNum.one Y C 3) t.2.2.2.2.1 3) fun _ => true) &&
      (Res.yields (CNum.div CNum.one t.2.2.1) fun _ => true) && (Res.yields (CNum.div Y t.2.2.1) fun _ => true)) &&
    (Res.yields (angle (constChebyshev CNum.one CNum.one Y C 3) 3 1) fun _ => true) &&
    Res.yields (design (constChebyshev CNum.one CNum.one Y C 3) .type2 false CNum.one CNum.one CNum.one CNum.one CNum.one)
      (fun coeff => coeff.N == 3 && coeff.b.all fun b => b.b0.val != 0))
    (by decide +kernel)
  rw [Bool.and_eq_true, beq_iff_eq] at h
  obtain ⟨vY, h⟩ := h
  obtain ⟨C, -, h⟩ := Res.of_yields h
  simp only [Bool.and_eq_true, beq_iff_eq] at h
  obtain ⟨⟨⟨vC, ho⟩, hth⟩, hd⟩ := h
  obtain ⟨coeff, hd, h⟩ := Res.of_yields hd
  simp only [Bool.and_eq_true, beq_iff_eq, List.all_eq_true, bne_iff_ne] at h
  obtain ⟨⟨s, Wpass, Wstop, epass, estop, N⟩, ho, ht⟩ := Res.of_yields ho
  simp only [Bool.and_eq_true, beq_iff_eq] at ht
  obtain ⟨⟨⟨⟨vW, rfl⟩, ha⟩, h1⟩, h2⟩ := ht
  obtain ⟨th, hth, -⟩ := Res.of_yields hth
  obtain ⟨a, ha, -⟩ := Res.of_yields ha
  obtain ⟨w0, h1, -⟩ := Res.of_yields h1
  obtain ⟨wi, h2, -⟩ := Res.of_yields h2
  have hW0 {W0 : Flt Ieee.binary32} (h : CNum.div CNum.one Wstop = .ok W0) : W0.val = 1 := by
    rw [(div_val h).2, vW, one_val, div_one, rnd_one]
  refine ⟨_, CNum.one, coeff, hd, h.1, h.2, ⟨w0, s, Wpass, Wstop, epass, estop, 3, a, CNum.one, ho, rfl, ha, rfl, h1⟩,
    ⟨w0, wi, C, s, Wpass, Wstop, epass, estop, 3, a, CNum.one, th, Y, 1, ho, ha, rfl, h1, le_rfl, by norm_num, hth, rfl, rfl, h2⟩,
    ?_, ?_⟩
  · rintro W0 ⟨s', Wp', Ws', ep', es', N', a', x, ho', -, -, hx, hw⟩
    obtain rfl := Except.ok.inj hx
    rw [ho] at ho'
    simp only [Except.ok.injEq, Prod.mk.injEq] at ho'
    obtain ⟨-, -, rfl, -⟩ := ho'
    rw [hW0 hw]
    unfold ClearFirst unit Ieee.binary32
    norm_num
  · rintro W0 Wi c ⟨s', Wp', Ws', ep', es', N', a', x, th', y, i, ho', -, hx, hw, -, -, -, hy, hc, hwi⟩
    obtain rfl := Except.ok.inj hx
    obtain rfl := Except.ok.inj hy
    obtain rfl := Except.ok.inj hc
    rw [ho] at ho'
    simp only [Except.ok.injEq, Prod.mk.injEq] at ho'
    obtain ⟨-, -, rfl, -⟩ := ho'
    rw [hW0 hw, vC, (div_val hwi).2, vW, div_one, Ieee.rnd_rep _ Y.rep, vY]
    unfold Clear weight unit Ieee.binary32
    norm_num

example := C136_case

/-- A type 1 design with `b0` not zero. -/
example : ∃ (M : ChebyshevFloat.Math (Flt Ieee.binary32)) (x : Flt Ieee.binary32) (coeff : Digital (Flt Ieee.binary32)),
    design M .type1 true x x x x x = .ok coeff ∧ coeff.b.length = 2 ∧ ∀ b ∈ coeff.b, b.b0.val ≠ 0 := by
  obtain ⟨Y, -, h⟩ := Res.of_yields (r := Flt.ofRat Ieee.binary32 (1 / 2)) (q := fun Y =>
    Res.yields (design (constChebyshev Y CNum.one Y Y 3) .type1 true CNum.one CNum.one CNum.one CNum.one CNum.one)
      (fun coeff => coeff.b.length == 2 && coeff.b.all fun b => b.b0.val != 0))
    (by decide +kernel)
  obtain ⟨coeff, hd, h⟩ := Res.of_yields h
  simp only [Bool.and_eq_true, beq_iff_eq, List.all_eq_true, bne_iff_ne] at h
  exact ⟨_, _, coeff, hd, h⟩

/-! ### Too low a frequency -/

/-- A number of `float` with at least 24 digits is the nearest to all within half a unit of the last one. -/
private theorem nearest32 {K : Flt Ieee.binary32} {m : ℤ} {k : ℕ} (hm : 2 ^ 23 < m)
    (vK : K.val = m / 2 ^ k) {x : ℝ} (hx : |x - m / 2 ^ k| ≤ 1 / 2 ^ (k + 1)) : Nearest x K := by
  intro z
  by_cases hz : z.val = K.val
  · rw [hz]
  have hk : (0 : ℚ) < 2 ^ k := by positivity
  have gap : 1 / 2 ^ k ≤ |z.val - K.val| := by
    by_contra hlt
    push Not at hlt
    rw [vK, abs_lt] at hlt
    obtain ⟨⟨n, e, hn, he, hv⟩, -⟩ := z.rep
    have hm1 : (2 ^ 23 : ℚ) + 1 ≤ m := by exact_mod_cast hm
    have hz1 : 2 ^ 23 / 2 ^ k < z.val := by
      have : (2 ^ 23 : ℚ) / 2 ^ k + 1 / 2 ^ k ≤ m / 2 ^ k := by
        rw [← add_div]
        exact div_le_div_of_nonneg_right hm1 hk.le
      linarith [hlt.1]
    have he1 : -(k : ℤ) ≤ e := by
      by_contra hlt'
      push Not at hlt'
      have h1 : (2 : ℚ) ^ e ≤ 2 ^ (-(k : ℤ) - 1) := zpow_le_zpow_right₀ (by norm_num) (by omega)
      have h2 : ((|n| : ℤ) : ℚ) ≤ 2 ^ 24 := by exact_mod_cast hn.le
      have h3 : z.val ≤ 2 ^ 24 * 2 ^ (-(k : ℤ) - 1) := by
        rw [hv]
        refine (mul_le_mul_of_nonneg_right ?_ (zpow_pos (by norm_num) _).le).trans (mul_le_mul_of_nonneg_left h1 (by norm_num))
        exact le_trans (by exact_mod_cast le_abs_self n) h2
      have h4 : (2 : ℚ) ^ 24 * 2 ^ (-(k : ℤ) - 1) = 2 ^ 23 / 2 ^ k := by
        rw [zpow_sub₀ (by norm_num), zpow_neg, zpow_natCast]
        norm_num
        ring
      linarith
    obtain ⟨j, hj⟩ := Int.eq_ofNat_of_zero_le (show 0 ≤ e + k by omega)
    have hv' : z.val = ((n * 2 ^ j : ℤ) : ℚ) / 2 ^ k := by
      rw [hv, show e = j + (-(k : ℤ)) by omega, zpow_add₀ (by norm_num), zpow_natCast, zpow_neg, zpow_natCast]
      push_cast
      ring
    rw [vK, hv'] at hz
    rw [hv', ← sub_div, div_lt_div_iff_of_pos_right hk, neg_lt, ← neg_div, div_lt_div_iff_of_pos_right hk] at hlt
    have j1 : -(n * 2 ^ j - m) < (1 : ℤ) := by exact_mod_cast hlt.1
    have j2 : n * 2 ^ j - m < (1 : ℤ) := by exact_mod_cast hlt.2
    have j3 : n * 2 ^ j = m := by omega
    exact hz (by rw [j3])
  have gap' : (1 / 2 ^ k : ℝ) ≤ |(z.val : ℝ) - (K.val : ℝ)| := by
    have : ((1 / 2 ^ k : ℚ) : ℝ) ≤ ((|z.val - K.val| : ℚ) : ℝ) := by exact_mod_cast gap
    push_cast at this
    exact this
  have vK' : (K.val : ℝ) = m / 2 ^ k := by rw [vK]; push_cast; rfl
  rw [← vK'] at hx
  have tri := abs_sub_le (z.val : ℝ) x (K.val : ℝ)
  rw [abs_sub_comm] at hx
  have e : (1 / 2 ^ k : ℝ) = 1 / 2 ^ (k + 1) + 1 / 2 ^ (k + 1) := by rw [pow_succ]; field_simp; norm_num
  rw [abs_sub_comm x] at tri
  linarith

private theorem tan_one : |Real.tan (Real.pi * 1 / 44100) - (9790866 : ℤ) / 2 ^ 37| ≤ 1 / 2 ^ 38 := by
  have p1 := Real.pi_gt_d20
  have p2 := Real.pi_lt_d20
  set x := Real.pi * 1 / 44100 with hx
  have x1' : 3.14159265358979323846 / 44100 < x := by rw [hx]; linarith
  have x2' : x < 3.14159265358979323847 / 44100 := by rw [hx]; linarith
  have x0 : 0 < x := lt_trans (by norm_num) x1'
  have x3 : x < 1 / 10000 := x2'.trans (by norm_num)
  have hpi : x < Real.pi / 2 := by linarith
  have t1 : x < Real.tan x := Real.lt_tan x0 hpi
  have c1 := Real.one_sub_sq_div_two_le_cos (x := x)
  have s1 := Real.sin_lt x0
  have hc : 0 < 1 - x ^ 2 / 2 := by nlinarith
  have t2 : Real.tan x < x / (1 - x ^ 2 / 2) := by
    rw [Real.tan_eq_sin_div_cos, div_lt_div_iff₀ (by linarith) hc]
    nlinarith
  have t3 : x / (1 - x ^ 2 / 2) ≤ 979086645 / 100 / 2 ^ 37 := by
    rw [div_le_iff₀ hc]
    have : x ^ 2 ≤ (3.14159265358979323847 / 44100) ^ 2 := pow_le_pow_left₀ x0.le x2'.le 2
    norm_num at this x2' ⊢
    nlinarith
  rw [abs_le]
  constructor
  · norm_num at t1 x1' ⊢; linarith
  · norm_num at t2 t3 ⊢; linarith

private theorem root_half : |Real.sqrt 2 / 2 - (11863283 : ℤ) / 2 ^ 24| ≤ 1 / 2 ^ 25 := by
  have h1 : (1.4142135623 : ℝ) ≤ Real.sqrt 2 := Real.le_sqrt_of_sq_le (by norm_num)
  have h2 : Real.sqrt 2 ≤ 1.4142135624 := Real.sqrt_le_iff.2 (by norm_num)
  rw [abs_le]
  constructor <;> norm_num at * <;> linarith

private theorem sin_angle : Real.sin (3 * Real.pi / 4) = Real.sqrt 2 / 2 := by
  rw [show 3 * Real.pi / 4 = Real.pi - Real.pi / 4 by ring, Real.sin_pi_sub, Real.sin_pi_div_four]

private theorem cos_angle : Real.cos (3 * Real.pi / 4) = -(Real.sqrt 2 / 2) := by
  rw [show 3 * Real.pi / 4 = Real.pi - Real.pi / 4 by ring, Real.cos_pi_sub, Real.cos_pi_div_four]

private theorem nearest_neg {f : Ieee.Format} {x : ℝ} {y c : Flt f} (h : Nearest x y) (hc : c.val = -y.val) : Nearest (-x) c := by
  intro z
  obtain ⟨⟨n, e, hn, he, hv⟩, hm⟩ := z.rep
  have h' := h ⟨-z.val, ⟨-n, e, by rwa [abs_neg], he, by rw [hv]; push_cast; ring⟩, by rwa [abs_neg]⟩
  have e1 : |(c.val : ℝ) - -x| = |(y.val : ℝ) - x| := by
    rw [hc, ← abs_neg]
    push_cast
    congr 1
    ring
  have e2 : |(z.val : ℝ) - -x| = |((-z.val : ℚ) : ℝ) - x| := by
    rw [← abs_neg]
    push_cast
    congr 1
    ring
  rw [e1, e2]
  exact h'

/-- C136: without the condition the claim is wrong.  For a type 2 low-pass of order 2 with the stop band from 1 Hz at the
sampling frequency 44.1 kHz, designed in `float` with correctly rounded tangent, sine and cosine and `sinh( a )` = 1, the
filter has a pole at a real number greater than 1: it grows without bound. -/
theorem C136_low_frequency_wrong : ∃ K Y C : Flt Ieee.binary32, Nearest (Real.tan (Real.pi * 1 / 44100)) K ∧
    Nearest (Real.sin (3 * Real.pi / 4)) Y ∧ Nearest (Real.cos (3 * Real.pi / 4)) C ∧
    ∀ (M : ChebyshevFloat.Math (Flt Ieee.binary32)) (fs fpass fstop Apass Astop s Wpass epass estop a th : Flt Ieee.binary32),
      order M true fs fpass fstop Apass Astop = .ok (s, Wpass, K, epass, estop, 2) → asinhN M estop 2 = .ok a →
      M.sinh a = .ok CNum.one → angle M 2 1 = .ok th → M.sin th = .ok Y → M.cos th = .ok C →
      ∃ coeff, design M .type2 true fs fpass fstop Apass Astop = .ok coeff ∧
        ∃ A ∈ coeff.a, ∃ z : ℝ, 1 < z ∧ z ^ 2 + (A.a1.val : ℝ) * z + (A.a2.val : ℝ) = 0 := by
  obtain ⟨K, -, h⟩ := Res.of_yields (r := Flt.ofRat Ieee.binary32 (9790866 / 2 ^ 37)) (q := fun K => K.val == 9790866 / 2 ^ 37 &&
    Res.yields (Flt.ofRat Ieee.binary32 (11863283 / 2 ^ 24)) fun Y => Y.val == 11863283 / 2 ^ 24 &&
    Res.yields (Flt.ofRat Ieee.binary32 (-(11863283 / 2 ^ 24))) fun C => C.val == -(11863283 / 2 ^ 24) &&
    Res.yields (CNum.div CNum.one K) fun W0 => Res.yields (CNum.div Y K) fun Wi =>
    Res.yields (section2 CNum.one W0 Wi C) fun x =>
      decide (1 + x.2.a1.val + x.2.a2.val < 0) && decide (0 < 4 + 2 * x.2.a1.val + x.2.a2.val))
    (by decide +kernel)
  rw [Bool.and_eq_true, beq_iff_eq] at h
  obtain ⟨vK, h⟩ := h
  obtain ⟨Y, -, h⟩ := Res.of_yields h
  rw [Bool.and_eq_true, beq_iff_eq] at h
  obtain ⟨vY, h⟩ := h
  obtain ⟨C, -, h⟩ := Res.of_yields h
  rw [Bool.and_eq_true, beq_iff_eq] at h
  obtain ⟨vC, h⟩ := h
  obtain ⟨W0, hW0, h⟩ := Res.of_yields h
  obtain ⟨Wi, hWi, h⟩ := Res.of_yields h
  obtain ⟨x, hx, h⟩ := Res.of_yields h
  rw [Bool.and_eq_true, decide_eq_true_eq, decide_eq_true_eq] at h
  have nY : Nearest (Real.sqrt 2 / 2) Y := nearest32 (m := 11863283) (k := 24) (by norm_num) vY root_half
  refine ⟨K, Y, C, nearest32 (m := 9790866) (k := 37) (by norm_num) vK tan_one, sin_angle ▸ nY,
    cos_angle ▸ nearest_neg nY (by rw [vC, vY]), ?_⟩
  intro M fs fpass fstop Apass Astop s Wpass epass estop a th ho ha hsinh hth hsin hcos
  obtain rfl : CNum.one = s := Except.ok.inj (order_sgn ho)
  refine ⟨⟨[x.1], [x.2], 2⟩, ?_, x.2, List.mem_singleton.2 rfl, ?_⟩
  · have hth' : angle M 2 ((0 : ℕ) + 1) = .ok th := by rw [← hth]; rfl
    change chebyshev2_lp_hp_impl M true fs fpass fstop Apass Astop = _
    unfold chebyshev2_lp_hp_impl sections start
    rw [ho]
    simp only [bind_ok, ha, hsinh, hW0]
    rw [if_neg (by norm_num), bind_ok, show ((2 - 2 % 2 : ℤ) / 2).toNat = 0 + 1 from rfl, forRange_succ]
    rw [forRange_zero, bind_ok, hth', bind_ok, hsin, bind_ok, hWi, bind_ok, hcos, bind_ok, hx, bind_ok]
    unfold Digital.push
    rw [List.nil_append, List.nil_append]
  · have h1 : (1 : ℝ) + (x.2.a1.val : ℝ) + (x.2.a2.val : ℝ) < 0 := by exact_mod_cast h.1
    have h2 : (0 : ℝ) < 4 + 2 * (x.2.a1.val : ℝ) + (x.2.a2.val : ℝ) := by exact_mod_cast h.2
    obtain ⟨z, hz, hz0⟩ := intermediate_value_Ioo (a := (1 : ℝ)) (b := 2) (by norm_num)
      (f := fun z => z ^ 2 + (x.2.a1.val : ℝ) * z + (x.2.a2.val : ℝ)) (by fun_prop)
      (show (0 : ℝ) ∈ Set.Ioo _ _ from ⟨by norm_num; linarith, by norm_num; linarith⟩)
    exact ⟨z, hz.1, hz0⟩

/-- Functions that deliver these values. -/
example : ∃ K Y C : Flt Ieee.binary32, K.val = 9790866 / 2 ^ 37 ∧ Y.val = 11863283 / 2 ^ 24 ∧ C.val = -(11863283 / 2 ^ 24) ∧
    ∃ (M : ChebyshevFloat.Math (Flt Ieee.binary32)) (x s Wpass epass estop a th : Flt Ieee.binary32),
    order M true x x x x x = .ok (s, Wpass, K, epass, estop, 2) ∧ asinhN M estop 2 = .ok a ∧
    M.sinh a = .ok CNum.one ∧ angle M 2 1 = .ok th ∧ M.sin th = .ok Y ∧ M.cos th = .ok C := by
  obtain ⟨K, -, h⟩ := Res.of_yields (r := Flt.ofRat Ieee.binary32 (9790866 / 2 ^ 37)) (q := fun K => K.val == 9790866 / 2 ^ 37 &&
    Res.yields (Flt.ofRat Ieee.binary32 (11863283 / 2 ^ 24)) fun Y => Y.val == 11863283 / 2 ^ 24 &&
    Res.yields (Flt.ofRat Ieee.binary32 (-(11863283 / 2 ^ 24))) fun C => C.val == -(11863283 / 2 ^ 24) &&
    (Res.yields (order (constChebyshev K CNum.one Y C 2) true CNum.one CNum.one CNum.one CNum.one CNum.one) fun t =>
      decide (t.2.2.1 = K) && t.2.2.2.2.2 == 2 &&
      Res.yields (asinhN (constChebyshev K CNum.one Y C 2) t.2.2.2.2.1 2) fun _ => true) &&
    Res.yields (angle (constChebyshev K CNum.one Y C 2) 2 1) fun _ => true)
    (by decide +kernel)
  rw [Bool.and_eq_true, beq_iff_eq] at h
  obtain ⟨vK, h⟩ := h
  obtain ⟨Y, -, h⟩ := Res.of_yields h
  rw [Bool.and_eq_true, beq_iff_eq] at h
  obtain ⟨vY, h⟩ := h
  obtain ⟨C, -, h⟩ := Res.of_yields h
  simp only [Bool.and_eq_true, beq_iff_eq] at h
  obtain ⟨⟨vC, ho⟩, hth⟩ := h
  obtain ⟨⟨s, Wpass, Wstop, epass, estop, N⟩, ho, ht⟩ := Res.of_yields ho
  simp only [Bool.and_eq_true, beq_iff_eq, decide_eq_true_eq] at ht
  obtain ⟨⟨rfl, rfl⟩, ha⟩ := ht
  obtain ⟨th, hth, -⟩ := Res.of_yields hth
  obtain ⟨a, ha, -⟩ := Res.of_yields ha
  exact ⟨_, Y, C, vK, vY, vC, _, CNum.one, s, Wpass, epass, estop, a, th, ho, ha, rfl, hth, rfl, rfl⟩

end Verif
