import Verif.Lemmas.Chebyshev
import Verif.Lemmas.Design
import Verif.Props.Cascade

/- Lemmas on include/dsp/chebyshev-design.hpp: the sections are bilinear transforms. -/

namespace Verif.Design
open Finset Cheb

/-- The prototype with `s` replaced by `1/s` (low-pass to high-pass). -/
def Proto.flip (p : Proto) : Proto := ⟨p.n2, p.n1, p.n0, p.d2, p.d1, p.d0⟩

/-- The coefficients of a section with the given low-pass prototype. -/
noncomputable def sec (low : Bool) (p : Proto) : Coeff := bilinear (if low then p else p.flip) 1

/-- Sine and cosine of half the angular frequency, exchanged for a high-pass filter. -/
noncomputable def halfSin (low : Bool) (g : ℝ) : ℝ :=
  if low then Real.sin (Real.pi * g) else -Real.cos (Real.pi * g)
noncomputable def halfCos (low : Bool) (g : ℝ) : ℝ :=
  if low then Real.cos (Real.pi * g) else Real.sin (Real.pi * g)

theorem halfSin_sq_add (low : Bool) (g : ℝ) : halfSin low g ^ 2 + halfCos low g ^ 2 = 1 := by
  have := Real.sin_sq_add_cos_sq (Real.pi * g)
  cases low <;> simp only [halfSin, halfCos, Bool.false_eq_true, if_false, if_true] <;> linarith

/-- All coefficients of the denominator are positive. -/
def Proto.Pos (p : Proto) : Prop := 0 < p.d0 ∧ 0 < p.d1 ∧ 0 < p.d2

/-- The squared modulus of numerator and denominator. -/
def Proto.num2 (p : Proto) (s c : ℝ) : ℝ := (p.n2 * c ^ 2 - p.n0 * s ^ 2) ^ 2 + (p.n1 * s * c) ^ 2
def Proto.den2 (p : Proto) (s c : ℝ) : ℝ := (p.d2 * c ^ 2 - p.d0 * s ^ 2) ^ 2 + (p.d1 * s * c) ^ 2

theorem Proto.den2_pos {p : Proto} (hp : p.Pos) {s c : ℝ} (h : s ^ 2 + c ^ 2 = 1) : 0 < p.den2 s c := by
  obtain ⟨h0, h1, h2⟩ := hp
  unfold den2
  by_cases hs : s = 0
  · have : c ^ 2 = 1 := by rw [hs] at h; linarith
    rw [hs, this]
    have : 0 < p.d2 ^ 2 := by positivity
    nlinarith
  · by_cases hc : c = 0
    · have : s ^ 2 = 1 := by rw [hc] at h; linarith
      rw [hc, this]
      have : 0 < p.d0 ^ 2 := by positivity
      nlinarith
    · have : 0 < (p.d1 * s * c) ^ 2 := by positivity
      positivity

theorem sec_response (low : Bool) {p : Proto} (hp : p.Pos) (g : ℝ) :
    ∃ H, (make_biquad (sec low p)).response g = .ok H ∧
      ‖H‖ ^ 2 = p.num2 (halfSin low g) (halfCos low g) / p.den2 (halfSin low g) (halfCos low g) := by
  have hsq := halfSin_sq_add low g
  have hpos := Proto.den2_pos hp hsq
  set q := if low then p else p.flip with hq
  have hqp : 0 < q.d0 ∧ 0 < q.d1 ∧ 0 < q.d2 := by
    obtain ⟨h0, h1, h2⟩ := hp
    cases low <;> simp only [hq, Bool.false_eq_true, if_false, if_true, Proto.flip] <;>
      exact ⟨by assumption, by assumption, by assumption⟩
  obtain ⟨h0, h1, h2⟩ := hqp
  have key := bilinear_response_aux q (K := 1) (by positivity) g
  simp only at key
  have cnorm : ∀ x0 x1 x2 : ℝ, ‖(-(x0 : ℂ) * ((Real.sin (Real.pi * g) : ℝ) : ℂ) ^ 2 +
      x1 * (1 : ℝ) * ((Real.sin (Real.pi * g) : ℝ) : ℂ) * ((Real.cos (Real.pi * g) : ℝ) : ℂ) * Complex.I +
      x2 * ((1 : ℝ) : ℂ) ^ 2 * ((Real.cos (Real.pi * g) : ℝ) : ℂ) ^ 2)‖ ^ 2 =
      (x2 * Real.cos (Real.pi * g) ^ 2 - x0 * Real.sin (Real.pi * g) ^ 2) ^ 2 +
        (x1 * Real.sin (Real.pi * g) * Real.cos (Real.pi * g)) ^ 2 := by
    intro x0 x1 x2
    rw [← Complex.normSq_eq_norm_sq, ← Complex.normSq_add_mul_I]
    congr 1
    push_cast
    ring
  have eden : (q.d2 * Real.cos (Real.pi * g) ^ 2 - q.d0 * Real.sin (Real.pi * g) ^ 2) ^ 2 +
      (q.d1 * Real.sin (Real.pi * g) * Real.cos (Real.pi * g)) ^ 2 =
      p.den2 (halfSin low g) (halfCos low g) := by
    unfold Proto.den2
    cases low <;> simp only [hq, Bool.false_eq_true, if_false, if_true, Proto.flip, halfSin, halfCos]
    ring
  have enum : (q.n2 * Real.cos (Real.pi * g) ^ 2 - q.n0 * Real.sin (Real.pi * g) ^ 2) ^ 2 +
      (q.n1 * Real.sin (Real.pi * g) * Real.cos (Real.pi * g)) ^ 2 =
      p.num2 (halfSin low g) (halfCos low g) := by
    unfold Proto.num2
    cases low <;> simp only [hq, Bool.false_eq_true, if_false, if_true, Proto.flip, halfSin, halfCos]
    ring
  refine ⟨_, key ?_, ?_⟩
  · intro h
    have := cnorm q.d0 q.d1 q.d2
    rw [h, eden, norm_zero] at this
    rw [← this] at hpos
    simp at hpos
  · rw [norm_div, div_pow, cnorm, cnorm, eden, enum]

theorem sec_stable (low : Bool) {p : Proto} (hp : p.Pos) :
    ∃ s, (make_biquad (sec low p)).poles = .ok s ∧ ‖s.s0‖ < 1 ∧ ‖s.s1‖ < 1 := by
  obtain ⟨h0, h1, h2⟩ := hp
  unfold sec
  cases low
  · exact bilinear_stable p.flip one_pos h2 h1 h0
  · exact bilinear_stable p one_pos h0 h1 h2

/-- The gain at DC of a low-pass, at the Nyquist frequency of a high-pass section. -/
theorem sec_nominal (low : Bool) {p : Proto} (hp : p.Pos) :
    (make_biquad (sec low p)).response (if low then 0 else 1 / 2) = .ok ((p.n2 / p.d2 : ℝ) : ℂ) := by
  obtain ⟨h0, h1, h2⟩ := hp
  unfold sec
  cases low
  · exact bilinear_nyquist p.flip one_pos h2 h1 h0
  · simp only [if_true]
    rw [bilinear_response p one_pos h0 h1 h2 0 (by simp)]
    simp [Proto.eval]

/-! ### The order -/

theorem ripple_sq {A : ℝ} (h : 0 ≤ A) : ripple A ^ 2 = (10 : ℝ) ^ (A / 10) - 1 := by
  unfold ripple
  apply Real.sq_sqrt
  have : (1 : ℝ) ≤ (10 : ℝ) ^ (A / 10) := Real.one_le_rpow (by norm_num) (by positivity)
  linarith

theorem ripple_pos {A : ℝ} (h : 0 < A) : 0 < ripple A := by
  unfold ripple
  apply Real.sqrt_pos.2
  have : (1 : ℝ) < (10 : ℝ) ^ (A / 10) := Real.one_lt_rpow (by norm_num) (by positivity)
  linarith

theorem ripple_lt {A B : ℝ} (h : 0 < A) (hAB : A < B) : ripple A < ripple B := by
  have h1 := ripple_sq h.le
  have h2 := ripple_sq (h.trans hAB).le
  have : (10 : ℝ) ^ (A / 10) < (10 : ℝ) ^ (B / 10) :=
    Real.rpow_lt_rpow_of_exponent_lt (by norm_num) (by linarith)
  exact lt_of_pow_lt_pow_left₀ 2 (ripple_pos (h.trans hAB)).le (by linarith)

theorem tan_prewarp_lt {f f' fs : ℝ} (h0 : 0 < f) (h1 : f < f') (h2 : f' < fs / 2) :
    Real.tan (Real.pi * f / fs) < Real.tan (Real.pi * f' / fs) := by
  have hs : 0 < fs := by linarith
  have hpi := Real.pi_pos
  apply Real.tan_lt_tan_of_nonneg_of_lt_pi_div_two
  · positivity
  · rw [div_lt_iff₀ hs]; nlinarith
  · gcongr

theorem warp_pos (low : Bool) {f fs : ℝ} (h0 : 0 < f) (h1 : f < fs / 2) : 0 < warp low f fs := by
  have := (prewarp_ok h0 h1).2
  cases low
  · exact one_div_pos.2 this
  · exact this

theorem Valid.warp_lt {low : Bool} {fs fpass fstop Apass Astop : ℝ}
    (v : Valid low fs fpass fstop Apass Astop) : warp low fpass fs < warp low fstop fs := by
  obtain ⟨a, b, c, d, e, -, -⟩ := v
  cases low
  · simp only [Bool.false_eq_true, if_false] at e
    exact one_div_lt_one_div_of_lt (prewarp_ok b d).2 (tan_prewarp_lt b e c)
  · exact tan_prewarp_lt a e d

theorem powSign_ok (low : Bool) {f fs : ℝ} (h0 : 0 < f) (h1 : f < fs / 2) :
    (prewarp f fs >>= powSign low) = .ok (warp low f fs) := by
  obtain ⟨a, b⟩ := prewarp_ok h0 h1
  rw [a, bind_ok]
  cases low
  · exact div_ok b.ne'
  · rfl

section
variable {low : Bool} {fs fpass fstop Apass Astop : ℝ} (v : Valid low fs fpass fstop Apass Astop)
include v

theorem Valid.ratio_e : 1 < ripple Astop / ripple Apass := by
  rw [one_lt_div (ripple_pos v.Apass_pos)]
  exact ripple_lt v.Apass_pos v.Apass_lt

theorem Valid.ratio_W : 1 < warp low fstop fs / warp low fpass fs := by
  rw [one_lt_div (warp_pos low v.fpass_pos v.fpass_lt)]
  exact v.warp_lt

theorem Valid.order_pos : 0 < order low fs fpass fstop Apass Astop := by
  unfold order
  exact Nat.ceil_pos.2 (div_pos (Real.arcosh_pos v.ratio_e) (Real.arcosh_pos v.ratio_W))

theorem Valid.order_spec : ripple Astop / ripple Apass ≤
    T (order low fs fpass fstop Apass Astop) (warp low fstop fs / warp low fpass fs) := by
  have hW := Real.arcosh_pos v.ratio_W
  have hle : Real.arcosh (ripple Astop / ripple Apass) ≤ (order low fs fpass fstop Apass Astop : ℝ) *
      Real.arcosh (warp low fstop fs / warp low fpass fs) := by
    rw [← div_le_iff₀ hW]
    exact Nat.le_ceil _
  unfold T
  conv_rhs => rw [← Real.cosh_arcosh v.ratio_W.le]
  rw [Polynomial.Chebyshev.T_real_cosh]
  conv_lhs => rw [← Real.cosh_arcosh v.ratio_e.le]
  rw [Real.cosh_le_cosh, abs_of_pos (Real.arcosh_pos v.ratio_e), abs_of_nonneg]
  · exact_mod_cast hle
  · have := hW.le
    positivity

theorem chebyshev_order_ok (hN : order low fs fpass fstop Apass Astop ≤ 2147483647) :
    chebyshev_order low fs fpass fstop Apass Astop =
      .ok (warp low fpass fs, warp low fstop fs, ripple Apass, ripple Astop,
        (order low fs fpass fstop Apass Astop : ℤ)) := by
  have e1 := powSign_ok low v.fpass_pos v.fpass_lt
  have e2 := powSign_ok low v.fstop_pos v.fstop_lt
  have p1 := ripple_pos v.Apass_pos
  have hA : (0 : ℝ) < Astop := v.Apass_pos.trans v.Apass_lt
  have s1 : RealFun.sqrt (RealFun.pow10 (Apass / 10) - 1) = .ok (ripple Apass) := by
    apply sqrt_ok
    have := ripple_sq v.Apass_pos.le
    unfold RealFun.pow10
    rw [← this]
    positivity
  have s2 : RealFun.sqrt (RealFun.pow10 (Astop / 10) - 1) = .ok (ripple Astop) := by
    apply sqrt_ok
    have := ripple_sq hA.le
    unfold RealFun.pow10
    rw [← this]
    positivity
  have hac : ∀ x, 1 < x → RealFun.acosh x = .ok (Real.arcosh x) := fun x hx => if_neg (by linarith)
  have hq : 0 < Real.arcosh (ripple Astop / ripple Apass) /
      Real.arcosh (warp low fstop fs / warp low fpass fs) :=
    div_pos (Real.arcosh_pos v.ratio_e) (Real.arcosh_pos v.ratio_W)
  have hce : RealFun.ceilInt (Real.arcosh (ripple Astop / ripple Apass) /
      Real.arcosh (warp low fstop fs / warp low fpass fs)) =
      .ok (order low fs fpass fstop Apass Astop : ℤ) := by
    have hz : ((order low fs fpass fstop Apass Astop : ℕ) : ℤ) =
        ⌈Real.arcosh (ripple Astop / ripple Apass) /
          Real.arcosh (warp low fstop fs / warp low fpass fs)⌉ := by
      unfold order
      exact Int.natCast_ceil_eq_ceil hq.le
    unfold RealFun.ceilInt
    rw [← hz, if_pos]
    constructor <;> omega
  unfold chebyshev_order
  rw [if_neg (not_not.2 v.fpass_lt), if_neg (not_not.2 v.fstop_lt)]
  rw [bind_eq_ok] at e1 e2
  obtain ⟨k1, a1, b1⟩ := e1
  obtain ⟨k2, a2, b2⟩ := e2
  rw [a1, bind_ok, b1, bind_ok, a2, bind_ok, b2, bind_ok, s1, bind_ok, s2, bind_ok,
    div_ok p1.ne', bind_ok, hac _ v.ratio_e, bind_ok,
    div_ok (warp_pos low v.fpass_pos v.fpass_lt).ne', bind_ok, hac _ v.ratio_W, bind_ok,
    div_ok (Real.arcosh_pos v.ratio_W).ne', bind_ok, hce, bind_ok]

theorem chebyshev_order_err (hN : 2147483647 < order low fs fpass fstop Apass Astop) :
    chebyshev_order low fs fpass fstop Apass Astop =
      .error .overflow := by
  have e1 := powSign_ok low v.fpass_pos v.fpass_lt
  have e2 := powSign_ok low v.fstop_pos v.fstop_lt
  have p1 := ripple_pos v.Apass_pos
  have hA : (0 : ℝ) < Astop := v.Apass_pos.trans v.Apass_lt
  have s1 : RealFun.sqrt (RealFun.pow10 (Apass / 10) - 1) = .ok (ripple Apass) := by
    apply sqrt_ok
    have := ripple_sq v.Apass_pos.le
    unfold RealFun.pow10
    rw [← this]
    positivity
  have s2 : RealFun.sqrt (RealFun.pow10 (Astop / 10) - 1) = .ok (ripple Astop) := by
    apply sqrt_ok
    have := ripple_sq hA.le
    unfold RealFun.pow10
    rw [← this]
    positivity
  have hac : ∀ x, 1 < x → RealFun.acosh x = .ok (Real.arcosh x) := fun x hx => if_neg (by linarith)
  have hq : 0 < Real.arcosh (ripple Astop / ripple Apass) /
      Real.arcosh (warp low fstop fs / warp low fpass fs) :=
    div_pos (Real.arcosh_pos v.ratio_e) (Real.arcosh_pos v.ratio_W)
  have hce : RealFun.ceilInt (Real.arcosh (ripple Astop / ripple Apass) /
      Real.arcosh (warp low fstop fs / warp low fpass fs)) =
      .error .overflow := by
    have hz : ((order low fs fpass fstop Apass Astop : ℕ) : ℤ) =
        ⌈Real.arcosh (ripple Astop / ripple Apass) /
          Real.arcosh (warp low fstop fs / warp low fpass fs)⌉ := by
      unfold order
      exact Int.natCast_ceil_eq_ceil hq.le
    unfold RealFun.ceilInt
    rw [← hz, if_neg]
    omega
  unfold chebyshev_order
  rw [if_neg (not_not.2 v.fpass_lt), if_neg (not_not.2 v.fstop_lt)]
  rw [bind_eq_ok] at e1 e2
  obtain ⟨k1, a1, b1⟩ := e1
  obtain ⟨k2, a2, b2⟩ := e2
  rw [a1, bind_ok, b1, bind_ok, a2, bind_ok, b2, bind_ok, s1, bind_ok, s2, bind_ok,
    div_ok p1.ne', bind_ok, hac _ v.ratio_e, bind_ok,
    div_ok (warp_pos low v.fpass_pos v.fpass_lt).ne', bind_ok, hac _ v.ratio_W, bind_ok,
    div_ok (Real.arcosh_pos v.ratio_W).ne', bind_ok, hce, bind_error]

end

/-! ### The loop -/

/-- The coefficients as a list of sections. -/
def Digital.ofCoeffs (l : List Coeff) (N : ℤ) : Digital := ⟨l.map (·.b), l.map (·.a), N⟩

theorem Digital.push_ofCoeffs (l : List Coeff) (N : ℤ) (c : Coeff) :
    (Digital.ofCoeffs l N).push c.b c.a = Digital.ofCoeffs (l ++ [c]) N := by
  simp [ofCoeffs, push]

theorem forOneTo_push (K N : ℕ) (body : ℤ → Digital → Res Digital) (l : List Coeff) (c : ℕ → Coeff)
    (h : ∀ k, k < K → ∀ d, body (k + 1) d = .ok (d.push (c k).b (c k).a)) :
    forOneTo K body (Digital.ofCoeffs l N) =
      .ok (Digital.ofCoeffs (l ++ (List.range K).map c) N) := by
  unfold forOneTo
  rw [Int.toNat_natCast]
  induction K with
  | zero => simp
  | succ K ih =>
    rw [forRange_succ, ih (fun k hk => h k (by omega)), bind_ok, h K (by omega), Digital.push_ofCoeffs,
      List.range_succ, List.map_append, List.append_assoc]
    rfl

/-- The angle of section `k` (from 0), counted from pi / 2. -/
theorem angle_ok {N : ℕ} (hN : 0 < N) (hb : N ≤ 1073741823) (k : ℕ) :
    angle N (k + 1) = .ok (Real.pi / 2 + phi N k) := by
  have hNr : (N : ℝ) ≠ 0 := by exact_mod_cast hN.ne'
  unfold angle
  rw [if_pos (by omega), div_ok (by simpa using hNr)]
  congr 1
  unfold phi
  push_cast
  field_simp
  ring

theorem sin_angle (N k : ℕ) : Real.sin (Real.pi / 2 + phi N k) = Real.cos (phi N k) := by
  rw [add_comm, Real.sin_add_pi_div_two]

theorem cos_angle (N k : ℕ) : Real.cos (Real.pi / 2 + phi N k) = -Real.sin (phi N k) := by
  rw [add_comm, Real.cos_add_pi_div_two]

/-- The angles of the second-order sections lie in the first quadrant. -/
theorem phi_mem {N k : ℕ} (hk : 2 * k + 1 < N) : 0 < phi N k ∧ phi N k < Real.pi / 2 := by
  have hpi := Real.pi_pos
  have hN : (0 : ℝ) < N := by exact_mod_cast (by omega : 0 < N)
  have hk' : (2 * k + 1 : ℝ) < N := by exact_mod_cast hk
  unfold phi
  constructor
  · positivity
  · rw [div_lt_div_iff₀ (by positivity) (by norm_num)]
    nlinarith

theorem sin_phi_pos {N k : ℕ} (hk : 2 * k + 1 < N) : 0 < Real.sin (phi N k) := by
  have := phi_mem hk
  have hpi := Real.pi_pos
  exact Real.sin_pos_of_pos_of_lt_pi this.1 (by linarith)

theorem cos_phi_pos {N k : ℕ} (hk : 2 * k + 1 < N) : 0 < Real.cos (phi N k) := by
  have := phi_mem hk
  have hpi := Real.pi_pos
  exact Real.cos_pos_of_mem_Ioo ⟨by linarith, this.2⟩

/-! ### The sections -/

/-- Prototype of the first-order section of either type. -/
def proto0 (W0 : ℝ) : Proto := ⟨0, 1, 1, W0, 1 + W0, 1⟩

/-- Prototype of second-order section `k` of type 1. -/
noncomputable def proto1 (N : ℕ) (W0 Wpass : ℝ) (k : ℕ) : Proto :=
  let q := W0 ^ 2 + (Wpass * Real.cos (phi N k)) ^ 2
  ⟨0, 0, q, 1, 2 * W0 * Real.sin (phi N k), q⟩

/-- Prototype of second-order section `k` of type 2. -/
noncomputable def proto2 (N : ℕ) (W0 Wstop : ℝ) (k : ℕ) : Proto :=
  let w := (Real.cos (phi N k) / Wstop) ^ 2
  ⟨w, 0, 1, W0 ^ 2 + w, 2 * W0 * Real.sin (phi N k), 1⟩

theorem proto0_pos {W0 : ℝ} (h : 0 < W0) : (proto0 W0).Pos := ⟨h, by unfold proto0; positivity, one_pos⟩

theorem proto1_pos {N k : ℕ} {W0 Wpass : ℝ} (h : 0 < W0) (hk : 2 * k + 1 < N) :
    (proto1 N W0 Wpass k).Pos := by
  have := sin_phi_pos hk
  refine ⟨one_pos, ?_, ?_⟩ <;> unfold proto1 <;> positivity

theorem proto2_pos {N k : ℕ} {W0 Wstop : ℝ} (h : 0 < W0) (hk : 2 * k + 1 < N) :
    (proto2 N W0 Wstop k).Pos := by
  have := sin_phi_pos hk
  refine ⟨?_, ?_, one_pos⟩ <;> unfold proto2 <;> positivity

/-- The list of sections: a first-order one if the order is odd, and the second-order ones. -/
noncomputable def sections (low : Bool) (N : ℕ) (W0 : ℝ) (p : ℕ → Proto) : List Coeff :=
  (if N % 2 = 1 then [sec low (proto0 W0)] else []) ++
    (List.range (N / 2)).map fun k => sec low (p k)

theorem length_sections (low : Bool) (N : ℕ) (W0 : ℝ) (p : ℕ → Proto) :
    (sections low N W0 p).length = (N + 1) / 2 := by
  unfold sections
  rw [List.length_append, List.length_map, List.length_range]
  split
  · simp; omega
  · simp; omega

theorem first_section (low : Bool) {W0 : ℝ} (h : 0 < W0) : sec low (proto0 W0) =
    ⟨⟨1 / (1 + W0), sgn low * (1 / (1 + W0)), 0⟩, ⟨sgn low * (2 * (1 / (1 + W0)) - 1), 0⟩⟩ := by
  have : 1 + W0 ≠ 0 := by positivity
  have h2 : W0 + (1 + W0) + 1 ≠ 0 := by positivity
  have h3 : 1 + (1 + W0) + W0 ≠ 0 := by positivity
  cases low <;> simp only [sec, bilinear, proto0, Proto.flip, sgn, Bool.false_eq_true, if_false, if_true]
  · congr 2
    · field_simp; ring
    · field_simp; ring
    · ring
    · field_simp; ring
    · ring
  · congr 2
    · field_simp; ring
    · field_simp; ring
    · ring
    · field_simp; ring
    · ring

theorem firstOrder_ok (low : Bool) (N : ℕ) {W0 : ℝ} (h : 0 < W0) :
    firstOrder ((N : ℤ) % 2) (sgn low) W0 ⟨[], [], N⟩ =
      .ok (Digital.ofCoeffs (if N % 2 = 1 then [sec low (proto0 W0)] else []) N) := by
  unfold firstOrder
  by_cases hr : N % 2 = 1
  · rw [if_pos (by omega), if_pos hr, div_ok (by positivity), bind_ok, first_section low h]
    rfl
  · rw [if_neg (by omega), if_neg hr]
    rfl

theorem half_int (N : ℕ) : ((N : ℤ) - (N : ℤ) % 2) / 2 = ((N / 2 : ℕ) : ℤ) := by omega

section
variable {low : Bool} {fs fpass fstop Apass Astop : ℝ} (v : Valid low fs fpass fstop Apass Astop)
include v

/-- `a` of the code. -/
theorem Valid.a_pos : 0 < Real.arsinh (ripple Astop) / (order low fs fpass fstop Apass Astop : ℕ) := by
  have h1 : 0 < Real.arsinh (ripple Astop) :=
    Real.arsinh_pos_iff.2 (ripple_pos (v.Apass_pos.trans v.Apass_lt))
  have h2 : (0 : ℝ) < (order low fs fpass fstop Apass Astop : ℕ) := by exact_mod_cast v.order_pos
  positivity

theorem chebyshev1_sections (hN : order low fs fpass fstop Apass Astop ≤ 1073741823) :
    chebyshev1_lp_hp_impl low fs fpass fstop Apass Astop = .ok (Digital.ofCoeffs
      (sections low (order low fs fpass fstop Apass Astop)
        (Real.sinh (Real.arsinh (ripple Astop) / (order low fs fpass fstop Apass Astop : ℕ)) *
          warp low fpass fs)
        (proto1 (order low fs fpass fstop Apass Astop)
          (Real.sinh (Real.arsinh (ripple Astop) / (order low fs fpass fstop Apass Astop : ℕ)) *
            warp low fpass fs) (warp low fpass fs)))
      (order low fs fpass fstop Apass Astop : ℕ)) := by
  have ho := chebyshev_order_ok v (by omega)
  have hNp := v.order_pos
  have hap := v.a_pos
  set N := order low fs fpass fstop Apass Astop with hNdef
  set Wp := warp low fpass fs with hWp
  have hW : 0 < Wp := warp_pos low v.fpass_pos v.fpass_lt
  set W0 := Real.sinh (Real.arsinh (ripple Astop) / (N : ℕ)) * Wp with hW0
  have hW0p : 0 < W0 := mul_pos (Real.sinh_pos_iff.2 hap) hW
  have hNr : (((N : ℕ) : ℤ) : ℝ) ≠ 0 := by
    have : (N : ℝ) ≠ 0 := by exact_mod_cast hNp.ne'
    exact_mod_cast this
  unfold chebyshev1_lp_hp_impl
  rw [ho, bind_ok]
  simp only
  rw [div_ok hNr, bind_ok, Int.cast_natCast, ← hW0, half_int]
  rw [firstOrder_ok low N hW0p, bind_ok]
  unfold sections
  apply forOneTo_push
  intro k hk d
  have hk2 : 2 * k + 1 < N := by omega
  have hsin := sin_phi_pos hk2
  have hD : 0 < 1 - 2 * W0 * -Real.sin (phi N k) + W0 * W0 +
      Wp * Real.cos (phi N k) * (Wp * Real.cos (phi N k)) := by
    have h1 : 0 < W0 * Real.sin (phi N k) := by positivity
    nlinarith [mul_self_nonneg (Wp * Real.cos (phi N k))]
  rw [angle_ok hNp hN, bind_ok, sin_angle, cos_angle]
  simp only [div_ok hD.ne', bind_ok]
  have e : 1 - 2 * W0 * -Real.sin (phi N k) + W0 * W0 +
      Wp * Real.cos (phi N k) * (Wp * Real.cos (phi N k)) =
      1 + 2 * W0 * Real.sin (phi N k) + W0 ^ 2 + (Wp * Real.cos (phi N k)) ^ 2 := by ring
  rw [e] at hD ⊢
  have e2 : W0 ^ 2 + (Wp * Real.cos (phi N k)) ^ 2 + 2 * W0 * Real.sin (phi N k) * 1 + 1 * 1 ^ 2 =
    1 + 2 * W0 * Real.sin (phi N k) + W0 ^ 2 + (Wp * Real.cos (phi N k)) ^ 2 := by ring
  have e3 : 1 + 2 * W0 * Real.sin (phi N k) * 1 + (W0 ^ 2 + (Wp * Real.cos (phi N k)) ^ 2) * 1 ^ 2 =
    1 + 2 * W0 * Real.sin (phi N k) + W0 ^ 2 + (Wp * Real.cos (phi N k)) ^ 2 := by ring
  cases low <;> simp only [sec, bilinear, proto1, Proto.flip, sgn, Bool.false_eq_true, if_false,
    if_true, e2, e3] <;> congr 3 <;> ring

theorem chebyshev2_sections (hN : order low fs fpass fstop Apass Astop ≤ 1073741823) :
    chebyshev2_lp_hp_impl low fs fpass fstop Apass Astop = .ok (Digital.ofCoeffs
      (sections low (order low fs fpass fstop Apass Astop)
        (Real.sinh (Real.arsinh (ripple Astop) / (order low fs fpass fstop Apass Astop : ℕ)) /
          warp low fstop fs)
        (proto2 (order low fs fpass fstop Apass Astop)
          (Real.sinh (Real.arsinh (ripple Astop) / (order low fs fpass fstop Apass Astop : ℕ)) /
            warp low fstop fs) (warp low fstop fs)))
      (order low fs fpass fstop Apass Astop : ℕ)) := by
  have ho := chebyshev_order_ok v (by omega)
  have hNp := v.order_pos
  have hap := v.a_pos
  set N := order low fs fpass fstop Apass Astop with hNdef
  set Ws := warp low fstop fs with hWs
  have hW : 0 < Ws := warp_pos low v.fstop_pos v.fstop_lt
  set W0 := Real.sinh (Real.arsinh (ripple Astop) / (N : ℕ)) / Ws with hW0
  have hW0p : 0 < W0 := div_pos (Real.sinh_pos_iff.2 hap) hW
  have hNr : (((N : ℕ) : ℤ) : ℝ) ≠ 0 := by
    have : (N : ℝ) ≠ 0 := by exact_mod_cast hNp.ne'
    exact_mod_cast this
  unfold chebyshev2_lp_hp_impl
  rw [ho, bind_ok]
  simp only
  rw [div_ok hNr, bind_ok, Int.cast_natCast, div_ok hW.ne', bind_ok, ← hW0, half_int]
  rw [firstOrder_ok low N hW0p, bind_ok]
  unfold sections
  apply forOneTo_push
  intro k hk d
  have hk2 : 2 * k + 1 < N := by omega
  have hsin := sin_phi_pos hk2
  rw [angle_ok hNp hN, bind_ok, sin_angle, cos_angle, div_ok hW.ne', bind_ok]
  set Wi := Real.cos (phi N k) / Ws with hWi
  have hD : 0 < 1 - 2 * W0 * -Real.sin (phi N k) + W0 * W0 + Wi * Wi := by
    have h1 : 0 < W0 * Real.sin (phi N k) := by positivity
    nlinarith [mul_self_nonneg Wi]
  have hD2 : 1 + Wi * Wi ≠ 0 := by nlinarith [mul_self_nonneg Wi]
  simp only [div_ok hD.ne', div_ok hD2, bind_ok]
  have e : 1 - 2 * W0 * -Real.sin (phi N k) + W0 * W0 + Wi * Wi =
      1 + 2 * W0 * Real.sin (phi N k) + W0 ^ 2 + Wi ^ 2 := by ring
  rw [e] at hD ⊢
  have e2 : W0 ^ 2 + Wi ^ 2 + 2 * W0 * Real.sin (phi N k) * 1 + 1 * 1 ^ 2 =
    1 + 2 * W0 * Real.sin (phi N k) + W0 ^ 2 + Wi ^ 2 := by ring
  have e3 : 1 + 2 * W0 * Real.sin (phi N k) * 1 + (W0 ^ 2 + Wi ^ 2) * 1 ^ 2 =
    1 + 2 * W0 * Real.sin (phi N k) + W0 ^ 2 + Wi ^ 2 := by ring
  have hD' := hD.ne'
  cases low <;> simp only [sec, bilinear, proto2, Proto.flip, sgn, Bool.false_eq_true, if_false,
    if_true, e2, e3, ← hWi] <;> congr 3 <;> first | ring1 | (field_simp; done) | (field_simp; ring1)

end


/-! ### Responses -/

/-- The prototypes of the sections. -/
noncomputable def protos (N : ℕ) (W0 : ℝ) (p : ℕ → Proto) : List Proto :=
  (if N % 2 = 1 then [proto0 W0] else []) ++ (List.range (N / 2)).map p

theorem sections_eq (low : Bool) (N : ℕ) (W0 : ℝ) (p : ℕ → Proto) :
    sections low N W0 p = (protos N W0 p).map (sec low) := by
  unfold sections protos
  rw [List.map_append, List.map_map]
  congr 1
  split <;> rfl

theorem protos_pos {N : ℕ} {W0 : ℝ} {p : ℕ → Proto} (h : 0 < W0)
    (hp : ∀ k, 2 * k + 1 < N → (p k).Pos) : ∀ q ∈ protos N W0 p, q.Pos := by
  intro q hq
  unfold protos at hq
  rw [List.mem_append] at hq
  rcases hq with hq | hq
  · split at hq
    · rw [List.mem_singleton] at hq
      rw [hq]
      exact proto0_pos h
    · simp at hq
  · rw [List.mem_map] at hq
    obtain ⟨k, hk, rfl⟩ := hq
    rw [List.mem_range] at hk
    exact hp k (by omega)

theorem prod_map_range {α : Type} [CommMonoid α] (f : ℕ → α) (n : ℕ) :
    ((List.range n).map f).prod = ∏ k ∈ range n, f k := by
  induction n with
  | zero => simp
  | succ n ih => rw [List.range_succ, List.map_append, List.prod_append, ih, prod_range_succ]; simp

/-- Squared magnitude of a section. -/
noncomputable def Proto.mag (low : Bool) (g : ℝ) (p : Proto) : ℝ :=
  p.num2 (halfSin low g) (halfCos low g) / p.den2 (halfSin low g) (halfCos low g)

/-- The response of a cascade of such sections. -/
theorem cascade_mag {n : ℕ} (low : Bool) (l : List Proto) (hl : ∀ p ∈ l, p.Pos) (c : Cascade ℝ n)
    (hc : c.WF) (h : c.toList = (l.map (sec low)).map make_biquad) (g : ℝ) :
    ∃ H, c.response g = .ok H ∧ ‖H‖ ^ 2 = (l.map (Proto.mag low g)).prod := by
  classical
  let R : Biquad ℝ → ℂ := fun q => if h : ∃ H, q.response g = .ok H then h.choose else 0
  have hR : ∀ p ∈ l, (make_biquad (sec low p)).response g = .ok (R (make_biquad (sec low p))) ∧
      ‖R (make_biquad (sec low p))‖ ^ 2 = p.mag low g := by
    intro p hp
    obtain ⟨H, h1, h2⟩ := sec_response low (hl p hp) g
    have hex : ∃ H, (make_biquad (sec low p)).response g = .ok H := ⟨H, h1⟩
    have e : R (make_biquad (sec low p)) = H := by
      simp only [R, dif_pos hex]
      exact Except.ok.inj (hex.choose_spec.symm.trans h1)
    rw [e]
    exact ⟨h1, h2⟩
  refine ⟨_, C43_response c hc g R ?_, ?_⟩
  · intro q hq
    rw [h, List.map_map, List.mem_map] at hq
    obtain ⟨p, hp, rfl⟩ := hq
    exact (hR p hp).1
  · rw [h]
    clear h
    induction l with
    | nil => simp
    | cons p l ih =>
      simp only [List.map_cons, List.prod_cons, norm_mul, mul_pow]
      rw [(hR p (by simp)).2, ← ih (fun q hq => hl q (by simp [hq])) (fun q hq => hR q (by simp [hq]))]

theorem phi_reflect {N k : ℕ} (hk : k < N) : phi N (N - 1 - k) = Real.pi - phi N k := by
  have hN : (N : ℝ) ≠ 0 := by exact_mod_cast (by omega : N ≠ 0)
  unfold phi
  have : ((N - 1 - k : ℕ) : ℝ) = N - 1 - k := by
    rw [Nat.cast_sub (by omega), Nat.cast_sub (by omega)]
    push_cast
    ring
  rw [this]
  field_simp
  ring

theorem fac_reflect {N k : ℕ} (hk : k < N) (a x : ℝ) : fac N a x k * fac N a x (N - 1 - k) =
    (x ^ 2 - (Real.cos (phi N k) ^ 2 + Real.sinh a ^ 2)) ^ 2 +
      (2 * Real.sinh a * Real.sin (phi N k) * x) ^ 2 := by
  unfold fac
  rw [phi_reflect hk, Real.cos_pi_sub]
  have h1 := Real.sin_sq_add_cos_sq (phi N k)
  have h2 := Real.cosh_sq a
  have h3 : Real.sin (phi N k) ^ 2 = 1 - Real.cos (phi N k) ^ 2 := by linarith
  calc _ = (x ^ 2 + Real.cos (phi N k) ^ 2 + Real.sinh a ^ 2) ^ 2 -
        4 * x ^ 2 * Real.cos (phi N k) ^ 2 * Real.cosh a ^ 2 := by ring
    _ = (x ^ 2 - (Real.cos (phi N k) ^ 2 + Real.sinh a ^ 2)) ^ 2 +
        4 * Real.sinh a ^ 2 * Real.sin (phi N k) ^ 2 * x ^ 2 := by rw [h2, h3]; ring
    _ = _ := by ring

theorem fac_mid {N : ℕ} (hN : N % 2 = 1) (a x : ℝ) : fac N a x (N / 2) = x ^ 2 + Real.sinh a ^ 2 := by
  have hNr : (N : ℝ) ≠ 0 := by exact_mod_cast (by omega : N ≠ 0)
  have : phi N (N / 2) = Real.pi / 2 := by
    unfold phi
    have : (2 * ((N / 2 : ℕ) : ℝ) + 1) = N := by
      have : 2 * (N / 2) + 1 = N := by omega
      exact_mod_cast this
    rw [this]
    field_simp
  unfold fac
  rw [this, Real.cos_pi_div_two]
  ring

theorem prod_pairs (F : ℕ → ℝ) (N : ℕ) : ∏ k ∈ range N, F k =
    (if N % 2 = 1 then F (N / 2) else 1) * ∏ k ∈ range (N / 2), (F k * F (N - 1 - k)) := by
  rw [prod_mul_distrib]
  by_cases h : N % 2 = 1
  · obtain ⟨m, hm⟩ : ∃ m, N / 2 = m := ⟨_, rfl⟩
    obtain rfl : N = m + 1 + m := by omega
    rw [if_pos h, hm, prod_range_add, prod_range_succ]
    rw [← prod_range_reflect (fun x => F (m + 1 + x))]
    have : ∏ j ∈ range m, F (m + 1 + (m - 1 - j)) = ∏ k ∈ range m, F (m + 1 + m - 1 - k) := by
      apply prod_congr rfl
      intro k hk
      have := mem_range.1 hk
      congr 1
      omega
    rw [this]
    ring
  · obtain ⟨m, hm⟩ : ∃ m, N / 2 = m := ⟨_, rfl⟩
    obtain rfl : N = m + m := by omega
    rw [if_neg h, hm, prod_range_add, ← prod_range_reflect (fun x => F (m + x)), one_mul]
    congr 1
    apply prod_congr rfl
    intro k hk
    have := mem_range.1 hk
    congr 1
    omega

/-- Squared magnitude of the type 2 filter away from the nominal frequency. -/
theorem type2_prod {N : ℕ} (hN : 0 < N) (a : ℝ) {W : ℝ} (hW : 0 < W) (low : Bool) (g : ℝ)
    (hS : halfSin low g ≠ 0) :
    ((protos N (Real.sinh a / W) (proto2 N (Real.sinh a / W) W)).map (Proto.mag low g)).prod =
      T N (W * halfCos low g / halfSin low g) ^ 2 /
        (T N (W * halfCos low g / halfSin low g) ^ 2 + Real.sinh (N * a) ^ 2) := by
  have hsq := halfSin_sq_add low g
  set S := halfSin low g with hSd
  set C := halfCos low g with hCd
  set x := W * C / S with hx
  have hC : C = x * S / W := by rw [hx]; field_simp
  have e2 : ∀ k, k < N / 2 → (proto2 N (Real.sinh a / W) W k).mag low g =
      fac N 0 x k * fac N 0 x (N - 1 - k) / (fac N a x k * fac N a x (N - 1 - k)) := by
    intro k hk
    rw [fac_reflect (by omega), fac_reflect (by omega), Real.sinh_zero]
    unfold Proto.mag Proto.num2 Proto.den2
    rw [← hSd, ← hCd]
    simp only [proto2]
    have hf : (S ^ 2 / W ^ 2) ^ 2 ≠ 0 := by positivity
    refine Eq.trans ?_ (mul_div_mul_right _ _ hf)
    congr 1
    · rw [hC]; field_simp; ring
    · rw [hC]; field_simp; ring
  have e0 : N % 2 = 1 → (proto0 (Real.sinh a / W)).mag low g =
      fac N 0 x (N / 2) / fac N a x (N / 2) := by
    intro hodd
    rw [fac_mid hodd, fac_mid hodd, Real.sinh_zero]
    unfold Proto.mag Proto.num2 Proto.den2
    rw [← hSd, ← hCd]
    simp only [proto0]
    have hf : (S ^ 2 / W ^ 2) ≠ 0 := by positivity
    rw [← mul_div_mul_right (x ^ 2 + 0 ^ 2) _ hf]
    have hn : (1 * C ^ 2 - 0 * S ^ 2) ^ 2 + (1 * S * C) ^ 2 = (x ^ 2 + 0 ^ 2) * (S ^ 2 / W ^ 2) := by
      have : (x ^ 2 + 0 ^ 2) * (S ^ 2 / W ^ 2) = C ^ 2 := by rw [hC]; ring
      rw [this]
      linear_combination C ^ 2 * hsq
    have hd : (1 * C ^ 2 - Real.sinh a / W * S ^ 2) ^ 2 + ((1 + Real.sinh a / W) * S * C) ^ 2 =
        (x ^ 2 + Real.sinh a ^ 2) * (S ^ 2 / W ^ 2) := by
      have : (x ^ 2 + Real.sinh a ^ 2) * (S ^ 2 / W ^ 2) = C ^ 2 + (Real.sinh a / W) ^ 2 * S ^ 2 := by
        rw [hC]; field_simp
      rw [this]
      linear_combination (C ^ 2 + (Real.sinh a / W) ^ 2 * S ^ 2) * hsq
    rw [hn, hd]
  have hprod : ((protos N (Real.sinh a / W) (proto2 N (Real.sinh a / W) W)).map
      (Proto.mag low g)).prod = (∏ k ∈ range N, fac N 0 x k) / ∏ k ∈ range N, fac N a x k := by
    unfold protos
    rw [List.map_append, List.prod_append, List.map_map, prod_map_range, prod_pairs (fac N 0 x),
      prod_pairs (fac N a x),
      mul_div_mul_comm, ← prod_div_distrib]
    congr 1
    · by_cases h : N % 2 = 1
      · simp only [if_pos h, List.map_cons, List.map_nil, List.prod_cons, List.prod_nil, mul_one]
        exact e0 h
      · simp [if_neg h]
    · apply prod_congr rfl
      intro k hk
      exact e2 k (mem_range.1 hk)
  have f0 := prod_fac N hN 0 x
  have f1 := prod_fac N hN a x
  have h4 : (4 : ℝ) ^ N ≠ 0 := by positivity
  rw [hprod, ← mul_div_mul_left _ _ h4, f0, f1, mul_div_mul_left _ _ (by norm_num : (4 : ℝ) ≠ 0)]
  simp

/-- Squared magnitude of the type 1 filter below the Nyquist frequency (low-pass; above DC for a
high-pass).  An odd-order filter has an extra factor, because the code's first-order section is not
the one of a Chebyshev filter. -/
theorem type1_prod {N : ℕ} (hN : 0 < N) {a : ℝ} (ha : 0 < a) {W : ℝ} (hW : 0 < W) (low : Bool) (g : ℝ)
    (hC : halfCos low g ≠ 0) :
    ((protos N (Real.sinh a * W) (proto1 N (Real.sinh a * W) W)).map (Proto.mag low g)).prod =
      (T N 0 ^ 2 + Real.sinh (N * a) ^ 2) /
        (T N (halfSin low g / halfCos low g / W) ^ 2 + Real.sinh (N * a) ^ 2) *
      (if N % 2 = 1 then (1 + (halfSin low g / halfCos low g / W) ^ 2 / Real.sinh a ^ 2) /
        (1 + (Real.sinh a * W) ^ 2 * (halfSin low g / halfCos low g) ^ 2) else 1) := by
  have hsq := halfSin_sq_add low g
  have hsh : 0 < Real.sinh a := Real.sinh_pos_iff.2 ha
  set S := halfSin low g with hSd
  set C := halfCos low g with hCd
  set y := S / C / W with hy
  have hS : S = y * C * W := by rw [hy]; field_simp
  have e2 : ∀ k, k < N / 2 → (proto1 N (Real.sinh a * W) W k).mag low g =
      fac N a 0 k * fac N a 0 (N - 1 - k) / (fac N a y k * fac N a y (N - 1 - k)) := by
    intro k hk
    rw [fac_reflect (by omega), fac_reflect (by omega)]
    unfold Proto.mag Proto.num2 Proto.den2
    rw [← hSd, ← hCd]
    simp only [proto1]
    have hf : (W ^ 2 * C ^ 2) ^ 2 ≠ 0 := by positivity
    refine Eq.trans ?_ (mul_div_mul_right _ _ hf)
    congr 1
    · ring
    · rw [hS]; ring
  have e0 : (proto0 (Real.sinh a * W)).mag low g = 1 / (1 + (Real.sinh a * W) ^ 2 * (S / C) ^ 2) := by
    unfold Proto.mag Proto.num2 Proto.den2
    rw [← hSd, ← hCd]
    simp only [proto0]
    have hn : (1 * C ^ 2 - 0 * S ^ 2) ^ 2 + (1 * S * C) ^ 2 = 1 * C ^ 2 := by
      linear_combination C ^ 2 * hsq
    have hd : (1 * C ^ 2 - Real.sinh a * W * S ^ 2) ^ 2 + ((1 + Real.sinh a * W) * S * C) ^ 2 =
        (1 + (Real.sinh a * W) ^ 2 * (S / C) ^ 2) * C ^ 2 := by
      have : (1 + (Real.sinh a * W) ^ 2 * (S / C) ^ 2) * C ^ 2 = C ^ 2 + (Real.sinh a * W) ^ 2 * S ^ 2 := by
        field_simp
      rw [this]
      linear_combination (C ^ 2 + (Real.sinh a * W) ^ 2 * S ^ 2) * hsq
    rw [hn, hd, mul_div_mul_right _ _ (pow_ne_zero 2 hC)]
  have hprod : ((protos N (Real.sinh a * W) (proto1 N (Real.sinh a * W) W)).map
      (Proto.mag low g)).prod = (∏ k ∈ range N, fac N a 0 k) / (∏ k ∈ range N, fac N a y k) *
      (if N % 2 = 1 then (1 + y ^ 2 / Real.sinh a ^ 2) /
        (1 + (Real.sinh a * W) ^ 2 * (S / C) ^ 2) else 1) := by
    unfold protos
    rw [List.map_append, List.prod_append, List.map_map, prod_map_range, prod_pairs (fac N a 0),
      prod_pairs (fac N a y),
      mul_div_mul_comm, ← prod_div_distrib]
    have hp : ∏ k ∈ range (N / 2), (Proto.mag low g ∘ proto1 N (Real.sinh a * W) W) k =
        ∏ k ∈ range (N / 2), fac N a 0 k * fac N a 0 (N - 1 - k) / (fac N a y k * fac N a y (N - 1 - k)) :=
      prod_congr rfl fun k hk => e2 k (mem_range.1 hk)
    rw [hp]
    by_cases h : N % 2 = 1
    · simp only [if_pos h, List.map_cons, List.map_nil, List.prod_cons, List.prod_nil, mul_one]
      rw [e0, fac_mid h, fac_mid h]
      have h1 : y ^ 2 + Real.sinh a ^ 2 ≠ 0 := by positivity
      have h2 : 1 + (Real.sinh a * W) ^ 2 * (S / C) ^ 2 ≠ 0 := by positivity
      have h3 : (0 ^ 2 + Real.sinh a ^ 2) / (y ^ 2 + Real.sinh a ^ 2) *
          ((1 + y ^ 2 / Real.sinh a ^ 2) / (1 + (Real.sinh a * W) ^ 2 * (S / C) ^ 2)) =
          1 / (1 + (Real.sinh a * W) ^ 2 * (S / C) ^ 2) := by
        rw [← mul_div_assoc]
        congr 1
        field_simp
        ring
      rw [← h3]
      ring
    · simp [if_neg h]
  have f0 := prod_fac N hN a 0
  have f1 := prod_fac N hN a y
  have h4 : (4 : ℝ) ^ N ≠ 0 := by positivity
  rw [hprod, ← mul_div_mul_left (∏ k ∈ range N, fac N a 0 k) _ h4, f0, f1,
    mul_div_mul_left _ _ (by norm_num : (4 : ℝ) ≠ 0)]

end Verif.Design
