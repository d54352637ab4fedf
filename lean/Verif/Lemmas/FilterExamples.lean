import Verif.Model.FilterExamples
import Verif.Lemmas.Design
import Verif.Lemmas.ChebyshevDesign
import Verif.Props.Algorithm

/-
Lemmas on the filter examples.
-/

namespace Verif
namespace FilterExamples
open Output

/-! ### The loops -/

variable {elem : ℝ → Text} {g : Flt Ieee.binary64 → Res ℝ}

/-- A loop that writes a number per frequency. -/
noncomputable def writes (elem : ℝ → Text) (g : Flt Ieee.binary64 → Res ℝ) (rng : Sweep) (os : Text) : Res Text :=
  rng.foldlM (fun os x => do .ok (os ++ elem (← g x) ++ [' '])) os

theorem writes_cons {x rng os} : writes elem g (x :: rng) os = (g x >>= fun v => writes elem g rng (os ++ elem v ++ [' '])) := by
  unfold writes
  rw [List.foldlM_cons]
  cases h : g x <;> rfl

theorem writes_ok {rng os t} (h : writes elem g rng os = .ok t) :
    ∃ vs : List ℝ, List.Forall₂ (fun x v => g x = .ok v) rng vs ∧ t = os ++ (vs.map fun v => elem v ++ [' ']).flatten := by
  induction rng generalizing os with
  | nil => exact ⟨[], .nil, by rw [← Except.ok.inj (show Except.ok os = Except.ok t from h)]; simp⟩
  | cons x rng ih =>
    rw [writes_cons] at h
    obtain ⟨v, hv, h⟩ := bind_eq_ok.1 h
    obtain ⟨vs, h1, h2⟩ := ih h
    exact ⟨v :: vs, .cons hv h1, by rw [h2]; simp⟩

theorem writes_total {rng os} (h : ∀ x ∈ rng, ∃ v, g x = .ok v) : ∃ t, writes elem g rng os = .ok t := by
  induction rng generalizing os with
  | nil => exact ⟨os, rfl⟩
  | cons x rng ih =>
    obtain ⟨v, hv⟩ := h x List.mem_cons_self
    rw [writes_cons, hv, bind_ok]
    exact ih fun y hy => h y (List.mem_cons_of_mem _ hy)

theorem writes_error {rng os e} (h : ∀ x ∈ rng, (∃ v, g x = .ok v) ∨ g x = .error e) (h' : ∃ x ∈ rng, g x = .error e) :
    writes elem g rng os = .error e := by
  induction rng generalizing os with
  | nil => obtain ⟨x, hx, -⟩ := h'; cases hx
  | cons x rng ih =>
    rw [writes_cons]
    rcases h x List.mem_cons_self with ⟨v, hv⟩ | hv
    · rw [hv, bind_ok]
      refine ih (fun y hy => h y (List.mem_cons_of_mem _ hy)) ?_
      obtain ⟨y, hy, he⟩ := h'
      rcases List.mem_cons.1 hy with rfl | hy
      · rw [hv] at he; cases he
      · exact ⟨y, hy, he⟩
    · rw [hv]; rfl

theorem frequencies_eq (rng : Sweep) : frequencies rng = (rng.map fun x => float x ++ [' ']).flatten := by
  have : ∀ os : Text, rng.foldl (fun os fn => os ++ float fn ++ [' ']) os = os ++ (rng.map fun x => float x ++ [' ']).flatten := by
    induction rng with
    | nil => intro os; simp
    | cons x rng ih => intro os; rw [List.foldl_cons, ih]; simp
  exact this []

variable {response : ℝ → Res ℂ}

theorem magnitudes_eq (rng : Sweep) :
    magnitudes elem response rng = writes elem (fun x => do .ok ‖← response x.val‖) rng [] := by
  unfold magnitudes writes
  congr 1
  funext os x
  cases h : response x.val
  · simp only [h]; rfl
  · simp only [h, bind_ok]

theorem decibels_eq (rng : Sweep) :
    decibels elem response rng = writes elem (fun x => do Design.dbV ‖← response x.val‖ 1) rng [] := by
  unfold decibels writes
  congr 1
  funext os x
  cases h : response x.val
  · simp only [h]; rfl
  · simp only [h, bind_ok]

theorem dbV_one {v : ℝ} (hv : 0 < v) : Design.dbV v 1 = .ok (20 * Real.logb 10 v) := by
  unfold Design.dbV Design.dbP RealFun.log10
  rw [Design.div_ok one_ne_zero, bind_ok, if_neg (by rw [div_one]; exact not_le.2 hv), bind_ok, bind_ok, div_one]
  congr 1; ring

theorem dbV_zero : Design.dbV 0 1 = .error .domain := by
  unfold Design.dbV Design.dbP RealFun.log10
  rw [Design.div_ok one_ne_zero, bind_ok, if_pos (by simp)]
  rfl

theorem line_ok {n : ℕ} {c : Char} : Text.line n c = .ok (List.replicate n c) := by
  unfold Text.line
  rw [if_neg (by omega)]
  rfl

theorem listing_total {rng : Sweep} (h : ∀ x ∈ rng, ∃ H, response x.val = .ok H ∧ H ≠ 0) :
    ∃ t, listing elem response rng = .ok t := by
  obtain ⟨ys, h1⟩ := writes_total (elem := elem) (g := fun x => do .ok ‖← response x.val‖) (os := []) (rng := rng)
    fun x hx => by obtain ⟨H, hH, -⟩ := h x hx; exact ⟨‖H‖, by rw [hH]; rfl⟩
  obtain ⟨ds, h2⟩ := writes_total (elem := elem) (g := fun x => do Design.dbV ‖← response x.val‖ 1) (os := []) (rng := rng)
    fun x hx => by
      obtain ⟨H, hH, h0⟩ := h x hx
      exact ⟨_, by rw [hH, bind_ok]; exact dbV_one (norm_pos_iff.2 h0)⟩
  unfold listing
  rw [magnitudes_eq, decibels_eq, h1, h2, show (65 : ℤ) = ((65 : ℕ) : ℤ) from rfl, line_ok, bind_ok, bind_ok, bind_ok]
  exact ⟨_, rfl⟩

theorem listing_ok {rng : Sweep} {t : Text} (h : listing elem response rng = .ok t) : ∃ Hs : List ℂ,
    List.Forall₂ (fun x H => response x.val = .ok H ∧ H ≠ 0) rng Hs ∧
    t = "\n% ".toList ++ List.replicate 65 '-' ++
      "\n% Matlab/Octave filter magnitude response for normalized frequency:\n".toList ++ "\nfn = [".toList ++
      (rng.map fun x => float x ++ [' ']).flatten ++ "];\n".toList ++ "\ny = [".toList ++
      (Hs.map fun H => elem ‖H‖ ++ [' ']).flatten ++ "];\n".toList ++ "\nydbV = [".toList ++
      (Hs.map fun H => elem (20 * Real.logb 10 ‖H‖) ++ [' ']).flatten ++ "];\n".toList ++
      "\nplotyy(fn, y, fn, ydbV);\n".toList := by
  unfold listing at h
  rw [magnitudes_eq, decibels_eq, show (65 : ℤ) = ((65 : ℕ) : ℤ) from rfl, line_ok, bind_ok] at h
  obtain ⟨ys, h1, h⟩ := bind_eq_ok.1 h
  obtain ⟨ds, h2, h⟩ := bind_eq_ok.1 h
  obtain ⟨vs, f1, e1⟩ := writes_ok h1
  obtain ⟨ws, f2, e2⟩ := writes_ok h2
  have key : ∀ (rng : Sweep) (vs ws : List ℝ),
      List.Forall₂ (fun x v => (do .ok ‖← response (x : Flt Ieee.binary64).val‖ : Res ℝ) = .ok v) rng vs →
      List.Forall₂ (fun x v => (do Design.dbV ‖← response (x : Flt Ieee.binary64).val‖ 1 : Res ℝ) = .ok v) rng ws →
      ∃ Hs : List ℂ, List.Forall₂ (fun x H => response (x : Flt Ieee.binary64).val = .ok H ∧ H ≠ 0) rng Hs ∧
        vs = Hs.map (‖·‖) ∧ ws = Hs.map fun H => 20 * Real.logb 10 ‖H‖ := by
    intro rng
    induction rng with
    | nil => rintro _ _ ⟨⟩ ⟨⟩; exact ⟨[], .nil, rfl, rfl⟩
    | cons x rng ih =>
      rintro _ _ (_ | ⟨a1, b1⟩) (_ | ⟨a2, b2⟩)
      obtain ⟨Hs, c1, rfl, rfl⟩ := ih _ _ b1 b2
      obtain ⟨H, hH, a1⟩ := bind_eq_ok.1 a1
      rw [hH, bind_ok] at a2
      obtain rfl := Except.ok.inj a1
      have h0 : H ≠ 0 := by
        rintro rfl
        rw [norm_zero, dbV_zero] at a2
        cases a2
      rw [dbV_one (norm_pos_iff.2 h0)] at a2
      obtain rfl := Except.ok.inj a2
      exact ⟨H :: Hs, .cons ⟨hH, h0⟩ c1, rfl, rfl⟩
  obtain ⟨Hs, k1, rfl, rfl⟩ := key rng vs ws f1 f2
  refine ⟨Hs, k1, ?_⟩
  rw [← Except.ok.inj h, frequencies_eq, e1, e2]
  simp only [List.nil_append, List.map_map, Function.comp_def]

theorem listing_domain {rng : Sweep} (h : ∀ x ∈ rng, ∃ H, response x.val = .ok H) (h' : ∃ x ∈ rng, response x.val = .ok 0) :
    listing elem response rng = .error .domain := by
  obtain ⟨ys, h1⟩ := writes_total (elem := elem) (g := fun x => do .ok ‖← response x.val‖) (os := []) (rng := rng)
    fun x hx => by obtain ⟨H, hH⟩ := h x hx; exact ⟨‖H‖, by rw [hH]; rfl⟩
  have h2 : writes elem (fun x => do Design.dbV ‖← response x.val‖ 1) rng [] = .error .domain := by
    refine writes_error (fun x hx => ?_) ?_
    · obtain ⟨H, hH⟩ := h x hx
      rw [hH, bind_ok]
      by_cases h0 : H = 0
      · rw [h0, norm_zero]; exact .inr dbV_zero
      · exact .inl ⟨_, dbV_one (norm_pos_iff.2 h0)⟩
    · obtain ⟨x, hx, he⟩ := h'
      exact ⟨x, hx, by rw [he, bind_ok, norm_zero]; exact dbV_zero⟩
  unfold listing
  rw [magnitudes_eq, decibels_eq, h1, h2, show (65 : ℤ) = ((65 : ℕ) : ℤ) from rfl, line_ok, bind_ok, bind_ok]
  rfl

theorem report_bind (title : Text) (filter : Res Text) (rng : Sweep) (code result : Text) :
    report elem title filter response rng code result = (filter >>= fun bq => listing elem response rng >>= fun mid =>
      .ok ("\n".toList ++ List.replicate 115 '=' ++ "\n".toList ++ title ++ bq ++ mid ++ "\n% ".toList ++
        List.replicate 42 '-' ++ "\n% Corresponding Matlab/Octave filter design:\n".toList ++
        "\npkg load signal\n".toList ++ code ++ result ++ "\nfreqz(b,a);\n".toList)) := by
  unfold report
  rw [show (115 : ℤ) = ((115 : ℕ) : ℤ) from rfl, line_ok, show (42 : ℤ) = ((42 : ℕ) : ℤ) from rfl, line_ok]
  rfl

/-! ### Frequencies without a response -/

open Design

theorem proto_response (p : Proto) {K : ℝ} (hK : 0 < K) (h0 : 0 < p.d0) (h1 : 0 < p.d1) (h2 : 0 < p.d2) (g : ℝ) :
    ∃ H, (make_biquad (bilinear p K)).response g = .ok H ∧
      (H = 0 ↔ p.n0 * Real.sin (Real.pi * g) ^ 2 = p.n2 * K ^ 2 * Real.cos (Real.pi * g) ^ 2 ∧
        p.n1 * Real.sin (Real.pi * g) * Real.cos (Real.pi * g) = 0) := by
  have key (x0 x1 x2 : ℝ) : (-x0 * (Real.sin (Real.pi * g) : ℂ) ^ 2 +
      x1 * K * (Real.sin (Real.pi * g) : ℂ) * (Real.cos (Real.pi * g) : ℂ) * Complex.I +
      x2 * K ^ 2 * (Real.cos (Real.pi * g) : ℂ) ^ 2 = 0) ↔
      (x0 * Real.sin (Real.pi * g) ^ 2 = x2 * K ^ 2 * Real.cos (Real.pi * g) ^ 2 ∧
        x1 * Real.sin (Real.pi * g) * Real.cos (Real.pi * g) = 0) := by
    set s := Real.sin (Real.pi * g)
    set c := Real.cos (Real.pi * g)
    rw [show -x0 * (s : ℂ) ^ 2 + x1 * K * s * c * Complex.I + x2 * K ^ 2 * (c : ℂ) ^ 2 =
      ((-x0 * s ^ 2 + x2 * K ^ 2 * c ^ 2 : ℝ) : ℂ) + ((x1 * K * s * c : ℝ) : ℂ) * Complex.I by push_cast; ring]
    rw [Complex.ext_iff]
    simp only [Complex.add_re, Complex.ofReal_re, Complex.mul_re, Complex.I_re, mul_zero, Complex.ofReal_im, Complex.I_im,
      mul_one, sub_self, add_zero, Complex.zero_re, Complex.add_im, Complex.mul_im, zero_add, Complex.zero_im]
    refine and_congr ⟨fun h => by linarith, fun h => by linarith⟩ ?_
    rw [show x1 * K * s * c = K * (x1 * s * c) by ring, mul_eq_zero]
    exact ⟨fun h => h.resolve_left hK.ne', .inr⟩
  have hden : ¬ (p.d0 * Real.sin (Real.pi * g) ^ 2 = p.d2 * K ^ 2 * Real.cos (Real.pi * g) ^ 2 ∧
        p.d1 * Real.sin (Real.pi * g) * Real.cos (Real.pi * g) = 0) := by
    rintro ⟨e1, e2⟩
    have hsc := Real.sin_sq_add_cos_sq (Real.pi * g)
    rcases mul_eq_zero.1 e2 with h | h
    · have hs := (mul_eq_zero.1 h).resolve_left h1.ne'
      rw [hs] at e1 hsc
      have : p.d2 * K ^ 2 * Real.cos (Real.pi * g) ^ 2 = p.d2 * K ^ 2 := by
        rw [show Real.cos (Real.pi * g) ^ 2 = 1 by linarith, mul_one]
      have : 0 < p.d2 * K ^ 2 := by positivity
      linarith
    · rw [h] at e1 hsc
      rw [show Real.sin (Real.pi * g) ^ 2 = 1 by linarith] at e1
      linarith
  have hd0 := bilinear_response_aux p (K := K) (by positivity) g (fun h => hden ((key _ _ _).1 h))
  exact ⟨_, hd0, by rw [div_eq_zero_iff, key]; exact ⟨fun h => h.resolve_right fun h => hden ((key _ _ _).1 h), .inl⟩⟩

theorem sin_zero_iff {g : ℝ} (h0 : 0 ≤ g) (h1 : g ≤ 1 / 2) : Real.sin (Real.pi * g) = 0 ↔ g = 0 := by
  have hp := Real.pi_pos
  constructor
  · intro h
    by_contra hne
    have : 0 < Real.sin (Real.pi * g) :=
      Real.sin_pos_of_pos_of_lt_pi (mul_pos hp (lt_of_le_of_ne h0 (Ne.symm hne))) (by nlinarith)
    linarith
  · rintro rfl; simp

theorem cos_zero_iff {g : ℝ} (h0 : 0 ≤ g) (h1 : g ≤ 1 / 2) : Real.cos (Real.pi * g) = 0 ↔ g = 1 / 2 := by
  have hp := Real.pi_pos
  constructor
  · intro h
    by_contra hne
    have : 0 < Real.cos (Real.pi * g) :=
      Real.cos_pos_of_mem_Ioo ⟨by nlinarith, by nlinarith [lt_of_le_of_ne h1 hne]⟩
    linarith
  · rintro rfl; rw [mul_one_div, Real.cos_pi_div_two]

theorem tan_eq_iff {g w : ℝ} (h0 : 0 ≤ g) (h1 : g ≤ 1 / 2) (hw : 0 < w) (hw' : w < 1 / 2) :
    Real.sin (Real.pi * g) ^ 2 = Real.tan (Real.pi * w) ^ 2 * Real.cos (Real.pi * g) ^ 2 ↔ g = w := by
  have hp := Real.pi_pos
  have hcw : 0 < Real.cos (Real.pi * w) := Real.cos_pos_of_mem_Ioo ⟨by nlinarith, by nlinarith⟩
  constructor
  · intro h
    have hc : Real.cos (Real.pi * g) ≠ 0 := by
      intro hc
      rw [hc] at h
      have := Real.sin_sq_add_cos_sq (Real.pi * g)
      rw [hc] at this
      nlinarith
    have hg : g ≠ 1 / 2 := fun e => hc ((cos_zero_iff h0 h1).2 e)
    have hg' : g < 1 / 2 := lt_of_le_of_ne h1 hg
    have ht0 : 0 ≤ Real.tan (Real.pi * g) := Real.tan_nonneg_of_nonneg_of_le_pi_div_two (by positivity) (by nlinarith)
    have ht1 : 0 ≤ Real.tan (Real.pi * w) := Real.tan_nonneg_of_nonneg_of_le_pi_div_two (by positivity) (by nlinarith)
    have e : Real.tan (Real.pi * g) = Real.tan (Real.pi * w) := by
      rw [← abs_of_nonneg ht0, ← abs_of_nonneg ht1, ← sq_eq_sq_iff_abs_eq_abs, Real.tan_eq_sin_div_cos (Real.pi * g), div_pow,
        h, mul_div_assoc, div_self (pow_ne_zero _ hc), mul_one]
    have := Real.injOn_tan ⟨by nlinarith, by nlinarith⟩ ⟨by nlinarith, by nlinarith⟩ e
    exact mul_left_cancel₀ hp.ne' this
  · rintro rfl
    rw [Real.tan_eq_sin_div_cos, div_pow, div_mul_cancel₀ _ (pow_ne_zero _ hcw.ne')]

/-! ### Text -/

theorem replaced_first {c : Char} {from_ to_ l r : Text} (h : c ∉ l) :
    Text.replaced (l ++ (c :: from_) ++ r) (c :: from_) to_ = l ++ to_ ++ r := by
  refine C56_replaced _ _ _ l r rfl fun l' hl' => ?_
  obtain ⟨r', e⟩ := hl'
  by_contra hlt
  push Not at hlt
  have e1 : (l ++ c :: from_ ++ r)[l'.length]? = some c := by
    rw [e, List.append_assoc, List.getElem?_append_right le_rfl]
    simp
  rw [List.append_assoc, List.getElem?_append_left hlt] at e1
  exact h (List.mem_of_getElem? e1)

theorem replaced_none {c : Char} {from_ to_ t : Text} (h : c ∉ t) (hc : c ∈ from_) : Text.replaced t from_ to_ = t :=
  C56_absent _ _ _ fun ⟨l, r, e⟩ => h (by rw [← e]; simp [hc])

end FilterExamples
end Verif
