import Verif.Lemmas.ChebyshevExample
import Verif.Lemmas.FilterExamples
import Verif.Props.Chebyshev
import Verif.Props.ChebyshevInfo
import Verif.Props.Design
import Verif.Props.FloatRange
import Verif.Props.OutputText

/-
Properties C132, C133: the filter examples (example/desktop/biquad.e.cpp, biquad-cascade.e.cpp, biquad-design.e.cpp,
chebyshev-design.e.cpp, onepole.e.cpp, onepole-design.e.cpp).
-/

namespace Verif
open FilterExamples Output Design FloatRange Ieee

/-! ## C132 Response tables -/

/-- The text has the row of this name with these entries. -/
def HasRow (t : Text) (name : String) (entries : List Text) : Prop :=
  ("\n".toList ++ name.toList ++ " = [".toList ++ (entries.map (· ++ [' '])).flatten ++ "];\n".toList) <:+: t

/-- The text has the table of the gain at the frequencies: the frequencies, the gain, the gain in dB. -/
def Tabulates (elem : ℝ → Text) (response : ℝ → Res ℂ) (rng : Sweep) (t : Text) : Prop :=
  ∃ Hs : List ℂ, List.Forall₂ (fun x H => response x.val = .ok H ∧ H ≠ 0) rng Hs ∧
    HasRow t "fn" (rng.map float) ∧
    HasRow t "y" (Hs.map fun H => elem ‖H‖) ∧
    HasRow t "ydbV" (Hs.map fun H => elem (20 * Real.logb 10 ‖H‖))

theorem Tabulates.infix {elem : ℝ → Text} {response : ℝ → Res ℂ} {rng : Sweep} {t t' : Text}
    (h : Tabulates elem response rng t) (ht : t <:+: t') : Tabulates elem response rng t' := by
  obtain ⟨Hs, h1, h2, h3, h4⟩ := h
  exact ⟨Hs, h1, h2.trans ht, h3.trans ht, h4.trans ht⟩

theorem listing_tabulates {elem : ℝ → Text} {response : ℝ → Res ℂ} {rng : Sweep} {t : Text}
    (h : listing elem response rng = .ok t) : Tabulates elem response rng t := by
  obtain ⟨Hs, h1, rfl⟩ := listing_ok h
  have e : "];\n".toList ++ "\n".toList = "];\n\n".toList := by decide
  refine ⟨Hs, h1, ?_, ?_, ?_⟩
  · refine ⟨"\n% ".toList ++ List.replicate 65 '-' ++
      "\n% Matlab/Octave filter magnitude response for normalized frequency:\n".toList, ?_, ?_⟩
    rotate_left
    · simp only [List.map_map, Function.comp_def, List.append_assoc]
      rfl
  · refine ⟨"\n% ".toList ++ List.replicate 65 '-' ++
      "\n% Matlab/Octave filter magnitude response for normalized frequency:\n".toList ++ "\nfn = [".toList ++
      (rng.map fun x => float x ++ [' ']).flatten ++ "];\n".toList, ?_, ?_⟩
    rotate_left
    · simp only [List.map_map, Function.comp_def, List.append_assoc]
      rfl
  · refine ⟨"\n% ".toList ++ List.replicate 65 '-' ++
      "\n% Matlab/Octave filter magnitude response for normalized frequency:\n".toList ++ "\nfn = [".toList ++
      (rng.map fun x => float x ++ [' ']).flatten ++ "];\n".toList ++ "\ny = [".toList ++
      (Hs.map fun H => elem ‖H‖ ++ [' ']).flatten ++ "];\n".toList, "\nplotyy(fn, y, fn, ydbV);\n".toList, ?_⟩
    simp only [List.map_map, Function.comp_def, List.append_assoc]
    rfl

section
variable {elem : ℝ → Text} {rng : Sweep} {t text design : Text}

theorem report_ok {response : ℝ → Res ℂ} {title code result : Text} {filter : Res Text}
    (h : report elem title filter response rng code result = .ok t) :
    Tabulates elem response rng t ∧ (∃ bq, filter = .ok bq ∧ title ++ bq <:+: t) ∧
      code ++ result ++ "\nfreqz(b,a);\n".toList <:+ t := by
  rw [report_bind] at h
  obtain ⟨bq, h1, h⟩ := bind_eq_ok.1 h
  obtain ⟨mid, h2, h⟩ := bind_eq_ok.1 h
  obtain rfl := Except.ok.inj h
  refine ⟨(listing_tabulates h2).infix ⟨"\n".toList ++ List.replicate 115 '=' ++ "\n".toList ++ title ++ bq, _, by
    simp only [List.append_assoc]; rfl⟩, ⟨bq, h1, ?_⟩, ?_⟩
  · exact ⟨"\n".toList ++ List.replicate 115 '=' ++ "\n".toList, _, by simp only [List.append_assoc]; rfl⟩
  · exact ⟨"\n".toList ++ List.replicate 115 '=' ++ "\n".toList ++ title ++ bq ++ mid ++ "\n% ".toList ++
        List.replicate 42 '-' ++ "\n% Corresponding Matlab/Octave filter design:\n".toList ++
        "\npkg load signal\n".toList, by simp only [List.append_assoc]⟩

/-- **C132** What the examples print of a filter ends in its table: frequencies, gains and gains in dB belong to each other,
for the filter and the frequencies given, and every gain is defined and not zero; the filter itself is printed before, the
Matlab code after it. -/
theorem C132_table :
    (∀ q : Biquad ℝ, printBiquad elem rng text design q = .ok t → Tabulates elem q.response rng t ∧
      (∃ bq, biquad elem q = .ok bq ∧ text ++ " ".toList ++ design ++ ":\n".toList ++ bq <:+: t) ∧
      design ++ "\nbq = tf2sos(b,a)".toList ++ "\nfreqz(b,a);\n".toList <:+ t) ∧
    (∀ (N bytes : ℕ) (c : Cascade ℝ N), printCascade elem bytes rng text design c = .ok t →
      Tabulates elem c.response rng t ∧
      (∃ bq, cascade elem bytes c = .ok bq ∧ text ++ " ".toList ++ design ++ ":\n".toList ++ bq <:+: t) ∧
      design ++ "\nbqc = tf2sos(b,a)".toList ++ "\nfreqz(b,a);\n".toList <:+ t) ∧
    (∀ q : OnePole ℝ, printOnePole elem rng text design q = .ok t → Tabulates elem q.response rng t ∧
      (∃ bq, onepole elem q = .ok bq ∧ text ++ " ".toList ++ design ++ ":\n".toList ++ bq <:+: t) ∧
      design ++ "\nbq = tf2sos(b,a)".toList ++ "\nfreqz(b,a);\n".toList <:+ t) ∧
    (∀ c : Coeff, printBiquadDesign elem rng text design c = .ok t → Tabulates elem (make_biquad c).response rng t ∧
      (∃ bq, biquad elem (make_biquad c) = .ok bq ∧ text ++ " '".toList ++ design ++ "':\n".toList ++ bq <:+: t) ∧
      biquadMatlab design ++ "\nbq = tf2sos(b,a)".toList ++ "\nfreqz(b,a);\n".toList <:+ t) ∧
    (∀ c : ℝ × ℝ, printOnePoleDesign elem rng text design c = .ok t →
      Tabulates elem (OnePole.make_onepole c).response rng t ∧
      (∃ bq, onepole elem (OnePole.make_onepole c) = .ok bq ∧
        text ++ " '".toList ++ design ++ "':\n".toList ++ bq <:+: t) ∧
      onepoleMatlab design ++ "\nbq = tf2sos(b,a)".toList ++ "\nfreqz(b,a);\n".toList <:+ t) ∧
    (∀ (bytes : ℕ) (ai : AlgoInfo) (d : Digital), printPass elem bytes rng text design ai d = .ok t →
      ∃ c, make_biquad_cascade 7 d = .ok c ∧ Tabulates elem c.response rng t ∧
        (∃ bq, cascade elem bytes c = .ok bq ∧ text ++ " '".toList ++ design ++ "':\n".toList ++ bq <:+: t) ∧
        "\n[A,B,P] = ".toList ++ passMatlab design <:+: t) := by
  refine ⟨fun q h => report_ok h, fun N bytes c h => report_ok h, fun q h => report_ok h, fun c h => report_ok h,
    fun c h => report_ok h, fun bytes ai d h => ?_⟩
  unfold printPass coefficients at h
  obtain ⟨c, hc, h⟩ := bind_eq_ok.1 h
  obtain ⟨hd, h1, h⟩ := bind_eq_ok.1 h
  obtain ⟨mid, h2, h⟩ := bind_eq_ok.1 h
  rw [show (115 : ℤ) = ((115 : ℕ) : ℤ) from rfl, line_ok, line_ok, bind_ok, bind_ok] at h1
  obtain ⟨bq, h3, h1⟩ := bind_eq_ok.1 h1
  rw [show (42 : ℤ) = ((42 : ℕ) : ℤ) from rfl, line_ok, bind_ok] at h
  have e1 := Except.ok.inj h1
  have e := Except.ok.inj h
  refine ⟨c, hc, (listing_tabulates h2).infix ?_, ⟨bq, h3, ?_⟩, ?_⟩
  · rw [← e]
    exact ⟨hd, _, by simp only [List.append_assoc]; rfl⟩
  · have : text ++ " '".toList ++ design ++ "':\n".toList ++ bq <:+: hd := by
      rw [← e1]
      refine List.IsSuffix.isInfix ?_
      simp only [List.append_assoc]
      iterate 12 refine .trans ?_ (List.suffix_append _ _)
      exact List.suffix_rfl
    refine this.trans ?_
    rw [← e]
    simp only [List.append_assoc]
    exact (List.prefix_append _ _).isInfix
  · rw [← e]
    exact ⟨hd ++ mid ++ "\n% ".toList ++ List.replicate 42 '-' ++
      "\n% Corresponding Matlab/Octave filter design:".toList ++ "\n".toList, _, by simp only [List.append_assoc]; rfl⟩

theorem coefficients_prefix {ai : AlgoInfo} {d : Digital} {title : Text} {filter : Res Text}
    (h : coefficients elem ai d title filter = .ok t) :
    "\nai: ".toList ++ algoInfo elem ai ++ "\nb: ".toList ++ vector (bqB elem) d.b ++ "\na: ".toList ++
      vector (bqA elem) d.a ++ "\n".toList <:+: t := by
  unfold coefficients at h
  rw [show (115 : ℤ) = ((115 : ℕ) : ℤ) from rfl, line_ok, line_ok, bind_ok, bind_ok] at h
  obtain ⟨bq, -, h⟩ := bind_eq_ok.1 h
  rw [← Except.ok.inj h]
  exact ⟨"\n".toList ++ List.replicate 115 '=', List.replicate 115 '-' ++ ("\n".toList ++ ("\n".toList ++ (title ++ bq))), by
    simp only [List.append_assoc]⟩

/-- **C132** Before the table of a Chebyshev design, its information and the coefficients of its sections are printed, those
of the numerators and then those of the denominators, in their order. -/
theorem C132_coefficients (bytes : ℕ) (ai : AlgoInfo) (d : Digital)
    (h : printPass elem bytes rng text design ai d = .ok t ∨ printBand elem bytes rng text design ai d = .ok t) :
    "\nai: ".toList ++ algoInfo elem ai ++ "\nb: ".toList ++ vector (bqB elem) d.b ++ "\na: ".toList ++
      vector (bqA elem) d.a ++ "\n".toList <:+: t := by
  rcases h with h | h
  · unfold printPass at h
    obtain ⟨c, -, h⟩ := bind_eq_ok.1 h
    obtain ⟨hd, h1, h⟩ := bind_eq_ok.1 h
    obtain ⟨mid, -, h⟩ := bind_eq_ok.1 h
    obtain ⟨single, -, h⟩ := bind_eq_ok.1 h
    refine (coefficients_prefix h1).trans ?_
    rw [← Except.ok.inj h]
    simp only [List.append_assoc]
    exact (List.prefix_append _ _).isInfix
  · unfold printBand at h
    obtain ⟨c, -, h⟩ := bind_eq_ok.1 h
    obtain ⟨hd, h1, h⟩ := bind_eq_ok.1 h
    obtain ⟨mid, -, h⟩ := bind_eq_ok.1 h
    obtain ⟨single, -, h⟩ := bind_eq_ok.1 h
    refine (coefficients_prefix h1).trans ?_
    rw [← Except.ok.inj h]
    simp only [List.append_assoc]
    exact (List.prefix_append _ _).isInfix

/-- What is printed by the call for a type of filter: the design, its information and its table. -/
def Printed (elem : ℝ → Text) (outer : Sweep) (info : Res AlgoInfo) (made : Res Digital) (call t : Text) : Prop :=
  ∃ ai d c, info = .ok ai ∧ made = .ok d ∧ make_biquad_cascade 7 d = .ok c ∧ Tabulates elem c.response outer t ∧
    "Bi-quad filter design '".toList ++ call ++ "':\n".toList <:+: t ∧
    "\nai: ".toList ++ algoInfo elem ai ++ "\nb: ".toList ++ vector (bqB elem) d.b ++ "\na: ".toList ++
      vector (bqA elem) d.a ++ "\n".toList <:+: t

theorem printPass_printed {bytes : ℕ} {outer : Sweep} {info : Res AlgoInfo} {made : Res Digital} {call : Text}
    (h : (do printPass elem bytes outer "Bi-quad filter design".toList call (← info) (← made)) = .ok t) :
    Printed elem outer info made call t := by
  obtain ⟨ai, h1, h⟩ := bind_eq_ok.1 h
  obtain ⟨d, h2, h⟩ := bind_eq_ok.1 h
  obtain ⟨c, h3, h4, ⟨bq, -, h5⟩, -⟩ := C132_table.2.2.2.2.2 bytes ai d h
  refine ⟨ai, d, c, h1, h2, h3, h4, List.IsInfix.trans ?_ h5, C132_coefficients bytes ai d (.inl h)⟩
  exact List.IsPrefix.isInfix ⟨bq, by simp only [List.append_assoc]; rfl⟩

/-- **C132** The Chebyshev calls of chebyshev-design.e.cpp: the type 1 and the type 2 design with the arguments shown, at 100 Hz
with pass band to 20 and stop band from 24 Hz, the other way round for high-pass filters. -/
theorem C132_pass_calls (bytes : ℕ) (outer : Sweep) (t : Text) : ∀ low,
    (passMain elem low bytes outer).length = 2 ∧
    ((passMain elem low bytes outer)[0]? = some (.ok t) →
      if low then Printed elem outer (chebyshev1_info true 100 20 24 1 10) (chebyshev1_lp_hp true 100 20 24 1 10)
        "dsp::chebyshev1_lp_hp( dsp::FilterResponse::low_pass, 100, 20, 24, 1, 10 )".toList t
      else Printed elem outer (chebyshev1_info false 100 24 20 1 10) (chebyshev1_lp_hp false 100 24 20 1 10)
        "dsp::chebyshev1_lp_hp( dsp::FilterResponse::high_pass, 100, 24, 20, 1, 10 )".toList t) ∧
    ((passMain elem low bytes outer)[1]? = some (.ok t) →
      if low then Printed elem outer (chebyshev2_info true 100 20 24 1 10) (chebyshev2_lp_hp true 100 20 24 1 10)
        "dsp::chebyshev2_lp_hp( dsp::FilterResponse::low_pass, 100, 20, 24, 1, 10 )".toList t
      else Printed elem outer (chebyshev2_info false 100 24 20 1 10) (chebyshev2_lp_hp false 100 24 20 1 10)
        "dsp::chebyshev2_lp_hp( dsp::FilterResponse::high_pass, 100, 24, 20, 1, 10 )".toList t)
  | true => ⟨rfl, fun h => printPass_printed (Option.some.inj h), fun h => printPass_printed (Option.some.inj h)⟩
  | false => ⟨rfl, fun h => printPass_printed (Option.some.inj h), fun h => printPass_printed (Option.some.inj h)⟩

/-! ### Where there is no gain in dB -/

/-- All of it is printed when the filter can be printed and no gain is undefined or zero. -/
theorem report_total {response : ℝ → Res ℂ} {title code result bq : Text} {filter : Res Text} (h : filter = .ok bq)
    (hr : ∀ x ∈ rng, ∃ H, response x.val = .ok H ∧ H ≠ 0) :
    ∃ t, report elem title filter response rng code result = .ok t := by
  obtain ⟨mid, h2⟩ := listing_total (elem := elem) hr
  exact ⟨_, by rw [report_bind, h, bind_ok, h2, bind_ok]⟩

/-- At a gain of zero the logarithm does not exist. -/
theorem report_domain {response : ℝ → Res ℂ} {title code result bq : Text} {filter : Res Text} (h : filter = .ok bq)
    (hr : ∀ x ∈ rng, ∃ H, response x.val = .ok H) (h0 : ∃ x ∈ rng, response x.val = .ok 0) :
    report elem title filter response rng code result = .error .domain := by
  rw [report_bind, h, bind_ok, listing_domain hr h0]
  rfl

/-- **C132** A biquad is printed exactly if its first coefficient is not zero and its gain at each frequency is defined and not
zero. -/
theorem C132_defined (he : ∀ v, Word (elem v)) (q : Biquad ℝ) :
    (∃ t, printBiquad elem rng text design q = .ok t) ↔
      q.b.b0 ≠ 0 ∧ ∀ x ∈ rng, ∃ H, q.response x.val = .ok H ∧ H ≠ 0 := by
  constructor
  · rintro ⟨t, h⟩
    obtain ⟨⟨Hs, h1, -⟩, ⟨bq, h2, -⟩, -⟩ := report_ok h
    refine ⟨fun h0 => ?_, fun x hx => ?_⟩
    · rw [C122_biquad_undefined elem q h0] at h2
      cases h2
    · clear h h2
      induction h1 with
      | nil => cases hx
      | cons a _ ih =>
        rcases List.mem_cons.1 hx with rfl | hx
        · exact ⟨_, a⟩
        · exact ih hx
  · rintro ⟨h0, h⟩
    obtain ⟨bq, -, -, -, -, h1, -⟩ := C122_biquad elem he q h0
    exact report_total h1 h

/-- **C132** A cascade is printed if the first coefficients of its sections are not zero and its gain at each frequency is
defined and not zero. -/
theorem C132_defined_cascade {N : ℕ} (bytes : ℕ) (c : Cascade ℝ N) (hc : c.WF) (h0 : ∀ q ∈ c.toList, q.b.b0 ≠ 0)
    (h : ∀ x ∈ rng, ∃ H, c.response x.val = .ok H ∧ H ≠ 0) :
    ∃ t, printCascade elem bytes rng text design c = .ok t := by
  obtain ⟨hd, ts, -, h1, -⟩ := C122_cascade elem c hc h0 bytes
  exact report_total h1 h

theorem onepole_response_ne {q : OnePole ℝ} (ha : |q.a1| < 1) (hb : q.b0 ≠ 0) (g : ℝ) :
    ∃ H, q.response g = .ok H ∧ H ≠ 0 := by
  obtain ⟨H, h1, h2⟩ := onepole_magnitude q ha g
  refine ⟨H, h1, fun h0 => ?_⟩
  have hcos := Real.abs_cos_le_one (2 * Real.pi * g)
  have hpos : 0 < 1 + 2 * q.coeff_a * Real.cos (2 * Real.pi * g) + q.coeff_a ^ 2 := by
    have h3 : |q.coeff_a * Real.cos (2 * Real.pi * g)| ≤ |q.coeff_a| := by
      rw [abs_mul]; exact mul_le_of_le_one_right (abs_nonneg _) hcos
    have h4 := (abs_le.1 h3).1
    have h5 : 0 < (1 - |q.coeff_a|) ^ 2 := by
      have : |q.coeff_a| < 1 := ha
      exact pow_pos (by linarith) 2
    have h6 := sq_abs q.coeff_a
    nlinarith
  rw [h0, norm_zero] at h2
  have : q.coeff_b ^ 2 / (1 + 2 * q.coeff_a * Real.cos (2 * Real.pi * g) + q.coeff_a ^ 2) ≠ 0 :=
    div_ne_zero (pow_ne_zero _ hb) hpos.ne'
  exact this (by rw [← h2]; norm_num)

/-- **C132** A stable one-pole filter other than zero is printed for all frequencies, and so are the designs. -/
theorem C132_onepole (he : ∀ v, Word (elem v)) (rng : Sweep) :
    (∀ q : OnePole ℝ, |q.a1| < 1 → q.b0 ≠ 0 → ∃ t, printOnePole elem rng text design q = .ok t) ∧
    (∀ f fs, 0 < f → 0 < fs → ∃ c t, OnePole.designLowPass f fs = .ok c ∧
      printOnePoleDesign elem rng text design c = .ok t) ∧
    (∀ f fs, 0 < fs → f < fs / 2 → ∃ c t, OnePole.designHighPass f fs = .ok c ∧
      printOnePoleDesign elem rng text design c = .ok t) ∧
    (∃ t u, onepoleMain elem rng = [.ok t, .ok u]) ∧ ∃ t u, onepoleDesignMain elem rng = [.ok t, .ok u] := by
  have h1 : ∀ (q : OnePole ℝ) (title code result : Text), |q.a1| < 1 → q.b0 ≠ 0 →
      ∃ t, report elem title (onepole elem q) q.response rng code result = .ok t := by
    intro q title code result ha hb
    obtain ⟨bq, h, -⟩ := C122_onepole elem he q
    exact report_total h fun x _ => onepole_response_ne ha hb _
  have h2 : ∀ f fs, 0 < f → 0 < fs → ∃ c, OnePole.designLowPass f fs = .ok c ∧ ∀ text design : Text,
      ∃ t, printOnePoleDesign elem rng text design c = .ok t := by
    intro f fs hf hs
    obtain ⟨c, hc, ha, hb, -, l1, l2⟩ := C47_low_pass_coeff f fs hf hs
    refine ⟨c, hc, fun text design => h1 (OnePole.make_onepole c) _ _ _ (abs_lt.2 ⟨l1, l2.trans one_pos⟩) ?_⟩
    have : (OnePole.make_onepole c).coeff_b = 1 + (OnePole.make_onepole c).coeff_a := by rw [ha, hb]; ring
    intro h0
    have h0' : (OnePole.make_onepole c).coeff_b = 0 := h0
    linarith
  have h3 : ∀ f fs, 0 < fs → f < fs / 2 → ∃ c, OnePole.designHighPass f fs = .ok c ∧ ∀ text design : Text,
      ∃ t, printOnePoleDesign elem rng text design c = .ok t := by
    intro f fs hs hf
    obtain ⟨c, hc, ha, hb, -, l1, l2⟩ := C47_high_pass_coeff f fs hf hs
    refine ⟨c, hc, fun text design => h1 (OnePole.make_onepole c) _ _ _
      (abs_lt.2 ⟨lt_trans (by norm_num) l1, l2⟩) ?_⟩
    have : (OnePole.make_onepole c).coeff_b = 1 - (OnePole.make_onepole c).coeff_a := by rw [ha, hb]
    intro h0
    have h0' : (OnePole.make_onepole c).coeff_b = 0 := h0
    linarith
  refine ⟨fun q ha hb => h1 q _ _ _ ha hb, fun f fs hf hs => ?_, fun f fs hs hf => ?_, ?_, ?_⟩
  · obtain ⟨c, hc, h⟩ := h2 f fs hf hs
    obtain ⟨t, ht⟩ := h text design
    exact ⟨c, t, hc, ht⟩
  · obtain ⟨c, hc, h⟩ := h3 f fs hs hf
    obtain ⟨t, ht⟩ := h text design
    exact ⟨c, t, hc, ht⟩
  · obtain ⟨t, ht⟩ := h1 (OnePole.ofBA 0.05 (-0.95)) ("One-pole filter design".toList ++ " ".toList ++
      "OnePole{ { 0.05 }, { -0.95 } }".toList ++ ":\n".toList) "OnePole{ { 0.05 }, { -0.95 } }".toList
      "\nbq = tf2sos(b,a)".toList (by rw [OnePole.ofBA, abs_lt]; norm_num) (by rw [OnePole.ofBA]; norm_num)
    obtain ⟨u, hu⟩ := h1 (OnePole.ofBA 0.05 0.95) ("One-pole filter design".toList ++ " ".toList ++
      "OnePole{ { 0.05 }, { +0.95 } } ".toList ++ ":\n".toList) "OnePole{ { 0.05 }, { +0.95 } } ".toList
      "\nbq = tf2sos(b,a)".toList (by rw [OnePole.ofBA, abs_lt]; norm_num) (by rw [OnePole.ofBA]; norm_num)
    refine ⟨t, u, ?_⟩
    unfold onepoleMain printOnePole
    rw [ht, hu]
  · obtain ⟨c, hc, h⟩ := h2 2 100 (by norm_num) (by norm_num)
    obtain ⟨d, hd, h'⟩ := h3 48 100 (by norm_num) (by norm_num)
    obtain ⟨t, ht⟩ := h "Bi-quad filter design".toList "(dsp::onepole_design<FilterResponse::low_pass >( 2, 100 ))".toList
    obtain ⟨u, hu⟩ := h' "Bi-quad filter design".toList "(dsp::onepole_design<FilterResponse::high_pass >( 48, 100 ))".toList
    refine ⟨t, u, ?_⟩
    unfold onepoleDesignMain
    rw [hc, hd, bind_ok, bind_ok, ht, hu]

/-- The frequencies (relative to the sample frequency) a filter with nominal frequency `f` removes. -/
def Removes (R : Kind) (f fs g : ℝ) : Prop :=
  match R with
  | .low_pass => g = 1 / 2
  | .high_pass => g = 0
  | .band_pass => g = 0 ∨ g = 1 / 2
  | .band_stop => g = f / fs
  | .low_shelf | .high_shelf | .peak_band_eq => False

theorem never_zero {p : Proto} {K g : ℝ} (hK : 0 < K) (h0 : 0 < p.n0) (h1 : 0 < p.n1) (h2 : 0 < p.n2) :
    ¬ (p.n0 * Real.sin (Real.pi * g) ^ 2 = p.n2 * K ^ 2 * Real.cos (Real.pi * g) ^ 2 ∧
        p.n1 * Real.sin (Real.pi * g) * Real.cos (Real.pi * g) = 0) := by
  rintro ⟨e1, e2⟩
  have hsc := Real.sin_sq_add_cos_sq (Real.pi * g)
  rcases mul_eq_zero.1 e2 with h | h
  · have hs := (mul_eq_zero.1 h).resolve_left h1.ne'
    rw [hs] at e1 hsc
    rw [show Real.cos (Real.pi * g) ^ 2 = 1 by linarith] at e1
    have : 0 < p.n2 * K ^ 2 := by positivity
    linarith
  · rw [h] at e1 hsc
    rw [show Real.sin (Real.pi * g) ^ 2 = 1 by linarith] at e1
    linarith

theorem sin_cos_half (g : ℝ) : ¬ (Real.sin (Real.pi * g) = 0 ∧ Real.cos (Real.pi * g) = 0) := by
  rintro ⟨h1, h2⟩
  have := Real.sin_sq_add_cos_sq (Real.pi * g)
  rw [h1, h2] at this
  norm_num at this

/-- **C132** The gain of a design at every frequency from 0 to half the sample frequency is defined, and it is zero exactly at
the frequencies the filter is to remove. -/
theorem C132_removed (R : Kind) (d : ℝ) {f fs Q : ℝ} (h0 : 0 < f) (h1 : f < fs / 2) (hQ : 0 < Q) :
    ∃ c, biquad_design R d f fs Q = .ok c ∧ (make_biquad c).b.b0 ≠ 0 ∧ ∀ g, 0 ≤ g → g ≤ 1 / 2 →
      ∃ H, (make_biquad c).response g = .ok H ∧ (H = 0 ↔ Removes R f fs g) := by
  have hK := (prewarp_ok h0 h1).2
  have hV := dbV_factor_pos d
  have hfs : 0 < fs := by linarith
  have hq : 0 < 1 / Q := by positivity
  have hq2 : 0 < dbV_factor d / Q := by positivity
  have hw0 : 0 < f / fs := by positivity
  have hw1 : f / fs < 1 / 2 := by rw [div_lt_iff₀ hfs]; linarith
  have hs2 : 0 < √(2 * dbV_factor d) := Real.sqrt_pos.2 (by positivity)
  have hs3 : 0 < √(2 : ℝ) := Real.sqrt_pos.2 (by norm_num)
  set K := Real.tan (Real.pi * f / fs) with hKd
  have hb (p : Proto) (a0 : 0 < p.d0) (a1 : 0 < p.d1) (a2 : 0 < p.d2) (hn : 0 < p.n0 + p.n1 * K + p.n2 * K ^ 2) :
      (make_biquad (bilinear p K)).b.b0 ≠ 0 := by
    show (p.n0 + p.n1 * K + p.n2 * K ^ 2) / (p.d0 + p.d1 * K + p.d2 * K ^ 2) ≠ 0
    positivity
  cases R
  · refine ⟨_, low_pass_eq h0 h1 hQ, hb _ one_pos hq one_pos (by simp only; positivity), fun g g0 g1 => ?_⟩
    obtain ⟨H, hH, e⟩ := proto_response ⟨0, 0, 1, 1, 1 / Q, 1⟩ hK one_pos hq one_pos g
    refine ⟨H, hH, e.trans ?_⟩
    simp only [Removes, zero_mul, one_mul, and_true]
    rw [← cos_zero_iff g0 g1]
    constructor
    · intro h
      have := (mul_eq_zero.1 h.symm).resolve_left (by positivity)
      exact pow_eq_zero_iff (two_ne_zero) |>.1 this
    · intro h; rw [h]; ring
  · refine ⟨_, high_pass_eq h0 h1 hQ, hb _ one_pos hq one_pos (by simp only; positivity), fun g g0 g1 => ?_⟩
    obtain ⟨H, hH, e⟩ := proto_response ⟨1, 0, 0, 1, 1 / Q, 1⟩ hK one_pos hq one_pos g
    refine ⟨H, hH, e.trans ?_⟩
    simp only [Removes, zero_mul, one_mul, and_true]
    rw [← sin_zero_iff g0 g1]
    exact pow_eq_zero_iff two_ne_zero
  · refine ⟨_, band_pass_eq h0 h1 hQ, hb _ one_pos hq one_pos (by simp only; positivity), fun g g0 g1 => ?_⟩
    obtain ⟨H, hH, e⟩ := proto_response ⟨0, 1 / Q, 0, 1, 1 / Q, 1⟩ hK one_pos hq one_pos g
    refine ⟨H, hH, e.trans ?_⟩
    simp only [Removes, zero_mul, true_and]
    rw [← sin_zero_iff g0 g1, ← cos_zero_iff g0 g1, mul_assoc, mul_eq_zero, mul_eq_zero]
    exact ⟨fun h => h.resolve_left hq.ne', .inr⟩
  · refine ⟨_, band_stop_eq h0 h1 hQ, hb _ one_pos hq one_pos (by simp only; positivity), fun g g0 g1 => ?_⟩
    obtain ⟨H, hH, e⟩ := proto_response ⟨1, 0, 1, 1, 1 / Q, 1⟩ hK one_pos hq one_pos g
    refine ⟨H, hH, e.trans ?_⟩
    simp only [Removes, zero_mul, one_mul, and_true]
    rw [← tan_eq_iff g0 g1 hw0 hw1, hKd, mul_div_assoc]
  · refine ⟨_, low_shelf_eq h0 h1 d, ?_, fun g g0 g1 => ?_⟩
    · by_cases hd : 0 ≤ d
      · rw [if_pos hd]; exact hb _ one_pos hs3 one_pos (by simp only; positivity)
      · rw [if_neg hd]; exact hb _ one_pos hs2 hV (by simp only; positivity)
    · by_cases hd : 0 ≤ d
      · rw [if_pos hd]
        obtain ⟨H, hH, e⟩ := proto_response ⟨1, √(2 * dbV_factor d), dbV_factor d, 1, √2, 1⟩ hK one_pos hs3 one_pos g
        exact ⟨H, hH, ⟨fun h => never_zero hK one_pos hs2 hV (e.1 h), False.elim⟩⟩
      · rw [if_neg hd]
        obtain ⟨H, hH, e⟩ := proto_response ⟨1, √2, 1, 1, √(2 * dbV_factor d), dbV_factor d⟩ hK one_pos hs2 hV g
        exact ⟨H, hH, ⟨fun h => never_zero hK one_pos hs3 one_pos (e.1 h), False.elim⟩⟩
  · refine ⟨_, high_shelf_eq h0 h1 d, ?_, fun g g0 g1 => ?_⟩
    · by_cases hd : 0 ≤ d
      · rw [if_pos hd]; exact hb _ one_pos hs3 one_pos (by simp only; positivity)
      · rw [if_neg hd]; exact hb _ hV hs2 one_pos (by simp only; positivity)
    · by_cases hd : 0 ≤ d
      · rw [if_pos hd]
        obtain ⟨H, hH, e⟩ := proto_response ⟨dbV_factor d, √(2 * dbV_factor d), 1, 1, √2, 1⟩ hK one_pos hs3 one_pos g
        exact ⟨H, hH, ⟨fun h => never_zero hK hV hs2 one_pos (e.1 h), False.elim⟩⟩
      · rw [if_neg hd]
        obtain ⟨H, hH, e⟩ := proto_response ⟨1, √2, 1, dbV_factor d, √(2 * dbV_factor d), 1⟩ hK hV hs2 one_pos g
        exact ⟨H, hH, ⟨fun h => never_zero hK one_pos hs3 one_pos (e.1 h), False.elim⟩⟩
  · refine ⟨_, peak_eq h0 h1 hQ d, ?_, fun g g0 g1 => ?_⟩
    · by_cases hd : 0 ≤ d
      · rw [if_pos hd]; exact hb _ one_pos hq one_pos (by simp only; positivity)
      · rw [if_neg hd]; exact hb _ one_pos hq2 one_pos (by simp only; positivity)
    · by_cases hd : 0 ≤ d
      · rw [if_pos hd]
        obtain ⟨H, hH, e⟩ := proto_response ⟨1, dbV_factor d / Q, 1, 1, 1 / Q, 1⟩ hK one_pos hq one_pos g
        exact ⟨H, hH, ⟨fun h => never_zero hK one_pos hq2 one_pos (e.1 h), False.elim⟩⟩
      · rw [if_neg hd]
        obtain ⟨H, hH, e⟩ := proto_response ⟨1, 1 / Q, 1, 1, dbV_factor d / Q, 1⟩ hK one_pos hq2 one_pos g
        exact ⟨H, hH, ⟨fun h => never_zero hK one_pos hq one_pos (e.1 h), False.elim⟩⟩

/-- **C132** Frequencies from 0 to half the sample frequency: the call of a design is printed if none of them is removed;
otherwise the logarithm of zero is asked for. -/
theorem C132_call (he : ∀ v, Word (elem v)) (R : Kind) (d : ℝ) {f fs Q : ℝ} (h0 : 0 < f) (h1 : f < fs / 2) (hQ : 0 < Q)
    (s : String) (hr : ∀ x ∈ rng, 0 ≤ x.val ∧ x.val ≤ 1 / 2) :
    ((∀ x ∈ rng, ¬ Removes R f fs x.val) → ∃ t, callBiquad elem rng R d f fs Q s = .ok t) ∧
    ((∃ x ∈ rng, Removes R f fs x.val) → callBiquad elem rng R d f fs Q s = .error .domain) := by
  obtain ⟨c, hc, hb, h⟩ := C132_removed R d h0 h1 hQ
  obtain ⟨bq, -, -, -, -, h2, -⟩ := C122_biquad elem he _ hb
  have hr' : ∀ x ∈ rng, (0 : ℝ) ≤ (x.val : ℝ) ∧ (x.val : ℝ) ≤ 1 / 2 := fun x hx =>
    ⟨by exact_mod_cast (hr x hx).1, by
      have h' : ((x.val : ℚ) : ℝ) ≤ ((1 / 2 : ℚ) : ℝ) := Rat.cast_le.2 (hr x hx).2
      simpa using h'⟩
  constructor
  · intro hn
    unfold callBiquad
    rw [hc, bind_ok]
    refine report_total h2 fun x hx => ?_
    obtain ⟨H, e1, e2⟩ := h x.val (hr' x hx).1 (hr' x hx).2
    exact ⟨H, e1, fun h0 => hn x hx (e2.1 h0)⟩
  · rintro ⟨x, hx, hx0⟩
    unfold callBiquad
    rw [hc, bind_ok]
    refine report_domain h2 (fun y hy => ?_) ⟨x, hx, ?_⟩
    · obtain ⟨H, e1, -⟩ := h y.val (hr' y hy).1 (hr' y hy).2
      exact ⟨H, e1⟩
    · obtain ⟨H, e1, e2⟩ := h x.val (hr' x hx).1 (hr' x hx).2
      rw [e1, e2.2 hx0]

private theorem outer101_eval : Res.yields (sweep binary64 101 102) (fun r => r.2 && r.1.all (fun x => decide (0 ≤ x.val) && decide (x.val ≤ 1 / 2)) &&
    r.1.any (fun x => x.val == 0) && r.1.any (fun x => x.val == 1 / 2)) = true := by decide +kernel

private theorem outer201_eval : Res.yields (sweep binary64 201 202) (fun r => r.2 && r.1.all (fun x => decide (0 ≤ x.val) && decide (x.val ≤ 1 / 2)) &&
    r.1.any (fun x => x.val == 0) && r.1.any (fun x => x.val == 1 / 2)) = true := by decide +kernel

private theorem inner101_eval : Res.yields (innerSweep binary64 101 101) (fun r => r.2 && r.1.all (fun x => decide (0 < x.val) && decide (x.val < 1 / 2)) &&
    r.1.any (fun x => x.val == 1 / 4)) = true := by decide +kernel

/-- The frequencies of the examples. -/
theorem outer_frequencies {N : ℕ} (hN : N = 101 ∨ N = 201) {fuel : ℕ} (hf : N + 1 ≤ fuel) {l : Sweep}
    (h : sweep binary64 N fuel = .ok (l, true)) :
    (∀ x ∈ l, 0 ≤ x.val ∧ x.val ≤ 1 / 2) ∧ (∃ x ∈ l, x.val = 0) ∧ ∃ x ∈ l, x.val = 1 / 2 := by
  have key : ∀ e : Res.yields (sweep binary64 N (N + 1)) (fun r => r.2 && r.1.all (fun x => decide (0 ≤ x.val) && decide (x.val ≤ 1 / 2)) &&
    r.1.any (fun x => x.val == 0) && r.1.any (fun x => x.val == 1 / 2)) = true,
    (∀ x ∈ l, 0 ≤ x.val ∧ x.val ≤ 1 / 2) ∧ (∃ x ∈ l, x.val = 0) ∧ ∃ x ∈ l, x.val = 1 / 2 := by
    intro e
    obtain ⟨l', h1, -, -⟩ := C112_sweep (f := binary64) N (by omega) (by rcases hN with rfl | rfl <;> decide) (by decide)
      (by decide)
    have h2 := h1 fuel hf
    rw [h] at h2
    obtain rfl : l = l' := (Prod.mk.inj (Except.ok.inj h2)).1
    rw [h1 (N + 1) le_rfl] at e
    simp only [Res.yields, Bool.true_and, Bool.and_eq_true, List.all_eq_true, List.any_eq_true, decide_eq_true_eq,
      beq_iff_eq] at e
    exact ⟨e.1.1, e.1.2, e.2⟩
  rcases hN with rfl | rfl
  · exact key outer101_eval
  · exact key outer201_eval

theorem inner_frequencies {fuel : ℕ} (hf : 101 ≤ fuel) {l : Sweep} (h : innerSweep binary64 101 fuel = .ok (l, true)) :
    (∀ x ∈ l, 0 < x.val ∧ x.val < 1 / 2) ∧ ∃ x ∈ l, x.val = 1 / 4 := by
  obtain ⟨l', h1, -, -⟩ := C112_inner_sweep (f := binary64) 101 (by norm_num) (by decide) (by decide) (by decide)
  have h2 := h1 fuel hf
  rw [h] at h2
  obtain rfl : l = l' := (Prod.mk.inj (Except.ok.inj h2)).1
  have e := inner101_eval
  rw [h1 101 le_rfl] at e
  simp only [Res.yields, Bool.true_and, Bool.and_eq_true, List.all_eq_true, List.any_eq_true, decide_eq_true_eq,
    beq_iff_eq] at e
  exact ⟨e.1, e.2⟩

/-- **C132** (partial: full statement, "every call of biquad-design.e.cpp prints its table") Seven of the ten calls do, among
them the band pass, for which the ends are left out. -/
theorem C132_calls_partial (he : ∀ v, Word (elem v)) {outer inner : Sweep} {fuel : ℕ} (hf : 102 ≤ fuel)
    (ho : sweep binary64 101 fuel = .ok (outer, true)) (hi : innerSweep binary64 101 fuel = .ok (inner, true)) :
    ∃ t2 t3 t4 t5 t6 t8 t9 r0 r1 r7, biquadMain elem outer inner =
      [r0, r1, .ok t2, .ok t3, .ok t4, .ok t5, .ok t6, r7, .ok t8, .ok t9] := by
  obtain ⟨o1, -, -⟩ := outer_frequencies (.inl rfl) hf ho
  obtain ⟨i1, -⟩ := inner_frequencies (by omega) hi
  have o (R : Kind) (d : ℝ) (s : String) (hR : ∀ g, ¬ Removes R 25 100 g) : ∃ t, callBiquad elem outer R d 25 100 3 s = .ok t :=
    (C132_call he R d (by norm_num) (by norm_num) (by norm_num) s o1).1 fun x _ => hR _
  have b (s : String) : ∃ t, callBiquad elem inner .band_pass 0 25 100 3 s = .ok t := by
    refine (C132_call he .band_pass 0 (by norm_num) (by norm_num) (by norm_num) s
      fun x hx => ⟨(i1 x hx).1.le, (i1 x hx).2.le⟩).1 fun x hx => ?_
    rintro (h | h)
    · exact (i1 x hx).1.ne' (by exact_mod_cast h)
    · refine (i1 x hx).2.ne ?_
      have : ((x.val : ℚ) : ℝ) = ((1 / 2 : ℚ) : ℝ) := by rw [h]; norm_num
      exact_mod_cast this
  unfold biquadMain
  obtain ⟨t2, e2⟩ := o .low_shelf 6 "(dsp::biquad_design<FilterResponse::low_shelf >(+6, 25, 100, 3 ))" fun _ h => h
  obtain ⟨t3, e3⟩ := o .low_shelf (-6) "(dsp::biquad_design<FilterResponse::low_shelf >(-6, 25, 100, 3 ))" fun _ h => h
  obtain ⟨t4, e4⟩ := o .high_shelf 6 "(dsp::biquad_design<FilterResponse::high_shelf>(+6, 25, 100, 3 ))" fun _ h => h
  obtain ⟨t5, e5⟩ := o .high_shelf (-6) "(dsp::biquad_design<FilterResponse::high_shelf>(-6, 25, 100, 3 ))" fun _ h => h
  obtain ⟨t6, e6⟩ := b "(dsp::biquad_design<FilterResponse::band_pass >( 0, 25, 100, 3 ))"
  obtain ⟨t8, e8⟩ := o .peak_band_eq 6 "(dsp::biquad_design<FilterResponse::peak_band_eq>(+6, 25, 100, 3 ))" fun _ h => h
  obtain ⟨t9, e9⟩ := o .peak_band_eq (-6) "(dsp::biquad_design<FilterResponse::peak_band_eq>(-6, 25, 100, 3 ))" fun _ h => h
  rw [e2, e3, e4, e5, e6, e8, e9]
  exact ⟨t2, t3, t4, t5, t6, t8, t9, _, _, _, rfl⟩

/-- **C132** The calls for low pass, high pass and band stop ask for the logarithm of zero (in `double` arithmetic: minus
infinity, or a number that only reflects rounding errors), as their frequencies contain 1/2, 0 and 1/4.  The comment "avoid
0, 0.5" in the source is at the band stop, where these are harmless. -/
theorem C132_calls_wrong (he : ∀ v, Word (elem v)) {outer inner : Sweep} {fuel : ℕ} (hf : 102 ≤ fuel)
    (ho : sweep binary64 101 fuel = .ok (outer, true)) (hi : innerSweep binary64 101 fuel = .ok (inner, true)) :
    (biquadMain elem outer inner)[0]? = some (.error .domain) ∧ (biquadMain elem outer inner)[1]? = some (.error .domain) ∧
      (biquadMain elem outer inner)[7]? = some (.error .domain) := by
  obtain ⟨o1, ⟨x, hx, x0⟩, ⟨y, hy, y0⟩⟩ := outer_frequencies (.inl rfl) hf ho
  obtain ⟨i1, ⟨z, hz, z0⟩⟩ := inner_frequencies (by omega) hi
  refine ⟨congrArg some ?_, congrArg some ?_, congrArg some ?_⟩
  · exact (C132_call he .low_pass 0 (by norm_num) (by norm_num) (by norm_num) _ o1).2 ⟨y, hy, by
      show ((y.val : ℚ) : ℝ) = 1 / 2
      rw [y0]; norm_num⟩
  · exact (C132_call he .high_pass 0 (by norm_num) (by norm_num) (by norm_num) _ o1).2 ⟨x, hx, by
      show ((x.val : ℚ) : ℝ) = 0
      rw [x0]; norm_num⟩
  · exact (C132_call he .band_stop 0 (by norm_num) (by norm_num) (by norm_num) _
      fun x hx => ⟨(i1 x hx).1.le, (i1 x hx).2.le⟩).2 ⟨z, hz, by
      show ((z.val : ℚ) : ℝ) = 25 / 100
      rw [z0]; norm_num⟩

/-- The sweeps the two theorems speak of exist, and numbers are printed as words. -/
example : ∃ outer inner : Sweep, sweep binary64 101 102 = .ok (outer, true) ∧
    innerSweep binary64 101 102 = .ok (inner, true) ∧ ∃ elem : ℝ → Text, ∀ v, Word (elem v) := by
  obtain ⟨l, h1, -, -⟩ := C112_sweep (f := binary64) 101 (by norm_num) (by decide) (by decide) (by decide)
  obtain ⟨l', h2, -, -⟩ := C112_inner_sweep (f := binary64) 101 (by norm_num) (by decide) (by decide) (by decide)
  exact ⟨l, l', h1 102 (by norm_num), h2 102 (by norm_num), fun _ => "0.5".toList, fun _ => show Word "0.5".toList by decide⟩

section
variable {n : ℕ} {low : Bool} {fs fpass fstop Apass Astop : ℝ} {d : Digital} {c : Cascade ℝ n}

/-- **C132** The type 1 Chebyshev low pass removes half the sample frequency, the high pass frequency 0, and nothing else. -/
theorem C132_chebyshev1_removed (v : Valid low fs fpass fstop (max Apass 0.01) (max Astop 0.01))
    (hd : chebyshev1_lp_hp low fs fpass fstop Apass Astop = .ok d) (hc : make_biquad_cascade n d = .ok c) {g : ℝ}
    (g0 : 0 ≤ g) (g1 : g ≤ 1 / 2) : ∃ H, c.response g = .ok H ∧ (H = 0 ↔ g = if low then 1 / 2 else 0) := by
  obtain ⟨h1, hN, hW, ha, h2, h3⟩ := cascade1 v hd hc
  obtain ⟨H, hH, hm⟩ := cascade_mag low _ h2 c h1 h3 g
  refine ⟨H, hH, ?_⟩
  have hsc := halfSin_sq_add low g
  have hcos : halfCos low g = 0 ↔ g = if low then 1 / 2 else 0 := by
    cases low
    · exact sin_zero_iff g0 g1
    · exact cos_zero_iff g0 g1
  have key : ∀ p : Proto, p.Pos → p.n0 = 0 → p.n2 = p.d2 → (p.mag low g = 0 ↔ halfCos low g = 0) := by
    intro p hp e0 e2
    have hden := Proto.den2_pos hp hsc
    unfold Proto.mag
    rw [div_eq_zero_iff, or_iff_left hden.ne']
    unfold Proto.num2
    rw [e0, e2]
    constructor
    · intro h
      have : (p.d2 * halfCos low g ^ 2 - 0 * halfSin low g ^ 2) ^ 2 = 0 := by nlinarith [sq_nonneg (p.n1 * halfSin low g * halfCos low g), sq_nonneg (p.d2 * halfCos low g ^ 2 - 0 * halfSin low g ^ 2)]
      rw [zero_mul, sub_zero] at this
      have := pow_eq_zero_iff two_ne_zero |>.1 this
      have := (mul_eq_zero.1 this).resolve_left hp.2.2.ne'
      exact pow_eq_zero_iff two_ne_zero |>.1 this
    · intro h; rw [h]; ring
  have hzero : H = 0 ↔ ‖H‖ ^ 2 = 0 := by rw [pow_eq_zero_iff two_ne_zero, norm_eq_zero]
  rw [hzero, hm, List.prod_eq_zero_iff, ← hcos]
  set N := order low fs fpass fstop (max Apass 0.01) (max Astop 0.01)
  generalize hW0 : Real.sinh (Real.arsinh (ripple (max Astop 0.01)) / N) * warp low fpass fs = W0 at *
  have hmem : ∀ q ∈ protos N W0 (proto1 N W0 (warp low fpass fs)), q.n0 = 0 ∧ q.n2 = q.d2 := by
    intro q hq
    unfold protos at hq
    rw [List.mem_append] at hq
    rcases hq with hq | hq
    · split at hq
      · rw [List.mem_singleton] at hq
        rw [hq]
        exact ⟨rfl, rfl⟩
      · simp at hq
    · rw [List.mem_map] at hq
      obtain ⟨k, -, rfl⟩ := hq
      exact ⟨rfl, rfl⟩
  constructor
  · intro h
    obtain ⟨p, hp, e⟩ := List.mem_map.1 h
    exact (key p (h2 p hp) (hmem p hp).1 (hmem p hp).2).1 e
  · intro h
    have hne : protos N W0 (proto1 N W0 (warp low fpass fs)) ≠ [] := by
      intro e
      have hl := length_sections low N W0 (proto1 N W0 (warp low fpass fs))
      rw [sections_eq, e] at hl
      simp only [List.map_nil, List.length_nil] at hl
      omega
    obtain ⟨p, hp⟩ := List.exists_mem_of_ne_nil _ hne
    exact List.mem_map.2 ⟨p, hp, (key p (h2 p hp) (hmem p hp).1 (hmem p hp).2).2 h⟩

theorem printPass_ne {bytes : ℕ} {ai : AlgoInfo}
    (v : Valid low fs fpass fstop (max Apass 0.01) (max Astop 0.01))
    (hd : chebyshev1_lp_hp low fs fpass fstop Apass Astop = .ok d) {x : Flt binary64} (hx : x ∈ rng)
    (h0 : (x.val : ℝ) = if low then 1 / 2 else 0) (t : Text) : printPass elem bytes rng text design ai d ≠ .ok t := by
  intro h
  obtain ⟨c, hc, ⟨Hs, h1, -⟩, -⟩ := C132_table.2.2.2.2.2 bytes ai d h
  have : ∃ H, c.response x.val = .ok H ∧ H ≠ 0 := by
    clear h
    induction h1 with
    | nil => cases hx
    | cons a _ ih =>
      rcases List.mem_cons.1 hx with rfl | hx
      · exact ⟨_, a⟩
      · exact ih hx
  obtain ⟨H, e1, e2⟩ := this
  obtain ⟨H', e3, e4⟩ := C132_chebyshev1_removed v hd hc (g := x.val) (by rw [h0]; split <;> norm_num)
    (by rw [h0]; split <;> norm_num)
  rw [e1] at e3
  exact e2 ((Except.ok.inj e3) ▸ e4.2 h0)

end

/-- **C132** Neither type 1 Chebyshev call of chebyshev-design.e.cpp can be printed without the logarithm of zero. -/
theorem C132_chebyshev1_wrong (low : Bool) (bytes : ℕ) {outer : Sweep} {fuel : ℕ} (hf : 202 ≤ fuel)
    (ho : sweep binary64 201 fuel = .ok (outer, true)) (t : Text) : (passMain elem low bytes outer)[0]? ≠ some (.ok t) := by
  obtain ⟨o1, ⟨x, hx, x0⟩, ⟨y, hy, y0⟩⟩ := outer_frequencies (.inr rfl) hf ho
  have h1 : max (1 : ℝ) 0.01 = 1 := by norm_num
  have h2 : max (10 : ℝ) 0.01 = 10 := by norm_num
  intro h
  cases low
  · have h := Option.some.inj h
    obtain ⟨ai, -, h⟩ := bind_eq_ok.1 h
    obtain ⟨d, hd, h⟩ := bind_eq_ok.1 h
    refine printPass_ne ?_ hd hx (by rw [x0]; norm_num) _ h
    rw [h1, h2]
    constructor <;> norm_num
  · have h := Option.some.inj h
    obtain ⟨ai, -, h⟩ := bind_eq_ok.1 h
    obtain ⟨d, hd, h⟩ := bind_eq_ok.1 h
    refine printPass_ne ?_ hd hy (by rw [y0]; norm_num) _ h
    rw [h1, h2]
    constructor <;> norm_num

private theorem zeros201_eval : Res.yields (sweep binary64 201 202) (fun r => r.2 && r.1.all (fun x =>
    (decide (x.val ≤ 25251 / 100000) || decide (25499 / 100000 ≤ x.val) && decide (x.val ≤ 37501 / 100000) ||
      decide (37749 / 100000 ≤ x.val)) &&
    (decide (x.val ≤ 8501 / 100000) || decide (8749 / 100000 ≤ x.val) && decide (x.val ≤ 18751 / 100000) ||
      decide (18999 / 100000 ≤ x.val)))) = true := by decide +kernel

/-- The frequencies of the example avoid the zeros of its type 2 filters. -/
theorem outer_zeros {fuel : ℕ} (hf : 202 ≤ fuel) {l : Sweep} (h : sweep binary64 201 fuel = .ok (l, true)) {x : Flt binary64}
    (hx : x ∈ l) : ((x.val : ℝ) ≤ 0.25251 ∨ 0.25499 ≤ (x.val : ℝ) ∧ (x.val : ℝ) ≤ 0.37501 ∨ 0.37749 ≤ (x.val : ℝ)) ∧
      ((x.val : ℝ) ≤ 0.08501 ∨ 0.08749 ≤ (x.val : ℝ) ∧ (x.val : ℝ) ≤ 0.18751 ∨ 0.18999 ≤ (x.val : ℝ)) := by
  obtain ⟨l', h1, -, -⟩ := C112_sweep (f := binary64) 201 (by norm_num) (by decide) (by decide) (by decide)
  have h2 := h1 fuel hf
  rw [h] at h2
  obtain rfl : l = l' := (Prod.mk.inj (Except.ok.inj h2)).1
  have e := zeros201_eval
  rw [h1 202 le_rfl] at e
  simp only [Res.yields, Bool.true_and, Bool.and_eq_true, Bool.or_eq_true, List.all_eq_true, decide_eq_true_eq] at e
  have e := e x hx
  have up : ∀ q : ℚ, x.val ≤ q → (x.val : ℝ) ≤ (q : ℝ) := fun q i => Rat.cast_le.2 i
  have dn : ∀ q : ℚ, q ≤ x.val → (q : ℝ) ≤ (x.val : ℝ) := fun q i => Rat.cast_le.2 i
  refine ⟨?_, ?_⟩
  · rcases e.1 with (i | ⟨i, j⟩) | i
    · exact .inl ((up _ i).trans (by norm_num))
    · exact .inr (.inl ⟨le_trans (by norm_num) (dn _ i), (up _ j).trans (by norm_num)⟩)
    · exact .inr (.inr (le_trans (by norm_num) (dn _ i)))
  · rcases e.2 with (i | ⟨i, j⟩) | i
    · exact .inl ((up _ i).trans (by norm_num))
    · exact .inr (.inl ⟨le_trans (by norm_num) (dn _ i), (up _ j).trans (by norm_num)⟩)
    · exact .inr (.inr (le_trans (by norm_num) (dn _ i)))

/-- The type 2 filters of the example are printed on its frequencies. -/
theorem type2_printed (low : Bool) (bytes : ℕ) {outer : Sweep} {fuel : ℕ} (hf : 202 ≤ fuel)
    (ho : sweep binary64 201 fuel = .ok (outer, true)) :
    ∃ t, (do printPass elem bytes outer text design
              (← chebyshev2_info low 100 (if low then 20 else 24) (if low then 24 else 20) 1 10)
              (← chebyshev2_lp_hp low 100 (if low then 20 else 24) (if low then 24 else 20) 1 10)) = .ok t := by
  obtain ⟨o1, -, -⟩ := outer_frequencies (.inr rfl) hf ho
  have h1 : max (1 : ℝ) 0.01 = 1 := by norm_num
  have h2 : max (10 : ℝ) 0.01 = 10 := by norm_num
  have v : Valid low 100 (if low then 20 else 24) (if low then 24 else 20) (max 1 0.01) (max 10 0.01) := by
    rw [h1, h2]
    exact ChebyshevExample.valid low
  have eN : order low 100 (if low then 20 else 24) (if low then 24 else 20) (max 1 0.01) (max 10 0.01) = 4 := by
    rw [h1, h2]
    exact ChebyshevExample.order_eq low
  obtain ⟨d, c, hd, hc⟩ := C66_exists (n := 7) v (by rw [eN]; norm_num) (by rw [eN]; norm_num)
  obtain ⟨ai, hi, -⟩ := C131_type2 v hd hc
  obtain ⟨hWF, -, -, -, hPos, hl⟩ := cascade2 v hd hc
  have hb : ∀ q ∈ c.toList, q.b.b0 ≠ 0 := by
    intro q hq
    rw [hl] at hq
    rw [eN] at hq hPos
    simp only [protos, List.map_map, List.mem_map, Nat.reduceMod, Nat.reduceDiv, zero_ne_one, if_false,
      List.nil_append, Function.comp_apply] at hq
    obtain ⟨k, hk, rfl⟩ := hq
    have hsec : ∀ w a b c : ℝ, 0 ≤ w → 0 < a → 0 < b → 0 < c → 0 < (sec low ⟨w, 0, 1, a, b, c⟩).b.b0 := by
      intro w a b c i1 i2 i3 i4
      unfold sec bilinear Proto.flip
      cases low <;> simp only [Bool.false_eq_true, if_false, if_true] <;> positivity
    have hk := hPos _ (List.mem_append_right _ (List.mem_map_of_mem hk))
    exact (hsec _ _ _ _ (sq_nonneg _) hk.1 hk.2.1 hk.2.2).ne'
  have hz : ∀ x ∈ outer, ∃ H, c.response x.val = .ok H ∧ H ≠ 0 := by
    intro x hx
    obtain ⟨z1, z2⟩ := outer_zeros hf ho hx
    have x0 : (0 : ℝ) ≤ x.val := by exact_mod_cast (o1 x hx).1
    have x1 : (x.val : ℝ) ≤ 1 / 2 := by
      have := (Rat.cast_le (K := ℝ)).2 (o1 x hx).2
      push_cast at this
      exact this
    have pass : InPass low 100 (if low then 20 else 24) (100 * x.val) → ∃ H, c.response x.val = .ok H ∧ H ≠ 0 := by
      intro hp
      obtain ⟨H, e1, -, e2, -⟩ := C66_specification v hd hc (100 * x.val)
      rw [mul_div_cancel_left₀ _ (by norm_num)] at e1
      refine ⟨H, e1, fun e => ?_⟩
      have := e2 hp
      rw [e, norm_zero] at this
      have p : (0 : ℝ) < 10 ^ (-max (1 : ℝ) 0.01 / 10) := by positivity
      linarith
    have other : (if low then Real.sin (Real.pi * x.val) ≠ 0 else Real.cos (Real.pi * x.val) ≠ 0) →
        Cheb.T 4 (warp low (if low then 24 else 20) 100 * (if low then Real.cos (Real.pi * x.val) / Real.sin (Real.pi * x.val)
          else Real.sin (Real.pi * x.val) / -Real.cos (Real.pi * x.val))) ≠ 0 → ∃ H, c.response x.val = .ok H ∧ H ≠ 0 := by
      intro h i
      obtain ⟨H, e1, e2⟩ := C66_magnitude v hd hc x.val h
      refine ⟨H, e1, fun e => ?_⟩
      simp only [eN] at e2
      rw [e, norm_zero, zero_pow two_ne_zero, h2, show (10 : ℝ) / 10 = 1 by norm_num, Real.rpow_one] at e2
      have p := sq_pos_of_ne_zero i
      exact (div_pos p (add_pos p (by norm_num))).ne e2
    have pi := Real.pi_pos
    cases low
    · rcases le_total (x.val : ℝ) 0.24 with i | i
      · exact other (Real.cos_pos_of_mem_Ioo ⟨by nlinarith, by nlinarith⟩).ne' (ChebyshevExample.high_ne x0 i z2)
      · exact pass ⟨by simp only [Bool.false_eq_true, if_false]; linarith, by linarith⟩
    · rcases le_total (x.val : ℝ) 0.2 with i | i
      · exact pass ⟨by linarith, by simp only [if_true]; linarith⟩
      · exact other (Real.sin_pos_of_pos_of_lt_pi (by nlinarith) (by nlinarith)).ne' (ChebyshevExample.low_ne i x1 z1)
  obtain ⟨hd', ts, -, hp, -⟩ := C122_cascade elem c hWF hb bytes
  obtain ⟨mid, hm⟩ := listing_total (elem := elem) hz
  rw [hi, bind_ok, hd, bind_ok]
  unfold printPass
  rw [hc, bind_ok]
  unfold coefficients
  rw [show (115 : ℤ) = ((115 : ℕ) : ℤ) from rfl, show (42 : ℤ) = ((42 : ℕ) : ℤ) from rfl, line_ok, line_ok, line_ok, bind_ok, bind_ok, hp,
    bind_ok, bind_ok, hm, bind_ok, bind_ok]
  exact ⟨_, rfl⟩

/-- **C132** Both type 2 Chebyshev calls of chebyshev-design.e.cpp print the table of their filter. -/
theorem C132_type2_calls (low : Bool) (bytes : ℕ) {outer : Sweep} {fuel : ℕ} (hf : 202 ≤ fuel)
    (ho : sweep binary64 201 fuel = .ok (outer, true)) : ∃ t, (passMain elem low bytes outer)[1]? = some (.ok t) ∧
      ∃ d c, chebyshev2_lp_hp low 100 (if low then 20 else 24) (if low then 24 else 20) 1 10 = .ok d ∧
        make_biquad_cascade 7 d = .ok c ∧ Tabulates elem c.response outer t := by
  cases low
  · obtain ⟨t, h⟩ := type2_printed (elem := elem) (text := "Bi-quad filter design".toList)
      (design := "dsp::chebyshev2_lp_hp( dsp::FilterResponse::high_pass, 100, 24, 20, 1, 10 )".toList) false bytes hf ho
    refine ⟨t, congrArg some h, ?_⟩
    obtain ⟨-, d, c, -, h2, h3, h4, -⟩ := printPass_printed h
    exact ⟨d, c, h2, h3, h4⟩
  · obtain ⟨t, h⟩ := type2_printed (elem := elem) (text := "Bi-quad filter design".toList)
      (design := "dsp::chebyshev2_lp_hp( dsp::FilterResponse::low_pass, 100, 20, 24, 1, 10 )".toList) true bytes hf ho
    refine ⟨t, congrArg some h, ?_⟩
    obtain ⟨-, d, c, -, h2, h3, h4, -⟩ := printPass_printed h
    exact ⟨d, c, h2, h3, h4⟩

theorem response_dc (q : Biquad ℝ) (h : 1 + q.a.a1 + q.a.a2 ≠ 0) :
    q.response 0 = .ok (((q.b.b0 + q.b.b1 + q.b.b2) / (1 + q.a.a1 + q.a.a2) : ℝ) : ℂ) := by
  rw [response_formula]
  have e : Complex.exp (-(2 * Real.pi * ((0 : ℝ) : ℂ) * Complex.I)) = 1 := by simp
  simp only [e, one_pow, mul_one]
  rw [if_neg (by exact_mod_cast h)]
  push_cast
  rfl

/-- **C132** The table of `print_band` is that of a fixed filter, whatever the coefficients; the design of the example, whose
coefficients are printed above the table, has unit gain at frequency 0, the table has not. -/
theorem C132_band_wrong : ∃ (c : Cascade ℝ 7) (H : ℂ), bandCascade = .ok c ∧
    (∀ (elem : ℝ → Text) (bytes : ℕ) (rng : Sweep) (text design : Text) (ai : AlgoInfo) (d : Digital) (t : Text),
      printBand elem bytes rng text design ai d = .ok t → Tabulates elem c.response rng t) ∧
    c.response 0 = .ok H ∧ ‖H‖ < 1 / 10 ∧
    ∃ d c', chebyshev2_bs 100 15 35 = .ok d ∧ make_biquad_cascade 7 d = .ok c' ∧ c'.response 0 = .ok 1 := by
  let l : List (Biquad ℝ) := [.ofBA ⟨0.95, 0, 0⟩ ⟨0, 0⟩, .ofBA ⟨0.81607, -1.17714, 0.81607⟩ ⟨-1.25009, 0.92530⟩,
    .ofBA ⟨0.40166, -0.71712, 0.40166⟩ ⟨-0.81244, 0.61293⟩, .ofBA ⟨0.81607, 0.77782, 0.81607⟩ ⟨0.69654, 0.90931⟩,
    .ofBA ⟨0.40166, 0.62596, 0.40166⟩ ⟨0.25300, 0.56966⟩]
  have hb : ∃ c, bandCascade = .ok c ∧ c.WF ∧ c.toList = l := by
    unfold bandCascade
    have w0 : (Cascade.ofList [] (Nat.zero_le 7) : Cascade ℝ 7).WF := Nat.zero_le 7
    have hlen {c : Cascade ℝ 7} {k : ℕ} (hc : c.WF) (h : c.toList.length = k) (hk : k < 7) : c.next < 7 := by
      rw [Cascade.length_toList hc] at h
      omega
    obtain ⟨c1, e1, w1, l1⟩ := Cascade.append_spec w0 (by show 0 < 7; norm_num) (Biquad.ofBA ⟨0.95, 0, 0⟩ ⟨0, 0⟩)
    have l1 : c1.toList = l.take 1 := l1
    obtain ⟨c2, e2, w2, l2⟩ := Cascade.append_spec w1 (hlen (k := 1) w1 (by rw [l1]; rfl) (by norm_num))
      (Biquad.ofBA ⟨0.81607, -1.17714, 0.81607⟩ ⟨-1.25009, 0.92530⟩)
    obtain ⟨c3, e3, w3, l3⟩ := Cascade.append_spec w2 (hlen (k := 2) w2 (by rw [l2, l1]; rfl) (by norm_num))
      (Biquad.ofBA ⟨0.40166, -0.71712, 0.40166⟩ ⟨-0.81244, 0.61293⟩)
    obtain ⟨c4, e4, w4, l4⟩ := Cascade.append_spec w3 (hlen (k := 3) w3 (by rw [l3, l2, l1]; rfl) (by norm_num))
      (Biquad.ofBA ⟨0.81607, 0.77782, 0.81607⟩ ⟨0.69654, 0.90931⟩)
    obtain ⟨c5, e5, w5, l5⟩ := Cascade.append_spec w4 (hlen (k := 4) w4 (by rw [l4, l3, l2, l1]; rfl) (by norm_num))
      (Biquad.ofBA ⟨0.40166, 0.62596, 0.40166⟩ ⟨0.25300, 0.56966⟩)
    refine ⟨c5, ?_, w5, ?_⟩
    · simp only [e1, e2, e3, e4, e5, bind_ok]
    · rw [l5, l4, l3, l2, l1]; rfl
  obtain ⟨c, hc, w, hl⟩ := hb
  obtain ⟨d, c', b1, b2, b3⟩ := C52_band_stop_wrong 7 (fs := 100) (fpa := 15) (fpb := 35) (by norm_num) (by norm_num)
  refine ⟨c, _, hc, fun elem bytes rng text design ai d t h => ?_, C43_response c w 0
    (fun q => (((q.b.b0 + q.b.b1 + q.b.b2) / (1 + q.a.a1 + q.a.a2) : ℝ) : ℂ)) (fun q hq => response_dc q ?_), ?_,
    d, c', b1, b2, b3 0⟩
  · unfold printBand at h
    rw [hc, bind_ok] at h
    obtain ⟨hd, h1, h⟩ := bind_eq_ok.1 h
    obtain ⟨mid, h2, h⟩ := bind_eq_ok.1 h
    rw [show (42 : ℤ) = ((42 : ℕ) : ℤ) from rfl, line_ok, bind_ok] at h
    rw [← Except.ok.inj h]
    exact (listing_tabulates h2).infix ⟨hd, _, by simp only [List.append_assoc]; rfl⟩
  · rw [hl] at hq
    simp only [l, List.mem_cons, List.not_mem_nil, or_false] at hq
    rcases hq with rfl | rfl | rfl | rfl | rfl <;> norm_num [Biquad.ofBA]
  · rw [hl]
    simp only [l, List.map_cons, List.map_nil, List.prod_cons, List.prod_nil, mul_one, Biquad.ofBA]
    simp only [← Complex.ofReal_mul, Complex.norm_real, Real.norm_eq_abs]
    rw [abs_lt]
    constructor <;> norm_num

end

/-! ## C133 Matlab calls -/

/-- **C133** The design calls of biquad-design.e.cpp and onepole-design.e.cpp become calls of the filter kind: name `n` and
arguments `a` without the characters searched for. -/
theorem C133_design (n a : Text) (hn : '>' ∉ n ∧ ')' ∉ n) (ha : ')' ∉ a) :
    biquadMatlab ("(dsp::biquad_design<FilterResponse::".toList ++ n ++ ">(".toList ++ a ++ "))".toList) =
      n ++ "(".toList ++ a ++ ")".toList ∧
    onepoleMatlab ("(dsp::onepole_design<FilterResponse::".toList ++ n ++ ">(".toList ++ a ++ "))".toList) =
      n ++ "(".toList ++ a ++ ")".toList := by
  have key : ∀ f : Text, Text.replaced (Text.replaced (Text.replaced (('(' :: f) ++ n ++ ">(".toList ++ a ++ "))".toList)
      ('(' :: f) "".toList) ">(".toList "(".toList) "))".toList ")".toList = n ++ "(".toList ++ a ++ ")".toList := by
    intro f
    rw [show ('(' :: f) ++ n ++ ">(".toList ++ a ++ "))".toList = [] ++ ('(' :: f) ++ (n ++ ">(".toList ++ (a ++ "))".toList)) by
      simp, replaced_first (by simp)]
    rw [show ([] ++ "".toList ++ (n ++ ">(".toList ++ (a ++ "))".toList)) : Text) = n ++ ('>' :: ['(']) ++ (a ++ "))".toList) by simp,
      show ">(".toList = '>' :: ['('] from rfl, replaced_first hn.1]
    rw [show n ++ "(".toList ++ (a ++ "))".toList) = (n ++ "(".toList ++ a) ++ (')' :: [')']) ++ [] by simp,
      show "))".toList = ')' :: [')'] from rfl, replaced_first (by simp [hn.2, ha])]
    simp
  exact ⟨key _, key _⟩

/-- One of the calls; the C++ suffix `f` of a number stays. -/
example : biquadMatlab "(dsp::biquad_design<FilterResponse::low_pass >( 0, 25, 100, 0.8f ))".toList =
    "low_pass ( 0, 25, 100, 0.8f )".toList :=
  (C133_design "low_pass ".toList " 0, 25, 100, 0.8f ".toList (by decide) (by decide)).1

/-- **C133** The band-stop call becomes a call of `bscheb2`. -/
theorem C133_band (a : Text) : bandMatlab ("dsp::chebyshev2_bs".toList ++ a) = "bscheb2".toList ++ a := by
  unfold bandMatlab
  rw [show "dsp::chebyshev2_bs".toList ++ a = [] ++ ('d' :: "sp::".toList) ++ ("chebyshev2_bs".toList ++ a) by simp,
    show "dsp::".toList = 'd' :: "sp::".toList from rfl, replaced_first (by simp)]
  rw [show ([] ++ "".toList ++ ("chebyshev2_bs".toList ++ a) : Text) = [] ++ ('c' :: "hebyshev2_bs".toList) ++ a by simp,
    show "chebyshev2_bs".toList = 'c' :: "hebyshev2_bs".toList from rfl, replaced_first (by simp)]
  simp

/-- The kinds and their Matlab arguments. -/
def passName (low : Bool) : Text := if low then "FilterResponse::low_pass".toList else "FilterResponse::high_pass".toList
def passSign (low : Bool) : Text := if low then "1".toList else "-1".toList
/-- The digit of the type. -/
def typeName (two : Bool) : Text := if two then "2".toList else "1".toList

theorem replaced_other {c : Char} {l r p q to_ : Text} (hl : c ∉ l) (hr : c ∉ r) (h : ¬ q <+: r) :
    Text.replaced (l ++ c :: r) (p ++ c :: q) to_ = l ++ c :: r := by
  refine C56_absent _ _ _ fun ⟨x, y, e⟩ => h ?_
  rw [show x ++ (p ++ c :: q) ++ y = (x ++ p) ++ c :: (q ++ y) by simp] at e
  have := (List.append_cons_inj_of_notMem hl hr).1 e.symm
  exact ⟨y, this.2.2.symm⟩

theorem passMatlab_eq (two low : Bool) (m a : Text) (hm : m = [] ∨ m = "dsp::".toList) (ha : 'y' ∉ a ∧ 'F' ∉ a) :
    passMatlab ("dsp::chebyshev".toList ++ typeName two ++ "_lp_hp( ".toList ++ m ++ passName low ++ a) =
      "lhcheb".toList ++ typeName two ++ "( ".toList ++ m ++ passSign low ++ a := by
  have hmy : 'y' ∉ m := by rcases hm with rfl | rfl <;> decide
  have hmF : 'F' ∉ m := by rcases hm with rfl | rfl <;> decide
  have hny : 'y' ∉ passName low := by cases low <;> decide
  unfold passMatlab
  rw [show "dsp::chebyshev".toList ++ typeName two ++ "_lp_hp( ".toList ++ m ++ passName low ++ a =
    [] ++ ('d' :: "sp::".toList) ++ ("chebyshev".toList ++ typeName two ++ "_lp_hp( ".toList ++ m ++ passName low ++ a) by simp,
    show "dsp::".toList = 'd' :: "sp::".toList from rfl, replaced_first (by simp)]
  have step2 : Text.replaced (Text.replaced ([] ++ "".toList ++ ("chebyshev".toList ++ typeName two ++ "_lp_hp( ".toList ++ m ++
      passName low ++ a)) "chebyshev1_lp_hp".toList "lhcheb1".toList) "chebyshev2_lp_hp".toList "lhcheb2".toList =
      ("lhcheb".toList ++ typeName two ++ "( ".toList ++ m) ++ (passName low ++ a) := by
    cases two
    · rw [show ([] ++ "".toList ++ ("chebyshev".toList ++ typeName false ++ "_lp_hp( ".toList ++ m ++ passName low ++ a) : Text) =
        [] ++ ('c' :: "hebyshev1_lp_hp".toList) ++ ("( ".toList ++ m ++ passName low ++ a) by simp [typeName],
        show "chebyshev1_lp_hp".toList = 'c' :: "hebyshev1_lp_hp".toList from rfl, replaced_first (by simp),
        replaced_none (c := 'y') (by simp [hmy, hny, ha.1]) (by decide)]
      simp [typeName]
    · have hno : Text.replaced ([] ++ "".toList ++ ("chebyshev".toList ++ typeName true ++ "_lp_hp( ".toList ++ m ++
          passName low ++ a)) "chebyshev1_lp_hp".toList "lhcheb1".toList =
          [] ++ ('c' :: "hebyshev2_lp_hp".toList) ++ ("( ".toList ++ m ++ passName low ++ a) := by
        have := replaced_other (c := 'y') (l := "cheb".toList) (p := "cheb".toList) (q := "shev1_lp_hp".toList)
          (r := "shev2_lp_hp".toList ++ ("( ".toList ++ m ++ passName low ++ a)) (to_ := "lhcheb1".toList) (by decide)
          (by simp [hmy, hny, ha.1]) (by simp)
        simpa [typeName] using this
      rw [hno, show "chebyshev2_lp_hp".toList = 'c' :: "hebyshev2_lp_hp".toList from rfl, replaced_first (by simp)]
      simp [typeName]
  rw [step2]
  have hF : 'F' ∉ "lhcheb".toList ++ typeName two ++ "( ".toList ++ m := by cases two <;> simp [typeName, hmF]
  cases low
  · have hno := replaced_other (c := 'F') (l := "lhcheb".toList ++ typeName two ++ "( ".toList ++ m) (p := [])
      (q := "ilterResponse::low_pass".toList) (r := "ilterResponse::high_pass".toList ++ a) (to_ := "1".toList) hF
      (by simp [ha.2]) (by simp)
    rw [show ("lhcheb".toList ++ typeName two ++ "( ".toList ++ m) ++ (passName false ++ a) =
      ("lhcheb".toList ++ typeName two ++ "( ".toList ++ m) ++ 'F' :: ("ilterResponse::high_pass".toList ++ a) by
        simp [passName], show "FilterResponse::low_pass".toList = [] ++ 'F' :: "ilterResponse::low_pass".toList from rfl, hno,
      show ("lhcheb".toList ++ typeName two ++ "( ".toList ++ m) ++ 'F' :: ("ilterResponse::high_pass".toList ++ a) =
        ("lhcheb".toList ++ typeName two ++ "( ".toList ++ m) ++ ('F' :: "ilterResponse::high_pass".toList) ++ a by simp,
      show "FilterResponse::high_pass".toList = 'F' :: "ilterResponse::high_pass".toList from rfl, replaced_first hF]
    rfl
  · rw [show ("lhcheb".toList ++ typeName two ++ "( ".toList ++ m) ++ (passName true ++ a) =
      ("lhcheb".toList ++ typeName two ++ "( ".toList ++ m) ++ ('F' :: "ilterResponse::low_pass".toList) ++ a by
        simp [passName], show "FilterResponse::low_pass".toList = 'F' :: "ilterResponse::low_pass".toList from rfl,
      replaced_first hF, replaced_none (c := 'F') (by simp [ha.2]; cases two <;> simp [typeName, hmF]) (by decide)]
    rfl

/-- **C133** (partial: full statement, "the type 1 and 2 low-pass and high-pass calls become calls of `lhcheb1` and `lhcheb2`
with 1 and -1 for the kind") They would, were the kind written without `dsp::`. -/
theorem C133_pass_partial (two low : Bool) (a : Text) (ha : 'y' ∉ a ∧ 'F' ∉ a) :
    passMatlab ("dsp::chebyshev".toList ++ typeName two ++ "_lp_hp( ".toList ++ passName low ++ a) =
      "lhcheb".toList ++ typeName two ++ "( ".toList ++ passSign low ++ a := by
  have := passMatlab_eq two low [] a (.inl rfl) ha
  rwa [List.append_nil, List.append_nil] at this

/-- **C133** As written in the example, the second `dsp::` stays, as only the first one is replaced. -/
theorem C133_pass_wrong (two low : Bool) (a : Text) (ha : 'y' ∉ a ∧ 'F' ∉ a) :
    let t := passMatlab ("dsp::chebyshev".toList ++ typeName two ++ "_lp_hp( dsp::".toList ++ passName low ++ a)
    t = "lhcheb".toList ++ typeName two ++ "( dsp::".toList ++ passSign low ++ a ∧
      t ≠ "lhcheb".toList ++ typeName two ++ "( ".toList ++ passSign low ++ a := by
  have h := passMatlab_eq two low "dsp::".toList a (.inr rfl) ha
  have e : passMatlab ("dsp::chebyshev".toList ++ typeName two ++ "_lp_hp( dsp::".toList ++ passName low ++ a) =
      "lhcheb".toList ++ typeName two ++ "( dsp::".toList ++ passSign low ++ a := by
    rw [show "_lp_hp( dsp::".toList = "_lp_hp( ".toList ++ "dsp::".toList from rfl,
      show "( dsp::".toList = "( ".toList ++ "dsp::".toList from rfl]
    simpa only [List.append_assoc] using h
  refine ⟨e, fun h' => ?_⟩
  have := congrArg List.length (e.symm.trans h')
  simp at this
  omega

/-- The calls of chebyshev-design.e.cpp. -/
example : passMatlab "dsp::chebyshev1_lp_hp( dsp::FilterResponse::low_pass, 100, 20, 24, 1, 10 )".toList =
    "lhcheb1( dsp::1, 100, 20, 24, 1, 10 )".toList :=
  (C133_pass_wrong false true ", 100, 20, 24, 1, 10 )".toList (by decide)).1

end Verif
