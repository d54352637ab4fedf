import Verif.Lemmas.ChebyshevDesign

/-
Properties C52, C53, C66, C67: include/dsp/chebyshev-design.hpp (real arithmetic).

`low` selects low pass (`true`) or high pass.  `chebyshev1_lp_hp` and `chebyshev2_lp_hp` raise
attenuations below 0.01 dB to 0.01 dB; hence the `max` in the statements.
-/

namespace Verif
open Sig Design Cheb

/-! ### C52 -/

/-- **C52** Both designs of order `N` have `(N + 1) / 2` sections, of which only the first may be of
first order: it is iff `N` is odd. -/
theorem C52_count {low : Bool} {fs fpass fstop Apass Astop : ℝ}
    (v : Valid low fs fpass fstop (max Apass 0.01) (max Astop 0.01))
    (hN : order low fs fpass fstop (max Apass 0.01) (max Astop 0.01) < 2 ^ 30) :
    ∀ design ∈ [chebyshev1_lp_hp, chebyshev2_lp_hp], ∃ d, design low fs fpass fstop Apass Astop = .ok d ∧
      d.N = order low fs fpass fstop (max Apass 0.01) (max Astop 0.01) ∧
      (d.b.length : ℤ) = (d.N + 1) / 2 ∧ d.a.length = d.b.length ∧
      ∀ (k : ℕ) (b : BqB ℝ) (a : BqA ℝ), d.b[k]? = some b → d.a[k]? = some a →
        ((b.b2 = 0 ∧ a.a2 = 0) ↔ k = 0 ∧ d.N % 2 = 1) := by
  have hN' : order low fs fpass fstop (max Apass 0.01) (max Astop 0.01) ≤ 1073741823 := by omega
  have key : ∀ (N : ℕ) (W0 : ℝ) (p : ℕ → Proto), 0 < W0 → (∀ k, 2 * k + 1 < N → (p k).Pos) →
      (∀ k, 2 * k + 1 < N → (p k).n1 = 0 ∧ 0 ≤ (p k).n0 ∧ 0 < (p k).n2) →
      (((sections low N W0 p).map (·.b)).length : ℤ) = ((N : ℤ) + 1) / 2 ∧
      ((sections low N W0 p).map (·.a)).length = ((sections low N W0 p).map (·.b)).length ∧
      ∀ (k : ℕ) (b : BqB ℝ) (a : BqA ℝ), ((sections low N W0 p).map (·.b))[k]? = some b →
        ((sections low N W0 p).map (·.a))[k]? = some a →
        ((b.b2 = 0 ∧ a.a2 = 0) ↔ k = 0 ∧ (N : ℤ) % 2 = 1) := by
    intro N W0 p hW hp hn
    refine ⟨?_, by simp, ?_⟩
    · rw [List.length_map, length_sections]
      omega
    · intro k b a hb ha
      rw [List.getElem?_map, Option.map_eq_some_iff] at hb ha
      obtain ⟨c, hc, rfl⟩ := hb
      obtain ⟨c', hc', rfl⟩ := ha
      obtain rfl := Option.some.inj (hc.symm.trans hc')
      have second : ∀ j, 2 * j + 1 < N → (sec low (p j)).b.b2 ≠ 0 := by
        intro j hj
        obtain ⟨d0, d1, d2⟩ := hp j hj
        obtain ⟨n1, n0, n2⟩ := hn j hj
        unfold sec
        cases low <;> simp only [bilinear, Proto.flip, Bool.false_eq_true, if_false, if_true, n1]
        · apply div_ne_zero <;> nlinarith
        · apply div_ne_zero <;> nlinarith
      unfold sections at hc
      by_cases hr : N % 2 = 1
      · rw [if_pos hr] at hc
        cases k with
        | zero =>
          simp only [List.cons_append, List.nil_append, List.getElem?_cons_zero, Option.some.injEq] at hc
          rw [← hc, first_section low hW]
          simp only [and_self, true_iff, true_and]
          omega
        | succ k =>
          simp only [List.cons_append, List.nil_append, List.getElem?_cons_succ, List.getElem?_map,
            Option.map_eq_some_iff] at hc
          obtain ⟨j, hj, rfl⟩ := hc
          have hj := List.mem_range.1 (List.mem_of_getElem? hj)
          constructor
          · rintro ⟨h, -⟩
            exact absurd h (second j (by omega))
          · rintro ⟨h, -⟩
            omega
      · rw [if_neg hr, List.nil_append, List.getElem?_map, Option.map_eq_some_iff] at hc
        obtain ⟨j, hj, rfl⟩ := hc
        have hj := List.mem_range.1 (List.mem_of_getElem? hj)
        constructor
        · rintro ⟨h, -⟩
          exact absurd h (second j (by omega))
        · rintro ⟨-, h⟩
          omega
  have hap := Real.sinh_pos_iff.2 v.a_pos
  intro design hd
  simp only [List.mem_cons, List.not_mem_nil, or_false] at hd
  rcases hd with rfl | rfl
  · refine ⟨_, chebyshev1_sections v hN', rfl, ?_⟩
    have hW := warp_pos low v.fpass_pos v.fpass_lt
    refine key _ _ _ (mul_pos hap hW) (fun k hk => proto1_pos (mul_pos hap hW) hk) (fun k hk => ?_)
    have := cos_phi_pos hk
    have := mul_pos hap hW
    refine ⟨rfl, le_rfl, ?_⟩
    unfold proto1
    positivity
  · refine ⟨_, chebyshev2_sections v hN', rfl, ?_⟩
    have hW := warp_pos low v.fstop_pos v.fstop_lt
    refine key _ _ _ (div_pos hap hW) (fun k hk => proto2_pos (div_pos hap hW) hk) (fun k hk => ?_)
    refine ⟨rfl, ?_, one_pos⟩
    unfold proto2
    positivity

/-- **C52** The order is the least degree of a Chebyshev polynomial that reaches the required ratio of
the ripple factors at the required ratio of the band edges. -/
theorem C52_order {low : Bool} {fs fpass fstop Apass Astop : ℝ}
    (v : Valid low fs fpass fstop Apass Astop) (M : ℕ) :
    ripple Astop / ripple Apass ≤ T M (warp low fstop fs / warp low fpass fs) ↔
      order low fs fpass fstop Apass Astop ≤ M := by
  have hW := Real.arcosh_pos v.ratio_W
  unfold order T
  conv_lhs => rw [← Real.cosh_arcosh v.ratio_W.le]
  rw [Polynomial.Chebyshev.T_real_cosh]
  conv_lhs => lhs; rw [← Real.cosh_arcosh v.ratio_e.le]
  rw [Real.cosh_le_cosh, abs_of_pos (Real.arcosh_pos v.ratio_e), abs_of_nonneg]
  · rw [Nat.ceil_le, div_le_iff₀ hW, Int.cast_natCast]
  · have := hW.le
    positivity

/-- **C52** Both designs reject a band edge at or above the Nyquist frequency. -/
theorem C52_rejects {low : Bool} {fs fpass fstop Apass Astop : ℝ} (h : fs / 2 ≤ fpass ∨ fs / 2 ≤ fstop) :
    ∀ design ∈ [chebyshev1_lp_hp, chebyshev2_lp_hp],
      design low fs fpass fstop Apass Astop = .error .assertFail := by
  have ho : ∀ A B, chebyshev_order low fs fpass fstop A B = .error .assertFail := by
    intro A B
    unfold chebyshev_order
    by_cases hp : fpass < fs / 2
    · rw [if_neg (not_not.2 hp), if_pos (by rcases h with h | h <;> linarith)]
    · rw [if_pos hp]
  intro design hd
  simp only [List.mem_cons, List.not_mem_nil, or_false] at hd
  rcases hd with rfl | rfl
  · unfold chebyshev1_lp_hp chebyshev1_lp_hp_impl
    rw [ho]; rfl
  · unfold chebyshev2_lp_hp chebyshev2_lp_hp_impl
    rw [ho]; rfl

example : (10 : ℝ) / 2 ≤ 4 ∨ (10 : ℝ) / 2 ≤ 5 := by norm_num

/-- **C52** An order of 2^30 or more overflows `int`. -/
theorem C52_overflow {low : Bool} {fs fpass fstop Apass Astop : ℝ}
    (v : Valid low fs fpass fstop (max Apass 0.01) (max Astop 0.01))
    (hN : 2 ^ 30 ≤ order low fs fpass fstop (max Apass 0.01) (max Astop 0.01)) :
    ∀ design ∈ [chebyshev1_lp_hp, chebyshev2_lp_hp],
      design low fs fpass fstop Apass Astop = .error .overflow := by
  have hN0 := v.order_pos
  have hap := Real.sinh_pos_iff.2 v.a_pos
  intro design hd
  simp only [List.mem_cons, List.not_mem_nil, or_false] at hd
  by_cases hb : order low fs fpass fstop (max Apass 0.01) (max Astop 0.01) ≤ 2147483647
  · have ho := chebyshev_order_ok v hb
    set N := order low fs fpass fstop (max Apass 0.01) (max Astop 0.01) with hNd
    have hNr : (((N : ℕ) : ℤ) : ℝ) ≠ 0 := by
      have : (N : ℝ) ≠ 0 := by exact_mod_cast hN0.ne'
      exact_mod_cast this
    have hloop : ∀ (body : ℤ → Digital → Res Digital) (d : Digital),
        (∀ i d, body i d = .error .overflow) → forOneTo (N / 2 : ℕ) body d = .error .overflow := by
      intro body d h
      unfold forOneTo
      rw [Int.toNat_natCast]
      exact forRange_error (P := fun _ _ => True) (k := 0) (by omega) trivial (by omega)
        (fun s _ => h _ _)
    have hang : ∀ i, angle N i = .error .overflow := fun i => if_neg (by omega)
    rcases hd with rfl | rfl
    · unfold chebyshev1_lp_hp chebyshev1_lp_hp_impl
      rw [ho, bind_ok]
      simp only
      have hW0 := mul_pos hap (warp_pos low v.fpass_pos v.fpass_lt)
      rw [div_ok hNr, bind_ok, Int.cast_natCast, half_int, firstOrder_ok low N hW0, bind_ok]
      apply hloop
      intro i d
      rw [hang]
      rfl
    · unfold chebyshev2_lp_hp chebyshev2_lp_hp_impl
      rw [ho, bind_ok]
      simp only
      have hW := warp_pos low v.fstop_pos v.fstop_lt
      have hW0 := div_pos hap hW
      rw [div_ok hNr, bind_ok, Int.cast_natCast, div_ok hW.ne', bind_ok, half_int,
        firstOrder_ok low N hW0, bind_ok]
      apply hloop
      intro i d
      rw [hang]
      rfl
  · have ho := chebyshev_order_err v (by omega)
    rcases hd with rfl | rfl
    · unfold chebyshev1_lp_hp chebyshev1_lp_hp_impl
      rw [ho]
      rfl
    · unfold chebyshev2_lp_hp chebyshev2_lp_hp_impl
      rw [ho]
      rfl

/-- **C52** `make_biquad_cascade<n>` succeeds iff there are at most `n` sections, and then the cascade
consists of these sections, at rest, in order. -/
theorem C52_cascade (n : ℕ) (d : Digital) (h : d.a.length = d.b.length) :
    (d.b.length ≤ n → ∃ c, make_biquad_cascade n d = .ok c ∧ c.WF ∧
      c.toList = List.zipWith Biquad.ofBA d.b d.a) ∧
    (n < d.b.length → make_biquad_cascade n d = .error .assertFail) := by
  set secs := List.zipWith Biquad.ofBA d.b d.a with hs
  have hlen : secs.length = d.b.length := by rw [hs, List.length_zipWith, h, min_self]
  have hbody : ∀ i, i < d.b.length → ∀ c : Cascade ℝ n,
      appendSection d i c = c.append (secs[i]?.getD Biquad.default) := by
    intro i hi c
    have hi' : i < d.a.length := by omega
    have hi2 : i < secs.length := by omega
    unfold appendSection
    rw [List.getElem?_eq_getElem hi, List.getElem?_eq_getElem hi', List.getElem?_eq_getElem hi2]
    simp [hs]
  have hrun : ∀ m, m ≤ d.b.length → m ≤ n → ∃ c, forRange m (appendSection d)
      (Cascade.ofList [] (Nat.zero_le n) : Cascade ℝ n) = .ok c ∧
      c.WF ∧ c.toList = secs.take m := by
    intro m hm hmn
    apply forRange_inv (P := fun j (c : Cascade ℝ n) => c.WF ∧ c.toList = secs.take j)
    · have := C40_construct (T := ℝ) (N := n) [] (Nat.zero_le n)
      exact ⟨this.1, by simpa using this.2.1⟩
    · rintro j hj c ⟨h1, h2⟩
      have hnext : c.next = j := by
        rw [← Cascade.length_toList h1, h2, List.length_take]
        omega
      obtain ⟨c', a1, a2, a3⟩ := Cascade.append_spec h1 (by omega) (secs[j]?.getD Biquad.default)
      refine ⟨c', ?_, a2, ?_⟩
      · rw [hbody j (by omega), a1]
      · have hj2 : j < secs.length := by omega
        rw [a3, h2, List.getElem?_eq_getElem hj2, Option.getD_some, List.take_append_getElem]
  constructor
  · intro hn
    obtain ⟨c, h1, h2, h3⟩ := hrun _ le_rfl hn
    exact ⟨c, h1, h2, by rw [h3, ← hlen, List.take_length]⟩
  · intro hn
    unfold make_biquad_cascade
    apply forRange_error (P := fun j (c : Cascade ℝ n) => c.WF ∧ c.toList = secs.take j) hn
    · have := C40_construct (T := ℝ) (N := n) [] (Nat.zero_le n)
      exact ⟨this.1, by simpa using this.2.1⟩
    · rintro j hj c ⟨h1, h2⟩
      have hnext : c.next = j := by
        rw [← Cascade.length_toList h1, h2, List.length_take]
        omega
      obtain ⟨c', a1, a2, a3⟩ := Cascade.append_spec h1 (by omega) (secs[j]?.getD Biquad.default)
      refine ⟨c', ?_, a2, ?_⟩
      · rw [hbody j (by omega), a1]
      · have hj2 : j < secs.length := by omega
        rw [a3, h2, List.getElem?_eq_getElem hj2, Option.getD_some, List.take_append_getElem]
    · rintro c ⟨h1, h2⟩
      have hnext : c.next = n := by
        rw [← Cascade.length_toList h1, h2, List.length_take]
        omega
      rw [hbody n hn]
      unfold Cascade.append
      rw [if_pos]
      show ¬ c.next < n
      omega

/-- **C52** (disagreement) The band-stop design returns no sections: its cascade has unit gain at every
frequency and stops nothing. -/
theorem C52_band_stop_wrong (n : ℕ) {fs fpa fpb : ℝ} (h1 : fpa < fs / 2) (h2 : fpb < fs / 2) :
    ∃ d c, chebyshev2_bs fs fpa fpb = .ok d ∧ make_biquad_cascade n d = .ok c ∧
      ∀ g, c.response g = .ok 1 := by
  have hd : chebyshev2_bs fs fpa fpb = .ok ⟨[], [], 0⟩ := by
    unfold chebyshev2_bs
    rw [if_neg (not_not.2 h1), if_neg (not_not.2 h2)]
  obtain ⟨c, e, hc, hl⟩ := (C52_cascade n ⟨[], [], 0⟩ rfl).1 (Nat.zero_le n)
  refine ⟨_, c, hd, e, fun g => ?_⟩
  rw [C43_response c hc g (fun _ => 0) (by rw [hl]; simp), hl]
  simp

/-! ### The cascades -/

/-- What a cascade made from coefficients consists of. -/
theorem cascade_sections {n : ℕ} {l : List Coeff} {N : ℤ} {c : Cascade ℝ n}
    (h : make_biquad_cascade n (Digital.ofCoeffs l N) = .ok c) : c.WF ∧ c.toList = l.map make_biquad := by
  have hlen : (Digital.ofCoeffs l N).a.length = (Digital.ofCoeffs l N).b.length := by
    simp [Digital.ofCoeffs]
  have hz : List.zipWith Biquad.ofBA (Digital.ofCoeffs l N).b (Digital.ofCoeffs l N).a =
      l.map make_biquad := by
    simp only [Digital.ofCoeffs]
    induction l with
    | nil => rfl
    | cons x l ih => simp [make_biquad]
  by_cases hn : (Digital.ofCoeffs l N).b.length ≤ n
  · obtain ⟨c', e, h1, h2⟩ := (C52_cascade n _ hlen).1 hn
    obtain rfl := Except.ok.inj (h.symm.trans e)
    exact ⟨h1, h2.trans hz⟩
  · rw [(C52_cascade n _ hlen).2 (by omega)] at h
    cases h

section
variable {low : Bool} {fs fpass fstop Apass Astop : ℝ} {n : ℕ} {d : Digital} {c : Cascade ℝ n}

/-- A design that returns has an order below 2^30. -/
theorem order_small (v : Valid low fs fpass fstop (max Apass 0.01) (max Astop 0.01))
    {design : Bool → ℝ → ℝ → ℝ → ℝ → ℝ → Res Digital}
    (hm : design ∈ [chebyshev1_lp_hp, chebyshev2_lp_hp])
    (hd : design low fs fpass fstop Apass Astop = .ok d) :
    order low fs fpass fstop (max Apass 0.01) (max Astop 0.01) ≤ 1073741823 := by
  by_contra h
  rw [C52_overflow v (by omega) design hm] at hd
  cases hd

theorem cascade1 (v : Valid low fs fpass fstop (max Apass 0.01) (max Astop 0.01))
    (hd : chebyshev1_lp_hp low fs fpass fstop Apass Astop = .ok d)
    (hc : make_biquad_cascade n d = .ok c) :
    let N := order low fs fpass fstop (max Apass 0.01) (max Astop 0.01)
    let W := warp low fpass fs
    let a := Real.arsinh (ripple (max Astop 0.01)) / N
    c.WF ∧ 0 < N ∧ 0 < W ∧ 0 < a ∧
      (∀ p ∈ protos N (Real.sinh a * W) (proto1 N (Real.sinh a * W) W), p.Pos) ∧ c.toList =
      ((protos N (Real.sinh a * W) (proto1 N (Real.sinh a * W) W)).map (sec low)).map make_biquad := by
  intro N W a
  have h := chebyshev1_sections v (order_small v (by simp) hd)
  obtain rfl := Except.ok.inj (hd.symm.trans h)
  obtain ⟨h1, h2⟩ := cascade_sections hc
  have hW : 0 < W := warp_pos low v.fpass_pos v.fpass_lt
  have ha : 0 < a := v.a_pos
  have hs := mul_pos (Real.sinh_pos_iff.2 ha) hW
  exact ⟨h1, v.order_pos, hW, ha, protos_pos hs fun k hk => proto1_pos hs hk,
    by rw [h2, sections_eq]⟩

theorem cascade2 (v : Valid low fs fpass fstop (max Apass 0.01) (max Astop 0.01))
    (hd : chebyshev2_lp_hp low fs fpass fstop Apass Astop = .ok d)
    (hc : make_biquad_cascade n d = .ok c) :
    let N := order low fs fpass fstop (max Apass 0.01) (max Astop 0.01)
    let W := warp low fstop fs
    let a := Real.arsinh (ripple (max Astop 0.01)) / N
    c.WF ∧ 0 < N ∧ 0 < W ∧ 0 < a ∧
      (∀ p ∈ protos N (Real.sinh a / W) (proto2 N (Real.sinh a / W) W), p.Pos) ∧ c.toList =
      ((protos N (Real.sinh a / W) (proto2 N (Real.sinh a / W) W)).map (sec low)).map make_biquad := by
  intro N W a
  have h := chebyshev2_sections v (order_small v (by simp) hd)
  obtain rfl := Except.ok.inj (hd.symm.trans h)
  obtain ⟨h1, h2⟩ := cascade_sections hc
  have hW : 0 < W := warp_pos low v.fstop_pos v.fstop_lt
  have ha : 0 < a := v.a_pos
  have hs := div_pos (Real.sinh_pos_iff.2 ha) hW
  exact ⟨h1, v.order_pos, hW, ha, protos_pos hs fun k hk => proto2_pos hs hk,
    by rw [h2, sections_eq]⟩

/-! ### C53 -/

/-- **C53** Every section of either design has its poles strictly inside the unit circle, and the
cascade is reported stable. -/
theorem C53_stable (v : Valid low fs fpass fstop (max Apass 0.01) (max Astop 0.01))
    {design : Bool → ℝ → ℝ → ℝ → ℝ → ℝ → Res Digital}
    (hm : design ∈ [chebyshev1_lp_hp, chebyshev2_lp_hp])
    (hd : design low fs fpass fstop Apass Astop = .ok d)
    (hc : make_biquad_cascade n d = .ok c) :
    (∀ q ∈ c.toList, ∃ p, q.poles = .ok p ∧ ‖p.s0‖ < 1 ∧ ‖p.s1‖ < 1) ∧ c.is_stable = .ok true := by
  have key : ∀ l : List Proto, (∀ p ∈ l, p.Pos) → c.toList = (l.map (sec low)).map make_biquad → c.WF →
      (∀ q ∈ c.toList, ∃ p, q.poles = .ok p ∧ ‖p.s0‖ < 1 ∧ ‖p.s1‖ < 1) ∧ c.is_stable = .ok true := by
    intro l hl hcl hwf
    have h1 : ∀ q ∈ c.toList, ∃ p, q.poles = .ok p ∧ ‖p.s0‖ < 1 ∧ ‖p.s1‖ < 1 := by
      intro q hq
      rw [hcl, List.map_map, List.mem_map] at hq
      obtain ⟨p, hp, rfl⟩ := hq
      exact sec_stable low (hl p hp)
    refine ⟨h1, ?_⟩
    obtain ⟨s, hs, hs2⟩ := C43_is_stable c hwf
    rw [hs]
    congr 1
    rw [hs2]
    intro q hq
    obtain ⟨p, e, a, b⟩ := h1 q hq
    unfold Biquad.is_stable
    rw [e, bind_ok]
    simp [a.le, b.le]
  simp only [List.mem_cons, List.not_mem_nil, or_false] at hm
  rcases hm with rfl | rfl
  · obtain ⟨h1, -, -, -, h2, h3⟩ := cascade1 v hd hc
    exact key _ h2 h3 h1
  · obtain ⟨h1, -, -, -, h2, h3⟩ := cascade2 v hd hc
    exact key _ h2 h3 h1

/-- **C53** The gain is 1 at DC (low pass) respectively at the Nyquist frequency (high pass). -/
theorem C53_gain (v : Valid low fs fpass fstop (max Apass 0.01) (max Astop 0.01))
    {design : Bool → ℝ → ℝ → ℝ → ℝ → ℝ → Res Digital}
    (hm : design ∈ [chebyshev1_lp_hp, chebyshev2_lp_hp])
    (hd : design low fs fpass fstop Apass Astop = .ok d)
    (hc : make_biquad_cascade n d = .ok c) :
    c.response (if low then 0 else 1 / 2) = .ok 1 := by
  have key : ∀ l : List Proto, (∀ p ∈ l, p.Pos ∧ p.n2 = p.d2) →
      c.toList = (l.map (sec low)).map make_biquad → c.WF →
      c.response (if low then 0 else 1 / 2) = .ok 1 := by
    intro l hl hcl hwf
    rw [C43_response c hwf _ (fun _ => 1)]
    · simp
    · intro q hq
      rw [hcl, List.map_map, List.mem_map] at hq
      obtain ⟨p, hp, rfl⟩ := hq
      obtain ⟨h1, h2⟩ := hl p hp
      show (make_biquad (sec low p)).response _ = _
      rw [sec_nominal low h1, h2, div_self h1.2.2.ne']
      norm_num
  have hmem : ∀ (N : ℕ) (W0 : ℝ) (p : ℕ → Proto), (∀ k, (p k).n2 = (p k).d2) →
      ∀ q ∈ protos N W0 p, q.n2 = q.d2 := by
    intro N W0 p hp q hq
    unfold protos at hq
    rw [List.mem_append] at hq
    rcases hq with hq | hq
    · split at hq
      · rw [List.mem_singleton] at hq
        rw [hq]
        rfl
      · simp at hq
    · rw [List.mem_map] at hq
      obtain ⟨k, -, rfl⟩ := hq
      exact hp k
  simp only [List.mem_cons, List.not_mem_nil, or_false] at hm
  rcases hm with rfl | rfl
  · obtain ⟨h1, -, -, -, h2, h3⟩ := cascade1 v hd hc
    exact key _ (fun p hp => ⟨h2 p hp, hmem _ _ _ (fun _ => rfl) p hp⟩) h3 h1
  · obtain ⟨h1, -, -, -, h2, h3⟩ := cascade2 v hd hc
    exact key _ (fun p hp => ⟨h2 p hp, hmem _ _ _ (fun _ => rfl) p hp⟩) h3 h1

/-! ### C66 -/

/-- `N a` of the code. -/
theorem sinh_order_mul {N : ℕ} (hN : 0 < N) (e : ℝ) : Real.sinh (N * (Real.arsinh e / N)) = e := by
  have : (N : ℝ) ≠ 0 := by exact_mod_cast hN.ne'
  rw [mul_div_cancel₀ _ this, Real.sinh_arsinh]

/-- **C66** Squared gain of the low-pass filter at every frequency `g` (relative to the sample
frequency) with `sin(pi g) != 0`, of the high-pass at every frequency with `cos(pi g) != 0`. -/
theorem C66_magnitude (v : Valid low fs fpass fstop (max Apass 0.01) (max Astop 0.01))
    (hd : chebyshev2_lp_hp low fs fpass fstop Apass Astop = .ok d)
    (hc : make_biquad_cascade n d = .ok c) (g : ℝ)
    (hg : if low then Real.sin (Real.pi * g) ≠ 0 else Real.cos (Real.pi * g) ≠ 0) :
    ∃ H, c.response g = .ok H ∧
      let x := warp low fstop fs * (if low then Real.cos (Real.pi * g) / Real.sin (Real.pi * g)
        else Real.sin (Real.pi * g) / -Real.cos (Real.pi * g))
      let t := T (order low fs fpass fstop (max Apass 0.01) (max Astop 0.01)) x
      ‖H‖ ^ 2 = t ^ 2 / (t ^ 2 + ((10 : ℝ) ^ (max Astop 0.01 / 10) - 1)) := by
  obtain ⟨h1, hN, hW, ha, h2, h3⟩ := cascade2 v hd hc
  have hS : halfSin low g ≠ 0 := by
    cases low
    · exact neg_ne_zero.2 hg
    · exact hg
  obtain ⟨H, e1, e2⟩ := cascade_mag low _ h2 c h1 h3 g
  refine ⟨H, e1, ?_⟩
  rw [type2_prod hN _ hW low g hS, sinh_order_mul hN,
    ripple_sq (v.Apass_pos.trans v.Apass_lt).le] at e2
  rw [e2]
  have : warp low fstop fs * halfCos low g / halfSin low g = warp low fstop fs *
      (if low then Real.cos (Real.pi * g) / Real.sin (Real.pi * g)
        else Real.sin (Real.pi * g) / -Real.cos (Real.pi * g)) := by
    cases low <;> simp only [halfSin, halfCos, Bool.false_eq_true, if_false, if_true] <;> ring
  rw [this]

/-- The band edges, in terms of half the angular frequency. -/
theorem pass_edge {f : ℝ} (h0 : 0 < fpass) (h1 : fpass < fs / 2) (h : InPass low fs fpass f) :
    |halfSin low (f / fs)| ≤ warp low fpass fs * |halfCos low (f / fs)| := by
  have hs : 0 < fs := by linarith
  have hpi := Real.pi_pos
  have hB0 : 0 < Real.pi * fpass / fs := by positivity
  have hB1 : Real.pi * fpass / fs < Real.pi / 2 := by rw [div_lt_iff₀ hs]; nlinarith
  have hsin := Real.sin_pos_of_pos_of_lt_pi hB0 (by linarith)
  have hcos := Real.cos_pos_of_mem_Ioo ⟨by linarith, hB1⟩
  set B := Real.pi * fpass / fs with hB
  set A := Real.pi * (f / fs) with hA
  have hA' : A = Real.pi * f / fs := by rw [hA, mul_div_assoc]
  cases low
  · obtain ⟨k0, k1⟩ := h
    have hBA : B ≤ A := by rw [hB, hA']; gcongr
    have hA1 : A ≤ Real.pi / 2 := by rw [hA', div_le_iff₀ hs]; nlinarith
    have s0 : 0 ≤ Real.sin A := Real.sin_nonneg_of_nonneg_of_le_pi (by linarith) (by linarith)
    have c0 : 0 ≤ Real.cos A := Real.cos_nonneg_of_mem_Icc ⟨by linarith, hA1⟩
    have hsub := Real.sin_sub A B
    have hpos : 0 ≤ Real.sin (A - B) := Real.sin_nonneg_of_nonneg_of_le_pi (by linarith) (by linarith)
    simp only [halfSin, halfCos, warp, Bool.false_eq_true, if_false, ← hA, ← hB]
    rw [abs_neg, abs_of_nonneg s0, abs_of_nonneg c0, Real.tan_eq_sin_div_cos, one_div_div,
      div_mul_eq_mul_div, le_div_iff₀ hsin]
    linarith
  · obtain ⟨k0, k1⟩ := h
    have hBA : A ≤ B := by rw [hB, hA']; gcongr
    have hA1 : 0 ≤ A := by rw [hA']; positivity
    have s0 : 0 ≤ Real.sin A := Real.sin_nonneg_of_nonneg_of_le_pi (by linarith) (by linarith)
    have c0 : 0 ≤ Real.cos A := Real.cos_nonneg_of_mem_Icc ⟨by linarith, by linarith⟩
    have hsub := Real.sin_sub B A
    have hpos : 0 ≤ Real.sin (B - A) := Real.sin_nonneg_of_nonneg_of_le_pi (by linarith) (by linarith)
    simp only [halfSin, halfCos, warp, if_true, ← hA, ← hB]
    rw [abs_of_nonneg s0, abs_of_nonneg c0, Real.tan_eq_sin_div_cos, div_mul_eq_mul_div,
      le_div_iff₀ hcos]
    linarith

theorem stop_edge {f : ℝ} (h0 : 0 < fstop) (h1 : fstop < fs / 2) (h : InStop low fs fstop f) :
    warp low fstop fs * |halfCos low (f / fs)| ≤ |halfSin low (f / fs)| := by
  have hs : 0 < fs := by linarith
  have hpi := Real.pi_pos
  have hB0 : 0 < Real.pi * fstop / fs := by positivity
  have hB1 : Real.pi * fstop / fs < Real.pi / 2 := by rw [div_lt_iff₀ hs]; nlinarith
  have hsin := Real.sin_pos_of_pos_of_lt_pi hB0 (by linarith)
  have hcos := Real.cos_pos_of_mem_Ioo ⟨by linarith, hB1⟩
  set B := Real.pi * fstop / fs with hB
  set A := Real.pi * (f / fs) with hA
  have hA' : A = Real.pi * f / fs := by rw [hA, mul_div_assoc]
  cases low
  · obtain ⟨k0, k1⟩ := h
    have hBA : A ≤ B := by rw [hB, hA']; gcongr
    have hA1 : 0 ≤ A := by rw [hA']; positivity
    have s0 : 0 ≤ Real.sin A := Real.sin_nonneg_of_nonneg_of_le_pi (by linarith) (by linarith)
    have c0 : 0 ≤ Real.cos A := Real.cos_nonneg_of_mem_Icc ⟨by linarith, by linarith⟩
    have hsub := Real.sin_sub B A
    have hpos : 0 ≤ Real.sin (B - A) := Real.sin_nonneg_of_nonneg_of_le_pi (by linarith) (by linarith)
    simp only [halfSin, halfCos, warp, Bool.false_eq_true, if_false, ← hA, ← hB]
    rw [abs_neg, abs_of_nonneg s0, abs_of_nonneg c0, Real.tan_eq_sin_div_cos, one_div_div,
      div_mul_eq_mul_div, div_le_iff₀ hsin]
    linarith
  · obtain ⟨k0, k1⟩ := h
    have hBA : B ≤ A := by rw [hB, hA']; gcongr
    have hA1 : A ≤ Real.pi / 2 := by rw [hA', div_le_iff₀ hs]; nlinarith
    have s0 : 0 ≤ Real.sin A := Real.sin_nonneg_of_nonneg_of_le_pi (by linarith) (by linarith)
    have c0 : 0 ≤ Real.cos A := Real.cos_nonneg_of_mem_Icc ⟨by linarith, hA1⟩
    have hsub := Real.sin_sub A B
    have hpos : 0 ≤ Real.sin (A - B) := Real.sin_nonneg_of_nonneg_of_le_pi (by linarith) (by linarith)
    simp only [halfSin, halfCos, warp, if_true, ← hA, ← hB]
    rw [abs_of_nonneg s0, abs_of_nonneg c0, Real.tan_eq_sin_div_cos, div_mul_eq_mul_div,
      div_le_iff₀ hcos]
    linarith

theorem T_sq_le_one (N : ℕ) {x : ℝ} (h : |x| ≤ 1) : T N x ^ 2 ≤ 1 := by
  have := Polynomial.Chebyshev.abs_eval_T_real_le_one N h
  unfold T
  rw [← sq_abs]
  exact pow_le_one₀ (abs_nonneg _) this

theorem T_sq_abs (N : ℕ) (x : ℝ) : T N |x| ^ 2 = T N x ^ 2 := by
  rcases abs_choice x with h | h
  · rw [h]
  · rw [h]
    unfold T
    rw [Polynomial.Chebyshev.T_eval_neg, mul_pow]
    have : (((N : ℤ).negOnePow : ℤ) : ℝ) ^ 2 = 1 := by
      rcases Int.even_or_odd (N : ℤ) with h | h
      · rw [Int.negOnePow_even _ h]; simp
      · rw [Int.negOnePow_odd _ h]; simp
    rw [this, one_mul]

theorem T_mono (N : ℕ) {x y : ℝ} (hy : 1 ≤ y) (h : y ≤ x) : T N y ≤ T N x := by
  have hx : 1 ≤ x := hy.trans h
  unfold T
  rw [← Real.cosh_arcosh hx, ← Real.cosh_arcosh hy, Polynomial.Chebyshev.T_real_cosh,
    Polynomial.Chebyshev.T_real_cosh, Real.cosh_le_cosh]
  have h1 := Real.arcosh_nonneg hx
  have h2 := Real.arcosh_nonneg hy
  have h3 := (Real.arcosh_le_arcosh (by linarith) (by linarith)).2 h
  rw [abs_of_nonneg (by positivity), abs_of_nonneg (by positivity)]
  gcongr

theorem neg_dB (A : ℝ) : (10 : ℝ) ^ (-A / 10) = 1 / (10 : ℝ) ^ (A / 10) := by
  rw [neg_div, Real.rpow_neg (by norm_num), one_div]

/-- **C66** The cascade meets its specification at every frequency from 0 to half the sample frequency:
it never amplifies, attenuates the pass band by at most `Apass` dB and the stop band by at least `Astop`
dB. -/
theorem C66_specification (v : Valid low fs fpass fstop (max Apass 0.01) (max Astop 0.01))
    (hd : chebyshev2_lp_hp low fs fpass fstop Apass Astop = .ok d)
    (hc : make_biquad_cascade n d = .ok c) (f : ℝ) :
    ∃ H, c.response (f / fs) = .ok H ∧ ‖H‖ ≤ 1 ∧
      (InPass low fs fpass f → (10 : ℝ) ^ (-max Apass 0.01 / 10) ≤ ‖H‖ ^ 2) ∧
      (InStop low fs fstop f → ‖H‖ ^ 2 ≤ (10 : ℝ) ^ (-max Astop 0.01 / 10)) := by
  obtain ⟨h1, hN, hW, ha, h2, h3⟩ := cascade2 v hd hc
  obtain ⟨H, e1, e2⟩ := cascade_mag low _ h2 c h1 h3 (f / fs)
  have hsq := halfSin_sq_add low (f / fs)
  have hAp := v.Apass_pos
  have hAs := v.Apass_pos.trans v.Apass_lt
  have rp := ripple_sq hAp.le
  have rs := ripple_sq hAs.le
  have rp0 := ripple_pos hAp
  have rs0 := ripple_pos hAs
  have hWp := warp_pos low v.fpass_pos v.fpass_lt
  refine ⟨H, e1, ?_⟩
  by_cases hS : halfSin low (f / fs) = 0
  · have hall : ∀ l : List Proto, (∀ p ∈ l, p.Pos ∧ p.n2 = p.d2) →
        (l.map (Proto.mag low (f / fs))).prod = 1 := by
      intro l
      induction l with
      | nil => simp
      | cons p l ih =>
        intro hl
        rw [List.map_cons, List.prod_cons, ih (fun q hq => hl q (by simp [hq])), mul_one]
        obtain ⟨⟨-, -, k2⟩, k3⟩ := hl p (by simp)
        unfold Proto.mag Proto.num2 Proto.den2
        rw [hS] at hsq
        have hc1 : halfCos low (f / fs) ^ 2 = 1 := by linarith
        rw [hS, hc1, k3]
        have : p.d2 ≠ 0 := k2.ne'
        field_simp
        ring
    have hone : ‖H‖ ^ 2 = 1 := by
      rw [e2]
      apply hall
      intro p hp
      refine ⟨h2 p hp, ?_⟩
      unfold protos at hp
      rw [List.mem_append] at hp
      rcases hp with hp | hp
      · split at hp
        · rw [List.mem_singleton] at hp
          rw [hp]
          rfl
        · simp at hp
      · rw [List.mem_map] at hp
        obtain ⟨k, -, rfl⟩ := hp
        rfl
    refine ⟨?_, fun _ => ?_, fun hst => ?_⟩
    · exact (sq_le_one_iff₀ (norm_nonneg H)).1 hone.le
    · rw [hone]
      exact Real.rpow_le_one_of_one_le_of_nonpos (by norm_num) (by linarith)
    · have := stop_edge v.fstop_pos v.fstop_lt hst
      rw [hS, abs_zero] at this
      rw [hS] at hsq
      have hc1 : halfCos low (f / fs) ≠ 0 := by
        intro h
        rw [h] at hsq
        norm_num at hsq
      have : 0 < warp low fstop fs * |halfCos low (f / fs)| := mul_pos hW (abs_pos.2 hc1)
      linarith
  · rw [type2_prod hN _ hW low _ hS, sinh_order_mul hN] at e2
    set N := order low fs fpass fstop (max Apass 0.01) (max Astop 0.01) with hNd
    set W := warp low fstop fs with hWd
    set x := W * halfCos low (f / fs) / halfSin low (f / fs) with hx
    have hden : 0 < T N x ^ 2 + ripple (max Astop 0.01) ^ 2 := by positivity
    have hSa : 0 < |halfSin low (f / fs)| := abs_pos.2 hS
    have hxa : |x| = W * |halfCos low (f / fs)| / |halfSin low (f / fs)| := by
      rw [hx, abs_div, abs_mul, abs_of_pos hW]
    refine ⟨?_, fun hp => ?_, fun hst => ?_⟩
    · refine (sq_le_one_iff₀ (norm_nonneg H)).1 ?_
      rw [e2, div_le_one hden]
      nlinarith [sq_nonneg (ripple (max Astop 0.01))]
    · have hedge := pass_edge v.fpass_pos v.fpass_lt hp
      have hx1 : W / warp low fpass fs ≤ |x| := by
        rw [hxa, div_le_div_iff₀ hWp hSa]
        nlinarith
      have hT : ripple (max Astop 0.01) / ripple (max Apass 0.01) ≤ T N |x| :=
        v.order_spec.trans (T_mono N v.ratio_W.le hx1)
      have hT2 : (ripple (max Astop 0.01) / ripple (max Apass 0.01)) ^ 2 ≤ T N x ^ 2 := by
        rw [← T_sq_abs]
        exact pow_le_pow_left₀ (by positivity) hT 2
      have h10 : (10 : ℝ) ^ (max Apass 0.01 / 10) = 1 + ripple (max Apass 0.01) ^ 2 := by linarith
      rw [e2, neg_dB, h10, div_le_div_iff₀ (by positivity) hden]
      rw [div_pow, div_le_iff₀ (by positivity)] at hT2
      nlinarith
    · have hedge := stop_edge v.fstop_pos v.fstop_lt hst
      have hx1 : |x| ≤ 1 := by
        rw [hxa, div_le_one hSa]
        exact hedge
      have hT := T_sq_le_one N hx1
      have h10 : (10 : ℝ) ^ (max Astop 0.01 / 10) = 1 + ripple (max Astop 0.01) ^ 2 := by linarith
      rw [e2, neg_dB, h10, div_le_div_iff₀ hden (by positivity)]
      nlinarith [sq_nonneg (ripple (max Astop 0.01))]

/-- **C66** For orders below 2^30 and sufficient capacity the cascade exists. -/
theorem C66_exists (v : Valid low fs fpass fstop (max Apass 0.01) (max Astop 0.01))
    (hN : order low fs fpass fstop (max Apass 0.01) (max Astop 0.01) < 2 ^ 30)
    (hn : (order low fs fpass fstop (max Apass 0.01) (max Astop 0.01) + 1) / 2 ≤ n) :
    ∃ d c, chebyshev2_lp_hp low fs fpass fstop Apass Astop = .ok d ∧ make_biquad_cascade n d = .ok c := by
  obtain ⟨d, e, h1, h2, h3, -⟩ := C52_count v hN chebyshev2_lp_hp (by simp)
  obtain ⟨c, e2, -⟩ := (C52_cascade n d h3).1 (by omega)
  exact ⟨d, c, e, e2⟩

/-! ### C67 -/

/-- **C67** What the code does for type 1: the squared gain below the Nyquist frequency (low pass;
above DC for the high pass).  `estop` is where a type 1 filter would have `1/epass`, and an odd-order
filter has a wrong first-order factor. -/
theorem C67_magnitude_partial (v : Valid low fs fpass fstop (max Apass 0.01) (max Astop 0.01))
    (hd : chebyshev1_lp_hp low fs fpass fstop Apass Astop = .ok d)
    (hc : make_biquad_cascade n d = .ok c) (g : ℝ)
    (hg : if low then Real.cos (Real.pi * g) ≠ 0 else Real.sin (Real.pi * g) ≠ 0) :
    ∃ H, c.response g = .ok H ∧
      let N := order low fs fpass fstop (max Apass 0.01) (max Astop 0.01)
      let W := warp low fpass fs
      let w := if low then Real.sin (Real.pi * g) / Real.cos (Real.pi * g)
        else -Real.cos (Real.pi * g) / Real.sin (Real.pi * g)
      let e := ripple (max Astop 0.01)
      let h := Real.sinh (Real.arsinh e / N)
      ‖H‖ ^ 2 = ((if N % 2 = 1 then 0 else 1) + e ^ 2) / (T N (w / W) ^ 2 + e ^ 2) *
        (if N % 2 = 1 then (1 + (w / W) ^ 2 / h ^ 2) / (1 + (h * W) ^ 2 * w ^ 2) else 1) := by
  obtain ⟨h1, hN, hW, ha, h2, h3⟩ := cascade1 v hd hc
  have hS : halfCos low g ≠ 0 := by
    cases low
    · exact hg
    · exact hg
  obtain ⟨H, e1, e2⟩ := cascade_mag low _ h2 c h1 h3 g
  refine ⟨H, e1, ?_⟩
  rw [type1_prod hN ha hW low g hS, sinh_order_mul hN] at e2
  have hT : T (order low fs fpass fstop (max Apass 0.01) (max Astop 0.01)) 0 ^ 2 =
      if order low fs fpass fstop (max Apass 0.01) (max Astop 0.01) % 2 = 1 then 0 else 1 := by
    generalize order low fs fpass fstop (max Apass 0.01) (max Astop 0.01) = N
    unfold T
    by_cases h : N % 2 = 1
    · rw [if_pos h, Polynomial.Chebyshev.T_eval_zero_of_odd]
      · norm_num
      · exact_mod_cast Nat.odd_iff.2 h
    · rw [if_neg h, Polynomial.Chebyshev.T_eval_zero_of_even]
      · rcases Int.even_or_odd ((N : ℤ) / 2) with h | h
        · rw [Int.negOnePow_even _ h]; simp
        · rw [Int.negOnePow_odd _ h]; simp
      · exact_mod_cast Nat.even_iff.2 (by omega)
  rw [hT] at e2
  rw [e2]
  cases low <;> simp only [halfSin, halfCos, Bool.false_eq_true, if_false, if_true]

/-- **C67** In the pass band an even-order type 1 filter does not attenuate (it amplifies by up to
`1 + 1 / estop^2`). -/
theorem C67_even_pass_partial (v : Valid low fs fpass fstop (max Apass 0.01) (max Astop 0.01))
    (hd : chebyshev1_lp_hp low fs fpass fstop Apass Astop = .ok d)
    (hc : make_biquad_cascade n d = .ok c)
    (he : order low fs fpass fstop (max Apass 0.01) (max Astop 0.01) % 2 = 0) (f : ℝ)
    (hf : InPass low fs fpass f) :
    ∃ H, c.response (f / fs) = .ok H ∧ 1 ≤ ‖H‖ ^ 2 ∧
      ‖H‖ ^ 2 ≤ 1 + 1 / ripple (max Astop 0.01) ^ 2 := by
  obtain ⟨h1, hN, hW, ha, h2, h3⟩ := cascade1 v hd hc
  have hedge := pass_edge v.fpass_pos v.fpass_lt hf
  have hsq := halfSin_sq_add low (f / fs)
  have hC : halfCos low (f / fs) ≠ 0 := by
    intro h
    rw [h, abs_zero, mul_zero] at hedge
    rw [h, abs_nonpos_iff.1 hedge] at hsq
    norm_num at hsq
  obtain ⟨H, e1, e2⟩ := C67_magnitude_partial v hd hc (f / fs) (by
    cases low
    · exact hC
    · exact hC)
  refine ⟨H, e1, ?_⟩
  have rs0 := ripple_pos (v.Apass_pos.trans v.Apass_lt)
  set N := order low fs fpass fstop (max Apass 0.01) (max Astop 0.01) with hNd
  simp only [if_neg (show ¬ N % 2 = 1 by omega), mul_one] at e2
  have hx : |(if low then Real.sin (Real.pi * (f / fs)) / Real.cos (Real.pi * (f / fs))
      else -Real.cos (Real.pi * (f / fs)) / Real.sin (Real.pi * (f / fs))) / warp low fpass fs| ≤ 1 := by
    have : (if low then Real.sin (Real.pi * (f / fs)) / Real.cos (Real.pi * (f / fs))
      else -Real.cos (Real.pi * (f / fs)) / Real.sin (Real.pi * (f / fs))) =
        halfSin low (f / fs) / halfCos low (f / fs) := by
      cases low <;> simp only [halfSin, halfCos, Bool.false_eq_true, if_false, if_true]
    rw [this, abs_div, abs_div, abs_of_pos hW, div_div, div_le_one (mul_pos (abs_pos.2 hC) hW)]
    linarith
  have hT := T_sq_le_one N hx
  rw [e2]
  constructor
  · rw [one_le_div (by positivity)]
    linarith
  · rw [div_le_iff₀ (by positivity)]
    have : 1 / ripple (max Astop 0.01) ^ 2 * ripple (max Astop 0.01) ^ 2 = 1 := by field_simp
    have h0 : 0 ≤ 1 / ripple (max Astop 0.01) ^ 2 := by positivity
    nlinarith [sq_nonneg (T N ((if low then Real.sin (Real.pi * (f / fs)) / Real.cos (Real.pi * (f / fs))
      else -Real.cos (Real.pi * (f / fs)) / Real.sin (Real.pi * (f / fs))) / warp low fpass fs))]

/-- **C66** The order is the least for which a type 2 filter, with stop-band edge at `fstop`, attenuates
the pass-band edge by no more than `Apass` dB. -/
theorem C66_least_order (v : Valid low fs fpass fstop Apass Astop) (M : ℕ) :
    (10 : ℝ) ^ (-Apass / 10) ≤ T M (warp low fstop fs / warp low fpass fs) ^ 2 /
        (T M (warp low fstop fs / warp low fpass fs) ^ 2 + ripple Astop ^ 2) ↔
      order low fs fpass fstop Apass Astop ≤ M := by
  have hAp := v.Apass_pos
  have hAs := v.Apass_pos.trans v.Apass_lt
  have rp := ripple_sq hAp.le
  have rp0 := ripple_pos hAp
  have rs0 := ripple_pos hAs
  have h10 : (10 : ℝ) ^ (Apass / 10) = 1 + ripple Apass ^ 2 := by linarith
  have hT : 0 ≤ T M (warp low fstop fs / warp low fpass fs) :=
    zero_le_one.trans (Polynomial.Chebyshev.one_le_eval_T_real M v.ratio_W.le)
  rw [← C52_order v M, neg_dB, h10, div_le_div_iff₀ (by positivity) (by positivity), div_le_iff₀ rp0,
    ← pow_le_pow_iff_left₀ rs0.le (by positivity) two_ne_zero, mul_pow]
  constructor <;> intro h <;> linarith

theorem ripple_dB {x : ℝ} (hx : 0 < x) : ripple (10 * Real.logb 10 x) = √(x - 1) := by
  unfold ripple
  rw [mul_div_cancel_left₀ _ (by norm_num), Real.rpow_logb (by norm_num) (by norm_num) hx]

theorem dB_lt {x y : ℝ} (hx : 0 < x) (h : x < y) : 10 * Real.logb 10 x < 10 * Real.logb 10 y := by
  have := Real.logb_lt_logb (b := 10) (by norm_num) hx h
  linarith

theorem dB_two : (0.01 : ℝ) < 10 * Real.logb 10 2 := by
  have h : (1 / 4 : ℝ) ≤ Real.logb 10 2 := by
    rw [Real.le_logb_iff_rpow_le (by norm_num) (by norm_num)]
    calc (10 : ℝ) ^ (1 / 4 : ℝ) ≤ (2 ^ (4 : ℕ) : ℝ) ^ (1 / 4 : ℝ) :=
          Real.rpow_le_rpow (by norm_num) (by norm_num) (by norm_num)
      _ = 2 := by rw [← Real.rpow_natCast, ← Real.rpow_mul (by norm_num)]; norm_num
  norm_num
  linarith

/-- The example: sample frequency 12 Hz, pass band to 3 Hz, stop band from 4 Hz, attenuated to 1/2 and 1/x. -/
theorem valid_example {x : ℝ} (hx : 2 < x) :
    Valid true 12 3 4 (max (10 * Real.logb 10 2) 0.01) (max (10 * Real.logb 10 x) 0.01) := by
  have h2 := dB_two
  have hlt := dB_lt (by norm_num) hx
  rw [max_eq_left h2.le, max_eq_left (h2.trans hlt).le]
  exact ⟨by norm_num, by norm_num, by norm_num, by norm_num, by norm_num,
    (by norm_num : (0 : ℝ) < 0.01).trans h2, hlt⟩

theorem warp_example : warp true 3 12 = 1 ∧ warp true 4 12 = √3 := by
  constructor
  · unfold warp
    rw [if_pos rfl, show Real.pi * 3 / 12 = Real.pi / 4 by ring, Real.tan_pi_div_four]
  · unfold warp
    rw [if_pos rfl, show Real.pi * 4 / 12 = Real.pi / 3 by ring, Real.tan_pi_div_three]

theorem order_example {x : ℝ} (hx : 2 < x) (M : ℕ) :
    √(x - 1) ≤ T M √3 ↔
      order true 12 3 4 (max (10 * Real.logb 10 2) 0.01) (max (10 * Real.logb 10 x) 0.01) ≤ M := by
  have h2 := dB_two
  have hlt := dB_lt (by norm_num) hx
  rw [← C52_order (valid_example hx) M, max_eq_left h2.le, max_eq_left (h2.trans hlt).le,
    ripple_dB (x := 2) (by norm_num), ripple_dB (x := x) (by linarith), warp_example.1, warp_example.2]
  norm_num

theorem T_one' (x : ℝ) : T 1 x = x := by simp [T]
theorem T_two' (x : ℝ) : T 2 x = 2 * x ^ 2 - 1 := by simp [T, Polynomial.Chebyshev.T_two]

theorem order_two :
    order true 12 3 4 (max (10 * Real.logb 10 2) 0.01) (max (10 * Real.logb 10 26) 0.01) = 2 := by
  have h25 : √((26 : ℝ) - 1) = 5 := by
    rw [show (26 : ℝ) - 1 = 5 ^ 2 by norm_num, Real.sqrt_sq (by norm_num)]
  have h3 : √(3 : ℝ) < 5 := by rw [Real.sqrt_lt' (by norm_num)]; norm_num
  have k2 := (order_example (x := 26) (by norm_num) 2).1 (by
    rw [h25, T_two', Real.sq_sqrt (by norm_num)]; norm_num)
  have k1 := mt (order_example (x := 26) (by norm_num) 1).2 (by
    rw [h25, T_one']; exact not_le.2 h3)
  omega

theorem order_one :
    order true 12 3 4 (max (10 * Real.logb 10 2) 0.01) (max (10 * Real.logb 10 4) 0.01) = 1 := by
  have h0 := (valid_example (x := 4) (by norm_num)).order_pos
  have k1 := (order_example (x := 4) (by norm_num) 1).1 (by rw [T_one']; norm_num)
  omega

/-- **C67** (what the code does) A type 1 low-pass filter of order 2 for a stop-band power gain of at most 1/26
has 13/25 at the stop-band edge. -/
theorem C67_stop_wrong :
    Valid true 12 3 4 (max (10 * Real.logb 10 2) 0.01) (max (10 * Real.logb 10 26) 0.01) ∧
    InStop true 12 4 4 ∧
    ∃ d, ∃ c : Cascade ℝ 1, ∃ H,
      chebyshev1_lp_hp true 12 3 4 (10 * Real.logb 10 2) (10 * Real.logb 10 26) = .ok d ∧
      make_biquad_cascade 1 d = .ok c ∧ c.response (4 / 12) = .ok H ∧ ‖H‖ ^ 2 = 13 / 25 ∧
      (10 : ℝ) ^ (-max (10 * Real.logb 10 26) 0.01 / 10) = 1 / 26 := by
  have v := valid_example (x := 26) (by norm_num)
  have hAs : (0.01 : ℝ) ≤ 10 * Real.logb 10 26 := (dB_two.trans (dB_lt (by norm_num) (by norm_num))).le
  obtain ⟨d, e, h1, h2, h3, -⟩ := C52_count v (by rw [order_two]; norm_num) chebyshev1_lp_hp (by simp)
  obtain ⟨c, ec, -⟩ := (C52_cascade 1 d h3).1 (by rw [order_two] at h1; omega)
  have hangle : Real.pi * (4 / 12) = Real.pi / 3 := by ring
  obtain ⟨H, e1, e2⟩ := C67_magnitude_partial v e ec (4 / 12) (by
    rw [if_pos rfl, hangle, Real.cos_pi_div_three]; norm_num)
  refine ⟨v, by norm_num [InStop], d, c, H, e, ec, e1, ?_, ?_⟩
  · have hw : Real.sin (Real.pi / 3) / Real.cos (Real.pi / 3) = √3 := by
      rw [← Real.tan_eq_sin_div_cos, Real.tan_pi_div_three]
    simp only [order_two] at e2
    simp only [if_pos, hangle, warp_example.1, hw, max_eq_left hAs, T_two',
      ripple_dB (show (0 : ℝ) < 26 by norm_num), div_one] at e2
    rw [e2, Real.sq_sqrt (by norm_num), Real.sq_sqrt (by norm_num)]
    norm_num
  · rw [neg_dB, max_eq_left hAs, mul_div_cancel_left₀ _ (by norm_num),
      Real.rpow_logb (by norm_num) (by norm_num) (by norm_num)]

/-- **C67** (what the code does) A type 1 low-pass filter of order 1 for a pass-band power gain of at least 1/2
has 1/4 at the pass-band edge. -/
theorem C67_pass_wrong :
    Valid true 12 3 4 (max (10 * Real.logb 10 2) 0.01) (max (10 * Real.logb 10 4) 0.01) ∧
    InPass true 12 3 3 ∧
    ∃ d, ∃ c : Cascade ℝ 1, ∃ H,
      chebyshev1_lp_hp true 12 3 4 (10 * Real.logb 10 2) (10 * Real.logb 10 4) = .ok d ∧
      make_biquad_cascade 1 d = .ok c ∧ c.response (3 / 12) = .ok H ∧ ‖H‖ ^ 2 = 1 / 4 ∧
      (10 : ℝ) ^ (-max (10 * Real.logb 10 2) 0.01 / 10) = 1 / 2 := by
  have v := valid_example (x := 4) (by norm_num)
  have hAs : (0.01 : ℝ) ≤ 10 * Real.logb 10 4 := (dB_two.trans (dB_lt (by norm_num) (by norm_num))).le
  obtain ⟨d, e, h1, h2, h3, -⟩ := C52_count v (by rw [order_one]; norm_num) chebyshev1_lp_hp (by simp)
  obtain ⟨c, ec, -⟩ := (C52_cascade 1 d h3).1 (by rw [order_one] at h1; omega)
  have hangle : Real.pi * (3 / 12) = Real.pi / 4 := by ring
  obtain ⟨H, e1, e2⟩ := C67_magnitude_partial v e ec (3 / 12) (by
    rw [if_pos rfl, hangle, Real.cos_pi_div_four]; positivity)
  refine ⟨v, by norm_num [InPass], d, c, H, e, ec, e1, ?_, ?_⟩
  · have hw : Real.sin (Real.pi / 4) / Real.cos (Real.pi / 4) = 1 := by
      rw [← Real.tan_eq_sin_div_cos, Real.tan_pi_div_four]
    simp only [order_one] at e2
    simp only [if_pos, hangle, warp_example.1, hw, max_eq_left hAs, T_one',
      ripple_dB (show (0 : ℝ) < 4 by norm_num), div_one, Nat.cast_one, Real.sinh_arsinh] at e2
    have : √((4 : ℝ) - 1) ^ 2 = 3 := by rw [Real.sq_sqrt (by norm_num)]; norm_num
    rw [e2]
    norm_num [this]
  · rw [neg_dB, max_eq_left dB_two.le, mul_div_cancel_left₀ _ (by norm_num),
      Real.rpow_logb (by norm_num) (by norm_num) (by norm_num)]

/-- The hypotheses of C52, C53, C66 and C67 are met by a concrete specification: it has order 2. -/
example : ∃ d1 d2, ∃ c1 c2 : Cascade ℝ 1,
    chebyshev1_lp_hp true 12 3 4 (10 * Real.logb 10 2) (10 * Real.logb 10 26) = .ok d1 ∧
    make_biquad_cascade 1 d1 = .ok c1 ∧
    chebyshev2_lp_hp true 12 3 4 (10 * Real.logb 10 2) (10 * Real.logb 10 26) = .ok d2 ∧
    make_biquad_cascade 1 d2 = .ok c2 ∧ d1.N = 2 ∧ d2.N = 2 := by
  have v := valid_example (x := 26) (by norm_num)
  have hN := order_two
  obtain ⟨d1, e1, k1, l1, m1, -⟩ := C52_count v (by rw [hN]; norm_num) chebyshev1_lp_hp (by simp)
  obtain ⟨d2, e2, k2, l2, m2, -⟩ := C52_count v (by rw [hN]; norm_num) chebyshev2_lp_hp (by simp)
  rw [hN] at k1 k2
  obtain ⟨c1, f1, -⟩ := (C52_cascade 1 d1 m1).1 (by omega)
  obtain ⟨c2, f2, -⟩ := (C52_cascade 1 d2 m2).1 (by omega)
  exact ⟨d1, d2, c1, c2, e1, f1, e2, f2, k1, k2⟩

/-- The attenuation at the stop-band edge of the type 2 filter for this specification is as specified. -/
example {d : Digital} {c : Cascade ℝ 1}
    (hd : chebyshev2_lp_hp true 12 3 4 (10 * Real.logb 10 2) (10 * Real.logb 10 26) = .ok d)
    (hc : make_biquad_cascade 1 d = .ok c) :
    ∃ H, c.response (4 / 12) = .ok H ∧ ‖H‖ ^ 2 ≤ 1 / 26 := by
  obtain ⟨H, e, -, -, h⟩ := C66_specification (valid_example (x := 26) (by norm_num)) hd hc 4
  obtain ⟨-, -, -, -, -, -, -, -, -, h26⟩ := C67_stop_wrong
  refine ⟨H, e, (h (by norm_num [InStop])).trans h26.le⟩

end

end Verif
