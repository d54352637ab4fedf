import Verif.Lemmas.OutputText
import Verif.Props.Cascade
import Verif.Props.OnePole
import Verif.Props.Output

/-
Properties C121, C122: the texts of matrices and filters (include/num/matrix-io.hpp,
include/core/vector-io.hpp, include/dsp/biquad-io.hpp, biquad-cascade-io.hpp, onepole-io.hpp).
-/

namespace Verif
open Output

/-! ## C121 Matrices and vectors as text -/

section
variable {T : Type} {N M : Nat}

/-- The texts of numbers are words. -/
theorem C121_number_word (x : ℚ) : Word (number x) := number_word x (C118_characters x)

/-- C121: a matrix is printed by rows, one line each, with a blank in front of each element; nothing is read
outside the matrix. -/
theorem C121_matrix (elem : T → Text) (he : ∀ v, Word (elem v)) (A : Mat T N M) :
    ∃ t, matrix elem A = .ok t ∧
      table t = (List.ofFn fun i => [] :: List.ofFn fun j => elem (A.get i j)) ++ [[[]]] := by
  refine ⟨_, matrix_text elem A, ?_⟩
  have e : (List.ofFn fun i => (List.ofFn fun j => ' ' :: elem (A.get i j)).flatten ++ ['\n']).flatten =
      joined ((List.ofFn fun i => [] :: List.ofFn fun j => elem (A.get i j)) ++ [[[]]]) := by
    unfold joined
    have e1 : (List.ofFn fun i => (List.ofFn fun j => ' ' :: elem (A.get i j)).flatten ++ ['\n']) =
        ((List.ofFn fun i => [] :: List.ofFn fun j => elem (A.get i j)).map
          (List.intercalate [' '])).map (· ++ ['\n']) := by
      rw [List.map_map, List.map_ofFn]
      congr 1
      funext i
      show _ = List.intercalate [' '] ([] :: _) ++ ['\n']
      rw [← row_join, List.map_ofFn]
      rfl
    rw [e1, lines_join, List.map_append]
    simp [List.intercalate]
  rw [e, table_joined (by simp)]
  · intro l hl
    rcases List.mem_append.1 hl with h | h
    · obtain ⟨i, rfl⟩ := (List.mem_ofFn).1 h
      simp
    · rw [List.mem_singleton.1 h]; simp
  · intro l hl v hv
    rcases List.mem_append.1 hl with h | h
    · obtain ⟨i, rfl⟩ := (List.mem_ofFn).1 h
      rcases List.mem_cons.1 hv with rfl | hv
      · decide
      · obtain ⟨j, rfl⟩ := (List.mem_ofFn).1 hv
        exact he _
    · rw [List.mem_singleton.1 h, List.mem_singleton] at hv
      rw [hv]; decide

/-- C121: the text tells the shape and the texts of all elements. -/
theorem C121_matrix_determined {N' M' : Nat} (elem : T → Text) (he : ∀ v, Word (elem v)) (A : Mat T N M)
    (B : Mat T N' M') (h : matrix elem A = matrix elem B) :
    N = N' ∧ (0 < N → M = M') ∧
      ∀ (i : Nat) (j : Nat) (hi : i < N) (hi' : i < N') (hj : j < M) (hj' : j < M'),
        elem (A.get ⟨i, hi⟩ ⟨j, hj⟩) = elem (B.get ⟨i, hi'⟩ ⟨j, hj'⟩) := by
  obtain ⟨t, h1, h2⟩ := C121_matrix elem he A
  obtain ⟨u, h3, h4⟩ := C121_matrix elem he B
  rw [h1, h3, Except.ok.injEq] at h
  subst h
  rw [h2] at h4
  have hN : N = N' := by
    have := congrArg List.length h4
    simpa using this
  subst hN
  have hr := List.append_cancel_right h4
  have hrow (i : Fin N) : List.ofFn (fun j => elem (A.get i j)) = List.ofFn (fun j => elem (B.get i j)) := by
    have := congrArg (fun l => l[i.val]?) hr
    simpa using this
  refine ⟨rfl, fun h0 => ?_, ?_⟩
  · have := congrArg List.length (hrow ⟨0, h0⟩)
    simpa using this
  · intro i j hi hi' hj hj'
    have := congrArg (fun l => l[j]?) (hrow ⟨i, hi⟩)
    simpa [hj, hj'] using this

/-- C121: a vector is printed between brackets, with a blank in front of each element. -/
theorem C121_vector (elem : T → Text) (he : ∀ v, Word (elem v)) (x : List T) :
    ∃ body, vector elem x = '[' :: body ++ [']'] ∧ pieces ' ' body = [] :: x.map elem := by
  have key (l : List T) (os : Text) : l.foldl (fun os v => os ++ [' '] ++ elem v) os =
      os ++ ((l.map elem).map (' ' :: ·)).flatten := by
    induction l generalizing os with
    | nil => simp
    | cons a l ih => rw [List.foldl_cons, ih]; simp
  refine ⟨((x.map elem).map (' ' :: ·)).flatten, ?_, ?_⟩
  · unfold vector
    rw [key]
    simp
  · rw [row_join, pieces_join (by simp)]
    intro w hw
    rcases List.mem_cons.1 hw with rfl | hw
    · decide
    · obtain ⟨v, -, rfl⟩ := List.mem_map.1 hw
      exact (he v).1

example : (do matrix number (← Mat.ofList 2 2 [1, 1 / 3, -20000000, 0])) =
    .ok " 1 0.333333\n -2e+07 0\n".toList := by decide +kernel

end

/-! ## C122 Filters as text -/

/-- C122: numbers of objects are printed in decimal. -/
theorem C122_natural (n : Nat) : natValue (natural n) = n := by
  unfold natural
  rw [natValue_dec]
  exact Nat.mod_eq_of_lt (Nat.lt_pow_succ_log_self (by norm_num) n)

private theorem natural_word (n : Nat) : Word (natural n) :=
  ⟨fun h => (dec_dig _ h).ne (by simp) rfl, fun h => (dec_dig _ h).ne (by simp) rfl⟩

/-- The text of a complex number. -/
private theorem complex_word {elem : ℝ → Text} (he : ∀ v, Word (elem v)) (z : ℂ) : Word (complex elem z) := by
  unfold complex
  exact (((Word.append (by decide) (he _)).append (by decide)).append (he _)).append (by decide)

/-- C122: what is printed of a biquad: whether its poles are in the unit circle, its coefficients and state,
its poles and zeros. -/
theorem C122_biquad (elem : ℝ → Text) (he : ∀ v, Word (elem v)) (q : Biquad ℝ) (h : q.b.b0 ≠ 0) :
    ∃ t p0 p1 z0 z1, biquad elem q = .ok t ∧
      (∀ z : ℂ, z ^ 2 + q.a.a1 * z + q.a.a2 = (z - p0) * (z - p1)) ∧
      (∀ z : ℂ, q.b.b0 * z ^ 2 + q.b.b1 * z + q.b.b2 = q.b.b0 * ((z - z0) * (z - z1))) ∧
      ∃ report, (‖p0‖ ≤ 1 ∧ ‖p1‖ ≤ 1 ∧ report = ["stable:".toList] ∨
          (1 < ‖p0‖ ∨ 1 < ‖p1‖) ∧ report = ["NOT".toList, "stable:".toList]) ∧
        table t = [[[]], "BiQuad".toList :: "is".toList :: report,
          ["a:".toList, "[A".toList, elem q.a.a1 ++ [','], elem q.a.a2, [']']],
          ["b:".toList, "[B".toList, elem q.b.b0 ++ [','], elem q.b.b1 ++ [','], elem q.b.b2, [']']],
          ["w:".toList, "[W".toList, elem q.w.v1 ++ [','], elem q.w.v2, [']']],
          ["p:".toList, "[S".toList, '(' :: elem p0.re ++ ',' :: elem p0.im ++ [')', ','],
            '(' :: elem p1.re ++ ',' :: elem p1.im ++ [')'], [']']],
          ["z:".toList, "[S".toList, '(' :: elem z0.re ++ ',' :: elem z0.im ++ [')', ','],
            '(' :: elem z1.re ++ ',' :: elem z1.im ++ [')'], [']']],
          [[]]] := by
  obtain ⟨p, hp, hp'⟩ := C38_poles q
  obtain ⟨z, hz, hz'⟩ := C38_zeros q h
  obtain ⟨s, hs, hs'⟩ : ∃ s, q.is_stable = .ok s ∧ (s = true ↔ ‖p.s0‖ ≤ 1 ∧ ‖p.s1‖ ≤ 1) := by
    unfold Biquad.is_stable
    rw [hp, bind_ok]
    exact ⟨_, rfl, by simp⟩
  refine ⟨_, p.s0, p.s1, z.s0, z.s1, by unfold biquad; rw [hs, bind_ok, hp, bind_ok, hz, bind_ok], hp', hz',
    if s then ["stable:".toList] else ["NOT".toList, "stable:".toList], ?_, ?_⟩
  · cases s with
    | true => exact .inl ⟨(hs'.1 rfl).1, (hs'.1 rfl).2, rfl⟩
    | false =>
      right
      refine ⟨?_, rfl⟩
      by_contra hc
      push Not at hc
      exact absurd (hs'.2 hc) (by decide)
  · have w0 (z : ℂ) (r : Text) (hr : Word r) : Word ('(' :: elem z.re ++ ',' :: elem z.im ++ r) :=
      ((Word.append (s := ['(']) (by decide) (he _)).append
        (Word.append (s := [',']) (by decide) (he _))).append hr
    have w1 {t : Text} (ht : Word t) : Word (t ++ [',']) := ht.append (by decide)
    have b {t : Text} (ht : Word t := by decide) : Word t := ht
    refine (congrArg table ?_).trans (table_joined (List.cons_ne_nil _ _) ?_ ?_)
    · cases s <;>
        simp [joined, List.intercalate, bqA, bqB, bqW, solution, complex, Biquad.coeff_a, Biquad.coeff_b,
          Biquad.state]
    · simp only [List.forall_mem_cons, ne_eq, List.cons_ne_nil, not_false_eq_true, true_and, List.not_mem_nil,
        false_imp_iff, implies_true]
    · have hr : ∀ w ∈ (if s then ["stable:".toList] else ["NOT".toList, "stable:".toList]), Word w := by
        cases s <;> decide
      have nil : ∀ w ∈ ([] : List Text), Word w := by simp
      simp only [List.forall_mem_cons]
      exact ⟨⟨b, nil⟩, ⟨b, b, hr⟩, ⟨b, b, w1 (he _), he _, b, nil⟩, ⟨b, b, w1 (he _), w1 (he _), he _, b, nil⟩,
        ⟨b, b, w1 (he _), he _, b, nil⟩, ⟨b, b, w0 _ _ b, w0 _ _ b, b, nil⟩, ⟨b, b, w0 _ _ b, w0 _ _ b, b, nil⟩,
        ⟨b, nil⟩, by simp⟩

/-- C122: without a first coefficient `b0` there are no zeros to print. -/
theorem C122_biquad_undefined (elem : ℝ → Text) (q : Biquad ℝ) (h : q.b.b0 = 0) :
    biquad elem q = .error .divByZero := by
  obtain ⟨p, hp, -⟩ := C38_poles q
  obtain ⟨s, hs, -⟩ := C37_is_stable_poles q
  unfold biquad
  rw [hs, bind_ok, hp, bind_ok, C38_zeros_undefined q h]
  rfl

/-- C122: equal texts come from filters whose coefficients and states print alike. -/
theorem C122_biquad_determined (elem : ℝ → Text) (he : ∀ v, Word (elem v)) (q r : Biquad ℝ) (t : Text)
    (hq : biquad elem q = .ok t) (hr : biquad elem r = .ok t) :
    elem q.a.a1 = elem r.a.a1 ∧ elem q.a.a2 = elem r.a.a2 ∧ elem q.b.b0 = elem r.b.b0 ∧
      elem q.b.b1 = elem r.b.b1 ∧ elem q.b.b2 = elem r.b.b2 ∧ elem q.w.v1 = elem r.w.v1 ∧
      elem q.w.v2 = elem r.w.v2 ∧ q.is_stable = r.is_stable := by
  have hne {q : Biquad ℝ} (h : biquad elem q = .ok t) : q.b.b0 ≠ 0 := fun h0 => by
    rw [C122_biquad_undefined elem q h0] at h
    cases h
  have hst {q : Biquad ℝ} {p0 p1 : ℂ} {rep : List Text}
      (hp : ∀ z : ℂ, z ^ 2 + q.a.a1 * z + q.a.a2 = (z - p0) * (z - p1))
      (h : ‖p0‖ ≤ 1 ∧ ‖p1‖ ≤ 1 ∧ rep = ["stable:".toList] ∨
        (1 < ‖p0‖ ∨ 1 < ‖p1‖) ∧ rep = ["NOT".toList, "stable:".toList]) :
      q.is_stable = .ok (decide (rep = ["stable:".toList])) := by
    obtain ⟨s, hs, hs'⟩ := C37_is_stable_poles q
    rw [hs]
    congr 1
    rw [Bool.eq_iff_iff, hs', decide_eq_true_iff]
    constructor
    · intro hz
      rcases h with h | ⟨h, -⟩
      · exact h.2.2
      · have h0 := hz p0 (by rw [hp]; ring)
        have h1 := hz p1 (by rw [hp]; ring)
        rcases h with h | h <;> linarith
    · intro hrep z hz
      rcases h with h | ⟨-, h⟩
      · rw [hp, mul_eq_zero, sub_eq_zero, sub_eq_zero] at hz
        rcases hz with rfl | rfl
        · exact h.1
        · exact h.2.1
      · rw [h] at hrep
        exact absurd hrep (by decide)
  obtain ⟨t1, p0, p1, z0, z1, e1, f1, -, rep, g1, k1⟩ := C122_biquad elem he q (hne hq)
  obtain ⟨t2, p0', p1', z0', z1', e2, f2, -, rep', g2, k2⟩ := C122_biquad elem he r (hne hr)
  obtain rfl : t = t1 := Except.ok.inj (hq.symm.trans e1)
  obtain rfl : t = t2 := Except.ok.inj (hr.symm.trans e2)
  rw [k1] at k2
  simp only [List.cons.injEq, List.append_cancel_right_eq, true_and, and_true] at k2
  obtain ⟨rfl, ⟨c1, c2⟩, ⟨c3, c4, c5⟩, ⟨c6, c7⟩, -⟩ := k2
  exact ⟨c1, c2, c3, c4, c5, c6, c7, (hst f1 g1).trans (hst f2 g2).symm⟩

/-- C122: a cascade is printed as a summary followed by its sections in order. -/
theorem C122_cascade (elem : ℝ → Text) {N : Nat} (c : Cascade ℝ N) (hc : c.WF)
    (h : ∀ q ∈ c.toList, q.b.b0 ≠ 0) (bytes : Nat) :
    ∃ head ts report, cascade elem bytes c = .ok (head ++ ts.flatten) ∧
      List.Forall₂ (fun q t => biquad elem q = .ok t) c.toList ts ∧
      (report = ["stable:".toList] ∧ (∀ q ∈ c.toList, ∀ z : ℂ, z ^ 2 + q.a.a1 * z + q.a.a2 = 0 → ‖z‖ ≤ 1) ∨
        report = ["NOT".toList, "stable:".toList] ∧
          ∃ q ∈ c.toList, ∃ z : ℂ, z ^ 2 + q.a.a1 * z + q.a.a2 = 0 ∧ 1 < ‖z‖) ∧
      table head = [[[]], ["Filter".toList, "cascade".toList, "occupies".toList, natural bytes, "bytes".toList,
          "in".toList, "memory.".toList],
        "filters:".toList :: natural c.toList.length :: "entries".toList :: "out".toList :: "of".toList ::
          (natural N ++ [',']) :: report, [[]]] := by
  obtain ⟨s, hs, hs'⟩ := C43_is_stable c hc
  have hl := Cascade.length_toList hc
  have hb : ∀ q ∈ c.toList, ∃ t, biquad elem q = .ok t := by
    intro q hq
    obtain ⟨p, hp, -⟩ := C38_poles q
    obtain ⟨z, hz, -⟩ := C38_zeros q (h q hq)
    obtain ⟨b, hb, -⟩ := C37_is_stable_poles q
    exact ⟨_, by unfold biquad; rw [hb, bind_ok, hp, bind_ok, hz, bind_ok]⟩
  set head : Text := "\nFilter cascade occupies ".toList ++ natural bytes ++ " bytes in memory.".toList ++
    "\nfilters: ".toList ++ natural c.size ++ " entries out of ".toList ++ natural c.reserved ++
    ", ".toList ++ (if s then "stable:" else "NOT stable:").toList ++ "\n".toList with hhead
  obtain ⟨os, h1, ts, h2, h3⟩ := forRange_inv
    (P := fun j (os : Text) => ∃ ts : List Text, os = head ++ ts.flatten ∧
      List.Forall₂ (fun q t => biquad elem q = .ok t) (c.toList.take j) ts)
    (n := c.next)
    (body := fun k os => do
      let q ← c.get k
      let t ← biquad elem q
      .ok (os ++ t))
    (s := head) ⟨[], by simp, by simp⟩
    (by
      rintro j hj os ⟨ts, rfl, hts⟩
      have e1 : j < N := lt_of_lt_of_le hj hc
      have e2 : j < c.toList.length := by omega
      have hq : c.biquad[j] = c.toList[j] := by
        have := Cascade.getElem?_toList c j
        rw [if_pos hj, Vector.getElem?_eq_getElem e1, List.getElem?_eq_getElem e2] at this
        exact (Option.some.inj this).symm
      obtain ⟨t, ht⟩ := hb _ (List.getElem_mem e2)
      refine ⟨_, by rw [Cascade.get_ok e1, bind_ok, hq, ht, bind_ok], ts ++ [t], by simp, ?_⟩
      rw [List.take_succ_eq_append_getElem e2]
      exact List.rel_append hts (by simp [ht]))
  rw [← hl, List.take_length] at h3
  refine ⟨head, ts, if s then ["stable:".toList] else ["NOT".toList, "stable:".toList], ?_, h3, ?_, ?_⟩
  · unfold cascade
    rw [hs, bind_ok]
    exact h1.trans (by rw [h2])
  · have hq (q : Biquad ℝ) : q.is_stable = .ok true ↔ ∀ z : ℂ, z ^ 2 + q.a.a1 * z + q.a.a2 = 0 → ‖z‖ ≤ 1 := by
      obtain ⟨b, hb, hb'⟩ := C37_is_stable_poles q
      rw [hb, Except.ok.injEq, hb']
    cases s with
    | true => exact .inl ⟨rfl, fun q hm => (hq q).1 (hs'.1 rfl q hm)⟩
    | false =>
      right
      refine ⟨rfl, ?_⟩
      by_contra hn
      push Not at hn
      exact absurd (hs'.2 fun q hm => (hq q).2 (hn q hm)) (by decide)
  · have b {t : Text} (ht : Word t := by decide) : Word t := ht
    refine (congrArg table ?_).trans (table_joined (List.cons_ne_nil _ _) ?_ ?_)
    · rw [hhead, hl]
      cases s <;> simp [joined, List.intercalate, Cascade.size, Cascade.reserved]
    · simp only [List.forall_mem_cons, ne_eq, List.cons_ne_nil, not_false_eq_true, true_and, List.not_mem_nil,
        false_imp_iff, implies_true]
    · have hr : ∀ w ∈ (if s then ["stable:".toList] else ["NOT".toList, "stable:".toList]), Word w := by
        cases s <;> decide
      have nil : ∀ w ∈ ([] : List Text), Word w := by simp
      simp only [List.forall_mem_cons]
      exact ⟨⟨b, nil⟩, ⟨b, b, b, natural_word _, b, b, b, nil⟩,
        ⟨b, natural_word _, b, b, b, (natural_word _).append b, hr⟩, ⟨b, nil⟩, by simp⟩

/-- C122: what is printed of a one-pole filter. -/
theorem C122_onepole (elem : ℝ → Text) (he : ∀ v, Word (elem v)) (q : OnePole ℝ) :
    ∃ t, onepole elem q = .ok t ∧ table t = [[[]], ["OnePole".toList, "is".toList, "always".toList, "stable".toList],
      ["a:".toList, "[A".toList, elem q.a1, [']']], ["b:".toList, "[B".toList, elem q.b0, [']']],
      ["w:".toList, "[W".toList, elem q.v1, [']']],
      ["p:".toList, "[S".toList, '(' :: elem 7 ++ ',' :: elem 0 ++ [')'], [']']],
      ["z:".toList, "[S".toList, '(' :: elem 0 ++ ',' :: elem 0 ++ [')'], [']']], [[]]] := by
  have hp : q.poles = .ok 7 := (C46_poles_wrong q).1
  refine ⟨_, by unfold onepole; rw [hp, bind_ok], ?_⟩
  have w0 (x y : ℝ) : Word ('(' :: elem x ++ ',' :: elem y ++ [')']) :=
    ((Word.append (s := ['(']) (by decide) (he _)).append
      (Word.append (s := [',']) (by decide) (he _))).append (by decide)
  have b {t : Text} (ht : Word t := by decide) : Word t := ht
  refine (congrArg table ?_).trans (table_joined (List.cons_ne_nil _ _) ?_ ?_)
  · simp [joined, List.intercalate, complex, OnePole.coeff_a, OnePole.coeff_b, OnePole.state, OnePole.zeros]
  · simp only [List.forall_mem_cons, ne_eq, List.cons_ne_nil, not_false_eq_true, true_and, List.not_mem_nil,
      false_imp_iff, implies_true]
  · have nil : ∀ w ∈ ([] : List Text), Word w := by simp
    simp only [List.forall_mem_cons]
    exact ⟨⟨b, nil⟩, ⟨b, b, b, b, nil⟩, ⟨b, b, he _, b, nil⟩, ⟨b, b, he _, b, nil⟩, ⟨b, b, he _, b, nil⟩,
      ⟨b, b, w0 _ _, b, nil⟩, ⟨b, b, w0 _ _, b, nil⟩, ⟨b, nil⟩, by simp⟩

/-- C122, the code violates the expectation: the text says "always stable" of a filter whose response to a
single pulse grows without bound (and gives 7 as its pole, which is 2). -/
theorem C122_onepole_wrong (elem : ℝ → Text) (he : ∀ v, Word (elem v)) :
    let q : OnePole ℝ := .ofBA 1 (-2)
    (∃ t, onepole elem q = .ok t ∧
      ["OnePole".toList, "is".toList, "always".toList, "stable".toList] ∈ table t) ∧
    ∃ y, Sig.Runs OnePole.step q (fun n => if n = 0 then 1 else 0) y ∧ ¬ ∃ B, ∀ n, |y n| ≤ B := by
  intro q
  refine ⟨?_, ?_⟩
  · obtain ⟨t, h1, h2⟩ := C122_onepole elem he q
    exact ⟨t, h1, by rw [h2]; simp⟩
  · obtain ⟨y, hy, -⟩ := C45_run_exists q (fun n => if n = 0 then 1 else 0)
    refine ⟨y, hy, ?_⟩
    rintro ⟨B, hB⟩
    obtain ⟨n, hn⟩ := pow_unbounded_of_one_lt B (by norm_num : (1 : ℝ) < 2)
    have := hB n
    rw [C45_impulse 1 (-2) y hy n] at this
    rw [one_mul, neg_neg, abs_of_pos (by positivity)] at this
    linarith

/-- Output of the integral part. -/
example : ∀ v : ℝ, Word (number (⌊v⌋ : ℤ)) := fun _ => C121_number_word _

end Verif
