import Verif.Lemmas.Biquad
import Verif.Spec.Cascade

/- Lemmas on cascades: refinement to lists. -/

namespace Verif
namespace Cascade
variable {T : Type} {N : Nat}

theorem length_toList {c : Cascade T N} (h : c.WF) : c.toList.length = c.next := by
  unfold toList
  unfold WF at h
  simp
  omega

theorem getElem?_toList (c : Cascade T N) (m : Nat) :
    c.toList[m]? = if m < c.next then c.biquad[m]? else none := by
  unfold toList
  rw [List.getElem?_take]
  simp

theorem get_ok {c : Cascade T N} {k : Nat} (h : k < N) : c.get k = .ok c.biquad[k] := dif_pos h

theorem set_ok {c : Cascade T N} {k : Nat} {q : Biquad T} (h : k < N) :
    c.set k q = .ok { c with biquad := c.biquad.set k q } := dif_pos h

theorem assertIndex_ok {c : Cascade T N} {i : Int} (h : 0 ≤ i ∧ i < c.next) :
    c.assertIndex i = .ok () := if_pos h

theorem assertIndex_err {c : Cascade T N} {i : Int} (h : ¬ (0 ≤ i ∧ i < c.next)) :
    c.assertIndex i = .error .assertFail := if_neg h

theorem append_spec {c : Cascade T N} (_h : c.WF) (hn : c.next < N) (bq : Biquad T) :
    ∃ c', c.append bq = .ok c' ∧ c'.WF ∧ c'.toList = c.toList ++ [bq] := by
  refine ⟨{ biquad := c.biquad.set c.next bq, next := c.next + 1 }, ?_, ?_, ?_⟩
  · unfold append reserved
    rw [if_neg (not_not.2 hn), set_ok hn]
    rfl
  · exact hn
  · apply List.ext_getElem?
    intro m
    rw [getElem?_toList]
    by_cases h1 : m < c.next
    · rw [if_pos (by simp; omega), List.getElem?_append_left (by rw [length_toList _h]; exact h1),
        getElem?_toList, if_pos h1]
      simp [Nat.ne_of_gt h1]
    · by_cases h2 : m = c.next
      · subst h2
        rw [if_pos (by simp), List.getElem?_append_right (by rw [length_toList _h])]
        simp [length_toList _h, hn]
      · rw [if_neg (by simp; omega), List.getElem?_append_right (by rw [length_toList _h]; omega)]
        simp [length_toList _h]
        omega

theorem remove_spec {c : Cascade T N} (h : c.WF) {i : Int} (hi : 0 ≤ i ∧ i < c.next) :
    ∃ c', c.remove i = .ok c' ∧ c'.WF ∧ c'.toList = c.toList.eraseIdx i.toNat := by
  unfold WF at h
  obtain ⟨i, rfl⟩ := Int.eq_ofNat_of_zero_le hi.1
  have hi' : i < c.next := by omega
  simp only [Int.toNat_natCast]
  obtain ⟨c', h1, h2, h3⟩ := forRange_inv
    (P := fun j (c' : Cascade T N) => c'.next = c.next - 1 ∧
      ∀ m, c'.biquad[m]? = if i ≤ m ∧ m < i + j then c.biquad[m + 1]? else c.biquad[m]?)
    (n := c.next - 1 - i)
    (body := fun j c => do
      let k := i + j
      c.set k (← c.get (k + 1)))
    (s := { c with next := c.next - 1 })
    ⟨rfl, fun m => by rw [if_neg (by omega)]⟩
    (by
      rintro j hj c' ⟨hn, hc⟩
      have e1 : i + j + 1 < N := by omega
      have e2 : i + j < N := by omega
      refine ⟨{ c' with biquad := c'.biquad.set (i + j) c'.biquad[i + j + 1] }, ?_, hn, ?_⟩
      · simp only [get_ok e1, bind_ok, set_ok e2]
      · intro m
        have hget : some c'.biquad[i + j + 1] = c.biquad[i + j + 1]? := by
          rw [← Vector.getElem?_eq_getElem e1, hc, if_neg (by omega)]
        show (c'.biquad.set (i + j) c'.biquad[i + j + 1])[m]? = _
        rw [Vector.getElem?_set]
        by_cases hm : i + j = m
        · subst hm
          rw [if_pos rfl, hget, if_pos (by omega)]
        · rw [if_neg hm, hc]
          by_cases h1 : i ≤ m ∧ m < i + j
          · rw [if_pos h1, if_pos (by omega)]
          · rw [if_neg h1, if_neg (by omega)])
  refine ⟨c', ?_, ?_, ?_⟩
  · unfold remove
    rw [assertIndex_ok hi]
    exact h1
  · show c'.next ≤ N
    omega
  · apply List.ext_getElem?
    intro m
    rw [getElem?_toList, List.getElem?_eraseIdx, getElem?_toList, getElem?_toList, h2, h3]
    by_cases h1 : m < c.next - 1
    · rw [if_pos h1]
      by_cases h4 : m < i
      · rw [if_pos h4, if_neg (by omega), if_pos (by omega)]
      · rw [if_neg h4, if_pos (by omega), if_pos (by omega)]
    · rw [if_neg h1]
      by_cases h4 : m < i
      · omega
      · rw [if_neg h4, if_neg (by omega)]

theorem insert_spec {c : Cascade T N} (h : c.WF) {i : Int} (bq : Biquad T)
    (hi : 0 ≤ i ∧ i < c.next ∧ c.next < N) :
    ∃ c', c.insert i bq = .ok c' ∧ c'.WF ∧ c'.toList = c.toList.insertIdx i.toNat bq := by
  obtain ⟨i, rfl⟩ := Int.eq_ofNat_of_zero_le hi.1
  have hi' : i < c.next := by omega
  have hn := hi.2.2
  simp only [Int.toNat_natCast]
  obtain ⟨c', h1, h2, h3⟩ := forRange_inv
    (P := fun j (c' : Cascade T N) => c'.next = c.next ∧
      ∀ m, c'.biquad[m]? = if c.next - j < m ∧ m ≤ c.next then c.biquad[m - 1]? else c.biquad[m]?)
    (n := c.next - i)
    (body := fun j c' => do
      let k := c.next - j
      c'.set k (← c'.get (k - 1)))
    (s := c)
    ⟨rfl, fun m => by rw [if_neg (by omega)]⟩
    (by
      rintro j hj c' ⟨hn', hc⟩
      have e1 : c.next - j - 1 < N := by omega
      have e2 : c.next - j < N := by omega
      refine ⟨{ c' with biquad := c'.biquad.set (c.next - j) c'.biquad[c.next - j - 1] }, ?_, hn', ?_⟩
      · simp only [get_ok e1, bind_ok, set_ok e2]
      · intro m
        have hget : some c'.biquad[c.next - j - 1] = c.biquad[c.next - j - 1]? := by
          rw [← Vector.getElem?_eq_getElem e1, hc, if_neg (by omega)]
        show (c'.biquad.set (c.next - j) c'.biquad[c.next - j - 1])[m]? = _
        rw [Vector.getElem?_set]
        by_cases hm : c.next - j = m
        · subst hm
          rw [if_pos rfl, hget, if_pos (by omega)]
        · rw [if_neg hm, hc]
          by_cases h1 : c.next - j < m ∧ m ≤ c.next
          · rw [if_pos h1, if_pos (by omega)]
          · rw [if_neg h1, if_neg (by omega)])
  have hiN : i < N := by omega
  refine ⟨{ biquad := c'.biquad.set i bq, next := c.next + 1 }, ?_, ?_, ?_⟩
  · unfold insert reserved
    rw [if_neg (not_not.2 hi)]
    simp only [Int.toNat_natCast]
    rw [h1, bind_ok, set_ok hiN]
  · exact hn
  · apply List.ext_getElem?
    intro m
    rw [getElem?_toList, List.getElem?_insertIdx, getElem?_toList, getElem?_toList,
      length_toList h]
    show (if m < c.next + 1 then (c'.biquad.set i bq)[m]? else none) = _
    rw [Vector.getElem?_set, h3]
    by_cases h4 : m < i
    · rw [if_pos (by omega), if_neg (by omega), if_neg (by omega), if_pos h4, if_pos (by omega)]
    · by_cases h5 : m = i
      · subst h5
        rw [if_pos (by omega), if_pos rfl, if_neg (by omega), if_pos rfl, if_pos hi'.le]
      · by_cases h6 : m < c.next + 1
        · rw [if_pos h6, if_neg (by omega), if_pos (by omega), if_neg h4, if_neg (by omega),
            if_pos (by omega)]
        · rw [if_neg h6, if_neg h4, if_neg h5, if_neg (by omega)]

theorem replace_spec {c : Cascade T N} (h : c.WF) {i : Int} (bq : Biquad T)
    (hi : 0 ≤ i ∧ i < c.next) :
    ∃ old c', c.replace i bq = .ok (old, c') ∧ c'.WF ∧ c'.toList = c.toList.set i.toNat bq ∧
      c.toList[i.toNat]? = some old := by
  obtain ⟨i, rfl⟩ := Int.eq_ofNat_of_zero_le hi.1
  unfold WF at h
  have hi' : i < c.next := by omega
  have hiN : i < N := by omega
  simp only [Int.toNat_natCast]
  refine ⟨c.biquad[i], { c with biquad := c.biquad.set i bq }, ?_, h, ?_, ?_⟩
  · unfold replace
    rw [assertIndex_ok hi]
    simp only [Int.toNat_natCast, get_ok hiN, bind_ok, Biquad.swap, set_ok hiN]
  · apply List.ext_getElem?
    intro m
    rw [getElem?_toList, List.getElem?_set, getElem?_toList, length_toList h]
    show (if m < c.next then (c.biquad.set i bq)[m]? else none) = _
    rw [Vector.getElem?_set]
    by_cases hm : i = m
    · subst hm
      simp [hi']
    · simp [hm]
  · rw [getElem?_toList, if_pos hi', Vector.getElem?_eq_getElem hiN]

theorem clear_spec (c : Cascade T N) : c.clear.WF ∧ c.clear.toList = [] :=
  ⟨Nat.zero_le _, by simp [clear, toList]⟩

/-- One operation refines the operation on lists. -/
theorem Op.run_spec {c : Cascade T N} (h : c.WF) (op : Op T) :
    (∃ c', op.run c = .ok c' ∧ c'.WF ∧ op.spec N c.toList = some c'.toList) ∨
      (op.run c = .error .assertFail ∧ op.spec N c.toList = none) := by
  have hl := length_toList h
  cases op with
  | append bq =>
    by_cases hn : c.next < N
    · obtain ⟨c', h1, h2, h3⟩ := append_spec h hn bq
      exact .inl ⟨c', h1, h2, by simp only [Op.spec]; rw [hl, if_pos hn, h3]⟩
    · refine .inr ⟨?_, by simp only [Op.spec]; rw [hl, if_neg hn]⟩
      exact if_pos hn
  | insert i bq =>
    by_cases hi : 0 ≤ i ∧ i < c.next ∧ c.next < N
    · obtain ⟨c', h1, h2, h3⟩ := insert_spec h bq hi
      exact .inl ⟨c', h1, h2, by simp only [Op.spec]; rw [hl, if_pos hi, h3]⟩
    · refine .inr ⟨?_, by simp only [Op.spec]; rw [hl, if_neg hi]⟩
      exact if_pos hi
  | remove i =>
    by_cases hi : 0 ≤ i ∧ i < c.next
    · obtain ⟨c', h1, h2, h3⟩ := remove_spec h hi
      exact .inl ⟨c', h1, h2, by simp only [Op.spec]; rw [hl, if_pos hi, h3]⟩
    · refine .inr ⟨?_, by simp only [Op.spec]; rw [hl, if_neg hi]⟩
      simp only [Op.run, Cascade.remove]
      rw [assertIndex_err hi]
      rfl
  | replace i bq =>
    by_cases hi : 0 ≤ i ∧ i < c.next
    · obtain ⟨old, c', h1, h2, h3, -⟩ := replace_spec h bq hi
      refine .inl ⟨c', ?_, h2, by simp only [Op.spec]; rw [hl, if_pos hi, h3]⟩
      simp only [Op.run]
      rw [h1]
      rfl
    · refine .inr ⟨?_, by simp only [Op.spec]; rw [hl, if_neg hi]⟩
      simp only [Op.run, Cascade.replace]
      rw [assertIndex_err hi]
      rfl
  | clear => exact .inl ⟨c.clear, rfl, (clear_spec c).1, by rw [(clear_spec c).2]; rfl⟩

/-! ### Stepping -/

/-- The samples passed through a list of filters front to back. -/
def stepList {σ : Type} (f : σ → T → Res (T × σ)) : List σ → T → Res (T × List σ)
  | [], v => .ok (v, [])
  | q :: qs, v => do
    let (v, q) ← f q v
    let (v, qs) ← stepList f qs v
    .ok (v, q :: qs)

theorem stepList_append {σ : Type} (f : σ → T → Res (T × σ)) (l : List σ) (q : σ) (v : T) :
    stepList f (l ++ [q]) v = (stepList f l v >>= fun r => f q r.1 >>= fun r' =>
      .ok (r'.1, r.2 ++ [r'.2])) := by
  induction l generalizing v with
  | nil =>
    show (f q v >>= fun r => stepList f [] r.1 >>= fun r' => .ok (r'.1, r.2 :: r'.2)) = _
    simp [stepList]
  | cons p l ih =>
    show (f p v >>= fun r => stepList f (l ++ [q]) r.1 >>= fun r' => .ok (r'.1, r.2 :: r'.2)) =
      ((f p v >>= fun r => stepList f l r.1 >>= fun r' => .ok (r'.1, r.2 :: r'.2)) >>= _)
    cases f p v with
    | error e => rfl
    | ok r =>
      simp only [bind_ok, ih]
      cases stepList f l r.1 with
      | error e => rfl
      | ok r' =>
        simp only [bind_ok]
        cases f q r'.1 with
        | error e => rfl
        | ok r'' => rfl

theorem stepWith_spec (f : Biquad T → T → Res (T × Biquad T)) {c : Cascade T N} (h : c.WF) (v : T) :
    (∃ e, stepList f c.toList v = .error e ∧ stepWith f c v = .error e) ∨
      ∃ y c', stepWith f c v = .ok (y, c') ∧ c'.next = c.next ∧
        stepList f c.toList v = .ok (y, c'.toList) := by
  have hl := length_toList h
  unfold WF at h
  have key : ∀ k ≤ c.next,
      (∃ e, stepList f (c.toList.take k) v = .error e ∧
        forRange k (fun k (r : T × Cascade T N) => (do
          let (v, bq) ← f (← r.2.get k) r.1
          .ok (v, ← r.2.set k bq) : Res (T × Cascade T N))) (v, c) = .error e) ∨
      ∃ y c' l', forRange k (fun k (r : T × Cascade T N) => (do
          let (v, bq) ← f (← r.2.get k) r.1
          .ok (v, ← r.2.set k bq) : Res (T × Cascade T N))) (v, c) = .ok (y, c') ∧ c'.next = c.next ∧
        stepList f (c.toList.take k) v = .ok (y, l') ∧ c'.toList = l' ++ c.toList.drop k ∧
        l'.length = k := by
    intro k
    induction k with
    | zero =>
      intro _
      exact .inr ⟨v, c, [], rfl, rfl, rfl, by simp, rfl⟩
    | succ k ih =>
      intro hk
      have hkN : k < N := by omega
      have hkl : k < c.toList.length := by omega
      rw [List.take_succ_eq_append_getElem hkl, stepList_append, forRange_succ]
      rcases ih (by omega) with ⟨e, h1, h2⟩ | ⟨y, c', l', h1, h2, h3, h4, h5⟩
      · exact .inl ⟨e, by rw [h1]; rfl, by rw [h2]; rfl⟩
      · rw [h1, h3, bind_ok, bind_ok, get_ok hkN, bind_ok]
        have hq : c'.biquad[k] = c.toList[k] := by
          have e1 := getElem?_toList c' k
          rw [h4, h2, if_pos (by omega), Vector.getElem?_eq_getElem hkN,
            List.getElem?_append_right (by omega), h5, Nat.sub_self, List.getElem?_drop, Nat.add_zero,
            List.getElem?_eq_getElem hkl] at e1
          exact (Option.some.inj e1).symm
        simp only [hq]
        cases hf : f c.toList[k] y with
        | error e => exact .inl ⟨e, rfl, rfl⟩
        | ok r =>
          refine .inr ⟨r.1, { c' with biquad := c'.biquad.set k r.2 }, l' ++ [r.2], ?_, h2, rfl, ?_,
            by simp [h5]⟩
          · rw [bind_ok]
            show ((c'.set k r.2) >>= _) = _
            rw [set_ok hkN]
            rfl
          · apply List.ext_getElem?
            intro m
            rw [getElem?_toList]
            show (if m < c'.next then (c'.biquad.set k r.2)[m]? else none) = _
            rw [Vector.getElem?_set]
            have e1 := getElem?_toList c' m
            rw [h4] at e1
            by_cases hm : k = m
            · subst hm
              rw [if_pos rfl, if_pos (by omega), List.append_assoc,
                List.getElem?_append_right (by omega), h5]
              simp
            · rw [if_neg hm, ← e1]
              by_cases hm' : m < k
              · rw [List.append_assoc, List.getElem?_append_left (by omega),
                  List.getElem?_append_left (by omega)]
              · rw [List.getElem?_append_right (by omega), List.getElem?_append_right
                  (by simp; omega), List.getElem?_drop, List.getElem?_drop, h5]
                simp only [List.length_append, List.length_singleton, h5]
                congr 1
                omega
  rcases key c.next le_rfl with ⟨e, h1, h2⟩ | ⟨y, c', l', h1, h2, h3, h4, h5⟩
  · rw [← hl, List.take_length] at h1
    exact .inl ⟨e, h1, h2⟩
  · have e1 : c.toList.take c.next = c.toList := by rw [← hl, List.take_length]
    have e2 : c.toList.drop c.next = [] := by rw [← hl, List.drop_length]
    rw [e1] at h3
    rw [e2, List.append_nil] at h4
    exact .inr ⟨y, c', h1, h2, h4 ▸ h3⟩

end Cascade

namespace Sig
open Cascade
variable {σ τ T : Type}

/-- Simulation: an object and its abstraction deliver the same outputs. -/
theorem out_sim {step : σ → T → Res (T × σ)} {step' : τ → T → Res (T × τ)} (P : σ → Prop)
    (abs : σ → τ)
    (h : ∀ s v, P s → (∃ e, step s v = .error e ∧ step' (abs s) v = .error e) ∨
      ∃ y s', step s v = .ok (y, s') ∧ P s' ∧ step' (abs s) v = .ok (y, abs s'))
    {s : σ} (hs : P s) (x : ℕ → T) (n : ℕ) : out step s x n = out step' (abs s) x n := by
  have ha : ∀ n, (∃ e, after step s x n = .error e ∧ after step' (abs s) x n = .error e) ∨
      ∃ s', after step s x n = .ok s' ∧ P s' ∧ after step' (abs s) x n = .ok (abs s') := by
    intro n
    induction n with
    | zero => exact .inr ⟨s, rfl, hs, rfl⟩
    | succ n ih =>
      rw [after_succ, after_succ]
      rcases ih with ⟨e, h1, h2⟩ | ⟨s', h1, h2, h3⟩
      · exact .inl ⟨e, by rw [h1]; rfl, by rw [h2]; rfl⟩
      · rw [h1, h3, bind_ok, bind_ok]
        rcases h s' (x n) h2 with ⟨e, h4, h5⟩ | ⟨y, s'', h4, h5, h6⟩
        · exact .inl ⟨e, by rw [h4]; rfl, by rw [h5]; rfl⟩
        · exact .inr ⟨s'', by rw [h4]; rfl, h5, by rw [h6]; rfl⟩
  rw [out_def, out_def]
  rcases ha n with ⟨e, h1, h2⟩ | ⟨s', h1, h2, h3⟩
  · rw [h1, h2]; rfl
  · rw [h1, h3, bind_ok, bind_ok]
    rcases h s' (x n) h2 with ⟨e, h4, h5⟩ | ⟨y, s'', h4, h5, h6⟩
    · rw [h4, h5]; rfl
    · rw [h4, h6]; rfl

theorem runs_stepList_nil (f : σ → T → Res (T × σ)) (x z : ℕ → T) :
    Runs (stepList f) [] x z ↔ z = x := by
  have : Runs (stepList f) [] x x := (runs_of_states (fun _ => []) rfl fun _ => rfl).1
  exact ⟨fun h => h.unique this, fun h => h ▸ this⟩

theorem runs_stepList_cons (f : σ → T → Res (T × σ)) (q : σ) (qs : List σ) (x z : ℕ → T) :
    Runs (stepList f) (q :: qs) x z ↔ ∃ y, Runs f q x y ∧ Runs (stepList f) qs y z := by
  constructor
  · intro h
    obtain ⟨st, h0, hst⟩ := h.states
    have hcons : ∀ n, ∃ p l, st n = p :: l := by
      intro n
      induction n with
      | zero => exact ⟨q, qs, h0⟩
      | succ n ih =>
        obtain ⟨p, l, e⟩ := ih
        have := hst n
        rw [e] at this
        simp only [stepList, bind_eq_ok, Except.ok.injEq, Prod.mk.injEq] at this
        obtain ⟨r, -, r', -, -, e'⟩ := this
        exact ⟨_, _, e'.symm⟩
    choose p l e using hcons
    have hstep : ∀ n, ∃ y, f (p n) (x n) = .ok (y, p (n + 1)) ∧
        stepList f (l n) y = .ok (z n, l (n + 1)) := by
      intro n
      have := hst n
      rw [e n, e (n + 1)] at this
      simp only [stepList, bind_eq_ok, Except.ok.injEq, Prod.mk.injEq, List.cons.injEq] at this
      obtain ⟨⟨y, p'⟩, h1, ⟨z', l'⟩, h2, h3, h4, h5⟩ := this
      simp only at h2 h3 h4 h5
      subst h3 h4 h5
      exact ⟨y, h1, h2⟩
    choose y hy1 hy2 using hstep
    have e0 := (e 0).symm.trans h0
    rw [List.cons.injEq] at e0
    exact ⟨y, (runs_of_states p e0.1 hy1).1, (runs_of_states l e0.2 hy2).1⟩
  · rintro ⟨y, h1, h2⟩
    obtain ⟨p, p0, hp⟩ := h1.states
    obtain ⟨l, l0, hl⟩ := h2.states
    refine (runs_of_states (fun n => p n :: l n) (by rw [p0, l0]) fun n => ?_).1
    simp only [stepList]
    rw [hp n, bind_ok]
    show (stepList f (l n) (y n) >>= _) = _
    rw [hl n]
    rfl

theorem runs_stepList (f : σ → T → Res (T × σ)) (l : List σ) (x z : ℕ → T) :
    Runs (stepList f) l x z ↔ Series f l x z := by
  induction l generalizing x with
  | nil => exact runs_stepList_nil f x z
  | cons q qs ih =>
    rw [runs_stepList_cons]
    simp only [Series, ih]

end Sig
end Verif
