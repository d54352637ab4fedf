import Mathlib.Data.List.Infix
import Mathlib.Tactic.Linarith
import Verif.Lemmas.Loop
import Verif.Model.Algorithm

/- Properties C55 and C56: algorithms and text. -/

namespace Verif

section
open Std20
variable {α β : Type}

/-! ### C55 -/

/-- Destination not after the source. -/
theorem copy_back (n : ℕ) (m : List α) (first d : ℕ) (h1 : first + n ≤ m.length) (h2 : d ≤ first) :
    ∃ m', copy m first (first + n) d = .ok (m', d + n) ∧ m'.length = m.length ∧
      ∀ i, m'[i]? = if d ≤ i ∧ i < d + n then m[first + (i - d)]? else m[i]? := by
  induction n generalizing m first d with
  | zero =>
    refine ⟨m, ?_, rfl, fun i => ?_⟩
    · rw [copy, if_pos (by omega)]
      rfl
    · rw [if_neg (by omega)]
  | succ n ih =>
    have hf : first < m.length := by omega
    obtain ⟨m', e, hl, hv⟩ := ih (m.set d m[first]) (first + 1) (d + 1) (by simp; omega) (by omega)
    refine ⟨m', ?_, by simpa using hl, fun i => ?_⟩
    · rw [copy, if_neg (by omega), dif_pos hf, if_pos (by omega),
        show first + (n + 1) = first + 1 + n by omega, e, show d + 1 + n = d + (n + 1) by omega]
    · rw [hv, List.getElem?_set, List.getElem?_set]
      split_ifs <;> first | omega | rfl | skip
      · congr 1; omega
      · rw [show first + (i - d) = first by omega, List.getElem?_eq_getElem hf]

/-- Destination after the source. -/
theorem copy_forward (n : ℕ) (m : List α) (first d : ℕ) (h1 : d + n ≤ m.length) (h2 : first < d) :
    ∃ m', copy m first (first + n) d = .ok (m', d + n) ∧ m'.length = m.length ∧
      ∀ i, m'[i]? = if d ≤ i ∧ i < d + n then m[first + (i - d) % (d - first)]? else m[i]? := by
  induction n generalizing m first d with
  | zero =>
    refine ⟨m, ?_, rfl, fun i => ?_⟩
    · rw [copy, if_pos (by omega)]
      rfl
    · rw [if_neg (by omega)]
  | succ n ih =>
    have hf : first < m.length := by omega
    obtain ⟨m', e, hl, hv⟩ := ih (m.set d m[first]) (first + 1) (d + 1) (by simp; omega) (by omega)
    refine ⟨m', ?_, by simpa using hl, fun i => ?_⟩
    · rw [copy, if_neg (by omega), dif_pos hf, if_pos (by omega),
        show first + (n + 1) = first + 1 + n by omega, e, show d + 1 + n = d + (n + 1) by omega]
    · rw [hv, List.getElem?_set, List.getElem?_set, show d + 1 - (first + 1) = d - first by omega]
      have hmod : ∀ q, 1 ≤ q → (q - 1) % (d - first) + 1 = d - first ∧ q % (d - first) = 0 ∨
          (q - 1) % (d - first) + 1 < d - first ∧ q % (d - first) = (q - 1) % (d - first) + 1 := by
        intro q hq
        have hpos : 0 < d - first := by omega
        have hlt := Nat.mod_lt (q - 1) hpos
        have hq' : q % (d - first) = ((q - 1) % (d - first) + 1) % (d - first) := by
          conv_lhs => rw [show q = q - 1 + 1 by omega]
          rw [Nat.mod_add_mod]
        rcases Nat.lt_or_ge ((q - 1) % (d - first) + 1) (d - first) with h | h
        · right
          exact ⟨h, by rw [hq', Nat.mod_eq_of_lt h]⟩
        · left
          have : (q - 1) % (d - first) + 1 = d - first := by omega
          exact ⟨this, by rw [hq', this, Nat.mod_self]⟩
      by_cases hid : d + 1 ≤ i ∧ i < d + 1 + n
      · rw [if_pos hid, if_pos (show d ≤ i ∧ i < d + (n + 1) by omega)]
        have := hmod (i - d) (by omega)
        rw [show i - (d + 1) = i - d - 1 by omega]
        rcases this with ⟨k1, k2⟩ | ⟨k1, k2⟩
        · rw [if_pos (by omega), if_pos (by omega), k2, Nat.add_zero, List.getElem?_eq_getElem hf]
        · rw [if_neg (by omega), k2]
          congr 1
          omega
      · rw [if_neg hid]
        by_cases hd : d = i
        · rw [if_pos hd, if_pos (by omega), if_pos (by omega), show i - d = 0 by omega, Nat.zero_mod,
            Nat.add_zero, List.getElem?_eq_getElem hf]
        · rw [if_neg hd, if_neg (by omega)]

/-- **C55** `copy` makes the destination equal to what the source was and leaves the rest, provided the destination does
not begin inside the source (except at its start); it returns the end of the destination. -/
theorem C55_copy (m : List α) (first last d : ℕ) (h0 : first ≤ last) (h1 : last ≤ m.length)
    (h2 : d + (last - first) ≤ m.length) (h3 : d ≤ first ∨ last ≤ d) :
    ∃ m', copy m first last d = .ok (m', d + (last - first)) ∧ m'.length = m.length ∧
      (∀ k, k < last - first → m'[d + k]? = m[first + k]?) ∧
      ∀ i, i < d ∨ d + (last - first) ≤ i → m'[i]? = m[i]? := by
  obtain ⟨n, rfl⟩ := Nat.exists_eq_add_of_le h0
  rw [Nat.add_sub_cancel_left] at *
  by_cases hd : d ≤ first
  · obtain ⟨m', e, hl, hv⟩ := copy_back n m first d h1 hd
    refine ⟨m', e, hl, fun k hk => ?_, fun i hi => ?_⟩
    · rw [hv, if_pos (by omega), Nat.add_sub_cancel_left]
    · rw [hv, if_neg (by omega)]
  · obtain ⟨m', e, hl, hv⟩ := copy_forward n m first d h2 (by omega)
    refine ⟨m', e, hl, fun k hk => ?_, fun i hi => ?_⟩
    · rw [hv, if_pos (by omega), Nat.add_sub_cancel_left, Nat.mod_eq_of_lt (by omega)]
    · rw [hv, if_neg (by omega)]

/-- **C55** If the destination begins inside the source, its part before the destination is repeated. -/
theorem C55_copy_overlap (m : List α) (first last d : ℕ) (h0 : first < d) (h1 : d < last)
    (h2 : d + (last - first) ≤ m.length) :
    ∃ m', copy m first last d = .ok (m', d + (last - first)) ∧
      (∀ k, k < last - first → m'[d + k]? = m[first + k % (d - first)]?) ∧
      ∀ i, i < d ∨ d + (last - first) ≤ i → m'[i]? = m[i]? := by
  obtain ⟨n, rfl⟩ := Nat.exists_eq_add_of_le (show first ≤ last by omega)
  rw [Nat.add_sub_cancel_left] at *
  obtain ⟨m', e, hl, hv⟩ := copy_forward n m first d h2 h0
  refine ⟨m', e, fun k hk => ?_, fun i hi => ?_⟩
  · rw [hv, if_pos (by omega), Nat.add_sub_cancel_left]
  · rw [hv, if_neg (by omega)]

/-- **C55** `copy` is defined exactly for a valid source and sufficient room at the destination. -/
theorem C55_copy_defined (m : List α) (first last d : ℕ) :
    (∃ r, copy m first last d = .ok r) ↔
      first = last ∨ first < last ∧ last ≤ m.length ∧ d + (last - first) ≤ m.length := by
  constructor
  · rintro ⟨r, hr⟩
    by_cases hfl : first = last
    · exact .inl hfl
    right
    induction hn : m.length - first generalizing m first d with
    | zero =>
      rw [copy, if_neg hfl, dif_neg (by omega)] at hr
      cases hr
    | succ n ih =>
      rw [copy, if_neg hfl, dif_pos (by omega)] at hr
      split at hr
      · by_cases h1 : first + 1 = last
        · omega
        · have := ih (m.set d m[first]) (first + 1) (d + 1) hr h1 (by simp; omega)
          simp only [List.length_set] at this
          omega
      · cases hr
  · rintro (h | ⟨h0, h1, h2⟩)
    · rw [copy, if_pos h]
      exact ⟨_, rfl⟩
    · by_cases hd : d ≤ first ∨ last ≤ d
      · obtain ⟨m', e, -⟩ := C55_copy m first last d h0.le h1 h2 hd
        exact ⟨_, e⟩
      · obtain ⟨m', e, -⟩ := C55_copy_overlap m first last d (by omega) (by omega) h2
        exact ⟨_, e⟩

/-- **C55** `fill` sets exactly the range. -/
theorem C55_fill (m : List α) (first last : ℕ) (v : α) (h0 : first ≤ last) (h1 : last ≤ m.length) :
    ∃ m', fill m first last v = .ok m' ∧ m'.length = m.length ∧
      ∀ i, m'[i]? = if first ≤ i ∧ i < last then some v else m[i]? := by
  obtain ⟨n, rfl⟩ := Nat.exists_eq_add_of_le h0
  clear h0
  induction n generalizing m first with
  | zero =>
    refine ⟨m, ?_, rfl, fun i => ?_⟩
    · rw [fill, if_pos (by omega)]
    · rw [if_neg (by omega)]
  | succ n ih =>
    obtain ⟨m', e, hl, hv⟩ := ih (m.set first v) (first + 1) (by simp; omega)
    refine ⟨m', ?_, by simpa using hl, fun i => ?_⟩
    · rw [fill, if_neg (by omega), if_pos (by omega), show first + (n + 1) = first + 1 + n by omega, e]
    · rw [hv, List.getElem?_set]
      split_ifs <;> first | omega | rfl

/-- **C55** `fill` is defined exactly for a valid range. -/
theorem C55_fill_defined (m : List α) (first last : ℕ) (v : α) :
    (∃ r, fill m first last v = .ok r) ↔ first = last ∨ first < last ∧ last ≤ m.length := by
  constructor
  · rintro ⟨r, hr⟩
    by_cases hfl : first = last
    · exact .inl hfl
    right
    induction hn : m.length - first generalizing m first with
    | zero =>
      rw [fill, if_neg hfl, if_neg (by omega)] at hr
      cases hr
    | succ n ih =>
      rw [fill, if_neg hfl, if_pos (by omega)] at hr
      by_cases h1 : first + 1 = last
      · omega
      · have := ih (m.set first v) (first + 1) hr h1 (by simp; omega)
        simp only [List.length_set] at this
        omega
  · rintro (h | ⟨h0, h1⟩)
    · rw [fill, if_pos h]
      exact ⟨_, rfl⟩
    · obtain ⟨m', e, -⟩ := C55_fill m first last v h0.le h1
      exact ⟨_, e⟩

/-- The predicate holds (resp. fails) for the elements at the given places. -/
def PredAt (p : α → β → Res Bool) (m1 : List α) (m2 : List β) (i j : ℕ) (b : Bool) : Prop :=
  ∃ x y, m1[i]? = some x ∧ m2[j]? = some y ∧ p x y = .ok b

/-- **C55** `equal` with a predicate is true iff the predicate holds for all pairs; it is false iff it fails for some
pair and holds for all before: the rest is not looked at. -/
theorem C55_equal_predicate (p : α → β → Res Bool) (m1 : List α) (m2 : List β) (first1 n first2 : ℕ) :
    (equalBy p m1 m2 first1 (first1 + n) first2 = .ok true ↔
      ∀ k < n, PredAt p m1 m2 (first1 + k) (first2 + k) true) ∧
    (equalBy p m1 m2 first1 (first1 + n) first2 = .ok false ↔
      ∃ k < n, PredAt p m1 m2 (first1 + k) (first2 + k) false ∧
        ∀ j < k, PredAt p m1 m2 (first1 + j) (first2 + j) true) := by
  induction n generalizing first1 first2 with
  | zero =>
    rw [equalBy, if_pos (by omega)]
    simp
  | succ n ih =>
    have ih := ih (first1 + 1) (first2 + 1)
    rw [show first1 + 1 + n = first1 + (n + 1) by omega] at ih
    rw [equalBy, if_neg (by omega)]
    have shift : ∀ k, PredAt p m1 m2 (first1 + 1 + k) (first2 + 1 + k) =
        PredAt p m1 m2 (first1 + (k + 1)) (first2 + (k + 1)) := by
      intro k
      rw [show first1 + 1 + k = first1 + (k + 1) by omega, show first2 + 1 + k = first2 + (k + 1) by omega]
    have all0 : ∀ P : ℕ → Prop, (∀ k < n + 1, P k) ↔ P 0 ∧ ∀ k < n, P (k + 1) := by
      intro P
      constructor
      · intro h
        exact ⟨h 0 (by omega), fun k hk => h (k + 1) (by omega)⟩
      · rintro ⟨h0, h⟩ k hk
        cases k with
        | zero => exact h0
        | succ k => exact h k (by omega)
    -- outcome of the first comparison
    have none_case : (∀ b, ¬ PredAt p m1 m2 first1 first2 b) →
        (∀ k < n + 1, PredAt p m1 m2 (first1 + k) (first2 + k) true) = False ∧
        (∃ k < n + 1, PredAt p m1 m2 (first1 + k) (first2 + k) false ∧
          ∀ j < k, PredAt p m1 m2 (first1 + j) (first2 + j) true) = False := by
      intro h
      constructor
      · rw [eq_iff_iff, iff_false]
        intro h'
        exact h true (h' 0 (by omega))
      · rw [eq_iff_iff, iff_false]
        rintro ⟨k, -, hk, hj⟩
        cases k with
        | zero => exact h false hk
        | succ k => exact h true (hj 0 (by omega))
    by_cases h1 : first1 < m1.length
    · rw [dif_pos h1]
      by_cases h2 : first2 < m2.length
      · rw [dif_pos h2]
        have hget : ∀ b, PredAt p m1 m2 first1 first2 b ↔ p m1[first1] m2[first2] = .ok b := by
          intro b
          unfold PredAt
          rw [List.getElem?_eq_getElem h1, List.getElem?_eq_getElem h2]
          constructor
          · rintro ⟨x, y, hx, hy, h⟩
            cases hx
            cases hy
            exact h
          · intro h
            exact ⟨_, _, rfl, rfl, h⟩
        cases hp : p m1[first1] m2[first2] with
        | error e =>
          obtain ⟨n1, n2⟩ := none_case (fun b hb => by rw [hget, hp] at hb; cases hb)
          rw [n1, n2]
          simp [Except.bind]
        | ok b =>
          cases b with
          | false =>
            have hf : PredAt p m1 m2 first1 first2 false := (hget false).2 hp
            have hnt : ¬ PredAt p m1 m2 first1 first2 true := by
              rw [hget, hp]
              intro h
              cases h
            simp only [Except.bind, Bool.not_false, if_true]
            constructor
            · constructor
              · intro h
                cases h
              · intro h
                exact absurd (h 0 (by omega)) hnt
            · constructor
              · intro _
                exact ⟨0, by omega, hf, by omega⟩
              · intro _
                trivial
          | true =>
            have ht : PredAt p m1 m2 first1 first2 true := (hget true).2 hp
            have hnf : ¬ PredAt p m1 m2 first1 first2 false := by
              rw [hget, hp]
              intro h
              cases h
            simp only [Except.bind, Bool.not_true, Bool.false_eq_true, if_false]
            rw [ih.1, ih.2]
            constructor
            · rw [all0]
              simp only [shift]
              exact ⟨fun h => ⟨ht, h⟩, fun h => h.2⟩
            · simp only [shift]
              constructor
              · rintro ⟨k, hk, h, h'⟩
                refine ⟨k + 1, by omega, h, fun j hj => ?_⟩
                cases j with
                | zero => exact ht
                | succ j => exact h' j (by omega)
              · rintro ⟨k, hk, h, h'⟩
                cases k with
                | zero => exact absurd h hnf
                | succ k => exact ⟨k, by omega, h, fun j hj => h' (j + 1) (by omega)⟩
      · rw [dif_neg h2]
        obtain ⟨n1, n2⟩ := none_case (fun b hb => by
          obtain ⟨x, y, -, hy, -⟩ := hb
          rw [List.getElem?_eq_none (by omega)] at hy
          cases hy)
        rw [n1, n2]
        simp
    · rw [dif_neg h1]
      obtain ⟨n1, n2⟩ := none_case (fun b hb => by
        obtain ⟨x, y, hx, -, -⟩ := hb
        rw [List.getElem?_eq_none (by omega)] at hx
        cases hx)
      rw [n1, n2]
      simp

/-- `equal` without predicate compares with `==`. -/
theorem equal_eq_equalBy [BEq α] (m1 m2 : List α) (first1 last1 first2 : ℕ) :
    equal m1 m2 first1 last1 first2 = equalBy (fun x y => .ok (x == y)) m1 m2 first1 last1 first2 := by
  induction hn : m1.length - first1 generalizing first1 first2 with
  | zero =>
    rw [equal, equalBy]
    split
    · rfl
    · rw [dif_neg (by omega), dif_neg (by omega)]
  | succ n ih =>
    rw [equal, equalBy]
    split
    · rfl
    · have h1 : first1 < m1.length := by omega
      rw [dif_pos h1, dif_pos h1]
      by_cases h2 : first2 < m2.length
      · rw [dif_pos h2, dif_pos h2, ih (first1 + 1) (first2 + 1) (by omega)]
        rfl
      · rw [dif_neg h2, dif_neg h2]

/-- **C55** `equal` decides equality of sequences. -/
theorem C55_equal [BEq α] [LawfulBEq α] (m1 m2 : List α) (first1 n first2 : ℕ)
    (h1 : first1 + n ≤ m1.length) (h2 : first2 + n ≤ m2.length) :
    ∃ b, equal m1 m2 first1 (first1 + n) first2 = .ok b ∧
      (b = true ↔ (m1.drop first1).take n = (m2.drop first2).take n) := by
  rw [equal_eq_equalBy]
  obtain ⟨ht, hf⟩ := C55_equal_predicate (fun x y : α => .ok (x == y)) m1 m2 first1 n first2
  have heq : (m1.drop first1).take n = (m2.drop first2).take n ↔
      ∀ k < n, m1[first1 + k]? = m2[first2 + k]? := by
    rw [List.ext_getElem?_iff]
    simp only [List.getElem?_take, List.getElem?_drop]
    constructor
    · intro h k hk
      have := h k
      rwa [if_pos hk, if_pos hk] at this
    · intro h k
      split
      · exact h k ‹_›
      · rfl
  have hpred : ∀ k < n, ∀ b, PredAt (fun x y : α => .ok (x == y)) m1 m2 (first1 + k) (first2 + k) b ↔
      (b = true ↔ m1[first1 + k]? = m2[first2 + k]?) := by
    intro k hk b
    unfold PredAt
    rw [List.getElem?_eq_getElem (show first1 + k < m1.length by omega),
      List.getElem?_eq_getElem (show first2 + k < m2.length by omega)]
    constructor
    · rintro ⟨x, y, hx, hy, h⟩
      cases hx
      cases hy
      cases h
      rw [beq_iff_eq, Option.some_inj]
    · intro h
      refine ⟨_, _, rfl, rfl, ?_⟩
      rw [Option.some_inj, ← beq_iff_eq (α := α)] at h
      show Except.ok (m1[first1 + k] == m2[first2 + k]) = Except.ok b
      rw [Bool.eq_iff_iff.2 h]
  by_cases hall : ∀ k < n, m1[first1 + k]? = m2[first2 + k]?
  · refine ⟨true, ht.2 fun k hk => (hpred k hk true).2 (by simp [hall k hk]), ?_⟩
    rw [heq]
    exact ⟨fun _ => hall, fun _ => rfl⟩
  · refine ⟨false, hf.2 ?_, ?_⟩
    · push Not at hall
      classical
      have hex : ∃ k, k < n ∧ m1[first1 + k]? ≠ m2[first2 + k]? := hall
      have hspec := Nat.find_spec hex
      refine ⟨Nat.find hex, hspec.1, (hpred _ hspec.1 false).2 (by simp [hspec.2]), fun j hj => ?_⟩
      have := Nat.find_min hex hj
      have hjn : j < n := by omega
      exact (hpred j hjn true).2 (by
        have : m1[first1 + j]? = m2[first2 + j]? := by
          by_contra hne
          exact this ⟨hjn, hne⟩
        simp [this])
    · rw [heq]
      simp [hall]

/-- Moving elements towards the front, with overlap; away from it they are repeated. -/
example : copy [0, 1, 2, 3, 4] 1 5 0 = .ok ([1, 2, 3, 4, 4], 4) ∧
    copy [0, 1, 2, 3, 4] 0 4 1 = .ok ([0, 0, 0, 0, 0], 5) ∧ fill [0, 1, 2, 3, 4] 1 3 7 = .ok [0, 7, 7, 3, 4] ∧
    equal [0, 1, 2] [1, 2, 3] 1 3 0 = .ok true ∧ equal [0, 1, 2] [1, 3] 1 3 0 = .ok false := by
  refine ⟨?_, ?_, ?_, ?_, ?_⟩
  · simp [copy]
  · simp [copy]
  · simp [fill]
  · simp [equal]
  · simp [equal]

end

/-! ### C56 -/

section
open Text

/-- `from` occurs in `text` after the prefix `l`. -/
def OccursAt (from_ text l : List Char) : Prop := ∃ r, text = l ++ from_ ++ r

theorem findFrom_spec (from_ text : List Char) (pos : ℕ) :
    (∃ l r, text = l ++ from_ ++ r ∧ (∀ l', OccursAt from_ text l' → l.length ≤ l'.length) ∧
      findFrom from_ text pos = some (pos + l.length)) ∨
    (∀ l, ¬ OccursAt from_ text l) ∧ findFrom from_ text pos = none := by
  induction text generalizing pos with
  | nil =>
    by_cases h : from_ = []
    · left
      refine ⟨[], [], by simp [h], fun l' _ => by simp, ?_⟩
      simp [findFrom, h]
    · right
      constructor
      · rintro l ⟨r, hr⟩
        simp at hr
        exact h hr.2.1
      · rw [findFrom, if_neg]
        rw [List.isPrefixOf_iff_prefix, List.prefix_nil]
        exact h
  | cons c text ih =>
    by_cases h : from_ <+: c :: text
    · left
      obtain ⟨r, hr⟩ := h
      refine ⟨[], r, by simp [hr], fun l' _ => by simp, ?_⟩
      rw [findFrom, if_pos (List.isPrefixOf_iff_prefix.2 ⟨r, hr⟩)]
      rfl
    · have hne : ∀ l, OccursAt from_ (c :: text) l → ∃ l', l = c :: l' ∧ OccursAt from_ text l' := by
        rintro l ⟨r, hr⟩
        cases l with
        | nil => exact absurd ⟨r, by simpa using hr.symm⟩ h
        | cons d l =>
          simp only [List.cons_append, List.cons.injEq] at hr
          exact ⟨l, by rw [hr.1], r, by simpa using hr.2⟩
      rcases ih (pos + 1) with ⟨l, r, e, hmin, hf⟩ | ⟨hno, hf⟩
      · left
        refine ⟨c :: l, r, by simp [e], fun l' hl' => ?_, ?_⟩
        · obtain ⟨l'', rfl, h''⟩ := hne l' hl'
          have := hmin l'' h''
          simp
          omega
        · rw [findFrom, if_neg (by rw [List.isPrefixOf_iff_prefix]; exact h), hf, List.length_cons]
          congr 1
          omega
      · right
        refine ⟨fun l hl => ?_, ?_⟩
        · obtain ⟨l', -, h'⟩ := hne l hl
          exact hno l' h'
        · rw [findFrom, if_neg (by rw [List.isPrefixOf_iff_prefix]; exact h), hf]

/-- **C56** `replaced` replaces the leftmost occurrence, if there is one. -/
theorem C56_replaced (text from_ to_ l r : List Char) (h : text = l ++ from_ ++ r)
    (hmin : ∀ l', OccursAt from_ text l' → l.length ≤ l'.length) :
    replaced text from_ to_ = l ++ to_ ++ r := by
  rcases findFrom_spec from_ text 0 with ⟨l2, r2, e, hmin2, hf⟩ | ⟨hno, -⟩
  · have h1 := hmin l2 ⟨r2, e⟩
    have h2 := hmin2 l ⟨r, h⟩
    have hlen : l2.length = l.length := le_antisymm h2 h1
    unfold replaced
    rw [hf]
    unfold replace
    rw [Nat.zero_add, hlen]
    subst h
    have k1 : (l ++ from_ ++ r).take l.length = l := by
      rw [List.append_assoc, List.take_left']
      rfl
    have k2 : (l ++ from_ ++ r).drop (l.length + from_.length) = r := by
      rw [← List.length_append, List.drop_left']
      rfl
    simp only [k1, k2]
  · exact absurd ⟨r, h⟩ (hno l)

/-- **C56** ... and otherwise returns the text. -/
theorem C56_absent (text from_ to_ : List Char) (h : ¬ from_ <:+: text) : replaced text from_ to_ = text := by
  rcases findFrom_spec from_ text 0 with ⟨l, r, e, -, -⟩ | ⟨-, hf⟩
  · exact absurd ⟨l, r, e.symm⟩ h
  · unfold replaced
    rw [hf]

/-- **C56** One of the two applies. -/
theorem C56_cases (text from_ : List Char) :
    (∃ l r, text = l ++ from_ ++ r ∧ ∀ l', OccursAt from_ text l' → l.length ≤ l'.length) ∨
      ¬ from_ <:+: text := by
  rcases findFrom_spec from_ text 0 with ⟨l, r, e, h, -⟩ | ⟨hno, -⟩
  · exact .inl ⟨l, r, e, h⟩
  · right
    rintro ⟨l, r, h⟩
    exact hno l ⟨r, h.symm⟩

/-- **C56** `line` makes a text of so many equal characters; a negative number throws. -/
theorem C56_line (n : ℤ) (c : Char) :
    (0 ≤ n → ∃ t, line n c = .ok t ∧ (t.length : ℤ) = n ∧ ∀ x ∈ t, x = c) ∧
    (n < 0 → line n c = .error .exception) := by
  constructor
  · intro h
    refine ⟨List.replicate n.toNat c, ?_, by simp [h], fun x hx => List.eq_of_mem_replicate hx⟩
    unfold line
    rw [if_neg (by omega)]
  · intro h
    unfold line
    rw [if_pos h]

example : replaced "b = cheby( N, N )".toList "N".toList "4".toList = "b = cheby( 4, N )".toList ∧
    replaced "abc".toList "d".toList "x".toList = "abc".toList := by
  constructor <;> rfl

end
end Verif
