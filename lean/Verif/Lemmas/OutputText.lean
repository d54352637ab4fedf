import Mathlib.Data.List.OfFn
import Verif.Lemmas.Loop
import Verif.Lemmas.Matrix
import Verif.Lemmas.Output

/- Texts taken apart at separators. -/

namespace Verif
open Output

theorem pieces_none {c : Char} {t : Text} (h : c ∉ t) : pieces c t = [t] := by
  induction t with
  | nil => rfl
  | cons x t ih =>
    rw [List.mem_cons, not_or] at h
    unfold pieces
    rw [if_neg (Ne.symm h.1), ih h.2]

theorem pieces_cut {c : Char} {t r : Text} (h : c ∉ t) : pieces c (t ++ c :: r) = t :: pieces c r := by
  induction t with
  | nil => simp [pieces]
  | cons x t ih =>
    rw [List.mem_cons, not_or] at h
    rw [List.cons_append, pieces, if_neg (Ne.symm h.1), ih h.2]

/-- Words joined by a separator that is not in them. -/
theorem pieces_join {c : Char} {ws : List Text} (h0 : ws ≠ []) (h : ∀ w ∈ ws, c ∉ w) :
    pieces c (List.intercalate [c] ws) = ws := by
  induction ws with
  | nil => exact absurd rfl h0
  | cons w ws ih =>
    cases ws with
    | nil => simpa [List.intercalate] using pieces_none (h w (by simp))
    | cons v ws =>
      have e : List.intercalate [c] (w :: v :: ws) = w ++ c :: List.intercalate [c] (v :: ws) := by
        simp [List.intercalate]
      rw [e, pieces_cut (h w (by simp)), ih (by simp) (fun w hw => h w (by simp [hw]))]

theorem mem_join {c x : Char} {ws : List Text} (h : x ∈ List.intercalate [c] ws) : x = c ∨ ∃ w ∈ ws, x ∈ w := by
  induction ws with
  | nil => simp [List.intercalate] at h
  | cons w ws ih =>
    cases ws with
    | nil => exact .inr ⟨w, by simp, by simpa [List.intercalate] using h⟩
    | cons v ws =>
      have e : List.intercalate [c] (w :: v :: ws) = w ++ c :: List.intercalate [c] (v :: ws) := by
        simp [List.intercalate]
      rw [e, List.mem_append, List.mem_cons] at h
      rcases h with h | h | h
      · exact .inr ⟨w, by simp, h⟩
      · exact .inl h
      · rcases ih h with h | ⟨u, hu, h⟩
        · exact .inl h
        · exact .inr ⟨u, by simp [hu], h⟩

instance (t : Text) : Decidable (Word t) := by unfold Word; infer_instance

theorem Word.append {s t : Text} (hs : Word s) (ht : Word t) : Word (s ++ t) := by
  unfold Word at *
  simp only [List.mem_append, not_or]
  exact ⟨⟨hs.1, ht.1⟩, hs.2, ht.2⟩

/-- The text of a table. -/
def joined (ls : List (List Text)) : Text := List.intercalate ['\n'] (ls.map (List.intercalate [' ']))

theorem table_joined {ls : List (List Text)} (h0 : ls ≠ []) (h1 : ∀ l ∈ ls, l ≠ [])
    (h : ∀ l ∈ ls, ∀ w ∈ l, Word w) : table (joined ls) = ls := by
  unfold table joined
  rw [pieces_join (by simpa using h0)]
  · rw [List.map_map]
    conv_rhs => rw [← List.map_id ls]
    apply List.map_congr_left
    intro l hl
    exact pieces_join (h1 l hl) (fun w hw => (h l hl w hw).1)
  · intro t ht hmem
    obtain ⟨l, hl, rfl⟩ := List.mem_map.1 ht
    rcases mem_join hmem with h' | ⟨w, hw, h'⟩
    · exact absurd h' (by decide)
    · exact (h l hl w hw).2 h'

/-- The text of a number is a word. -/
theorem number_word (x : ℚ) (h : ∀ c ∈ number x, c ∈ "0123456789.e+-".toList) : Word (number x) :=
  ⟨fun h' => absurd (h _ h') (by decide), fun h' => absurd (h _ h') (by decide)⟩

variable {T : Type} {N M : Nat}

theorem ofFn_castLE {α : Type} {n k : Nat} (h : k + 1 ≤ n) (g : Fin n → α) :
    List.ofFn (fun j : Fin (k + 1) => g (j.castLE h)) =
      List.ofFn (fun j : Fin k => g (j.castLE (by omega))) ++ [g ⟨k, h⟩] := by
  rw [List.ofFn_succ', List.concat_eq_append]
  rfl

/-- What the inner loop writes. -/
theorem matrix_row (elem : T → Text) (A : Mat T N M) (row : Fin N) (os : Text) :
    forRange M (fun col os => do
      let v ← A.at2 (row : Nat) col
      .ok (os ++ [' '] ++ elem v)) os =
    .ok (os ++ (List.ofFn fun j => ' ' :: elem (A.get row j)).flatten) := by
  obtain ⟨s, h1, h2⟩ := forRange_inv (n := M) (fun k (s : Text) => ∃ h : k ≤ M,
      s = os ++ (List.ofFn fun j : Fin k => ' ' :: elem (A.get row (j.castLE h))).flatten)
      (body := fun col os => do
        let v ← A.at2 (row : Nat) col
        .ok (os ++ [' '] ++ elem v)) (s := os) ⟨by omega, by simp⟩ (by
    rintro k hk s ⟨hk', rfl⟩
    refine ⟨_, by rw [Mat.at2_ok A row.isLt hk]; rfl, hk, ?_⟩
    rw [ofFn_castLE hk fun j => ' ' :: elem (A.get row j)]
    simp)
  rw [h1, h2.2]
  rfl

theorem matrix_text (elem : T → Text) (A : Mat T N M) : matrix elem A =
    .ok (List.ofFn fun i => (List.ofFn fun j => ' ' :: elem (A.get i j)).flatten ++ ['\n']).flatten := by
  unfold matrix
  obtain ⟨s, h1, h2⟩ := forRange_inv (n := N) (fun k (s : Text) => ∃ h : k ≤ N,
      s = (List.ofFn fun i : Fin k => (List.ofFn fun j => ' ' :: elem (A.get (i.castLE h) j)).flatten ++ ['\n']).flatten)
      (body := fun (row : Nat) os => do
        let os ← forRange M (fun (col : Nat) os => do
          let v ← A.at2 row col
          .ok (os ++ [' '] ++ elem v)) os
        .ok (os ++ ['\n'])) (s := []) ⟨by omega, by simp⟩ (by
    rintro k hk s ⟨hk', rfl⟩
    refine ⟨_, by rw [matrix_row elem A ⟨k, hk⟩, bind_ok], hk, ?_⟩
    rw [ofFn_castLE hk fun i => (List.ofFn fun j => ' ' :: elem (A.get i j)).flatten ++ ['\n']]
    simp)
  rw [h1, h2.2]
  rfl

theorem row_join (ws : List Text) : (ws.map (' ' :: ·)).flatten = List.intercalate [' '] ([] :: ws) := by
  induction ws with
  | nil => simp [List.intercalate]
  | cons w ws ih =>
    cases ws with
    | nil => simp [List.intercalate]
    | cons v ws =>
      simp [List.intercalate] at ih ⊢
      exact ih

theorem lines_join (ls : List Text) : (ls.map (· ++ ['\n'])).flatten = List.intercalate ['\n'] (ls ++ [[]]) := by
  induction ls with
  | nil => simp [List.intercalate]
  | cons l ls ih =>
    cases ls with
    | nil => simp [List.intercalate]
    | cons k ls =>
      have e : List.intercalate ['\n'] (l :: k :: ls ++ [[]]) =
          l ++ '\n' :: List.intercalate ['\n'] (k :: ls ++ [[]]) := by simp [List.intercalate]
      rw [e, ← ih]
      simp

end Verif
