import Verif.Lemmas.KalmanFloat
import Verif.Model.DesktopExamples
import Verif.Props.Range

/- Property C138: what example/desktop/range.e.cpp writes. -/

namespace Verif
open DesktopExamples Output Range Ieee

/-- Values, each followed by a space. -/
def shown {T : Type} (show_ : T → Text) (l : List T) : Text := (l.map fun v => show_ v ++ [' ']).flatten

theorem shown_cons {T : Type} (show_ : T → Text) (v : T) (l : List T) :
    shown show_ (v :: l) = show_ v ++ " ".toList ++ shown show_ l := rfl

namespace DesktopExamples
variable {T I : Type} {deref : I → T} {next : I → Res I} {bne : I → I → Bool} {last : I} {show_ : T → Text}

theorem loop_visit {fuel : ℕ} : ∀ {i : I} {l : List T} {os : Text},
    visit deref next bne last fuel i = .ok (l, true) →
      loop deref next bne last show_ (fun _ => false) (fuel + 1) i os = .ok (os ++ shown show_ l) := by
  induction fuel with
  | zero =>
    intro i l os h
    rw [visit] at h
    obtain ⟨h1, h2⟩ := Prod.mk.inj (Except.ok.inj h)
    subst h1
    rw [Bool.not_eq_true'] at h2
    rw [loop, h2, if_neg (by simp), show shown show_ [] = [] from rfl, List.append_nil]
  | succ n ih =>
    intro i l os h
    rw [visit] at h
    rw [loop]
    split at h
    · rename_i hb
      rw [bind_eq_ok] at h
      obtain ⟨i', hi', h⟩ := h
      rw [bind_eq_ok] at h
      obtain ⟨⟨l', b'⟩, hv, h⟩ := h
      obtain ⟨h1, h2⟩ := Prod.mk.inj (Except.ok.inj h)
      subst h1 h2
      rw [if_pos hb, if_neg (by simp), hi', bind_ok, ih hv, shown_cons]
      simp only [List.append_assoc]
    · rename_i hb
      obtain ⟨h1, -⟩ := Prod.mk.inj (Except.ok.inj h)
      subst h1
      rw [if_neg hb, show shown show_ [] = [] from rfl, List.append_nil]

theorem loop_more {stop : T → Bool} {os' : Text} {fuel : ℕ} : ∀ {i : I} {os : Text} {n : ℕ},
    loop deref next bne last show_ stop fuel i os = .ok os' →
    loop deref next bne last show_ stop (fuel + n) i os = .ok os' := by
  induction fuel with
  | zero => intro i os n h; rw [loop] at h; cases h
  | succ m ih =>
    intro i os n h
    rw [loop] at h
    rw [Nat.succ_add, loop]
    split at h
    · rename_i hb
      rw [if_pos hb]
      dsimp only at h ⊢
      split at h
      · rename_i hs
        rw [if_pos hs]
        exact h
      · rename_i hs
        rw [if_neg hs]
        rw [bind_eq_ok] at h
        obtain ⟨i', hi', h⟩ := h
        rw [hi', bind_ok]
        exact ih h
    · rename_i hb
      rw [if_neg hb]
      exact h

end DesktopExamples

/-- **C138** A loop over a range without `break` writes the values of the range, each followed by a space, after what was there. -/
theorem C138_prints {T : Type} (A : RangeNum T) (show_ : T → Text) (os : Text) {l : List T} {fuel n : ℕ} (hn : fuel < n) :
    (∀ r : Proxy (Iter T), r.visit A fuel = .ok (l, true) → plain A show_ r n os = .ok (os ++ shown show_ l)) ∧
    (∀ r : Proxy (StepIter T), r.visitStep A fuel = .ok (l, true) →
      stepping A show_ (fun _ => false) r n os = .ok (os ++ shown show_ l)) := by
  obtain ⟨k, rfl⟩ := Nat.exists_eq_add_of_lt hn
  rw [Nat.add_right_comm]
  exact ⟨fun r h => loop_more (loop_visit h), fun r h => loop_more (loop_visit h)⟩

section
variable {p : Platform} {t : IntTy}

/-- **C138** `range( a, b )`: the loop writes `a`, ..., `b - 1`. -/
theorem C138_range {a b : ℤ} (ha : t.Has a) (hb : t.Has b) (hab : a ≤ b) (show_ : ℤ → Text) (os : Text) {fuel : ℕ}
    (hf : (b - a).toNat < fuel) :
    plain (t.num p) show_ (range a b) fuel os = .ok (os ++ shown show_ (progression a 1 (b - a).toNat)) := by
  refine (C138_prints _ show_ os hf).1 _ ?_
  rw [C54_range ha hb hab]
  simp

/-- **C138** `range( a, b, s )`: the loop writes `a`, `a + s`, ..., as long as they are less than `b`. -/
theorem C138_step {a b s : ℤ} (hs : 0 < s) (ha : t.Has a) (h1 : count a b s * s ≤ t.hi) (h2 : a + count a b s * s ≤ t.hi)
    (show_ : ℤ → Text) (os : Text) {fuel : ℕ} (hf : count a b s < fuel) :
    stepping (t.num p) show_ (fun _ => false) (rangeStep (t.num p) a b s) fuel os =
      .ok (os ++ shown show_ (progression a s (count a b s))) := by
  refine (C138_prints _ show_ os hf).2 _ ?_
  rw [C54_step hs ha h1 h2]
  simp

/-- **C138** `indices( c )`: the loop writes the indices of the elements. -/
theorem C138_indices (n : ℕ) (h : (n : ℤ) ≤ t.hi) (show_ : ℤ → Text) (os : Text) {fuel : ℕ} (hf : n < fuel) :
    plain (t.num p) show_ (indices n) fuel os = .ok (os ++ shown show_ ((List.range n).map fun k : ℕ => (k : ℤ))) := by
  refine (C138_prints _ show_ os hf).1 _ ?_
  rw [C54_indices n h]
  simp

namespace DesktopExamples

theorem result_ok (hs : t.signed = true) {v w : ℤ} (h : t.result v = .ok w) : t.Has v ∧ w = v := by
  unfold IntTy.result checked at h
  rw [if_pos hs] at h
  split at h
  · rename_i hv
    refine ⟨?_, (Except.ok.inj h).symm⟩
    unfold IntTy.Has IntTy.lo IntTy.hi
    rw [if_pos hs, if_pos hs]
    omega
  · cases h

theorem next_fits (hs : t.signed = true) (hw : p.intBits ≤ t.bits) {a s : ℤ} {inf : Bool} {j : ℕ} {i : StepIter ℤ}
    (h : StepIter.next (t.num p) (stepIt a s inf j) = .ok i) :
    t.Has (j + 1) ∧ t.Has ((j + 1) * s) ∧ t.Has (a + (j + 1) * s) := by
  have hp := IntTy.promote_wide hw
  unfold StepIter.next at h
  rw [bind_eq_ok] at h
  obtain ⟨x, hx, h⟩ := h
  rw [bind_eq_ok] at h
  obtain ⟨y, hy, h⟩ := h
  rw [bind_eq_ok] at h
  obtain ⟨z, hz, h⟩ := h
  replace hx : (t.promote p).result ((j : ℤ) + 1) = .ok x := hx
  rw [hp] at hx
  obtain ⟨h1, rfl⟩ := result_ok hs hx
  replace hy : (t.promote p).result (t.convert ((j : ℤ) + 1) * s) = .ok y := hy
  rw [hp, h1.convert] at hy
  obtain ⟨h2, rfl⟩ := result_ok hs hy
  replace hz : (t.promote p).result (a + ((j : ℤ) + 1) * s) = .ok z := hz
  rw [hp] at hz
  exact ⟨h1, h2, (result_ok hs hz).1⟩

theorem break_iff (hs : t.signed = true) (hw : p.intBits ≤ t.bits) {a s : ℤ} {last : StepIter ℤ} {show_ : ℤ → Text}
    {stop : ℤ → Bool} {os' : Text} {fuel : ℕ} : ∀ {k : ℕ} {os : Text},
    loop StepIter.deref (StepIter.next (t.num p)) (StepIter.bne (t.num p)) last show_ stop fuel (stepIt a s true k) os = .ok os' ↔
      ∃ n < fuel, (∀ j < n, t.Has (k + j + 1 : ℤ) ∧ t.Has ((k + j + 1 : ℤ) * s) ∧ t.Has (a + (k + j + 1 : ℤ) * s)) ∧
        (∀ j < n, stop (a + (k + j : ℤ) * s) = false) ∧ stop (a + (k + n : ℤ) * s) = true ∧
        os' = os ++ shown show_ ((List.range (n + 1)).map fun j : ℕ => a + (k + j : ℤ) * s) := by
  induction fuel with
  | zero =>
    intro k os
    rw [loop]
    constructor
    · intro h; cases h
    · rintro ⟨n, h, -⟩; omega
  | succ m ih =>
    intro k os
    rw [loop, if_pos (show StepIter.bne (t.num p) (stepIt a s true k) last = true from rfl)]
    dsimp only
    have hd : StepIter.deref (stepIt a s true k) = a + (k : ℤ) * s := rfl
    rw [hd]
    have sh : ∀ n : ℕ, shown show_ ((List.range (n + 2)).map fun j : ℕ => a + (k + j : ℤ) * s) =
        show_ (a + (k : ℤ) * s) ++ " ".toList ++
          shown show_ ((List.range (n + 1)).map fun j : ℕ => a + ((k + 1 : ℕ) + j : ℤ) * s) := by
      intro n
      rw [List.range_succ_eq_map (n := n + 1), List.map_cons, List.map_map, shown_cons, Nat.cast_zero, add_zero]
      congr 2
      apply List.map_congr_left
      intro j _
      simp only [Function.comp, Nat.succ_eq_add_one]
      push_cast
      ring
    by_cases hst : stop (a + (k : ℤ) * s) = true
    · rw [if_pos hst]
      have e0 : shown show_ ((List.range (0 + 1)).map fun j : ℕ => a + (k + j : ℤ) * s) =
          show_ (a + (k : ℤ) * s) ++ " ".toList := by
        simp [shown]
      constructor
      · intro h
        have h := Except.ok.inj h
        refine ⟨0, by omega, fun j hj => by omega, fun j hj => by omega, by simpa using hst, ?_⟩
        rw [e0, ← h, List.append_assoc]
      · rintro ⟨n, hn, -, h2, -, h4⟩
        obtain rfl : n = 0 := by
          by_contra hne
          have := h2 0 (by omega)
          rw [Nat.cast_zero, add_zero, hst] at this
          cases this
        rw [h4, e0, List.append_assoc]
    · rw [if_neg hst]
      rw [bind_eq_ok]
      constructor
      · rintro ⟨i', hi', h⟩
        obtain ⟨h1, h2, h3⟩ := next_fits hs hw hi'
        rw [stepIt_next h1 h2 h3] at hi'
        obtain rfl := Except.ok.inj hi'
        obtain ⟨n, hn, k1, k2, k3, k4⟩ := ih.1 h
        refine ⟨n + 1, by omega, ?_, ?_, ?_, ?_⟩
        · intro j hj
          cases j with
          | zero =>
            rw [Nat.cast_zero, add_zero]
            exact ⟨h1, h2, h3⟩
          | succ j =>
            have := k1 j (by omega)
            have e : ((k : ℤ) + (j + 1 : ℕ) + 1) = ((k + 1 : ℕ) : ℤ) + j + 1 := by push_cast; ring
            rw [e]
            exact this
        · intro j hj
          cases j with
          | zero =>
            rw [Nat.cast_zero, add_zero]
            simpa using hst
          | succ j =>
            have := k2 j (by omega)
            have e : ((k : ℤ) + (j + 1 : ℕ)) = ((k + 1 : ℕ) : ℤ) + j := by push_cast; ring
            rw [e]
            exact this
        · have e : ((k : ℤ) + (n + 1 : ℕ)) = ((k + 1 : ℕ) : ℤ) + n := by push_cast; ring
          rw [e]
          exact k3
        · rw [k4, sh n]
          simp only [List.append_assoc]
      · rintro ⟨n, hn, k1, k2, k3, k4⟩
        obtain ⟨n, rfl⟩ : ∃ m, n = m + 1 := by
          refine ⟨n - 1, ?_⟩
          by_contra hne
          obtain rfl : n = 0 := by omega
          rw [Nat.cast_zero, add_zero] at k3
          exact hst k3
        obtain ⟨h1, h2, h3⟩ := k1 0 (by omega)
        rw [Nat.cast_zero, add_zero] at h1 h2 h3
        refine ⟨_, stepIt_next h1 h2 h3, ih.2 ⟨n, by omega, ?_, ?_, ?_, ?_⟩⟩
        · intro j hj
          have := k1 (j + 1) (by omega)
          have e : ((k : ℤ) + (j + 1 : ℕ) + 1) = ((k + 1 : ℕ) : ℤ) + j + 1 := by push_cast; ring
          rw [e] at this
          exact this
        · intro j hj
          have := k2 (j + 1) (by omega)
          have e : ((k : ℤ) + (j + 1 : ℕ)) = ((k + 1 : ℕ) : ℤ) + j := by push_cast; ring
          rw [e] at this
          exact this
        · have e : ((k : ℤ) + (n + 1 : ℕ)) = ((k + 1 : ℕ) : ℤ) + n := by push_cast; ring
          rw [e] at k3
          exact k3
        · rw [k4, sh n]
          simp only [List.append_assoc]

end DesktopExamples

/-- **C138** A loop over an infinite range of a signed type that is left by `break` is defined exactly if, for some `n`, the value
`a + n s` is the first at which it stops and it and the values before (and their distances from `a`) fit in the type; it then
writes the values up to and including this one. -/
theorem C138_break_iff (hs : t.signed = true) (hw : p.intBits ≤ t.bits) {a s : ℤ} {show_ : ℤ → Text} {stop : ℤ → Bool}
    {os os' : Text} {fuel : ℕ} :
    stepping (t.num p) show_ stop (setStep (t.num p) (rangeFrom (t.num p) a) s) fuel os = .ok os' ↔
      ∃ n < fuel, (∀ j : ℕ, 0 < j → j ≤ n → t.Has j ∧ t.Has (j * s) ∧ t.Has (a + j * s)) ∧
        (∀ j : ℕ, j < n → stop (a + j * s) = false) ∧ stop (a + n * s) = true ∧
        os' = os ++ shown show_ (progression a s (n + 1)) := by
  have := break_iff (p := p) hs hw (a := a) (s := s) (last := StepIter.make (t.num p) a s true) (show_ := show_) (stop := stop)
    (os' := os') (fuel := fuel) (k := 0) (os := os)
  rw [stepIt_zero (p := p) (t := t)] at this
  refine this.trans ?_
  simp only [Nat.cast_zero, zero_add]
  refine exists_congr fun n => and_congr_right fun _ => and_congr ?_ Iff.rfl
  constructor
  · intro h j h0 hj
    have := h (j - 1) (by omega)
    rwa [show (((j - 1 : ℕ) : ℤ) + 1) = j by omega] at this
  · intro h j hj
    have := h (j + 1) (by omega) (by omega)
    rwa [show (((j + 1 : ℕ) : ℤ)) = j + 1 by omega] at this

/-- **C138** `for ( auto i : range( a ) ) { std::cout << i << " "; if ( i == m ) break; }` writes `a`, ..., `m` if `a ≤ m` (and
`m - a` fits in the type), and is never defined if `m < a`. -/
theorem C138_break (hs : t.signed = true) (hw : p.intBits ≤ t.bits) {a m : ℤ} (ha : t.Has a) (hm : t.Has m) (show_ : ℤ → Text)
    (os : Text) :
    (a ≤ m → m - a ≤ t.hi → ∀ fuel, (m - a).toNat < fuel →
      stepping (t.num p) show_ (· == m) (rangeFrom (t.num p) a) fuel os =
        .ok (os ++ shown show_ (progression a 1 ((m - a).toNat + 1)))) ∧
    (m < a → ∀ fuel os', stepping (t.num p) show_ (· == m) (rangeFrom (t.num p) a) fuel os ≠ .ok os') := by
  have hlo := IntTy.zero_has (t := t)
  have e : rangeFrom (t.num p) a = setStep (t.num p) (rangeFrom (t.num p) a) 1 := rfl
  rw [e]
  constructor
  · intro h1 h2 fuel hf
    refine (C138_break_iff hs hw).2 ⟨(m - a).toNat, hf, ?_, ?_, ?_, rfl⟩
    · intro j _ hj
      have := ha.1
      have := hm.2
      exact ⟨⟨by omega, by omega⟩, ⟨by omega, by omega⟩, ⟨by omega, by omega⟩⟩
    · intro j hj
      rw [beq_eq_false_iff_ne]
      omega
    · rw [beq_iff_eq]
      omega
  · intro h fuel os' h'
    obtain ⟨n, -, -, -, h3, -⟩ := (C138_break_iff hs hw).1 h'
    rw [beq_iff_eq] at h3
    omega

end

/-- Ranges that meet the hypotheses. -/
example : let t : IntTy := ⟨32, true, by simp⟩
    t.Has 20 ∧ t.Has 42 ∧ (42 : ℤ) - 20 ≤ t.hi ∧ count 0 10 3 = 4 ∧ (count 0 10 3 : ℤ) * 3 ≤ t.hi := by
  refine ⟨?_, ?_, ?_, rfl, ?_⟩ <;> norm_num [IntTy.Has, IntTy.lo, IntTy.hi, count]

/-- The text range.e.cpp is meant to write. -/
def rangeText : Text :=
  "\nrange( 20 ), infinite, break at 42: ".toList ++
    "20 21 22 23 24 25 26 27 28 29 30 31 32 33 34 35 36 37 38 39 40 41 42 ".toList ++
  "\nrange( 0 ).step( 2 ), infinite, break at 7: ".toList ++ "0 2 4 6 8 ".toList ++
  "\nrange( 0, 10 ): ".toList ++ "0 1 2 3 4 5 6 7 8 9 ".toList ++
  "\nrange( 0, 10, 3 ): ".toList ++ "0 3 6 9 ".toList ++
  "\nrange( -5, 5.5, 0.5 ): ".toList ++
    "-5 -4.5 -4 -3.5 -3 -2.5 -2 -1.5 -1 -0.5 0 0.5 1 1.5 2 2.5 3 3.5 4 4.5 5 ".toList ++
  "\nindices( c_arr ): ".toList ++ "0 1 2 ".toList ++
  "\nindices( std_vec ): ".toList ++ "0 1 2 3 ".toList ++
  "\nindices({ 1,2,4,6,8 }): ".toList ++ "0 1 2 3 4 ".toList ++ "\n".toList

namespace DesktopExamples

theorem shown_1 : shown integer (progression 20 1 23) =
    "20 21 22 23 24 25 26 27 28 29 30 31 32 33 34 35 36 37 38 39 40 41 42 ".toList := by decide +kernel
theorem shown_2 : shown integer (progression 0 2 5) = "0 2 4 6 8 ".toList := by decide +kernel
theorem shown_3 : shown integer (progression 0 1 10) = "0 1 2 3 4 5 6 7 8 9 ".toList := by decide +kernel
theorem shown_4 : shown integer (progression 0 3 4) = "0 3 6 9 ".toList := by decide +kernel
theorem shown_6 : shown integer ((List.range 3).map fun k : ℕ => (k : ℤ)) = "0 1 2 ".toList := by decide +kernel
theorem shown_7 : shown integer ((List.range 4).map fun k : ℕ => (k : ℤ)) = "0 1 2 3 ".toList := by decide +kernel
theorem shown_8 : shown integer ((List.range 5).map fun k : ℕ => (k : ℤ)) = "0 1 2 3 4 ".toList := by decide +kernel

theorem float_5 : Res.yields (do
    let first ← Flt.ofRat Ieee.binary64 (-5)
    let last ← Flt.ofRat Ieee.binary64 5.5
    let step ← Flt.ofRat Ieee.binary64 0.5
    stepping (Flt.num Ieee.binary64) float (fun _ => false) (rangeStep (Flt.num Ieee.binary64) first last step) 22 [])
    (· == "-5 -4.5 -4 -3.5 -3 -2.5 -2 -1.5 -1 -0.5 0 0.5 1 1.5 2 2.5 3 3.5 4 4.5 5 ".toList) = true := by
  decide +kernel

theorem loop_prefix {T I : Type} {deref : I → T} {next : I → Res I} {bne : I → I → Bool} {last : I} {show_ : T → Text}
    {stop : T → Bool} {fuel : ℕ} : ∀ {i : I} {pre os os' : Text}, loop deref next bne last show_ stop fuel i os = .ok os' →
      loop deref next bne last show_ stop fuel i (pre ++ os) = .ok (pre ++ os') := by
  induction fuel with
  | zero => intro i pre os os' h; rw [loop] at h; cases h
  | succ m ih =>
    intro i pre os os' h
    rw [loop] at h ⊢
    split at h
    · rename_i hb
      rw [if_pos hb]
      dsimp only at h ⊢
      split at h
      · rename_i hs
        rw [if_pos hs, ← Except.ok.inj h]
        simp only [List.append_assoc]
      · rename_i hs
        rw [if_neg hs]
        rw [bind_eq_ok] at h
        obtain ⟨i', hi', h⟩ := h
        rw [hi', bind_ok]
        have := ih (pre := pre) h
        simpa only [List.append_assoc] using this
    · rename_i hb
      rw [if_neg hb, ← Except.ok.inj h]

end DesktopExamples

/-- **C138** What range.e.cpp writes, whatever the width of `int`; the loops end (within 24 tests of their conditions). -/
theorem C138_text (p : Platform) {fuel : ℕ} (hf : 24 ≤ fuel) : rangeMain p fuel = .ok rangeText := by
  have hs : (int p).signed = true := rfl
  have hw : p.intBits ≤ (int p).bits := le_rfl
  have hi : ∀ v : ℤ, -100 ≤ v → v ≤ 100 → (int p).Has v := by
    intro v h1 h2
    have hb : (100 : ℤ) < 2 ^ (p.intBits - 1) := by
      rcases p.int_eq with h | h <;> rw [h] <;> norm_num
    show -2 ^ (p.intBits - 1) ≤ v ∧ v ≤ 2 ^ (p.intBits - 1) - 1
    omega
  have hhi : (100 : ℤ) ≤ (int p).hi := (hi 100 (by norm_num) le_rfl).2
  have h1 := fun os => (C138_break (p := p) hs hw (hi 20 (by norm_num) (by norm_num)) (hi 42 (by norm_num) (by norm_num))
    integer os).1 (by norm_num) (by norm_num; omega) fuel (by norm_num; omega)
  have h2 : ∀ os, stepping ((int p).num p) integer (fun i => decide (7 ≤ i))
      (setStep ((int p).num p) (rangeFrom ((int p).num p) 0) 2) fuel os =
        .ok (os ++ shown integer (progression 0 2 5)) := by
    intro os
    refine (C138_break_iff hs hw).2 ⟨4, by omega, ?_, ?_, ?_, rfl⟩
    · intro j _ hj
      exact ⟨hi _ (by omega) (by omega), hi _ (by omega) (by omega), hi _ (by omega) (by omega)⟩
    · intro j hj
      rw [decide_eq_false_iff_not]
      omega
    · rfl
  have h3 := fun os => C138_range (p := p) (hi 0 (by norm_num) (by norm_num)) (hi 10 (by norm_num) (by norm_num)) (by norm_num)
    integer os (fuel := fuel) (by norm_num; omega)
  have c4 : count 0 10 3 = 4 := by rfl
  have h4 := fun os => C138_step (p := p) (t := int p) (a := 0) (b := 10) (s := 3) (by norm_num) (hi 0 (by norm_num) (by norm_num))
    (by rw [c4]; norm_num; omega) (by rw [c4]; norm_num; omega) integer os (fuel := fuel) (by rw [c4]; omega)
  have hsz : size.hi = 2 ^ 64 - 1 := rfl
  have h6 := fun os => C138_indices (p := p) (t := size) 3 (by rw [hsz]; norm_num) integer os (fuel := fuel) (by omega)
  have h7 := fun os => C138_indices (p := p) (t := size) 4 (by rw [hsz]; norm_num) integer os (fuel := fuel) (by omega)
  have h8 := fun os => C138_indices (p := p) (t := size) 5 (by rw [hsz]; norm_num) integer os (fuel := fuel) (by omega)
  obtain ⟨t5, e5, k5⟩ := Res.of_yields float_5
  obtain ⟨f1, g1, e5⟩ := bind_eq_ok.1 e5
  obtain ⟨f2, g2, e5⟩ := bind_eq_ok.1 e5
  obtain ⟨f3, g3, e5⟩ := bind_eq_ok.1 e5
  have h5 : ∀ os, stepping (Flt.num Ieee.binary64) float (fun _ => false) (rangeStep (Flt.num Ieee.binary64) f1 f2 f3) fuel os =
      .ok (os ++ t5) := by
    intro os
    obtain ⟨m, rfl⟩ := Nat.exists_eq_add_of_le (show 22 ≤ fuel by omega)
    have := loop_more (n := m) (loop_prefix (pre := os) e5)
    rwa [List.append_nil] at this
  unfold rangeMain
  rw [h1, bind_ok, h2, bind_ok, h3, bind_ok, h4, bind_ok, g1, bind_ok, g2, bind_ok, g3, bind_ok, h5, bind_ok]
  rw [show indices 3 = indices ((3 : ℕ) : ℤ) from rfl, show indices 4 = indices ((4 : ℕ) : ℤ) from rfl,
    show indices 5 = indices ((5 : ℕ) : ℤ) from rfl, h6, bind_ok, h7, bind_ok, h8, bind_ok]
  rw [c4, show ((42 : ℤ) - 20).toNat + 1 = 23 from rfl, show ((10 : ℤ) - 0).toNat = 10 from rfl, shown_1, shown_2, shown_3, shown_4,
    eq_of_beq k5, shown_6, shown_7, shown_8]
  rfl

end Verif
