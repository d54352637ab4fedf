import Verif.Lemmas.Range

/- Property C54: ranges. -/

namespace Verif
open Range

/-- `count` counts. -/
theorem count_spec {s : ℤ} (hs : 0 < s) (a b : ℤ) (k : ℕ) : a + k * s < b ↔ k < count a b s := by
  unfold count
  rw [Int.lt_toNat, ← Int.add_one_le_iff (a := (k : ℤ)), Int.le_ediv_iff_mul_le hs]
  constructor <;> intro h <;> linarith

section
variable {p : Platform} {t : IntTy}

/-- **C54** `range( a, b )` with `a ≤ b` yields `a, a + 1, ..., b - 1` and stops. -/
theorem C54_range {a b : ℤ} (ha : t.Has a) (hb : t.Has b) (hab : a ≤ b) (fuel : ℕ) :
    (range a b).visit (t.num p) fuel =
      .ok (progression a 1 (min fuel (b - a).toNat), decide ((b - a).toNat ≤ fuel)) := by
  have := visit_stop (deref := Iter.deref) (next := Iter.next (t.num p)) (bne := Iter.bne (t.num p))
    (last := ⟨b⟩) (fun k => ⟨a + k⟩) (b - a).toNat ?_ ?_ fuel
  · simp only [Nat.cast_zero, add_zero] at this
    rw [Proxy.visit, range, this]
    unfold progression Iter.deref
    simp only [mul_one]
  · intro j hj
    constructor
    · show (!(a + (j : ℤ) == b)) = true
      rw [Bool.not_eq_true', beq_eq_false_iff_ne]
      omega
    · rw [Iter.next_ok ⟨by have := ha.1; omega, by have := hb.2; omega⟩]
      push_cast
      rw [add_assoc]
  · show (!(a + ((b - a).toNat : ℤ) == b)) = false
    rw [Bool.not_eq_false', beq_iff_eq]
    omega

/-- **C54** `range( a, b )` with `a > b` does not stop: it goes on until the increment overflows. -/
theorem C54_reversed (hs : t.signed = true) (hw : p.intBits ≤ t.bits) {a b : ℤ}
    (ha : t.Has a) (hab : b < a) (fuel : ℕ) :
    (range a b).visit (t.num p) fuel =
      if fuel ≤ (t.hi - a).toNat then .ok (progression a 1 fuel, false) else .error .overflow := by
  have := visit_error (deref := Iter.deref) (next := Iter.next (t.num p)) (bne := Iter.bne (t.num p))
    (last := ⟨b⟩) (e := .overflow) (fun k => ⟨a + k⟩) (t.hi - a).toNat ?_ ?_ ?_ fuel
  · simp only [Nat.cast_zero, add_zero] at this
    rw [Proxy.visit, range, this]
    unfold progression Iter.deref
    simp only [mul_one]
  · intro j hj
    constructor
    · show (!(a + (j : ℤ) == b)) = true
      rw [Bool.not_eq_true', beq_eq_false_iff_ne]
      omega
    · rw [Iter.next_ok ⟨by have := ha.1; omega, by have := ha.2; omega⟩]
      push_cast
      rw [add_assoc]
  · show (!(a + ((t.hi - a).toNat : ℤ) == b)) = true
    rw [Bool.not_eq_true', beq_eq_false_iff_ne]
    omega
  · show ((t.promote p).result (a + ((t.hi - a).toNat : ℤ) + 1)).bind _ = _
    rw [IntTy.promote_wide hw, IntTy.result_overflow hs (by have := ha.2; omega)]
    rfl

/-- **C54** ... of an unsigned type it goes on with 0 after the greatest value, and ends before `b`. -/
theorem C54_reversed_unsigned (hs : t.signed = false) {a b : ℤ}
    (ha : t.Has a) (hb : t.Has b) (hab : b < a) (fuel : ℕ) :
    (range a b).visit (t.num p) fuel =
      .ok ((List.range (min fuel (2 ^ t.bits + b - a).toNat)).map (fun k : ℕ => (a + k) % 2 ^ t.bits),
        decide ((2 ^ t.bits + b - a).toNat ≤ fuel)) := by
  have hlo : t.lo = 0 := by simp [IntTy.lo, hs]
  have hhi : t.hi = 2 ^ t.bits - 1 := by simp [IntTy.hi, hs]
  have ha0 : 0 ≤ a := hlo ▸ ha.1
  have hb0 : 0 ≤ b := hlo ▸ hb.1
  have ha1 := ha.2
  have hb1 := hb.2
  rw [hhi] at ha1 hb1
  have hpos : (0 : ℤ) < 2 ^ t.bits := by positivity
  have := visit_stop (deref := Iter.deref) (next := Iter.next (t.num p)) (bne := Iter.bne (t.num p))
    (last := ⟨b⟩) (fun k => ⟨(a + k) % 2 ^ t.bits⟩) (2 ^ t.bits + b - a).toNat ?_ ?_ fuel
  · simp only [Nat.cast_zero, add_zero, Int.emod_eq_of_lt ha0 (show a < 2 ^ t.bits by omega)] at this
    rw [Proxy.visit, range, this]
    rfl
  · intro j hj
    constructor
    · show (!((a + (j : ℤ)) % 2 ^ t.bits == b)) = true
      rw [Bool.not_eq_true', beq_eq_false_iff_ne]
      intro h
      rcases lt_or_ge (a + (j : ℤ)) (2 ^ t.bits) with h1 | h1
      · rw [Int.emod_eq_of_lt (by omega) h1] at h
        omega
      · rw [← Int.sub_emod_right, Int.emod_eq_of_lt (by omega) (by omega)] at h
        omega
    · set v := (a + (j : ℤ)) % 2 ^ t.bits with hv
      have v0 : 0 ≤ v := Int.emod_nonneg _ hpos.ne'
      have v1 : v < 2 ^ t.bits := Int.emod_lt_of_pos _ hpos
      have key : (t.promote p).result (v + 1) = .ok (if t.bits < p.intBits then v + 1 else (v + 1) % 2 ^ t.bits) := by
        unfold IntTy.promote
        split
        · rename_i hlt
          have hb := p.int_eq
          have hb' := t.bits_eq
          have hle : (2 : Int) ^ t.bits < 2 ^ (p.intBits - 1) :=
            pow_lt_pow_right₀ (by norm_num) (by omega)
          apply IntTy.Has.result
          constructor
          · simp [IntTy.lo]; omega
          · simp [IntTy.hi]; omega
        · simp [IntTy.result, hs]
      show ((t.promote p).result (v + 1)).bind _ = _
      rw [key]
      show Except.ok (Iter.mk (t.convert _)) = _
      congr 2
      unfold IntTy.convert
      rw [hs, if_neg (by simp)]
      have h3 : (v + 1) % 2 ^ t.bits = (a + (j : ℤ) + 1) % 2 ^ t.bits := by
        rw [hv, Int.emod_add_emod]
      split
      · rw [h3]; push_cast; rw [add_assoc]
      · rw [Int.emod_emod, h3]; push_cast; rw [add_assoc]
  · show (!((a + ((2 ^ t.bits + b - a).toNat : ℤ)) % 2 ^ t.bits == b)) = false
    rw [Bool.not_eq_false', beq_iff_eq, show a + ((2 ^ t.bits + b - a).toNat : ℤ) = b + 2 ^ t.bits by omega,
      Int.add_emod_right, Int.emod_eq_of_lt hb0 (by omega)]

/-- The iterator after `k` increments. -/
def stepIt (a s : ℤ) (inf : Bool) (k : ℕ) : StepIter ℤ := ⟨a + k * s, k, a, s, inf⟩

theorem stepIt_zero (a s : ℤ) (inf : Bool) :
    stepIt a s inf 0 = StepIter.make (t.num p) a s inf := by
  unfold stepIt StepIter.make
  simp only [Nat.cast_zero, zero_mul, add_zero]
  rfl

theorem stepIt_next {a s : ℤ} {inf : Bool} {j : ℕ} (h1 : t.Has (j + 1)) (h2 : t.Has ((j + 1) * s))
    (h3 : t.Has (a + (j + 1) * s)) :
    StepIter.next (t.num p) (stepIt a s inf j) = .ok (stepIt a s inf (j + 1)) := by
  unfold stepIt
  rw [StepIter.next_ok h1 h2 h3]
  push_cast
  rfl

/-- **C54** `range( a, b, s )` with `s > 0` yields `a, a + s, a + 2 s, ...` as long as these are less than `b`,
and stops, provided the first one beyond (and its distance from `a`) does not overflow. -/
theorem C54_step {a b s : ℤ} (hs : 0 < s) (ha : t.Has a)
    (h1 : count a b s * s ≤ t.hi) (h2 : a + count a b s * s ≤ t.hi) (fuel : ℕ) :
    (rangeStep (t.num p) a b s).visitStep (t.num p) fuel =
      .ok (progression a s (min fuel (count a b s)), decide (count a b s ≤ fuel)) := by
  have hlo := IntTy.zero_has (t := t)
  have := visit_stop (deref := StepIter.deref) (next := StepIter.next (t.num p))
    (bne := StepIter.bne (t.num p)) (last := StepIter.make (t.num p) b s false) (stepIt a s false)
    (count a b s) ?_ ?_ fuel
  · rw [stepIt_zero (p := p) (t := t)] at this
    exact this
  · intro j hj
    constructor
    · show (!(!false && decide (b ≤ a + (j : ℤ) * s))) = true
      have := (count_spec hs a b j).2 hj
      simp
      omega
    · have hj' : (j : ℤ) + 1 ≤ count a b s := by exact_mod_cast hj
      have k1 : (j + 1 : ℤ) * s ≤ count a b s * s := Int.mul_le_mul_of_nonneg_right hj' hs.le
      have k2 : 0 < (j + 1 : ℤ) * s := by positivity
      have k3 : (j + 1 : ℤ) ≤ (j + 1) * s := by nlinarith
      exact stepIt_next ⟨by omega, by omega⟩ ⟨by omega, by omega⟩ ⟨by have := ha.1; omega, by omega⟩
  · show (!(!false && decide (b ≤ a + ((count a b s : ℕ) : ℤ) * s))) = false
    have := mt (count_spec hs a b (count a b s)).1 (lt_irrefl _)
    simp
    omega

/-- **C54** These are exactly the numbers `a + k s < b`, in increasing order. -/
theorem C54_step_values {a b s : ℤ} (hs : 0 < s) :
    (∀ x, x ∈ progression a s (count a b s) ↔ ∃ k : ℕ, x = a + k * s ∧ x < b) ∧
    (progression a s (count a b s)).Pairwise (· < ·) := by
  constructor
  · intro x
    unfold progression
    rw [List.mem_map]
    constructor
    · rintro ⟨k, hk, rfl⟩
      exact ⟨k, rfl, (count_spec hs a b k).2 (List.mem_range.1 hk)⟩
    · rintro ⟨k, rfl, h⟩
      exact ⟨k, List.mem_range.2 ((count_spec hs a b k).1 h), rfl⟩
  · unfold progression
    rw [List.pairwise_map]
    refine List.Pairwise.imp ?_ List.pairwise_lt_range
    intro j k h
    have h' : (j : ℤ) < k := by exact_mod_cast h
    have := Int.mul_lt_mul_of_pos_right h' hs
    omega

/-- **C54** Otherwise, of a signed type, the loop has undefined behaviour, although all its elements fit. -/
theorem C54_step_overflow (hsg : t.signed = true) (hw : p.intBits ≤ t.bits) {a b s : ℤ} (hs : 0 < s)
    (ha : t.Has a) (hst : t.Has s) (hb : b ≤ t.hi)
    (h : t.hi < count a b s * s ∨ t.hi < a + count a b s * s) :
    (∀ x ∈ progression a s (count a b s), t.Has x) ∧ ∃ J < count a b s, ∀ fuel, (rangeStep (t.num p) a b s).visitStep (t.num p) fuel =
      if fuel ≤ J then .ok (progression a s fuel, false) else .error .overflow := by
  have hlo := IntTy.zero_has (t := t)
  have hhi : 0 < t.hi := lt_of_lt_of_le hs hst.2
  let bad (j : ℕ) : Prop := t.hi < (j + 1 : ℤ) * s ∨ t.hi < a + (j + 1 : ℤ) * s
  have hpos : 0 < count a b s := by
    by_contra h0
    have h0 : count a b s = 0 := by omega
    rw [h0] at h
    have := ha.2
    simp at h
    omega
  have hex : ∃ j, bad j := ⟨count a b s - 1, by
    have : ((count a b s - 1 : ℕ) : ℤ) + 1 = count a b s := by omega
    simp only [bad, this]
    exact h⟩
  classical
  obtain ⟨J, hJ, hmin⟩ : ∃ J, bad J ∧ ∀ j < J, ¬ bad j :=
    ⟨Nat.find hex, Nat.find_spec hex, fun j hj => Nat.find_min hex hj⟩
  have hJK : J < count a b s := by
    by_contra hge
    have hge : count a b s ≤ J := by omega
    rcases hge.lt_or_eq with hlt | heq
    · apply hmin (count a b s - 1) (by omega)
      have : ((count a b s - 1 : ℕ) : ℤ) + 1 = count a b s := by omega
      simp only [bad, this]
      exact h
    · apply hmin (count a b s - 1) (by omega)
      have : ((count a b s - 1 : ℕ) : ℤ) + 1 = count a b s := by omega
      simp only [bad, this]
      exact h
  have hbad : ∀ j, ¬ bad j → (j + 1 : ℤ) * s ≤ t.hi ∧ a + (j + 1 : ℤ) * s ≤ t.hi := by
    intro j hj
    simp only [bad] at hj
    push Not at hj
    exact hj
  have hstep : ∀ j : ℕ, j < J → (stepIt a s false j).bne (t.num p) (StepIter.make (t.num p) b s false) = true ∧
      StepIter.next (t.num p) (stepIt a s false j) = .ok (stepIt a s false (j + 1)) := by
    intro j hj
    constructor
    · show (!(!false && decide (b ≤ a + (j : ℤ) * s))) = true
      have := (count_spec hs a b j).2 (by omega)
      simp
      omega
    · obtain ⟨k1, k4⟩ := hbad j (hmin j hj)
      have k2 : 0 < (j + 1 : ℤ) * s := by positivity
      have k3 : (j + 1 : ℤ) ≤ (j + 1) * s := by nlinarith
      exact stepIt_next ⟨by omega, by omega⟩ ⟨by omega, by omega⟩ ⟨by have := ha.1; omega, by omega⟩
  refine ⟨?_, J, hJK, fun fuel => ?_⟩
  · intro x hx
    obtain ⟨k, rfl, hk⟩ := ((C54_step_values hs).1 x).1 hx
    have : 0 ≤ (k : ℤ) * s := by positivity
    exact ⟨by have := ha.1; omega, by omega⟩
  have := visit_error (deref := StepIter.deref) (next := StepIter.next (t.num p))
    (bne := StepIter.bne (t.num p)) (last := StepIter.make (t.num p) b s false) (e := .overflow)
    (stepIt a s false) J hstep ?_ ?_ fuel
  · rw [stepIt_zero (p := p) (t := t)] at this
    exact this
  · show (!(!false && decide (b ≤ a + (J : ℤ) * s))) = true
    have := (count_spec hs a b J).2 hJK
    simp
    omega
  · have k2 : 0 < (J + 1 : ℤ) * s := by positivity
    by_cases k5 : t.hi < (J : ℤ) + 1
    · show ((t.promote p).result ((J : ℤ) + 1)).bind _ = _
      rw [IntTy.promote_wide hw, IntTy.result_overflow hsg k5]
      rfl
    apply StepIter.next_err hsg hw
    · exact ⟨by omega, by omega⟩
    · by_cases hm : t.hi < (J + 1 : ℤ) * s
      · exact .inl hm
      · exact .inr ⟨⟨by omega, by omega⟩, hJ.resolve_left hm⟩

/-- **C54** For example, the only elements of `range( 0, 2147483647, 1073741824 )` are 0 and 1073741824, but going
past the latter overflows `int`. -/
theorem C54_step_wrong (p : Platform) (h : p.intBits = 32) :
    let t : IntTy := ⟨32, true, by simp⟩
    count 0 2147483647 1073741824 = 2 ∧
    ∀ fuel, 2 ≤ fuel → (rangeStep (t.num p) 0 2147483647 1073741824).visitStep (t.num p) fuel =
      .error .overflow := by
  intro t
  have hc : count 0 2147483647 1073741824 = 2 := by rw [count]; rfl
  refine ⟨hc, fun fuel hf => ?_⟩
  obtain ⟨-, J, hJ, hv⟩ := C54_step_overflow (p := p) (t := t) rfl (by simp [h, t]) (a := 0) (b := 2147483647)
    (s := 1073741824) (by norm_num) (by norm_num [IntTy.Has, IntTy.lo, IntTy.hi, t])
    (by norm_num [IntTy.Has, IntTy.lo, IntTy.hi, t]) (by norm_num [IntTy.hi, t])
    (by rw [hc]; norm_num [IntTy.hi, t])
  rw [hv, if_neg (by omega)]

/-- **C54** Of an unsigned type such a loop may never end: `range( 0u, 4294967295u, 2147483648u )` yields
0, 2147483648, 0, 2147483648, ... -/
theorem C54_step_unsigned_wrong (p : Platform) :
    let t : IntTy := ⟨32, false, by simp⟩
    ∀ fuel, (rangeStep (t.num p) 0 4294967295 2147483648).visitStep (t.num p) fuel =
      .ok ((List.range fuel).map (fun k : ℕ => if k % 2 = 0 then 0 else 2147483648), false) := by
  intro t fuel
  have hp : t.promote p = t := by
    apply IntTy.promote_wide
    have := p.int_eq
    show p.intBits ≤ 32
    omega
  have := visit_forever (deref := StepIter.deref) (next := StepIter.next (t.num p))
    (bne := StepIter.bne (t.num p)) (last := StepIter.make (t.num p) 4294967295 2147483648 false)
    (fun k => ⟨if k % 2 = 0 then 0 else 2147483648, k % 4294967296, 0, 2147483648, false⟩) ?_ fuel
  · exact this
  · intro j
    constructor
    · show (!(!false && decide ((4294967295 : ℤ) ≤ if j % 2 = 0 then 0 else 2147483648))) = true
      split <;> rfl
    · show ((t.promote p).result ((j : ℤ) % 4294967296 + 1)).bind _ = _
      rw [hp]
      show ((t.promote p).result (((j : ℤ) % 4294967296 + 1) % 4294967296 % 4294967296 * 2147483648)).bind _ = _
      rw [hp]
      show ((t.promote p).result (0 + (((j : ℤ) % 4294967296 + 1) % 4294967296 % 4294967296 * 2147483648) %
        4294967296)).bind _ = _
      rw [hp]
      show Except.ok (StepIter.mk ((0 + (((j : ℤ) % 4294967296 + 1) % 4294967296 % 4294967296 * 2147483648) %
        4294967296) % 4294967296 % 4294967296) (((j : ℤ) % 4294967296 + 1) % 4294967296 % 4294967296) 0
        2147483648 false) = _
      congr 2
      · split <;> omega
      · omega

/-- **C54** A stepping range whose first value is not below its end is empty (also for negative steps). -/
theorem C54_step_empty {a b s : ℤ} (h : b ≤ a) (fuel : ℕ) :
    (rangeStep (t.num p) a b s).visitStep (t.num p) fuel = .ok ([], true) := by
  have hb : (StepIter.make (t.num p) a s false).bne (t.num p) (StepIter.make (t.num p) b s false) = false := by
    show (!(!false && decide (b ≤ a))) = false
    simp [h]
  unfold Proxy.visitStep rangeStep
  cases fuel with
  | zero => simp [visit, hb]
  | succ n => simp [visit, hb]

/-- **C54** `range( a )` and `range( a ).step( s )` never stop, for any value type. -/
theorem C54_infinite {T : Type} (A : RangeNum T) (r : Proxy (StepIter T)) (a s : T)
    (hr : r = rangeFrom A a ∨ r = setStep A (rangeFrom A a) s) (fuel : ℕ) {l : List T} {b : Bool}
    (h : r.visitStep A fuel = .ok (l, b)) : b = false ∧ l.length = fuel := by
  have key : ∀ (last : StepIter T) (fuel : ℕ) (i : StepIter T) (l : List T) (b : Bool), i.infinite = true →
      visit StepIter.deref (StepIter.next A) (StepIter.bne A) last fuel i = .ok (l, b) →
      b = false ∧ l.length = fuel := by
    intro last fuel
    induction fuel with
    | zero =>
      intro i l b hi h
      rw [visit] at h
      cases h
      simp [StepIter.bne, StepIter.beq, hi]
    | succ n ih =>
      intro i l b hi h
      rw [visit, if_pos (by simp [StepIter.bne, StepIter.beq, hi])] at h
      rw [bind_eq_ok] at h
      obtain ⟨i', hi', h⟩ := h
      rw [bind_eq_ok] at h
      obtain ⟨⟨l', b'⟩, hv, h⟩ := h
      have hinf : i'.infinite = true := by
        unfold StepIter.next at hi'
        rw [bind_eq_ok] at hi'
        obtain ⟨f, -, hi'⟩ := hi'
        rw [bind_eq_ok] at hi'
        obtain ⟨m, -, hi'⟩ := hi'
        rw [bind_eq_ok] at hi'
        obtain ⟨c, -, hi'⟩ := hi'
        cases hi'
        exact hi
      obtain ⟨rfl, hl⟩ := ih i' l' b' hinf hv
      cases h
      exact ⟨rfl, by simp [hl]⟩
  rcases hr with rfl | rfl
  · exact key _ _ _ _ _ rfl h
  · exact key _ _ _ _ _ rfl h

/-- **C54** ... and yields `a, a + s, a + 2 s, ...` as long as these fit. -/
theorem C54_infinite_values {a s : ℤ} (fuel : ℕ)
    (hfit : ∀ j : ℕ, j ≤ fuel → t.Has j ∧ t.Has (j * s) ∧ t.Has (a + j * s)) :
    (setStep (t.num p) (rangeFrom (t.num p) a) s).visitStep (t.num p) fuel =
      .ok (progression a s fuel, false) := by
  have := visit_seq (deref := StepIter.deref) (next := StepIter.next (t.num p))
    (bne := StepIter.bne (t.num p)) (last := StepIter.make (t.num p) a s true) (stepIt a s true) fuel 0 0 ?_
  · rw [stepIt_zero (p := p) (t := t), Nat.add_zero] at this
    show visit _ _ _ _ _ (StepIter.make (t.num p) a s true) = _
    refine this.trans ?_
    simp only [Nat.zero_add, visit, Except.bind, List.append_nil]
    rfl
  · intro j _ hj
    obtain ⟨h1, h2, h3⟩ := hfit (j + 1) (by omega)
    push_cast at h1 h2 h3
    exact ⟨rfl, stepIt_next h1 h2 h3⟩

/-- **C54** `range( a )` counts by one: `a, a + 1, ...`. -/
theorem C54_infinite_from {a : ℤ} (fuel : ℕ) (ha : t.Has a) (h : a + fuel ≤ t.hi) (h0 : fuel ≤ t.hi) :
    (rangeFrom (t.num p) a).visitStep (t.num p) fuel = .ok (progression a 1 fuel, false) := by
  have hlo := IntTy.zero_has (t := t)
  have := C54_infinite_values (p := p) (t := t) (a := a) (s := 1) fuel (fun j hj => by
    have hj' : (j : ℤ) ≤ fuel := by exact_mod_cast hj
    have := ha.1
    exact ⟨⟨by omega, by omega⟩, ⟨by omega, by omega⟩, ⟨by omega, by omega⟩⟩)
  exact this

/-- **C54** `indices( c )` yields `0, ..., size - 1`. -/
theorem C54_indices (n : ℕ) (h : (n : ℤ) ≤ t.hi) (fuel : ℕ) :
    (indices n).visit (t.num p) fuel =
      .ok ((List.range (min fuel n)).map (fun k : ℕ => (k : ℤ)), decide (n ≤ fuel)) := by
  have hlo := IntTy.zero_has (t := t)
  have := C54_range (p := p) (t := t) (a := 0) (b := n) ⟨hlo, by omega⟩ ⟨by omega, h⟩ (by omega) fuel
  simp only [sub_zero, Int.toNat_natCast, progression, zero_add, mul_one] at this
  exact this

end

/-- **C54** `i++` yields the iterator as it was and increments it as `++i` does, for both iterators and any
value type. -/
theorem C54_post_increment {T : Type} (A : RangeNum T) (i j k : Iter T) (i' j' k' : StepIter T) :
    (i.postNext A = .ok (j, k) ↔ j = i ∧ i.next A = .ok k) ∧
    (i'.postNext A = .ok (j', k') ↔ j' = i' ∧ i'.next A = .ok k') := by
  unfold Iter.postNext StepIter.postNext
  constructor
  · cases i.next A with
    | error e => exact ⟨(by cases ·), fun h => (by cases h.2)⟩
    | ok v =>
      constructor
      · intro h; cases h; exact ⟨rfl, rfl⟩
      · rintro ⟨rfl, h⟩; cases h; rfl
  · cases i'.next A with
    | error e => exact ⟨(by cases ·), fun h => (by cases h.2)⟩
    | ok v =>
      constructor
      · intro h; cases h; exact ⟨rfl, rfl⟩
      · rintro ⟨rfl, h⟩; cases h; rfl

example : let t : IntTy := ⟨32, true, by simp⟩
    Iter.postNext (t.num ⟨32, false, .inr rfl⟩) ⟨4⟩ = .ok (⟨4⟩, ⟨5⟩) := by rfl

/-! ### Floating point (exact) -/

/-- **C54** `range( a, b, s )` with `s > 0` over the reals. -/
theorem C54_step_real {a b s : ℝ} (hs : 0 < s) (fuel : ℕ) :
    (rangeStep realNum a b s).visitStep realNum fuel =
      .ok (progression a s (min fuel ⌈(b - a) / s⌉₊), decide (⌈(b - a) / s⌉₊ ≤ fuel)) ∧
    (∀ x, x ∈ progression a s ⌈(b - a) / s⌉₊ ↔ ∃ k : ℕ, x = a + k * s ∧ x < b) ∧
    (progression a s ⌈(b - a) / s⌉₊).Pairwise (· < ·) := by
  have hcount : ∀ k : ℕ, k < ⌈(b - a) / s⌉₊ ↔ a + k * s < b := by
    intro k
    rw [Nat.lt_ceil, lt_div_iff₀ hs]
    constructor <;> intro h <;> linarith
  refine ⟨?_, ?_, ?_⟩
  · have := visit_stop (deref := StepIter.deref) (next := StepIter.next realNum)
      (bne := StepIter.bne realNum) (last := StepIter.make realNum b s false)
      (fun k : ℕ => (⟨a + k * s, k, a, s, false⟩ : StepIter ℝ)) ⌈(b - a) / s⌉₊ ?_ ?_ fuel
    · simp only [Nat.cast_zero, zero_mul, add_zero] at this
      exact this
    · intro j hj
      constructor
      · show (!(!false && decide (b ≤ a + (j : ℝ) * s))) = true
        have := (hcount j).1 hj
        simpa using this
      · show Except.ok (StepIter.mk (a + ((j : ℝ) + 1) * s) ((j : ℝ) + 1) a s false) = _
        push_cast
        rfl
    · show (!(!false && decide (b ≤ a + (⌈(b - a) / s⌉₊ : ℝ) * s))) = false
      have := mt (hcount ⌈(b - a) / s⌉₊).2 (lt_irrefl _)
      simpa using this
  · intro x
    unfold progression
    rw [List.mem_map]
    constructor
    · rintro ⟨k, hk, rfl⟩
      exact ⟨k, rfl, (hcount k).1 (List.mem_range.1 hk)⟩
    · rintro ⟨k, rfl, h⟩
      exact ⟨k, List.mem_range.2 ((hcount k).2 h), rfl⟩
  · unfold progression
    rw [List.pairwise_map]
    refine List.Pairwise.imp ?_ List.pairwise_lt_range
    intro j k h
    have h' : (j : ℝ) < k := by exact_mod_cast h
    have := mul_lt_mul_of_pos_right h' hs
    linarith

/-- **C54** With a step that is not positive, it is empty or never stops. -/
theorem C54_step_real_down {a b s : ℝ} (hs : s ≤ 0) (fuel : ℕ) :
    (rangeStep realNum a b s).visitStep realNum fuel =
      if a < b then .ok (progression a s fuel, false) else .ok ([], true) := by
  split
  · rename_i hab
    have := visit_forever (deref := StepIter.deref) (next := StepIter.next realNum)
      (bne := StepIter.bne realNum) (last := StepIter.make realNum b s false)
      (fun k : ℕ => (⟨a + k * s, k, a, s, false⟩ : StepIter ℝ)) ?_ fuel
    · simp only [Nat.cast_zero, zero_mul, add_zero] at this
      exact this
    · intro j
      constructor
      · show (!(!false && decide (b ≤ a + (j : ℝ) * s))) = true
        have : (j : ℝ) * s ≤ 0 := mul_nonpos_of_nonneg_of_nonpos (by positivity) hs
        simp
        linarith
      · show Except.ok (StepIter.mk (a + ((j : ℝ) + 1) * s) ((j : ℝ) + 1) a s false) = _
        push_cast
        rfl
  · rename_i hab
    have hb : (StepIter.make realNum a s false).bne realNum (StepIter.make realNum b s false) = false := by
      show (!(!false && decide (b ≤ a))) = false
      simpa using hab
    unfold Proxy.visitStep rangeStep
    cases fuel with
    | zero => simp [visit, hb]
    | succ n => simp [visit, hb]

/-! ### Examples -/

/-- `int` on a desktop. -/
example (p : Platform) : let t : IntTy := ⟨32, true, by simp⟩
    (range 0 4).visit (t.num p) 10 = .ok ([0, 1, 2, 3], true) := by
  intro t
  rw [C54_range (by norm_num [IntTy.Has, IntTy.lo, IntTy.hi, t])
    (by norm_num [IntTy.Has, IntTy.lo, IntTy.hi, t]) (by norm_num)]
  rfl

example (p : Platform) : let t : IntTy := ⟨32, true, by simp⟩
    (rangeStep (t.num p) 0 10 3).visitStep (t.num p) 10 = .ok ([0, 3, 6, 9], true) := by
  intro t
  have hc : count 0 10 3 = 4 := by rw [count]; rfl
  rw [C54_step (by norm_num) (by norm_num [IntTy.Has, IntTy.lo, IntTy.hi, t])
    (by rw [hc]; norm_num [IntTy.hi, t]) (by rw [hc]; norm_num [IntTy.hi, t]), hc]
  rfl

example (p : Platform) : let t : IntTy := ⟨32, true, by simp⟩
    (setStep (t.num p) (rangeFrom (t.num p) 0) 2).visitStep (t.num p) 5 = .ok ([0, 2, 4, 6, 8], false) := by
  intro t
  rw [C54_infinite_values]
  · rfl
  · intro j hj
    simp only [IntTy.Has, IntTy.lo, IntTy.hi, t]
    norm_num
    omega

end Verif
