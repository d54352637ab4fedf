import Mathlib.Tactic.Linarith
import Mathlib.Algebra.Order.Floor.Ring
import Verif.Lemmas.Loop
import Verif.Model.StdShims
import Verif.Model.Matrix
import Verif.Props.Algorithm

/-
Properties C124 and C125: the replacements of the standard library on AVR.
-/

namespace Verif
open StdShims

/-! ## C124 numeric_limits -/

/-- The values of an integer type: those of its bit patterns. -/
def IntTy.Value (t : IntTy) (v : ℤ) : Prop :=
  ∃ b : BitVec t.bits, v = if t.signed then b.toInt else (b.toNat : ℤ)

private theorem value_iff (t : IntTy) (v : ℤ) : t.Value v ↔ t.lo ≤ v ∧ v ≤ t.hi := by
  have hb : 0 < t.bits := by rcases t.bits_eq with h | h | h | h <;> omega
  have hp : (2 : ℤ) ^ t.bits = 2 * 2 ^ (t.bits - 1) := by
    rw [← pow_succ', Nat.sub_add_cancel hb]
  have hq : (0 : ℤ) < 2 ^ (t.bits - 1) := by positivity
  unfold IntTy.Value IntTy.lo IntTy.hi
  cases t.signed
  · simp only [Bool.false_eq_true, if_false]
    constructor
    · rintro ⟨b, rfl⟩
      have := b.isLt
      have h' : (b.toNat : ℤ) < 2 ^ t.bits := by exact_mod_cast this
      omega
    · rintro ⟨h0, h1⟩
      refine ⟨BitVec.ofNat _ v.toNat, ?_⟩
      have : v.toNat < 2 ^ t.bits := by
        have : (v.toNat : ℤ) < 2 ^ t.bits := by omega
        exact_mod_cast this
      rw [BitVec.toNat_ofNat, Nat.mod_eq_of_lt this]
      omega
  · simp only [if_true]
    constructor
    · rintro ⟨b, rfl⟩
      have h1 := BitVec.le_toInt b
      have h2 := BitVec.toInt_lt (x := b)
      omega
    · rintro ⟨h0, h1⟩
      refine ⟨BitVec.ofInt _ v, ?_⟩
      rw [BitVec.toInt_ofInt_eq_self hb h0 (by omega)]

private theorem convert_value (t : IntTy) (v : ℤ) (h : t.Value v) : t.convert v = v := by
  rw [value_iff] at h
  have hb : 0 < t.bits := by rcases t.bits_eq with h | h | h | h <;> omega
  have hp : (2 : ℤ) ^ t.bits = 2 * 2 ^ (t.bits - 1) := by
    rw [← pow_succ', Nat.sub_add_cancel hb]
  have hq : (0 : ℤ) < 2 ^ (t.bits - 1) := by positivity
  unfold IntTy.lo IntTy.hi at h
  unfold IntTy.convert
  cases hs : t.signed <;> simp only [hs, Bool.false_eq_true, if_false, if_true] at h ⊢
  · exact Int.emod_eq_of_lt h.1 (by omega)
  · rw [Int.emod_eq_of_lt (by omega) (by omega)]
    omega

/-- C124: the members `min()` and `max()` of the AVR replacement of `numeric_limits` are computed without
overflow and are the least and the greatest value of the type. -/
theorem C124_min_max (p : Platform) (t : IntTy) : ∃ lo hi, (limits p (.int t)).min = some (.ok lo) ∧
    (limits p (.int t)).max = some (.ok hi) ∧ t.Value lo ∧ t.Value hi ∧ ∀ v, t.Value v → lo ≤ v ∧ v ≤ hi := by
  have hlohi : t.lo ≤ t.hi := by
    unfold IntTy.lo IntTy.hi
    have h1 : (0 : ℤ) < 2 ^ (t.bits - 1) := by positivity
    have h2 : (0 : ℤ) < 2 ^ t.bits := by positivity
    split <;> omega
  have vlo : t.Value t.lo := (value_iff t _).2 ⟨le_rfl, hlohi⟩
  have vhi : t.Value t.hi := (value_iff t _).2 ⟨hlohi, le_rfl⟩
  refine ⟨t.lo, t.hi, ?_, ?_, vlo, vhi, fun v hv => (value_iff t v).1 hv⟩
  · unfold limits
    cases hs : t.signed
    · have e : t.lo = 0 := by simp [IntTy.lo, hs]
      simp only [hs, Bool.false_eq_true, if_false]
      rw [convert_value t 0 (e ▸ vlo), e]
    · have e : t.lo = -2 ^ (t.bits - 1) := by simp [IntTy.lo, hs]
      have hm : maxMacro t = 2 ^ (t.bits - 1) - 1 := by simp [maxMacro, hs]
      have hb : t.bits ≤ (t.promote p).bits ∧ (t.promote p).signed = true := by
        unfold IntTy.promote
        split
        · exact ⟨by simp only; omega, rfl⟩
        · exact ⟨le_rfl, hs⟩
      have hq : (0 : ℤ) < 2 ^ (t.bits - 1) := by positivity
      have hle : (2 : ℤ) ^ (t.bits - 1) ≤ 2 ^ ((t.promote p).bits - 1) :=
        pow_le_pow_right₀ (by norm_num) (by omega)
      have key (v : ℤ) (h1 : -2 ^ (t.bits - 1) ≤ v) (h2 : v < 2 ^ (t.bits - 1)) :
          (t.promote p).result v = .ok v := by
        unfold IntTy.result
        rw [if_pos hb.2]
        unfold checked
        rw [if_pos ⟨by omega, by omega⟩]
      simp only [hs, if_true]
      rw [hm, key _ (by omega) (by omega), bind_ok, key _ (by omega) (by omega), bind_ok,
        show -(2 ^ (t.bits - 1) - 1) - 1 = t.lo by rw [e]; omega, convert_value t _ vlo]
  · have e : maxMacro t = t.hi := rfl
    unfold limits
    cases hs : t.signed <;> simp only [hs, Bool.false_eq_true, if_false, if_true] <;>
      rw [e, convert_value t _ vhi]

/-- C124: `digits` is the number of digits that never overflow: all numbers of that many digits are values of
the type, and not all of one digit more. -/
theorem C124_digits (p : Platform) (t : IntTy) : ∃ d, (limits p (.int t)).digits = some d ∧
    (∀ n : ℕ, n < 2 ^ d → t.Value n) ∧ ¬ t.Value (2 ^ d) := by
  refine ⟨if t.signed then t.bits - 1 else t.bits, ?_, ?_, ?_⟩
  · unfold limits
    simp only
    split <;> rfl
  · intro n hn
    rw [value_iff]
    have hn' : (n : ℤ) < 2 ^ (if t.signed then t.bits - 1 else t.bits) := by exact_mod_cast hn
    have hq : (0 : ℤ) < 2 ^ (t.bits - 1) := by positivity
    unfold IntTy.lo IntTy.hi
    cases hs : t.signed <;> simp only [hs, Bool.false_eq_true, if_false, if_true] at hn' ⊢ <;> omega
  · rw [value_iff]
    unfold IntTy.lo IntTy.hi
    cases hs : t.signed <;> simp only [Bool.false_eq_true, if_false, if_true] <;> omega

/-- C124: `is_integer` distinguishes the integer types from the floating-point types. -/
theorem C124_is_integer (p : Platform) (t : ArithTy) :
    (limits p t).is_integer = true ↔ ∃ i, t = .int i := by
  cases t with
  | int i =>
    refine ⟨fun _ => ⟨i, rfl⟩, fun _ => ?_⟩
    unfold limits
    simp only
    split <;> rfl
  | float => exact ⟨fun h => by simp [limits] at h, fun ⟨i, h⟩ => by cases h⟩
  | double => exact ⟨fun h => by simp [limits] at h, fun ⟨i, h⟩ => by cases h⟩

/-- C124, the part that holds: a type with negative values is reported as signed.  Full statement:
`(limits p (.int t)).is_signed = true ↔ ∃ v < 0, t.Value v`; what is missing, the direction from left to
right, is false (`C124_is_signed_wrong`). -/
theorem C124_is_signed_partial (p : Platform) (t : IntTy) (_h : ∃ v < 0, t.Value v) :
    (limits p (.int t)).is_signed = true := by
  unfold limits
  simp only
  split <;> rfl

/-- There are types with negative values. -/
example : ∃ v < 0, (⟨8, true, .inl rfl⟩ : IntTy).Value v := ⟨-1, by norm_num, 255#8, by decide⟩

/-- C124 is violated: every unsigned type is reported as signed. -/
theorem C124_is_signed_wrong (p : Platform) (t : IntTy) (ht : t.signed = false) :
    (limits p (.int t)).is_signed = true ∧ ∀ v, t.Value v → 0 ≤ v := by
  constructor
  · unfold limits
    simp only
    split <;> rfl
  · rintro v ⟨b, rfl⟩
    simp [ht]

/-- C124: on a desktop `fixed_point` requires a signed integral type. -/
theorem C124_requirement_desktop (p : Platform) (t : ArithTy) :
    admitted false p t = true ↔ ∃ i, t = .int i ∧ ∃ v < 0, i.Value v := by
  cases t with
  | int i =>
    have e : admitted false p (.int i) = i.signed := by simp [admitted, desktopSigned, desktopInteger]
    rw [e]
    constructor
    · intro hs
      refine ⟨i, rfl, -1, by norm_num, (value_iff i _).2 ?_⟩
      have hq : (0 : ℤ) < 2 ^ (i.bits - 1) := by positivity
      simp only [IntTy.lo, IntTy.hi, hs, if_true]
      omega
    · rintro ⟨j, h, v, hv, hval⟩
      cases h
      rw [value_iff] at hval
      by_contra hs
      rw [IntTy.lo, if_neg hs] at hval
      omega
  | float => exact ⟨fun h => by simp [admitted, desktopInteger] at h, fun ⟨i, h, _⟩ => by cases h⟩
  | double => exact ⟨fun h => by simp [admitted, desktopInteger] at h, fun ⟨i, h, _⟩ => by cases h⟩

/-- C124: on AVR `fixed_point` requires an integral type; no floating-point type is accepted. -/
theorem C124_requirement_avr (p : Platform) (t : ArithTy) : admitted true p t = true ↔ ∃ i, t = .int i := by
  cases t with
  | int i =>
    refine ⟨fun _ => ⟨i, rfl⟩, fun _ => ?_⟩
    cases hs : i.signed <;> simp [admitted, limits, hs]
  | float => exact ⟨fun h => by simp [admitted, limits] at h, fun ⟨i, h⟩ => by cases h⟩
  | double => exact ⟨fun h => by simp [admitted, limits] at h, fun ⟨i, h⟩ => by cases h⟩

/-- C124 is violated: on AVR `fixed_point` also accepts every unsigned type, and then the negative of a number
is never its negative: it has the same sign. -/
theorem C124_requirement_avr_wrong (p : Platform) (t : IntTy) (ht : t.signed = false) :
    admitted true p (.int t) = true ∧
      ∀ x y, t.Value x → 0 < x → fixedNeg p t x = .ok y → 0 ≤ y ∧ y ≠ -x := by
  constructor
  · have h1 := (C124_is_signed_wrong p t ht).1
    have h2 := (C124_is_integer p (.int t)).2 ⟨t, rfl⟩
    simp [admitted, h1, h2]
  · intro x y _ hx h
    unfold fixedNeg at h
    obtain ⟨n, -, h⟩ := bind_eq_ok.1 h
    cases h
    have : 0 ≤ t.convert n := by
      unfold IntTy.convert
      rw [if_neg (by simp [ht])]
      exact Int.emod_nonneg _ (by positivity)
    omega

/-- Case: minus 1.0 in `fixed_point<uint8_t,4>` on AVR is 15.0. -/
example : fixedNeg ⟨16, false, .inl rfl⟩ ⟨8, false, .inl rfl⟩ 16 = .ok 240 := by decide

/-! ## C125 swap, initializer_list, as -/

variable {α : Type}

/-- C125: `swap` exchanges the two objects and leaves everything else as it is, also if both are the same
object. -/
theorem C125_swap (m : List α) (a b : ℕ) (ha : a < m.length) (hb : b < m.length) :
    ∃ m', swap m a b = .ok m' ∧ m'.length = m.length ∧ m'[a]? = m[b]? ∧ m'[b]? = m[a]? ∧
      ∀ i, i ≠ a → i ≠ b → m'[i]? = m[i]? := by
  refine ⟨(m.set a m[b]).set b m[a], ?_, by simp, ?_, ?_, ?_⟩
  · unfold swap StdShims.read write
    rw [List.getElem?_eq_getElem ha, List.getElem?_eq_getElem hb]
    simp only [bind_ok]
    rw [if_pos ha, bind_ok, if_pos (by simpa using hb)]
  · by_cases h : a = b
    · subst h
      rw [List.getElem?_set_self (by simpa using ha), List.getElem?_eq_getElem ha]
    · rw [List.getElem?_set_ne (fun e => h e.symm), List.getElem?_set_self ha, List.getElem?_eq_getElem hb]
  · rw [List.getElem?_set_self (by simpa using hb), List.getElem?_eq_getElem ha]
  · intro i h1 h2
    rw [List.getElem?_set_ne (fun e => h2 e.symm), List.getElem?_set_ne (fun e => h1 e.symm)]

/-- C125: swapping is its own inverse and does not depend on the order of the arguments. -/
theorem C125_swap_involutive (m m' : List α) (a b : ℕ) (h : swap m a b = .ok m') :
    swap m' a b = .ok m ∧ swap m b a = .ok m' := by
  have hab : a < m.length ∧ b < m.length := by
    unfold swap StdShims.read at h
    obtain ⟨x, hx, h⟩ := bind_eq_ok.1 h
    obtain ⟨y, hy, h⟩ := bind_eq_ok.1 h
    constructor
    · by_contra hc
      rw [List.getElem?_eq_none (by omega)] at hx
      cases hx
    · by_contra hc
      rw [List.getElem?_eq_none (by omega)] at hy
      cases hy
  obtain ⟨m1, e1, l1, p1, q1, r1⟩ := C125_swap m a b hab.1 hab.2
  rw [h] at e1
  cases e1
  obtain ⟨m2, e2, l2, p2, q2, r2⟩ := C125_swap m' a b (by omega) (by omega)
  obtain ⟨m3, e3, l3, p3, q3, r3⟩ := C125_swap m b a hab.2 hab.1
  refine ⟨?_, ?_⟩
  · rw [e2]
    congr 1
    apply List.ext_getElem?
    intro i
    by_cases h1 : i = a
    · rw [h1, p2, q1]
    · by_cases h2 : i = b
      · rw [h2, q2, p1]
      · rw [r2 i h1 h2, r1 i h1 h2]
  · rw [e3]
    congr 1
    apply List.ext_getElem?
    intro i
    by_cases h1 : i = a
    · rw [h1, q3, p1]
    · by_cases h2 : i = b
      · rw [h2, p3, q1]
      · rw [r3 i h2 h1, r1 i h1 h2]

/-- Case. -/
example : swap [7, 1, 42] 0 2 = .ok [42, 1, 7] := rfl

/-- C125: the list of the AVR replacement spans the elements the compiler put there, and an empty one has
equal ends. -/
theorem C125_initializer_list (arr len : ℕ) :
    (InitList.make arr len).size = len ∧ (InitList.make arr len).begin_ = some arr ∧
      (InitList.make arr len).end_ = .ok (some (arr + len)) ∧
      InitList.empty.size = 0 ∧ InitList.empty.end_ = .ok InitList.empty.begin_ :=
  ⟨rfl, rfl, rfl, rfl, rfl⟩

private theorem copyFrom_list {T : Type} [CNum T] {N M : ℕ} (A : Mat T N M) (k : ℕ) (xs : List T) (B : Mat T N M)
    (h : A.copyFrom k xs = .ok B) (i : ℕ) :
    B.storage.toList[i]? = if k ≤ i ∧ i < k + xs.length then xs[i - k]? else A.storage.toList[i]? := by
  induction xs generalizing A k with
  | nil =>
    cases h
    rw [if_neg (by simp only [List.length_nil]; omega)]
  | cons x xs ih =>
    obtain ⟨A', hA, h⟩ := bind_eq_ok.1 h
    rw [ih A' (k + 1) h]
    unfold Mat.set1 at hA
    split at hA
    · rename_i hk
      cases hA
      by_cases hi : i = k
      · subst hi
        rw [if_neg (by omega), if_pos (by simp)]
        simp
      · by_cases h1 : k + 1 ≤ i ∧ i < k + 1 + xs.length
        · rw [if_pos h1, if_pos (by simp only [List.length_cons]; omega),
            show i - k = (i - (k + 1)) + 1 by omega, List.getElem?_cons_succ]
        · rw [if_neg h1, if_neg (by simp only [List.length_cons]; omega)]
          simp [Ne.symm hi]
    · cases hA

private theorem copyFrom_length {T : Type} [CNum T] {N M : ℕ} (A : Mat T N M) (k : ℕ) (xs : List T) (B : Mat T N M)
    (h : A.copyFrom k xs = .ok B) : xs = [] ∨ k + xs.length ≤ N * M := by
  induction xs generalizing A k with
  | nil => exact .inl rfl
  | cons x xs ih =>
    obtain ⟨A', hA, h⟩ := bind_eq_ok.1 h
    right
    unfold Mat.set1 at hA
    split at hA
    · rename_i hk
      rcases ih A' (k + 1) h with rfl | h'
      · simp only [List.length_cons, List.length_nil]
        omega
      · simp only [List.length_cons]
        omega
    · cases hA

/-- C125: constructing a matrix in memory from such a list writes the elements of the matrix that the model of
the constructor (`Mat.ofList`) has, and nothing else. -/
theorem C125_matrix_construction {T : Type} [CNum T] (N M : ℕ) (m : List T) (arr len dst : ℕ) (A : Mat T N M)
    (h1 : arr + len ≤ m.length) (h2 : dst + N * M ≤ m.length) (h3 : dst + N * M ≤ arr ∨ arr + len ≤ dst)
    (h0 : ∀ i < N * M, m[dst + i]? = some CNum.zero)
    (hA : Mat.ofList N M ((m.drop arr).take len) = .ok A) :
    ∃ m', constructMatrix m (InitList.make arr len) dst = .ok m' ∧
      (∀ i < N * M, m'[dst + i]? = A.storage.toList[i]?) ∧
      ∀ i, i < dst ∨ dst + N * M ≤ i → m'[i]? = m[i]? := by
  have hlen : ((m.drop arr).take len).length = len := by simp; omega
  have hle : len ≤ N * M := by
    rcases copyFrom_length _ _ _ _ hA with h | h
    · rw [h] at hlen
      simp at hlen
      omega
    · omega
  obtain ⟨m', e, hl, hv, hr⟩ := C55_copy m arr (arr + len) dst (by omega) h1 (by omega) (by omega)
  rw [Nat.add_sub_cancel_left] at hv hr
  refine ⟨m', ?_, ?_, ?_⟩
  · show (do .ok (← Std20.copy m arr (arr + len) dst).1 : Res (List T)) = _
    rw [e, bind_ok]
  · intro i hi
    have key := copyFrom_list _ _ _ _ hA i
    rw [hlen] at key
    rw [key]
    by_cases h : i < len
    · rw [if_pos (by omega), hv i h, Nat.sub_zero, List.getElem?_take_of_lt h, List.getElem?_drop]
    · rw [if_neg (by omega), hr (dst + i) (by omega), h0 i hi]
      simp [Mat.fill, hi]
  · intro i hi
    exact hr i (by omega)

/-- Case: `matrix<int,1,2>{ 5 }`, the list at the beginning of the memory. -/
example : constructMatrix [5, 9, 0, 0] (InitList.make 0 1) 2 = .ok [5, 9, 5, 0] := by decide +kernel

/-- C125: `as` keeps a value that the type has, and otherwise changes it by a multiple of `2^bits`; the result
is a value of the type. -/
theorem C125_as (t : IntTy) (v : ℤ) :
    t.Value (as t v) ∧ (t.Value v → as t v = v) ∧ (2 : ℤ) ^ t.bits ∣ v - as t v := by
  have hb : 0 < t.bits := by rcases t.bits_eq with h | h | h | h <;> omega
  have hp : (2 : ℤ) ^ t.bits = 2 * 2 ^ (t.bits - 1) := by
    rw [← pow_succ', Nat.sub_add_cancel hb]
  have hq : (0 : ℤ) < 2 ^ (t.bits - 1) := by positivity
  refine ⟨?_, convert_value t v, ?_⟩
  · rw [value_iff]
    unfold StdShims.as IntTy.convert IntTy.lo IntTy.hi
    have h1 := Int.emod_nonneg (v + 2 ^ (t.bits - 1)) (show (2 : ℤ) ^ t.bits ≠ 0 by positivity)
    have h2 := Int.emod_lt_of_pos (v + 2 ^ (t.bits - 1)) (show (0 : ℤ) < 2 ^ t.bits by positivity)
    have h3 := Int.emod_nonneg v (show (2 : ℤ) ^ t.bits ≠ 0 by positivity)
    have h4 := Int.emod_lt_of_pos v (show (0 : ℤ) < 2 ^ t.bits by positivity)
    cases t.signed <;> simp only [Bool.false_eq_true, if_false, if_true] <;> omega
  · unfold StdShims.as IntTy.convert
    cases t.signed <;> simp only [Bool.false_eq_true, if_false, if_true]
    · exact Int.dvd_self_sub_emod
    · have := Int.dvd_self_sub_emod (x := v + 2 ^ (t.bits - 1)) (m := 2 ^ t.bits)
      rwa [show v - ((v + 2 ^ (t.bits - 1)) % 2 ^ t.bits - 2 ^ (t.bits - 1)) =
        v + 2 ^ (t.bits - 1) - (v + 2 ^ (t.bits - 1)) % 2 ^ t.bits by ring]

/-- C125: of a floating-point number `as` keeps the integer part, the fraction having the sign of the number;
it is undefined exactly if that is not a value of the type. -/
theorem C125_as_float (t : IntTy) (x : ℚ) (n : ℤ) :
    asOfFloat t x = .ok n ↔ t.Value n ∧ (0 ≤ x → n ≤ x ∧ x < n + 1) ∧ (x < 0 → (n : ℚ) - 1 < x ∧ x ≤ n) := by
  have hf : (if 0 ≤ x then ⌊x⌋ else ⌈x⌉) = n ↔ (0 ≤ x → n ≤ x ∧ x < n + 1) ∧ (x < 0 → (n : ℚ) - 1 < x ∧ x ≤ n) := by
    by_cases h : 0 ≤ x
    · rw [if_pos h, Int.floor_eq_iff]
      exact ⟨fun e => ⟨fun _ => e, fun h' => absurd h (not_le.2 h')⟩, fun e => e.1 h⟩
    · rw [if_neg h, Int.ceil_eq_iff]
      exact ⟨fun e => ⟨fun h' => absurd h' h, fun _ => e⟩, fun e => e.2 (not_le.1 h)⟩
  rw [← hf, value_iff]
  unfold asOfFloat
  generalize (if 0 ≤ x then ⌊x⌋ else ⌈x⌉) = v
  simp only
  split
  · rename_i h
    constructor
    · intro e
      cases e
      exact ⟨h, rfl⟩
    · rintro ⟨-, e⟩
      rw [e]
  · rename_i h
    constructor
    · intro e
      cases e
    · rintro ⟨h', e⟩
      rw [e] at h
      exact absurd h' h

/-- Case. -/
example : asOfFloat ⟨8, true, .inl rfl⟩ (77 / 10) = .ok 7 ∧ asOfFloat ⟨8, true, .inl rfl⟩ (-77 / 10) = .ok (-7) ∧
    asOfFloat ⟨8, true, .inl rfl⟩ 128 = .error .overflow := by decide +kernel

end Verif
