import Mathlib.Tactic.FieldSimp
import Mathlib.Tactic.Linarith
import Mathlib.Tactic.Positivity
import Mathlib.Algebra.Order.Ring.Int
import Verif.Lemmas.Loop
import Verif.Spec.FixedPoint

/- Lemmas on the integer arithmetic behind fixed point. -/

namespace Verif

theorem checked_ok {n : Nat} {v : Int} (h : -2 ^ (n - 1) ≤ v) (h' : v < 2 ^ (n - 1)) :
    checked n v = .ok v := if_pos ⟨h, h'⟩

theorem checked_err {n : Nat} {v : Int} (h : v < -2 ^ (n - 1) ∨ 2 ^ (n - 1) ≤ v) :
    checked n v = .error .overflow := if_neg (by omega)

theorem checked_eq_ok {n : Nat} {v r : Int} (h : checked n v = .ok r) :
    r = v ∧ -2 ^ (n - 1) ≤ v ∧ v < 2 ^ (n - 1) := by
  unfold checked at h
  split at h
  · rename_i hc
    exact ⟨(Except.ok.inj h).symm, hc⟩
  · cases h

theorem power2_ok {n : Nat} (h : n ≤ 62) : power2 n = .ok (2 ^ n) := by
  induction n with
  | zero => rfl
  | succ n ih =>
    have hpos : (0 : Int) < 2 ^ n := by positivity
    have hle : (2 : Int) ^ n ≤ 2 ^ 61 := by
      apply pow_le_pow_right₀ (by norm_num)
      omega
    rw [power2, ih (by omega), bind_ok, checked_ok]
    · rw [pow_succ]
    · norm_num; omega
    · norm_num at hle ⊢; omega

/-- From 63 fractional bits on, `power2` overflows `int64_t`. -/
theorem power2_overflow {n : Nat} (h : 63 ≤ n) : power2 n = .error .overflow := by
  induction n, h using Nat.le_induction with
  | base =>
    rw [power2, power2_ok (le_refl 62), bind_ok, checked_err]
    right
    norm_num
  | succ n _ ih => rw [power2, ih]; rfl

namespace Width

theorem bits_pos (w : Width) : 0 < w.bits := by cases w <;> decide
theorem promote_eq (w : Width) : w.promote = 2 * w.bits := by cases w <;> rfl

end Width

namespace Fx
variable {w : Width} {F : Nat}

/-- Half the range of the representation. -/
def half (w : Width) : Int := 2 ^ (w.bits - 1)

theorem half_pos (w : Width) : 0 < half w := by unfold half; positivity

theorem two_half (w : Width) : (2 : Int) ^ w.bits = 2 * half w := by
  cases w <;> decide

theorem rep_ge (x : Fx w F) : -half w ≤ x.storage.toInt := BitVec.le_toInt _
theorem rep_lt (x : Fx w F) : x.storage.toInt < half w := BitVec.toInt_lt

theorem narrow_rep {v : Int} (h : -half w ≤ v) (h' : v < half w) :
    (narrow w F v).storage.toInt = v :=
  BitVec.toInt_ofInt_eq_self w.bits_pos h h'

theorem narrow_mod (v : Int) : ∃ k : Int, (narrow w F v).storage.toInt = v + k * (2 * half w) := by
  refine ⟨-(v.bdiv (2 ^ w.bits)), ?_⟩
  unfold narrow
  rw [BitVec.toInt_ofInt, Int.bmod_eq_self_sub_mul_bdiv]
  push_cast
  rw [two_half]
  ring

theorem narrow_above {v : Int} (h : half w ≤ v) (h' : v < 3 * half w) :
    (narrow w F v).storage.toInt = v - 2 * half w := by
  obtain ⟨k, hk⟩ := narrow_mod (w := w) (F := F) v
  have h1 := rep_ge (narrow w F v)
  have h2 := rep_lt (narrow w F v)
  have hp := half_pos w
  have k1 : k < 0 := by
    by_contra hc
    have : 0 ≤ k * (2 * half w) := mul_nonneg (by omega) (by omega)
    omega
  have k2 : -2 < k := by
    by_contra hc
    have : (k + 2) * (2 * half w) ≤ 0 := mul_nonpos_of_nonpos_of_nonneg (by omega) (by omega)
    linarith
  have : k = -1 := by omega
  subst this
  omega

theorem narrow_below {v : Int} (h : v < -half w) (h' : -3 * half w ≤ v) :
    (narrow w F v).storage.toInt = v + 2 * half w := by
  obtain ⟨k, hk⟩ := narrow_mod (w := w) (F := F) v
  have h1 := rep_ge (narrow w F v)
  have h2 := rep_lt (narrow w F v)
  have hp := half_pos w
  have k1 : 0 < k := by
    by_contra hc
    have : k * (2 * half w) ≤ 0 := mul_nonpos_of_nonpos_of_nonneg (by omega) (by omega)
    omega
  have k2 : k < 2 := by
    by_contra hc
    have : 0 ≤ (k - 2) * (2 * half w) := mul_nonneg (by omega) (by omega)
    linarith
  have : k = 1 := by omega
  subst this
  omega

theorem arith_ge (p : Platform) (n : Nat) : n ≤ p.arith n := le_max_left _ _

theorem pow_mono {a b : Nat} (h : a ≤ b) : (2 : Int) ^ a ≤ 2 ^ b :=
  pow_le_pow_right₀ (by norm_num) h

/-- Numbers representable in `n` bits pass a check of a wider type. -/
theorem checked_wide {n k : Nat} {v : Int} (hk : n ≤ k) (h : -2 ^ (n - 1) ≤ v)
    (h' : v < 2 ^ (n - 1)) : checked k v = .ok v := by
  have : (2 : Int) ^ (n - 1) ≤ 2 ^ (k - 1) := pow_mono (by omega)
  exact checked_ok (by omega) (by omega)

theorem val_le_iff (x : Fx w F) (n : Int) : x.val ≤ (n : ℚ) / 2 ^ F ↔ x.storage.toInt ≤ n := by
  unfold val
  rw [div_le_div_iff_of_pos_right (by positivity)]
  exact_mod_cast Iff.rfl

theorem min_val : (min w F).val = (-half w : Int) / 2 ^ F := by
  unfold val min
  rw [BitVec.toInt_ofInt_eq_self w.bits_pos (le_refl _)
    (by have := half_pos w; unfold half at this; omega)]
  rfl

theorem max_val : (max w F).val = (half w - 1 : Int) / 2 ^ F := by
  unfold val max
  rw [BitVec.toInt_ofInt_eq_self w.bits_pos
    (by have := half_pos w; unfold half at this; omega) (by omega)]
  rfl

/-- A multiple of `2^-F` is in range iff its representation is. -/
theorem inRange_iff (n : Int) :
    ((min w F).val ≤ (n : ℚ) / 2 ^ F ∧ (n : ℚ) / 2 ^ F ≤ (max w F).val) ↔
      (-half w ≤ n ∧ n < half w) := by
  rw [min_val, max_val, div_le_div_iff_of_pos_right (by positivity),
    div_le_div_iff_of_pos_right (by positivity), Int.cast_le, Int.cast_le]
  omega

theorem val_narrow {n : Int} (h : -half w ≤ n) (h' : n < half w) :
    (narrow w F n).val = (n : ℚ) / 2 ^ F := by
  unfold val
  rw [narrow_rep h h']

theorem val_inj {a b : Fx w F} (h : a.val = b.val) : a = b := by
  unfold val at h
  have hp : (2 : ℚ) ^ F ≠ 0 := by positivity
  rw [div_left_inj' hp] at h
  ext1
  exact BitVec.toInt_inj.1 (by exact_mod_cast h)

/-- Products of two representations fit the promoted type. -/
theorem mul_fits (a b : Fx w F) :
    -2 ^ (w.promote - 1) ≤ a.storage.toInt * b.storage.toInt ∧
      a.storage.toInt * b.storage.toInt < 2 ^ (w.promote - 1) := by
  have ha := rep_ge a
  have ha' := rep_lt a
  have hb := rep_ge b
  have hb' := rep_lt b
  have hp : (2 : Int) ^ (w.promote - 1) = 2 * (half w * half w) := by cases w <;> decide
  have hh := half_pos w
  have hsq : 0 < half w * half w := mul_pos hh hh
  have h : |a.storage.toInt * b.storage.toInt| ≤ half w * half w := by
    rw [abs_mul]
    exact mul_le_mul (abs_le.2 ⟨ha, ha'.le⟩) (abs_le.2 ⟨hb, hb'.le⟩) (abs_nonneg _) hh.le
  rw [hp]
  have := abs_le.1 h
  constructor <;> linarith [this.1, this.2]

/-- Shifted representations fit the promoted type, up to all but the sign bit fractional. -/
theorem shl_fits (a : Fx w F) (hF : F < w.bits) :
    -2 ^ (w.promote - 1) ≤ a.storage.toInt * 2 ^ F ∧
      a.storage.toInt * 2 ^ F < 2 ^ (w.promote - 1) ∧
      |a.storage.toInt * 2 ^ F| < 2 ^ (w.promote - 1) := by
  have ha := rep_ge a
  have ha' := rep_lt a
  have hp : (2 : Int) ^ (w.promote - 1) = 2 * (half w * half w) := by cases w <;> decide
  have hh := half_pos w
  have hsq : 0 < half w * half w := mul_pos hh hh
  have hF' : (2 : Int) ^ F ≤ half w := pow_mono (by omega)
  have hF0 : (0 : Int) < 2 ^ F := by positivity
  have h : |a.storage.toInt * 2 ^ F| ≤ half w * half w := by
    rw [abs_mul, abs_of_pos hF0]
    exact mul_le_mul (abs_le.2 ⟨ha, ha'.le⟩) hF' hF0.le hh.le
  rw [hp]
  have := abs_le.1 h
  exact ⟨by linarith [this.1], by linarith [this.2], by linarith⟩

theorem range_eq (k : Int) : (k : ℚ) * range w F = ((k * (2 * half w) : Int) : ℚ) / 2 ^ F := by
  unfold range ulp
  have : (2 : ℚ) ^ w.bits = ((2 * half w : Int) : ℚ) := by rw [← two_half]; push_cast; rfl
  rw [this]
  push_cast
  ring

theorem add_val_eq (a b : Fx w F) :
    a.val + b.val = ((a.storage.toInt + b.storage.toInt : Int) : ℚ) / 2 ^ F := by
  unfold val; push_cast; ring

theorem sub_val_eq (a b : Fx w F) :
    a.val - b.val = ((a.storage.toInt - b.storage.toInt : Int) : ℚ) / 2 ^ F := by
  unfold val; push_cast; ring

theorem neg_val_eq (a : Fx w F) : -a.val = ((-a.storage.toInt : Int) : ℚ) / 2 ^ F := by
  unfold val; push_cast; ring

/-- Narrowing after checked arithmetic, the common core of addition, subtraction and negation. -/
theorem narrow_checked_ok {v : Int} {k : Nat} (hk : w.bits ≤ k)
    (h : (min w F).val ≤ (v : ℚ) / 2 ^ F) (h' : (v : ℚ) / 2 ^ F ≤ (max w F).val) :
    ∃ c : Fx w F, (do .ok (narrow w F (← checked k v)) : Res (Fx w F)) = .ok c ∧
      c.val = (v : ℚ) / 2 ^ F := by
  obtain ⟨h1, h2⟩ := (inRange_iff v).1 ⟨h, h'⟩
  refine ⟨narrow w F v, ?_, val_narrow h1 h2⟩
  rw [checked_wide hk h1 h2]
  rfl

theorem above_iff (v : Int) : (max w F).val < (v : ℚ) / 2 ^ F ↔ half w ≤ v := by
  rw [max_val, div_lt_div_iff_of_pos_right (by positivity), Int.cast_lt]
  omega

theorem below_iff (v : Int) : (v : ℚ) / 2 ^ F < (min w F).val ↔ v < -half w := by
  rw [min_val, div_lt_div_iff_of_pos_right (by positivity), Int.cast_lt]

theorem wide_half {k : Nat} (hk : w.bits < k) : 2 * half w ≤ 2 ^ (k - 1) := by
  rw [← two_half]
  exact pow_mono (by omega)

theorem narrow_checked_above {v : Int} {k : Nat} (hk : w.bits < k) (hv : v < 2 * half w)
    (h : (max w F).val < (v : ℚ) / 2 ^ F) :
    ∃ c : Fx w F, (do .ok (narrow w F (← checked k v)) : Res (Fx w F)) = .ok c ∧
      c.val = (v : ℚ) / 2 ^ F - range w F := by
  have h1 := (above_iff v).1 h
  have h2 := wide_half hk
  have h3 := half_pos w
  refine ⟨narrow w F v, ?_, ?_⟩
  · rw [checked_ok (by omega) (by omega)]
    rfl
  · have := range_eq (w := w) (F := F) 1
    rw [Int.cast_one, one_mul] at this
    rw [this, val, narrow_above h1 (by omega), ← sub_div]
    push_cast
    ring

theorem narrow_checked_below {v : Int} {k : Nat} (hk : w.bits < k) (hv : -(2 * half w) ≤ v)
    (h : (v : ℚ) / 2 ^ F < (min w F).val) :
    ∃ c : Fx w F, (do .ok (narrow w F (← checked k v)) : Res (Fx w F)) = .ok c ∧
      c.val = (v : ℚ) / 2 ^ F + range w F := by
  have h1 := (below_iff v).1 h
  have h2 := wide_half hk
  have h3 := half_pos w
  refine ⟨narrow w F v, ?_, ?_⟩
  · rw [checked_ok (by omega) (by omega)]
    rfl
  · have := range_eq (w := w) (F := F) 1
    rw [Int.cast_one, one_mul] at this
    rw [this, val, narrow_below h1 (by omega), ← add_div]
    push_cast
    ring

theorem narrow_checked_err {v : Int} {k : Nat} (hk : k = w.bits)
    (h : (v : ℚ) / 2 ^ F < (min w F).val ∨ (max w F).val < (v : ℚ) / 2 ^ F) :
    (do .ok (narrow w F (← checked k v)) : Res (Fx w F)) = .error .overflow := by
  rw [above_iff, below_iff] at h
  subst hk
  rw [checked_err h]
  rfl

theorem val_bounds (x : Fx w F) : (min w F).val ≤ x.val ∧ x.val ≤ (max w F).val :=
  (inRange_iff x.storage.toInt).2 ⟨rep_ge x, rep_lt x⟩

theorem rep_ne_zero {b : Fx w F} (h : b.val ≠ 0) : b.storage.toInt ≠ 0 := by
  intro h0
  apply h
  unfold val
  rw [h0]
  simp

theorem rep_nonneg {a : Fx w F} (h : 0 ≤ a.val) : 0 ≤ a.storage.toInt := by
  unfold val at h
  have := (le_div_iff₀ (by positivity : (0 : ℚ) < 2 ^ F)).1 h
  rw [zero_mul] at this
  exact_mod_cast this

/-- The representation of a product. -/
theorem mul_rep (p : Platform) (hF : F < w.promote) (a b : Fx w F) :
    ∃ c, mul p a b = .ok c ∧ c = narrow w F (a.storage.toInt * b.storage.toInt / 2 ^ F) := by
  refine ⟨_, ?_, rfl⟩
  obtain ⟨h1, h2⟩ := mul_fits a b
  unfold mul shr
  simp only [checked_wide (arith_ge p _) h1 h2, bind_ok,
    if_pos (lt_of_lt_of_le hF (arith_ge p _))]

theorem floor_bounds (a b : Fx w F) :
    ((a.storage.toInt * b.storage.toInt / 2 ^ F : Int) : ℚ) / 2 ^ F ≤ a.val * b.val ∧
      a.val * b.val < ((a.storage.toInt * b.storage.toInt / 2 ^ F : Int) : ℚ) / 2 ^ F + ulp F := by
  have hp : (0 : ℚ) < 2 ^ F := by positivity
  have hpi : (0 : Int) < 2 ^ F := by positivity
  have e : a.val * b.val = ((a.storage.toInt * b.storage.toInt : Int) : ℚ) / 2 ^ F / 2 ^ F := by
    unfold val; push_cast; field_simp
  have h1 := Int.ediv_mul_le (a.storage.toInt * b.storage.toInt) hpi.ne'
  have h2 := Int.lt_ediv_add_one_mul_self (a.storage.toInt * b.storage.toInt) hpi
  unfold ulp
  rw [e, ← add_div, div_le_div_iff_of_pos_right hp, div_lt_div_iff_of_pos_right hp,
    le_div_iff₀ hp, div_lt_iff₀ hp]
  exact ⟨by exact_mod_cast h1, by exact_mod_cast h2⟩

/-- `tdiv` is the quotient truncated toward zero. -/
theorem tdiv_bounds (x y : Int) (hy : y ≠ 0) :
    |((x.tdiv y : Int) : ℚ)| ≤ |(x : ℚ) / y| ∧ |(x : ℚ) / y| < |((x.tdiv y : Int) : ℚ)| + 1 ∧
      0 ≤ ((x.tdiv y : Int) : ℚ) * ((x : ℚ) / y) := by
  have hy0 : (0 : ℚ) < |(y : ℚ)| := abs_pos.2 (by exact_mod_cast hy)
  have e : |x.tdiv y| = |x| / |y| := by
    rw [← Int.natCast_natAbs, ← Int.natCast_natAbs, ← Int.natCast_natAbs, Int.natAbs_tdiv]
    rfl
  have hyi : 0 < |y| := abs_pos.2 hy
  have h1 := Int.ediv_mul_le |x| hyi.ne'
  have h2 := Int.lt_ediv_add_one_mul_self |x| hyi
  rw [← e] at h1 h2
  rw [abs_div, le_div_iff₀ hy0, div_lt_iff₀ hy0]
  refine ⟨by exact_mod_cast h1, by exact_mod_cast h2, ?_⟩
  have h3 : 0 ≤ x.tdiv y * (x * y) := by
    rcases le_total 0 x with hx | hx <;> rcases le_total 0 y with hy | hy
    · exact mul_nonneg (Int.tdiv_nonneg hx hy) (mul_nonneg hx hy)
    · exact mul_nonneg_of_nonpos_of_nonpos (Int.tdiv_nonpos_of_nonneg_of_nonpos hx hy)
        (mul_nonpos_of_nonneg_of_nonpos hx hy)
    · exact mul_nonneg_of_nonpos_of_nonpos (by
        have := Int.tdiv_nonneg (a := -x) (by omega) hy
        rw [Int.neg_tdiv] at this
        omega) (mul_nonpos_of_nonpos_of_nonneg hx hy)
    · exact mul_nonneg (Int.tdiv_nonneg_of_nonpos_of_nonpos hx hy)
        (mul_nonneg_of_nonpos_of_nonpos hx hy)
  have hy2 : (0 : ℚ) < (y : ℚ) * y := by
    have : (y : ℚ) ≠ 0 := by exact_mod_cast hy
    exact mul_self_pos.2 this
  have e3 : ((x.tdiv y : Int) : ℚ) * ((x : ℚ) / y) =
      ((x.tdiv y * (x * y) : Int) : ℚ) / (y * y) := by
    have : (y : ℚ) ≠ 0 := by exact_mod_cast hy
    push_cast
    field_simp
  rw [e3]
  exact div_nonneg (by exact_mod_cast h3) hy2.le

theorem trunc_bounds (a b : Fx w F) (hb : b.storage.toInt ≠ 0) :
    |(((a.storage.toInt * 2 ^ F).tdiv b.storage.toInt : Int) : ℚ) / 2 ^ F| ≤ |a.val / b.val| ∧
      |a.val / b.val| <
        |(((a.storage.toInt * 2 ^ F).tdiv b.storage.toInt : Int) : ℚ) / 2 ^ F| + ulp F ∧
      0 ≤ (((a.storage.toInt * 2 ^ F).tdiv b.storage.toInt : Int) : ℚ) / 2 ^ F * (a.val / b.val) := by
  obtain ⟨h1, h2, h3⟩ := tdiv_bounds (a.storage.toInt * 2 ^ F) b.storage.toInt hb
  have hp : (0 : ℚ) < 2 ^ F := by positivity
  have hb' : (b.storage.toInt : ℚ) ≠ 0 := by exact_mod_cast hb
  have e : a.val / b.val =
      ((a.storage.toInt * 2 ^ F : Int) : ℚ) / (b.storage.toInt : ℚ) / 2 ^ F := by
    unfold val; push_cast; field_simp
  unfold ulp
  rw [e, abs_div, abs_div (_ / _), abs_of_pos hp, ← add_div, div_le_div_iff_of_pos_right hp,
    div_lt_div_iff_of_pos_right hp, div_mul_div_comm]
  exact ⟨h1, h2, div_nonneg h3 (by positivity)⟩

theorem shl_ok (p : Platform) (hF : F < w.bits) (a : Fx w F)
    (hs : p.strictShift = false ∨ 0 ≤ a.storage.toInt) :
    p.shl (p.arith w.promote) a.storage.toInt F = .ok (a.storage.toInt * 2 ^ F) := by
  obtain ⟨h1, h2, -⟩ := shl_fits a hF
  have h3 := arith_ge p w.promote
  have h4 := w.promote_eq
  unfold Platform.shl
  rw [if_neg (by omega), if_neg, checked_wide h3 h1 h2]
  rintro ⟨h, h'⟩
  rcases hs with hs | hs
  · rw [hs] at h
    cases h
  · omega

/-- The representation of a quotient. -/
theorem div_rep (p : Platform) (hF : F < w.bits) (a b : Fx w F) (hb : b.storage.toInt ≠ 0)
    (hs : p.strictShift = false ∨ 0 ≤ a.storage.toInt) :
    ∃ c, div p a b = .ok c ∧
      c = narrow w F ((a.storage.toInt * 2 ^ F).tdiv b.storage.toInt) := by
  refine ⟨_, ?_, rfl⟩
  obtain ⟨-, -, h3⟩ := shl_fits a hF
  have habs : |(a.storage.toInt * 2 ^ F).tdiv b.storage.toInt| ≤ |a.storage.toInt * 2 ^ F| := by
    rw [← Int.natCast_natAbs, ← Int.natCast_natAbs, Int.natAbs_tdiv]
    exact_mod_cast Nat.div_le_self _ _
  have h4 := abs_lt.1 (lt_of_le_of_lt habs h3)
  unfold div divInt
  simp only [shl_ok p hF a hs, bind_ok, if_neg hb,
    checked_wide (arith_ge p _) h4.1.le h4.2]

/-- Rounding as done by the constructor from a floating-point number. -/
theorem round_spec (y v : ℝ) (hv : 0 ≤ v ↔ 0 ≤ y) :
    ∃ r : Int, (∀ n, truncTo n (y + (if 0 ≤ v then 1 / 2 else -1 / 2)) = checked n r) ∧
      |(r : ℝ) - y| ≤ 1 / 2 ∧ (|(r : ℝ) - y| = 1 / 2 → |y| < |(r : ℝ)|) ∧
      (∀ h : Int, (y < h - 1 / 2 ↔ r < h) ∨ h ≤ 0) ∧ (∀ h : Int, (-h - 1 / 2 < y ↔ -h ≤ r) ∨ h < 0) := by
  by_cases h0 : 0 ≤ v
  · have hy := hv.1 h0
    have f1 := Int.floor_le (y + 1 / 2)
    have f2 := Int.lt_floor_add_one (y + 1 / 2)
    have f3 : 0 ≤ ⌊y + 1 / 2⌋ := Int.floor_nonneg.2 (by linarith)
    refine ⟨⌊y + 1 / 2⌋, ?_, ?_, ?_, ?_, ?_⟩
    · intro n
      unfold truncTo
      rw [if_pos h0, if_pos (by linarith)]
    · rw [abs_le]
      constructor <;> linarith
    · intro he
      rcases eq_or_eq_neg_of_abs_eq he with h | h
      · rw [abs_of_nonneg hy, abs_of_nonneg (by exact_mod_cast f3)]
        linarith
      · linarith
    · intro h
      left
      rw [Int.floor_lt]
      constructor <;> intro <;> linarith
    · intro h
      by_cases hh : h < 0
      · exact .inr hh
      · left
        have : (0 : ℝ) ≤ h := by exact_mod_cast not_lt.1 hh
        exact ⟨fun _ => by omega, fun _ => by linarith⟩
  · have hy : y < 0 := lt_of_not_ge fun h => h0 (hv.2 h)
    have f1 := Int.le_ceil (y - 1 / 2)
    have f2 := Int.ceil_lt_add_one (y - 1 / 2)
    have f3 : ⌈y - 1 / 2⌉ ≤ 0 := Int.ceil_le.2 (by push_cast; linarith)
    refine ⟨⌈y - 1 / 2⌉, ?_, ?_, ?_, ?_, ?_⟩
    · intro n
      unfold truncTo
      rw [if_neg h0, if_neg (by linarith)]
      congr 2
      ring
    · rw [abs_le]
      constructor <;> linarith
    · intro he
      rcases eq_or_eq_neg_of_abs_eq he with h | h
      · linarith
      · rw [abs_of_neg hy, abs_of_nonpos (by exact_mod_cast f3)]
        linarith
    · intro h
      by_cases hh : h ≤ 0
      · exact .inr hh
      · left
        have : (1 : ℝ) ≤ h := by exact_mod_cast not_le.1 hh
        exact ⟨fun _ => by omega, fun _ => by linarith⟩
    · intro h
      left
      have : -h ≤ ⌈y - 1 / 2⌉ ↔ -h - 1 < ⌈y - 1 / 2⌉ := by omega
      rw [this, Int.lt_ceil]
      push_cast
      constructor <;> intro <;> linarith

end Fx
end Verif
