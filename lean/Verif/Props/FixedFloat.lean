import Mathlib.Tactic.Linarith
import Verif.Lemmas.FixedPoint
import Verif.Lemmas.Ieee
import Verif.Model.FixedFloat
import Verif.Props.FixedPoint

/-
Property C119: conversions between fixed point and floating point (include/num/fixed-point.hpp:104-138).
-/

namespace Verif
open Ieee Fx

/-! ## C119 Fixed point and floating point -/

/-- A format wide enough for the numbers `2^-63` to `2^63`. -/
def Ieee.Format.Wide (f : Format) : Prop := f.q ≤ -63 ∧ (2 : ℚ) ^ 63 ≤ f.max

theorem wide64 : binary64.Wide := by
  refine ⟨by decide, ?_⟩
  unfold Format.max
  have h : (2 : ℚ) ^ binary64.top = 2 ^ 11 * 2 ^ (960 : ℤ) := by
    rw [← zpow_natCast, ← zpow_add₀ (by norm_num)]; rfl
  have h2 : (1 : ℚ) ≤ 2 ^ (960 : ℤ) := one_le_zpow₀ (by norm_num) (by decide)
  rw [h, show binary64.p = 53 from rfl, ← mul_assoc]
  calc (2 : ℚ) ^ 63 ≤ ((2 ^ 53 - 1) * 2 ^ 11) * 1 := by norm_num
    _ ≤ _ := mul_le_mul_of_nonneg_left h2 (by norm_num)

theorem wide32 : binary32.Wide := by
  refine ⟨by decide, ?_⟩
  unfold Format.max
  have h : (2 : ℚ) ^ binary32.top = 2 ^ 100 * 2 ^ (4 : ℤ) := by
    rw [← zpow_natCast, ← zpow_add₀ (by norm_num)]; rfl
  rw [h, show binary32.p = 24 from rfl]
  norm_num

variable {f : Format} {w : Width} {F : Nat}

private theorem rep_of {n e : ℤ} (hn : |n| < 2 ^ f.p) (he : f.q ≤ e) (hm : |(n : ℚ) * 2 ^ e| ≤ f.max) :
    Rep f (n * 2 ^ e) := ⟨⟨n, e, hn, he, rfl⟩, hm⟩

private theorem ofRat_rep {x : ℚ} (h : Rep f x) : ∃ c, Flt.ofRat f x = .ok c ∧ c.val = x :=
  ⟨⟨x, h⟩, Flt.ofRat_val ⟨x, h⟩, rfl⟩

private theorem pow_rep (hf : f.Wide) {k : Nat} (hk : k ≤ 62) : Rep f (2 ^ k) := by
  have := rep_of (f := f) (n := 1) (e := k) (by
    rw [abs_one]; exact one_lt_pow₀ (by norm_num) (by have := f.two_le; omega)) (by have := hf.1; omega) (by
    rw [Int.cast_one, one_mul, zpow_natCast, abs_of_nonneg (by positivity)]
    exact (pow_le_pow_right₀ (by norm_num) (by omega)).trans hf.2)
  simpa using this

private theorem half_le (w : Width) : half w ≤ 2 ^ 31 := by cases w <;> decide

private theorem storage_abs (x : Fx w F) : |(x.storage.toInt : ℚ)| ≤ 2 ^ 31 := by
  have h1 := rep_ge x
  have h2 := rep_lt x
  have h3 := half_le w
  have : |x.storage.toInt| ≤ 2 ^ 31 := abs_le.2 ⟨by omega, by omega⟩
  exact_mod_cast this

/-- The number represented has the digits for the format. -/
private theorem val_rep (hf : f.Wide) (hF : F ≤ 62) (x : Fx w F) (hx : |x.storage.toInt| < 2 ^ f.p) :
    Rep f x.storage.toInt ∧ Rep f x.val := by
  have h := storage_abs x
  have hm : (2 : ℚ) ^ 31 ≤ f.max := (by norm_num : (2 : ℚ) ^ 31 ≤ 2 ^ 63).trans hf.2
  have key (k : Nat) (hk : k ≤ 62) : Rep f ((x.storage.toInt : ℚ) / 2 ^ k) := by
    have := rep_of (f := f) (e := -k) hx (by have := hf.1; omega) (by
      rw [zpow_neg, zpow_natCast, ← div_eq_mul_inv, abs_div, abs_of_pos (by positivity : (0 : ℚ) < 2 ^ k)]
      refine (div_le_self (abs_nonneg _) (one_le_pow₀ (by norm_num))).trans (h.trans hm))
    rwa [zpow_neg, zpow_natCast, ← div_eq_mul_inv] at this
  exact ⟨by simpa using key 0 (by omega), key F hF⟩

private theorem asFlt_eq (hf : f.Wide) (hF : F ≤ 62) (x : Fx w F) (hx : |x.storage.toInt| < 2 ^ f.p) :
    ∃ d, asFlt f x = .ok d ∧ d.val = x.val := by
  obtain ⟨r1, r2⟩ := val_rep hf hF x hx
  obtain ⟨a, ha, ha'⟩ := ofRat_rep r1
  obtain ⟨b, hb, hb'⟩ := ofRat_rep (pow_rep hf hF)
  obtain ⟨c, hc, hc'⟩ := ofRat_rep r2
  refine ⟨c, ?_, hc'⟩
  unfold asFlt underlying_value
  rw [power2_ok hF, bind_ok, ha, bind_ok]
  push_cast
  rw [hb, bind_ok]
  show (if b.val = 0 then _ else _) = _
  rw [if_neg (by rw [hb']; positivity), ha', hb']
  exact hc

private theorem storage_lt (hw : w.bits ≤ f.p) (x : Fx w F) : |x.storage.toInt| < 2 ^ f.p := by
  have h1 := rep_ge x
  have h2 := rep_lt x
  have h3 : half w < 2 ^ w.bits := by have := two_half w; have := half_pos w; omega
  have h4 := pow_mono hw
  exact abs_lt.2 ⟨by omega, by omega⟩

/-- C119: `as<double>()` on the desktop is exact for every format. -/
theorem C119_as_double (hF : F ≤ 62) (x : Fx w F) : ∃ d, asFlt binary64 x = .ok d ∧ d.val = x.val :=
  asFlt_eq wide64 hF x (storage_lt (by cases w <;> decide) x)

/-- C119: `as<float>()`, and `as<double>()` on AVR, is exact for formats of 8 and 16 bits, and for numbers
of 32 bits with a representation below `2^24`. -/
theorem C119_as_float (hF : F ≤ 62) (x : Fx w F) (hx : w ≠ .w32 ∨ |x.storage.toInt| < 2 ^ 24) :
    ∃ d, asFlt binary32 x = .ok d ∧ d.val = x.val := by
  refine asFlt_eq wide32 hF x ?_
  rcases hx with h | h
  · exact storage_lt (by cases w <;> first | decide | exact absurd rfl h) x
  · exact h

/-- C119: a number of 32 bits is not exact in `float`. -/
theorem C119_as_float_wrong : ∃ x : Fx .w32 16, ∃ d, asFlt binary32 x = .ok d ∧ d.val ≠ x.val := by
  refine ⟨narrow _ _ 16777217, ⟨256, ⟨1, 8, by decide, by decide, by norm_num⟩, ?_⟩, ?_, ?_⟩
  · exact le_trans (by norm_num) wide32.2
  · decide +kernel
  · rw [val_narrow (by decide) (by decide)]
    norm_num

example : (3 : Nat) ≤ 62 ∧ (Width.w16 ≠ .w32 ∨ |(narrow .w16 3 (-77)).storage.toInt| < 2 ^ 24) := by decide

/-! ### Construction -/

private theorem fraction_shift {k : ℤ} : dropFraction (k + (if 0 ≤ k then 1 / 2 else -1 / 2)) = k := by
  unfold dropFraction
  by_cases hk : 0 ≤ k
  · have : (0 : ℚ) ≤ k := by exact_mod_cast hk
    rw [if_pos hk, if_pos (by linarith)]
    rw [Int.floor_eq_iff]
    constructor <;> linarith
  · have : (k : ℚ) ≤ -1 := by exact_mod_cast (by omega : k ≤ -1)
    rw [if_neg hk, if_neg (by push Not; linarith)]
    rw [Int.ceil_eq_iff]
    constructor <;> linarith

private theorem half_rep (hf : f.Wide) {n : ℤ} (hn : |n| < 2 ^ f.p) {j : Nat} (hj : j ≤ 62)
    (hm : |(n : ℚ) / 2 ^ j| ≤ 2 ^ 63) : Rep f ((n : ℚ) / 2 ^ j) := by
  have := rep_of (f := f) (e := -j) hn (by have := hf.1; omega) (by
    rw [zpow_neg, zpow_natCast, ← div_eq_mul_inv]
    exact hm.trans hf.2)
  rwa [zpow_neg, zpow_natCast, ← div_eq_mul_inv] at this

private theorem halves (hf : f.Wide) (s : Prop) [Decidable s] : ∃ h, Flt.ofRat f (if s then 1 / 2 else -1 / 2) = .ok h ∧
    h.val = if s then 1 / 2 else -1 / 2 := by
  refine ofRat_rep ?_
  have h1 : (1 : ℤ) < 2 ^ f.p := one_lt_pow₀ (by norm_num) (by have := f.two_le; omega)
  split
  · have := half_rep hf (n := 1) (by simpa using h1) (j := 1) (by omega) (by norm_num)
    simpa using this
  · have := half_rep hf (n := -1) (by simpa using h1) (j := 1) (by omega) (by norm_num)
    simpa using this

/-- Multiplication by a power of two is exact as long as the product is in range. -/
private theorem mul_pow_rep {v : Flt f} {k : Nat} (h : |2 ^ k * v.val| ≤ f.max) : Rep f (2 ^ k * v.val) := by
  obtain ⟨⟨n, e, h1, h2, h3⟩, -⟩ := v.rep
  refine ⟨⟨n, e + k, h1, by omega, ?_⟩, h⟩
  rw [h3, zpow_add₀ (by norm_num), zpow_natCast]
  ring

private theorem ofFlt_eq (hf : f.Wide) (hF : F ≤ 62) (v : Flt f) (hv : |2 ^ F * v.val| ≤ 2 ^ 62) :
    ∃ s : Flt f, s.val = rnd f (2 ^ F * v.val + (if 0 ≤ v.val then 1 / 2 else -1 / 2)) ∧
      ofFlt w F v = (do .ok (narrow w F (← checked w.bits (dropFraction s.val)))) := by
  obtain ⟨b, hb, hb'⟩ := ofRat_rep (pow_rep hf hF)
  obtain ⟨g, hg, hg'⟩ := halves hf (0 ≤ v.val)
  obtain ⟨m, hm, hm'⟩ := ofRat_rep (mul_pow_rep (v := v) (k := F) (hv.trans ((by norm_num :
    (2 : ℚ) ^ 62 ≤ 2 ^ 63).trans hf.2)))
  have hs : |2 ^ F * v.val + (if 0 ≤ v.val then 1 / 2 else -1 / 2)| ≤ f.max := by
    refine (abs_add_le _ _).trans (le_trans ?_ hf.2)
    have : |(if 0 ≤ v.val then 1 / 2 else -1 / 2 : ℚ)| = 1 / 2 := by split <;> norm_num
    rw [this]
    linarith [(by norm_num : (2 : ℚ) ^ 62 + 1 / 2 ≤ 2 ^ 63)]
  obtain ⟨s, hs1, hs2⟩ := Flt.ofRat_ok hs
  refine ⟨s, hs2, ?_⟩
  unfold ofFlt
  rw [power2_ok hF, bind_ok]
  push_cast
  rw [hb, bind_ok, hg, bind_ok]
  have e1 : CNum.mul b v = .ok m := by rw [← hm, ← hb']; rfl
  have e2 : CNum.add m g = .ok s := by rw [← hs1, ← hm', ← hg']; rfl
  rw [e1, bind_ok, e2, bind_ok]

/-- C119: in `double` on the desktop (and in `float` for formats of 8 and 16 bits) converting a fixed-point
number to floating point and back restores it. -/
theorem C119_roundtrip (hf : f = binary64 ∨ f = binary32 ∧ w ≠ .w32) (hF : F ≤ 62) (x : Fx w F) :
    (do ofFlt w F (← asFlt f x)) = .ok x := by
  have hW : f.Wide ∧ w.bits < f.p := by
    rcases hf with rfl | ⟨rfl, h⟩
    · exact ⟨wide64, by cases w <;> decide⟩
    · exact ⟨wide32, by cases w <;> first | decide | exact absurd rfl h⟩
  obtain ⟨hf, hw⟩ := hW
  obtain ⟨d, hd, hd'⟩ := asFlt_eq hf hF x (storage_lt hw.le x)
  have hp : (2 : ℚ) ^ F * x.val = x.storage.toInt := by unfold val; field_simp
  have h1 := rep_ge x
  have h2 := rep_lt x
  have h3 := half_le w
  obtain ⟨s, hs, he⟩ := ofFlt_eq (w := w) hf hF d (by
    rw [hd', hp]
    exact (storage_abs x).trans (by norm_num))
  rw [hd, bind_ok, he]
  have hsg : 0 ≤ x.val ↔ 0 ≤ x.storage.toInt := by
    unfold val
    rw [le_div_iff₀ (by positivity), zero_mul]
    exact_mod_cast Iff.rfl
  rw [hd', hp] at hs
  simp only [hsg] at hs
  have hrep : Rep f ((x.storage.toInt : ℚ) + (if 0 ≤ x.storage.toInt then 1 / 2 else -1 / 2)) := by
    have e : (x.storage.toInt : ℚ) + (if 0 ≤ x.storage.toInt then 1 / 2 else -1 / 2) =
        ((2 * x.storage.toInt + (if 0 ≤ x.storage.toInt then 1 else -1) : ℤ) : ℚ) / 2 ^ 1 := by
      split <;> push_cast <;> ring
    rw [e]
    refine half_rep hf ?_ (by omega) ?_
    · have h4 := pow_mono (show w.bits + 1 ≤ f.p by omega)
      rw [pow_succ, two_half] at h4
      have := half_pos w
      have h5 : 2 ≤ 2 * half w := by omega
      rw [abs_lt]
      split <;> constructor <;> omega
    · rw [← e]
      refine (abs_add_le _ _).trans ?_
      have : |(if 0 ≤ x.storage.toInt then 1 / 2 else -1 / 2 : ℚ)| = 1 / 2 := by split <;> norm_num
      rw [this]
      linarith [storage_abs x, (by norm_num : (2 : ℚ) ^ 31 + 1 / 2 ≤ 2 ^ 63)]
  rw [rnd_rep f hrep] at hs
  rw [hs, fraction_shift, checked_ok h1 h2]
  show Except.ok _ = _
  congr 1
  ext1
  exact BitVec.toInt_inj.1 (narrow_rep h1 h2)

example : (binary32 = binary64 ∨ binary32 = binary32 ∧ Width.w16 ≠ .w32) ∧ 8 ≤ 62 := by simp

private theorem drop_neg (x : ℚ) : dropFraction (-x) = -dropFraction x := by
  unfold dropFraction
  rcases lt_trichotomy x 0 with h | rfl | h
  · rw [if_pos (by linarith), if_neg (by push Not; exact h), Int.floor_neg]
  · simp
  · rw [if_neg (by push Not; linarith), if_pos h.le, Int.ceil_neg]

/-- Rounding of a number that is not negative. -/
private theorem near {y : ℚ} (hy : 0 ≤ y) {N : ℤ} (hN : y ≤ N) (hN2 : 2 * N + 1 < 2 ^ f.p)
    (hm : ∃ m : ℤ, y + 1 / 2 = m * 2 ^ f.q) (hf : f.q ≤ -1) :
    |(dropFraction (rnd f (y + 1 / 2)) : ℚ) - y| ≤ 1 / 2 + (y + 1 / 2) / 2 ^ f.p ∧
      0 ≤ dropFraction (rnd f (y + 1 / 2)) ∧ dropFraction (rnd f (y + 1 / 2)) ≤ N := by
  obtain ⟨m, hm⟩ := hm
  have he := rnd_multiple f m hm
  rw [abs_of_nonneg (by linarith : (0 : ℚ) ≤ y + 1 / 2), one_div_mul_eq_div] at he
  have hr0 := rnd_nonneg f (x := y + 1 / 2) (by linarith)
  have hN0 : (0 : ℤ) ≤ N := by exact_mod_cast hy.trans hN
  have hup : rnd f (y + 1 / 2) ≤ N + 1 / 2 := by
    have h1 : rnd f ((N : ℚ) + 1 / 2) = N + 1 / 2 := by
      have := rnd_nearest f ((N : ℚ) + 1 / 2) (N + 1 / 2) ⟨2 * N + 1, -1, by
        rw [abs_of_nonneg (by omega)]; exact hN2, hf, by push_cast; rw [zpow_neg_one]; ring⟩
      rw [sub_self, abs_zero] at this
      exact sub_eq_zero.1 (abs_nonpos_iff.1 this)
    rw [← h1]
    exact rnd_mono f (by linarith)
  have hlo : (⌊y + 1 / 2⌋ : ℚ) ≤ rnd f (y + 1 / 2) := by
    have h0 : 0 ≤ ⌊y + 1 / 2⌋ := Int.floor_nonneg.2 (by linarith)
    have hb : ⌊y + 1 / 2⌋ ≤ N := by
      have : ⌊y + 1 / 2⌋ < N + 1 := by
        rw [Int.floor_lt]; push_cast; linarith
      omega
    have h1 : rnd f (⌊y + 1 / 2⌋ : ℚ) = ⌊y + 1 / 2⌋ := by
      have := rnd_nearest f (⌊y + 1 / 2⌋ : ℚ) ⌊y + 1 / 2⌋ ⟨⌊y + 1 / 2⌋, 0, by
        rw [abs_of_nonneg h0]; omega, by omega, by simp⟩
      rw [sub_self, abs_zero] at this
      exact sub_eq_zero.1 (abs_nonpos_iff.1 this)
    have := rnd_mono f (Int.floor_le (y + 1 / 2))
    rwa [h1] at this
  have hk : dropFraction (rnd f (y + 1 / 2)) = ⌊rnd f (y + 1 / 2)⌋ := if_pos hr0
  rw [hk]
  have f1 := Int.floor_le (rnd f (y + 1 / 2))
  have f2 : (⌊y + 1 / 2⌋ : ℚ) ≤ ⌊rnd f (y + 1 / 2)⌋ := by exact_mod_cast Int.le_floor.2 hlo
  have f3 := Int.lt_floor_add_one (y + 1 / 2)
  have he' := (abs_le.1 he).2
  have hq : 0 ≤ (y + 1 / 2) / 2 ^ f.p := by positivity
  refine ⟨abs_le.2 ⟨by linarith, by linarith⟩, Int.floor_nonneg.2 hr0, ?_⟩
  have : ⌊rnd f (y + 1 / 2)⌋ < N + 1 := by rw [Int.floor_lt]; push_cast; linarith
  omega

/-- C119: a floating-point number between `min()` and `max()` is converted to a number that is off by at
most half a unit plus the rounding error of one addition. -/
theorem C119_of_float (hf : f = binary64 ∨ f = binary32 ∧ w ≠ .w32) (hF : F ≤ 62) (v : Flt f)
    (h1 : (Fx.min w F).val ≤ v.val) (h2 : v.val ≤ (Fx.max w F).val) :
    ∃ x, ofFlt w F v = .ok x ∧ |x.val - v.val| ≤ (1 / 2 + 2 ^ w.bits / 2 ^ f.p) * ulp F := by
  have hW : f.Wide ∧ w.bits < f.p := by
    rcases hf with rfl | ⟨rfl, h⟩
    · exact ⟨wide64, by cases w <;> decide⟩
    · exact ⟨wide32, by cases w <;> first | decide | exact absurd rfl h⟩
  obtain ⟨hf, hw⟩ := hW
  have hp : (0 : ℚ) < 2 ^ F := by positivity
  have hh := half_pos w
  have hh' := half_le w
  have hq := hf.1
  rw [min_val, div_le_iff₀ hp, mul_comm] at h1
  rw [max_val, le_div_iff₀ hp, mul_comm] at h2
  push_cast at h1 h2
  have hhq : (half w : ℚ) ≤ 2 ^ 31 := by exact_mod_cast hh'
  obtain ⟨s, hs, he⟩ := ofFlt_eq (w := w) hf hF v (by
    rw [abs_le]
    constructor <;> linarith [(by norm_num : (2 : ℚ) ^ 31 ≤ 2 ^ 62)])
  have hb : 2 * half w + 1 < 2 ^ f.p := by
    have h4 := pow_mono (show w.bits + 1 ≤ f.p by omega)
    rw [pow_succ, two_half] at h4
    omega
  have hbits : (2 : ℚ) ^ w.bits = 2 * half w := by exact_mod_cast two_half w
  obtain ⟨n, hn⟩ := rep_multiple f v.rep
  obtain ⟨j, hj⟩ := Int.eq_ofNat_of_zero_le (show 0 ≤ -1 - f.q by omega)
  have hhalf : (1 / 2 : ℚ) = ((2 ^ j : ℤ) : ℚ) * 2 ^ f.q := by
    push_cast
    rw [← zpow_natCast, ← zpow_add₀ (by norm_num), show (j : ℤ) + f.q = -1 by omega]
    norm_num
  have hmul (c : ℤ) (hc : c = 1 ∨ c = -1) : ∃ m : ℤ, c * (2 ^ F * v.val) + 1 / 2 = m * 2 ^ f.q :=
    ⟨c * 2 ^ F * n + 2 ^ j, by rw [hhalf, hn]; push_cast; ring⟩
  have key : ∃ k : ℤ, dropFraction s.val = k ∧ -half w ≤ k ∧ k < half w ∧
      |(k : ℚ) - 2 ^ F * v.val| ≤ 1 / 2 + 2 ^ w.bits / 2 ^ f.p := by
    have hle (y : ℚ) (hy : y ≤ half w) : (y + 1 / 2) / 2 ^ f.p ≤ 2 ^ w.bits / 2 ^ f.p := by
      apply div_le_div_of_nonneg_right _ (by positivity)
      rw [hbits]
      have : (1 : ℚ) ≤ half w := by exact_mod_cast hh
      linarith
    by_cases hv : 0 ≤ v.val
    · rw [if_pos hv] at hs
      obtain ⟨c1, c2, c3⟩ := near (f := f) (y := 2 ^ F * v.val) (by positivity) (N := half w - 1)
        (by push_cast; linarith) (by omega) (by simpa using hmul 1 (.inl rfl)) (by omega)
      refine ⟨_, rfl, ?_, ?_, ?_⟩
      · rw [hs]; omega
      · rw [hs]; omega
      · rw [hs]
        exact c1.trans (by linarith [hle (2 ^ F * v.val) (by linarith)])
    · rw [if_neg hv] at hs
      have hv' : (2 : ℚ) ^ F * v.val ≤ 0 := mul_nonpos_of_nonneg_of_nonpos hp.le (by linarith)
      obtain ⟨c1, c2, c3⟩ := near (f := f) (y := -(2 ^ F * v.val)) (by linarith) (N := half w)
        (by linarith) (by omega) (by
          obtain ⟨m, hm⟩ := hmul (-1) (.inr rfl)
          exact ⟨m, by rw [← hm]; push_cast; ring⟩) (by omega)
      have hz : 2 ^ F * v.val + -1 / 2 = -(-(2 ^ F * v.val) + 1 / 2) := by ring
      rw [hz, rnd_neg] at hs
      refine ⟨_, rfl, ?_, ?_, ?_⟩
      · rw [hs, drop_neg]; omega
      · rw [hs, drop_neg]; omega
      · rw [hs, drop_neg, ← abs_neg]
        push_cast
        rw [show -(-(dropFraction (rnd f (-(2 ^ F * v.val) + 1 / 2)) : ℚ) - 2 ^ F * v.val) =
          dropFraction (rnd f (-(2 ^ F * v.val) + 1 / 2)) - -(2 ^ F * v.val) by ring]
        exact c1.trans (by linarith [hle (-(2 ^ F * v.val)) (by linarith)])
  obtain ⟨k, hk, k1, k2, k3⟩ := key
  refine ⟨narrow w F k, ?_, ?_⟩
  · rw [he, hk, checked_ok k1 k2]
    rfl
  · rw [val_narrow k1 k2]
    have e : (k : ℚ) / 2 ^ F - v.val = (k - 2 ^ F * v.val) / 2 ^ F := by field_simp
    rw [e, abs_div, abs_of_pos hp, ulp, ← div_eq_mul_one_div]
    exact div_le_div_of_nonneg_right k3 hp.le

/-- C119: it is not always the nearest number, unlike over the reals (C29): the largest number below half a
unit becomes one unit instead of 0. -/
theorem C119_of_float_wrong : ∃ v : Flt binary64, v.val < 1 / 2 * ulp 16 ∧
    ofFlt .w32 16 v = .ok (narrow _ _ 1) := by
  refine ⟨⟨(2 ^ 53 - 1) * 2 ^ (-70 : ℤ), ⟨2 ^ 53 - 1, -70, by decide, by decide, by push_cast; ring⟩, ?_⟩, ?_, ?_⟩
  · refine le_trans ?_ wide64.2
    norm_num
  · norm_num [ulp]
  · decide +kernel

/-- C119: for numbers that are multiples of `2^-20` units, construction from `double` is that of C29 (over
the reals), including what is out of range. -/
theorem C119_of_double_exact (hF : F ≤ 62) (v : Flt binary64) (m : ℤ) (hm : 2 ^ F * v.val = m / 2 ^ 20)
    (hv : |m| ≤ 2 ^ 52) : ofFlt w F v = ofReal w F v.val := by
  have hmq : |(m : ℚ)| ≤ 2 ^ 52 := by exact_mod_cast hv
  have hma : |(m : ℚ) / 2 ^ 20| ≤ 2 ^ 32 := by
    rw [abs_div, abs_of_pos (by norm_num : (0 : ℚ) < 2 ^ 20), div_le_iff₀ (by norm_num)]
    exact hmq.trans (by norm_num)
  obtain ⟨s, hs, he⟩ := ofFlt_eq (w := w) wide64 hF v (by rw [hm]; exact hma.trans (by norm_num))
  have hrep : Rep binary64 (2 ^ F * v.val + (if 0 ≤ v.val then 1 / 2 else -1 / 2)) := by
    have e : 2 ^ F * v.val + (if 0 ≤ v.val then 1 / 2 else -1 / 2) =
        ((m + (if 0 ≤ v.val then 2 ^ 19 else -2 ^ 19) : ℤ) : ℚ) / 2 ^ 20 := by
      rw [hm]
      split <;> push_cast <;> ring
    rw [e]
    have := abs_le.1 hv
    refine half_rep wide64 ?_ (by omega) ?_
    · show _ < (2 : ℤ) ^ 53
      rw [abs_lt]
      split <;> constructor <;> omega
    · rw [← e, hm]
      refine (abs_add_le _ _).trans ?_
      have : |(if 0 ≤ v.val then 1 / 2 else -1 / 2 : ℚ)| = 1 / 2 := by split <;> norm_num
      rw [this]
      linarith [(by norm_num : (2 : ℚ) ^ 32 + 1 / 2 ≤ 2 ^ 63)]
  rw [rnd_rep _ hrep] at hs
  rw [he]
  unfold ofReal
  rw [power2_ok hF, bind_ok]
  have e : (((2 ^ F : ℤ) : ℝ) * (v.val : ℝ) + (if 0 ≤ (v.val : ℝ) then 1 / 2 else -1 / 2)) = (s.val : ℝ) := by
    rw [hs]
    push_cast
    congr 1
    by_cases h : 0 ≤ v.val
    · rw [if_pos h, if_pos (by exact_mod_cast h)]; norm_num
    · rw [if_neg h, if_neg (by exact_mod_cast h)]; norm_num
  rw [e]
  unfold truncTo dropFraction
  have hc : (if 0 ≤ (s.val : ℝ) then ⌊(s.val : ℝ)⌋ else ⌈(s.val : ℝ)⌉) = if 0 ≤ s.val then ⌊s.val⌋ else ⌈s.val⌉ := by
    rw [Rat.floor_cast, Rat.ceil_cast]
    by_cases h : 0 ≤ s.val
    · rw [if_pos h, if_pos (by exact_mod_cast h)]
    · rw [if_neg h, if_neg (by exact_mod_cast h)]
  rw [hc]

/-- 3.3125 in Q15.16: 217088 units. -/
example : (Fx.min .w32 16).val ≤ (53 / 16 : ℚ) ∧ (53 / 16 : ℚ) ≤ (Fx.max .w32 16).val ∧
    2 ^ 16 * (53 / 16 : ℚ) = ((217088 * 2 ^ 20 : ℤ) : ℚ) / 2 ^ 20 ∧ |(217088 * 2 ^ 20 : ℤ)| ≤ 2 ^ 52 := by
  rw [min_val, max_val]
  norm_num [half]

end Verif
