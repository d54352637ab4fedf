import Verif.Lemmas.Ieee
import Verif.Lemmas.KalmanRun
/- The estimator in floating point: exact operations, and the correction with `H = [1 0]` written out. -/

namespace Verif
open Ieee
variable {f : Format}
namespace Flt

theorem mul_one' (a : Flt f) : CNum.mul a (CNum.one : Flt f) = .ok a := by
  show ofRat f (a.val * 1) = _
  rw [mul_one, ofRat_val]
theorem one_mul' (a : Flt f) : CNum.mul (CNum.one : Flt f) a = .ok a := by
  show ofRat f (1 * a.val) = _
  rw [one_mul, ofRat_val]
theorem mul_zero' (a : Flt f) : CNum.mul a (CNum.zero : Flt f) = .ok CNum.zero := by
  show ofRat f (a.val * 0) = _
  rw [mul_zero]; exact ofRat_val zero
theorem zero_mul' (a : Flt f) : CNum.mul (CNum.zero : Flt f) a = .ok CNum.zero := by
  show ofRat f (0 * a.val) = _
  rw [zero_mul]; exact ofRat_val zero
theorem add_zero' (a : Flt f) : CNum.add a (CNum.zero : Flt f) = .ok a := by
  show ofRat f (a.val + 0) = _
  rw [add_zero, ofRat_val]
theorem zero_add' (a : Flt f) : CNum.add (CNum.zero : Flt f) a = .ok a := by
  show ofRat f (0 + a.val) = _
  rw [zero_add, ofRat_val]
theorem sub_zero' (a : Flt f) : CNum.sub a (CNum.zero : Flt f) = .ok a := by
  show ofRat f (a.val - 0) = _
  rw [sub_zero, ofRat_val]
end Flt

/-- A computation that succeeds with a result of property `q`. -/
def Res.yields {α : Type} (r : Res α) (q : α → Bool) : Bool :=
  match r with
  | .ok a => q a
  | .error _ => false

theorem Res.of_yields {α : Type} {r : Res α} {q : α → Bool} (h : Res.yields r q = true) :
    ∃ a, r = .ok a ∧ q a = true := by
  cases r with
  | ok a => exact ⟨a, rfl, h⟩
  | error e => cases h

/-- The measurement matrix `[1 0]`: the position is measured. -/
def hPos : Mat (Flt f) 1 2 := ⟨#v[CNum.one, CNum.zero]⟩


theorem Kalman.gain_pos (a b c d r : Flt f) :
    Kalman.gain .one (Mat.mk22 a b c d) hPos (⟨#v[r]⟩ : Mat (Flt f) 1 1) = (do
      let s ← CNum.add r a
      let i ← Mat.invertedS s
      let x ← CNum.mul a i
      let y ← CNum.mul c i
      .ok (⟨#v[x, y]⟩ : Mat (Flt f) 2 1)) := by
  have e1 : (hPos : Mat (Flt f) 1 2).transposedRow = .ok ⟨#v[CNum.one, CNum.zero]⟩ := rfl
  have e2 : (Mat.mk22 a b c d).mulVec (⟨#v[CNum.one, CNum.zero]⟩ : Mat (Flt f) 2 1) = .ok ⟨#v[a, c]⟩ := by
    simp [Mat.mulVec, forRange, Mat.setIdx, Mat.set2, Mat.set1, Mat.at2, Mat.at1, Mat.idx, bind, Except.bind,
      Flt.mul_one', Flt.mul_zero', Flt.add_zero', Flt.zero_add', Mat.rows, Mat.columns, Mat.mk22, Mat.fill]
    rfl
  have e3 : (hPos : Mat (Flt f) 1 2).vecMul (Mat.mk22 a b c d) = .ok ⟨#v[a, b]⟩ := by
    simp [Mat.vecMul, hPos, forRange, Mat.setIdx, Mat.set2, Mat.set1, Mat.at2, Mat.at1, Mat.idx, bind, Except.bind,
      Flt.mul_one', Flt.mul_zero', Flt.add_zero', Flt.zero_add', Mat.rows, Mat.columns, Mat.mk22, Mat.fill]
    rfl
  have e4 : Mat.dot (⟨#v[a, b]⟩ : Mat (Flt f) 1 2) (⟨#v[CNum.one, CNum.zero]⟩ : Mat (Flt f) 2 1) = .ok a := by
    simp [Mat.dot, Mat.size, forRange, Mat.at2, Mat.at1, Mat.idx, bind, Except.bind,
      Flt.mul_one', Flt.mul_zero', Flt.add_zero', Flt.zero_add', Mat.rows, Mat.columns]
  simp only [Kalman.gain]
  rw [e1]
  simp only [bind_ok]
  rw [e2]
  simp only [bind_ok]
  rw [e3]
  simp only [bind_ok]
  rw [e4]
  simp only [bind_ok]
  show (CNum.add r a >>= fun s => _) = _
  refine congrArg _ (funext fun s => congrArg _ (funext fun i => ?_))
  simp [Mat.mulS, Mat.size, forRange, Mat.setIdx, Mat.set2, Mat.set1, Mat.at2, Mat.at1, Mat.idx, bind, Except.bind,
    Mat.rows, Mat.columns, Mat.fill]
  cases CNum.mul a i with
  | error e => rfl
  | ok x =>
    dsimp only
    cases CNum.mul c i with
    | error e => rfl
    | ok y => rfl

theorem Kalman.correctCov_pos (x y a b c d : Flt f) :
    Kalman.correctCov .one (⟨#v[x, y]⟩ : Mat (Flt f) 2 1) hPos (Mat.mk22 a b c d) = (do
      let e ← CNum.sub CNum.one x
      let g ← CNum.sub CNum.zero y
      let p00 ← CNum.mul e a
      let p01 ← CNum.mul e b
      let u ← CNum.mul g a
      let p10 ← CNum.add u c
      let v ← CNum.mul g b
      let p11 ← CNum.add v d
      .ok (Mat.mk22 p00 p01 p10 p11)) := by
  have e1 : Kalman.gainH .one (⟨#v[x, y]⟩ : Mat (Flt f) 2 1) hPos = .ok (Mat.mk22 x CNum.zero y CNum.zero) := by
    simp [Kalman.gainH, Mat.outer, hPos, forRange, Mat.set2, Mat.set1, Mat.at2, Mat.at1, Mat.idx, bind,
      Except.bind, Flt.mul_one', Flt.mul_zero', Mat.rows, Mat.columns, Mat.mk22, Mat.fill]
    rfl
  have e2 : Mat.eye (Flt f) 2 = .ok (Mat.mk22 CNum.one CNum.zero CNum.zero CNum.one) := rfl
  have e3 : (Mat.mk22 CNum.one CNum.zero CNum.zero CNum.one : Mat (Flt f) 2 2).sub
      (Mat.mk22 x CNum.zero y CNum.zero) = (do
        let e ← CNum.sub CNum.one x
        let g ← CNum.sub CNum.zero y
        .ok (Mat.mk22 e CNum.zero g CNum.one)) := by
    simp [Mat.sub, Mat.size, forRange, Mat.setIdx, Mat.set2, Mat.set1, Mat.at2, Mat.at1, Mat.idx, bind, Except.bind,
      Flt.sub_zero', Mat.rows, Mat.columns, Mat.mk22, Mat.fill]
    cases CNum.sub (CNum.one : Flt f) x with
    | error e => rfl
    | ok e =>
      dsimp only
      cases CNum.sub (CNum.zero : Flt f) y with
      | error e => rfl
      | ok g => rfl
  simp only [Kalman.correctCov]
  rw [e1, e2]
  simp only [bind_ok]
  rw [e3]
  simp only [bind_assoc]
  refine congrArg _ (funext fun e => congrArg _ (funext fun g => ?_))
  simp only [bind_ok]
  simp [Mat.mul, forRange, Mat.set2, Mat.set1, Mat.at2, Mat.at1, bind, Except.bind,
    Flt.zero_mul', Flt.one_mul', Flt.add_zero', Flt.zero_add', Mat.rows, Mat.columns, Mat.mk22, Mat.fill]
  cases CNum.mul e a with
  | error _ => rfl
  | ok p00 =>
    cases CNum.mul e b with
    | error _ => rfl
    | ok p01 =>
      simp [Flt.zero_add']
      cases CNum.mul g a with
      | error _ => rfl
      | ok t =>
        simp
        cases CNum.add t c with
        | error _ => rfl
        | ok p10 =>
          simp
          cases CNum.mul g b with
          | error _ => rfl
          | ok t =>
            simp [Flt.zero_add']
            cases CNum.add t d with
            | error _ => rfl
            | ok p11 => rfl

namespace Ieee

/-- A quotient of 1 above the underflow threshold has a relative error only. -/
theorem rnd_inv {s : ℚ} (h0 : 0 < s) (h1 : s ≤ 2 ^ (1 - f.p - f.q)) : rnd f (1 / s) ≤ 1 / s * (1 + 1 / 2 ^ f.p) := by
  have hi : 0 < 1 / s := by positivity
  have key : |rnd f (1 / s) - 1 / s| ≤ 1 / 2 ^ f.p * (1 / s) := by
    rcases rnd_cases f (1 / s) with ⟨-, h⟩ | h
    · refine h.trans ?_
      have : (2 : ℚ) ^ (f.p + f.q - 1) ≤ 1 / s := by
        rw [le_div_iff₀ h0]
        calc (2 : ℚ) ^ (f.p + f.q - 1) * s ≤ 2 ^ (f.p + f.q - 1) * 2 ^ (1 - f.p - f.q) :=
              mul_le_mul_of_nonneg_left h1 (zpow_pos (by norm_num) _).le
          _ = 1 := by
              rw [← zpow_add₀ (by norm_num), show (f.p : ℤ) + f.q - 1 + (1 - f.p - f.q) = 0 by ring, zpow_zero]
      have e : (2 : ℚ) ^ f.q / 2 = 1 / 2 ^ f.p * 2 ^ (f.p + f.q - 1) := by
        rw [zpow_sub₀ (by norm_num), zpow_add₀ (by norm_num), zpow_natCast, zpow_one]
        field_simp
      rw [e]
      exact mul_le_mul_of_nonneg_left this (by positivity)
    · rwa [abs_of_pos hi] at h
  have := (abs_le.1 key).2
  linarith

theorem rnd_pow_two {k : ℤ} (hk : f.q ≤ k) : rnd f (2 ^ k) = 2 ^ k := by
  have := rnd_nearest f (2 ^ k) (2 ^ k) ⟨1, k, by
    rw [abs_one]; exact one_lt_pow₀ (by norm_num) (by have := f.two_le; omega), hk, by simp⟩
  rw [sub_self, abs_zero] at this
  exact sub_eq_zero.1 (abs_nonpos_iff.1 this)

theorem rnd_le_of_le {x : ℚ} {a : Flt f} (h : x ≤ a.val) : rnd f x ≤ a.val := by
  have := rnd_mono f h
  rwa [rnd_rep f a.rep] at this

theorem le_rnd_of_le {x : ℚ} {a : Flt f} (h : a.val ≤ x) : a.val ≤ rnd f x := by
  have := rnd_mono f h
  rwa [rnd_rep f a.rep] at this

/-- Adding a step of less than half a unit has no effect. -/
theorem add_stalls {t d : Flt f} (h0 : 0 ≤ d.val) (h : d.val * 2 ^ (f.p + 1) ≤ t.val) :
    CNum.add t d = .ok t := by
  suffices hr : rnd f (t.val + d.val) = t.val by
    show Flt.ofRat f _ = _
    unfold Flt.ofRat
    rw [dif_pos (by rw [hr]; exact t.rep.2)]
    congr 1
    cases t
    congr
  rcases h0.eq_or_lt with h0 | h0
  · rw [← h0, add_zero, rnd_rep f t.rep]
  have hp2 : (0 : ℚ) < 2 ^ (f.p + 1) := by positivity
  have ht : 0 < t.val := (mul_pos h0 hp2).trans_le h
  set k := lastDigit f t.val with hk
  have hg : (0 : ℚ) < 2 ^ k := zpow_pos (by norm_num) _
  have e1 : t.val = roundEven (t.val / 2 ^ k) * 2 ^ k := (rnd_rep f t.rep).symm
  set n := roundEven (t.val / 2 ^ k) with hn
  have h3 : t.val < 2 ^ f.p * 2 ^ k := by
    have := abs_lt_grid f (x := t.val)
    rwa [abs_of_pos ht] at this
  have h4 : d.val < 2 ^ k / 2 := by
    have h5 : d.val * 2 ^ (f.p + 1) < 2 ^ k / 2 * 2 ^ (f.p + 1) := by
      rw [pow_succ] at h ⊢
      nlinarith
    exact lt_of_mul_lt_mul_right h5 hp2.le
  rcases lastDigit_cases f ht.ne' with hq | ⟨hq, h6⟩
  · exfalso
    obtain ⟨m, hm⟩ := rep_multiple f d.rep
    rw [← hk] at hq
    rw [hm, hq] at h4
    rw [hm] at h0
    rw [hq] at hg
    have m1 : (0 : ℚ) < m := (mul_pos_iff_of_pos_right hg).1 h0
    have m2 : (1 : ℤ) ≤ m := by exact_mod_cast m1
    have m3 : (1 : ℚ) ≤ m := by exact_mod_cast m2
    nlinarith
  · rw [← hk] at hq h6
    rw [abs_of_pos ht] at h6
    rw [e1]
    apply rnd_add_small f hq.le _ _ h0.le (.inl h4)
    · have e2 : (2 : ℚ) ^ (k + f.p - 1) = ((2 ^ (f.p - 1) : ℤ) : ℚ) * 2 ^ k := by
        push_cast
        rw [← zpow_natCast, ← zpow_add₀ (by norm_num)]
        congr 1
        have := f.two_le
        omega
      rw [e1, e2] at h6
      exact_mod_cast le_of_mul_le_mul_right h6 hg
    · have e2 : (2 : ℚ) ^ f.p * 2 ^ k = ((2 ^ f.p : ℤ) : ℚ) * 2 ^ k := by push_cast; rfl
      rw [e1, e2] at h3
      exact_mod_cast lt_of_mul_lt_mul_right h3 hg.le

end Ieee
end Verif
