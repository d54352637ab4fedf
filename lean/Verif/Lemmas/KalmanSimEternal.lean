import Verif.Lemmas.KalmanSimForever
import Mathlib.Analysis.Complex.Norm

/-
The estimate of the estimator of example/desktop/kalman-sim.e.cpp in `double` beside the exact one, for runs of every
length (for C152): a weighted norm of the state in which an update enlarges the difference of two estimates in the first
eight updates only.
-/

namespace Verif
open KalmanSim Ieee StillRun ErrorRun SettledRun

namespace EternalRun

/-! ### The norm -/

/-- The weighted size of position `a` and velocity `b`. -/
noncomputable def size (a b : ℝ) : ℝ := ‖(⟨a - 37 / 10 * b, 26 / 5 * b⟩ : ℂ)‖

theorem size_sq (a b : ℝ) : size a b ^ 2 = (a - 37 / 10 * b) ^ 2 + (26 / 5 * b) ^ 2 := by
  unfold size
  rw [Complex.sq_norm, Complex.normSq_mk]
  ring

theorem size_nonneg (a b : ℝ) : 0 ≤ size a b := norm_nonneg _

theorem size_add (a b c d : ℝ) : size (a + c) (b + d) ≤ size a b + size c d := by
  unfold size
  refine (norm_add_le _ _).trans' (le_of_eq ?_)
  congr 1
  apply Complex.ext <;> simp <;> ring

theorem size_zero : size 0 0 = 0 := by
  have := size_sq 0 0
  norm_num at this
  exact this

theorem size_le (a b : ℝ) : size a b ≤ |a| + 32 / 5 * |b| := by
  apply le_of_sq_le_sq _ (by positivity)
  rw [size_sq]
  have h1 := abs_mul_abs_self a
  have h2 := abs_mul_abs_self b
  have h3 : -(a * b) ≤ |a| * |b| := by rw [← abs_mul]; exact neg_le_abs _
  have h4 : 0 ≤ |a| * |b| := by positivity
  have h5 : 0 ≤ |b| * |b| := by positivity
  nlinarith

theorem vel_le (a b : ℝ) : |b| ≤ 5 / 26 * size a b := by
  apply abs_le_of_sq_le_sq _ (by have := size_nonneg a b; positivity)
  rw [mul_pow, size_sq]
  nlinarith [sq_nonneg (a - 37 / 10 * b)]

theorem pos_le (a b : ℝ) : |a| ≤ 1228 / 1000 * size a b := by
  apply abs_le_of_sq_le_sq _ (by have := size_nonneg a b; positivity)
  rw [mul_pow, size_sq]
  nlinarith [sq_nonneg (37 / 52 * (a - 37 / 10 * b) - 26 / 5 * b), sq_nonneg (a - 37 / 10 * b), sq_nonneg b]

/-- The corrected prediction with these gains is at most `ρ` times as large as the state. -/
def Contracts (ρ g0 g1 : ℚ) : Prop :=
  0 ≤ ρ ∧ 0 ≤ ρ ^ 2 - ((1 - g0 + 37 / 10 * g1) ^ 2 + (26 / 5 * g1) ^ 2) ∧
    0 ≤ ρ ^ 2 * (4073 / 100) - ((1 - g0 - 37 / 10 * (1 - g1)) ^ 2 + (26 / 5 * (1 - g1)) ^ 2) ∧
    (-(37 / 10) * ρ ^ 2 - ((1 - g0 + 37 / 10 * g1) * (1 - g0 - 37 / 10 * (1 - g1)) - (26 / 5) ^ 2 * g1 * (1 - g1))) ^ 2 ≤
      (ρ ^ 2 - ((1 - g0 + 37 / 10 * g1) ^ 2 + (26 / 5 * g1) ^ 2)) *
        (ρ ^ 2 * (4073 / 100) - ((1 - g0 - 37 / 10 * (1 - g1)) ^ 2 + (26 / 5 * (1 - g1)) ^ 2))

instance (ρ g0 g1) : Decidable (Contracts ρ g0 g1) := inferInstanceAs (Decidable (_ ∧ _))

theorem quad_nonneg {A B C : ℝ} (h0 : 0 ≤ A) (h1 : 0 ≤ C) (h : B ^ 2 ≤ A * C) (a b : ℝ) :
    0 ≤ A * a ^ 2 + 2 * B * (a * b) + C * b ^ 2 := by
  have := KF.psd2 (M := !![A, B; B, C]) rfl h0 h1 h
  have := this.dotProduct_mulVec_nonneg ![a, b]
  rw [KF.quad2] at this
  simp at this
  linarith

theorem size_map {ρ g0 g1 : ℚ} (h : Contracts ρ g0 g1) (a b : ℝ) :
    size ((1 - g0) * (a + b)) (b - g1 * (a + b)) ≤ ρ * size a b := by
  obtain ⟨hρ, h0, h1, h2⟩ := h
  have hρ' : (0 : ℝ) ≤ ρ := by exact_mod_cast hρ
  have h0' := (Rat.cast_le (K := ℝ)).2 h0
  have h1' := (Rat.cast_le (K := ℝ)).2 h1
  have h2' := (Rat.cast_le (K := ℝ)).2 h2
  push_cast at h0' h1' h2'
  have := quad_nonneg h0' h1' h2' a b
  apply le_of_sq_le_sq _ (mul_nonneg hρ' (size_nonneg a b))
  rw [mul_pow, size_sq, size_sq]
  linarith

/-! ### Growth and decay -/

/-- By how much the update number `n + 1` enlarges or reduces a difference of two estimates, at most. -/
def rate (n : ℕ) : ℚ := [11 / 10, 1098 / 1000, 1092 / 1000, 1083 / 1000, 1071 / 1000, 1055 / 1000, 1036 / 1000, 1016 / 1000,
  995 / 1000, 975 / 1000, 957 / 1000, 942 / 1000, 931 / 1000, 924 / 1000].getD n (923 / 1000)

/-- The size of the estimate after `n` updates with data up to 1. -/
def bound : ℕ → ℚ
  | 0 => 0
  | n + 1 => rate n * bound n + 71 / 10

theorem rate_late {n : ℕ} (h : 14 ≤ n) : rate n = 923 / 1000 := by
  unfold rate
  rw [List.getD_eq_getElem?_getD, List.getElem?_eq_none (by simpa using h), Option.getD_none]

theorem bound_early : ∀ n ∈ List.range 15, 0 ≤ bound n ∧ bound n ≤ 93 := by decide +kernel

theorem bound_le (n : ℕ) : 0 ≤ bound n ∧ bound n ≤ 93 := by
  by_cases h : n < 15
  · exact bound_early n (List.mem_range.2 h)
  · obtain ⟨m, rfl⟩ : ∃ m, n = 14 + m := ⟨n - 14, by omega⟩
    clear h
    induction m with
    | zero => exact bound_early 14 (by decide)
    | succ m ih =>
      show 0 ≤ rate (14 + m) * bound (14 + m) + 71 / 10 ∧ rate (14 + m) * bound (14 + m) + 71 / 10 ≤ 93
      rw [rate_late (by omega)]
      constructor <;> linarith [ih.1, ih.2]

/-- The gains that occur. -/
def Fine (n : ℕ) : Prop :=
  Contracts (rate n) (inUnits (st n).2.2.2.2.1) (inUnits (st n).2.2.2.2.2) ∧
    (0 ≤ inUnits (st n).2.2.2.2.1 ∧ inUnits (st n).2.2.2.2.1 ≤ 19 / 100) ∧
    0 ≤ inUnits (st n).2.2.2.2.2 ∧ inUnits (st n).2.2.2.2.2 ≤ 1 / 50

instance (n) : Decidable (Fine n) := inferInstanceAs (Decidable (_ ∧ _))

theorem fine_early : ∀ n ∈ List.range 185, Fine n := by decide +kernel

theorem fine (n : ℕ) : Fine n := by
  by_cases h : n < 185
  · exact fine_early n (List.mem_range.2 h)
  · have e : st n = st 184 := by
      unfold st
      rw [Nat.min_eq_right (by omega), Nat.min_self]
    have := fine_early 184 (by decide)
    unfold Fine at this ⊢
    rwa [e, rate_late (by omega), ← rate_late (show 14 ≤ 184 by omega)]

/-! ### Rounding -/

/-- A magnitude that neither overflows nor underflows. -/
structure Mid (X : ℝ) : Prop where
  lo : 1 / 2 ^ 900 ≤ X
  hi : X ≤ 2 ^ 1010

theorem Mid.max {X : ℝ} (h : Mid X) : X ≤ ((binary64.max : ℚ) : ℝ) := by
  refine h.hi.trans ?_
  have e : ((binary64.max : ℚ) : ℝ) = (2 ^ 53 - 1) * 2 ^ 971 := by
    unfold Format.max binary64
    rw [Rat.cast_mul, Rat.cast_zpow, Rat.cast_sub, Rat.cast_pow, Rat.cast_ofNat, Rat.cast_one]
    rw [show (2 : ℝ) ^ (971 : ℤ) = 2 ^ 971 from zpow_natCast 2 971]
  have e' : (2 : ℝ) ^ 1010 = 2 ^ 39 * 2 ^ 971 := by rw [← pow_add]
  rw [e, e']
  exact mul_le_mul_of_nonneg_right (by norm_num) (by positivity)

theorem Mid.eta {X : ℝ} (h : Mid X) : (2 : ℝ) ^ binary64.q / 2 ≤ X / 2 ^ 53 := by
  have h1 : (2 : ℝ) ^ binary64.q ≤ 2 ^ (-953 : ℤ) := zpow_le_zpow_right₀ (by norm_num) (by decide)
  have h2 : (2 : ℝ) ^ (-953 : ℤ) = 1 / 2 ^ 900 / 2 ^ 53 := by
    rw [zpow_neg, div_div, ← pow_add, one_div]
    rfl
  have h3 := (div_le_div_iff_of_pos_right (show (0 : ℝ) < 2 ^ 53 by positivity)).2 h.lo
  rw [← h2] at h3
  exact (half_le_self (zpow_nonneg (by norm_num) _)).trans (h1.trans h3)

theorem half_step {X x : ℝ} (h : |x| ≤ X) : 1 / 2 ^ binary64.p * |x| ≤ X / 2 ^ 53 := by
  rw [show binary64.p = 53 from rfl, one_div, inv_mul_eq_div]
  exact div_le_div_of_nonneg_right h (by positivity)

theorem add_within {X : ℝ} (hX : Mid X) {a b : D} (h : |r a + r b| ≤ X) :
    ∃ c, CNum.add a b = .ok c ∧ |r c - (r a + r b)| ≤ X / 2 ^ 52 := by
  obtain ⟨c, e, hc⟩ := (Flt.rounding binary64).add a b (h.trans hX.max)
  have := half_step h
  have h0 := (abs_nonneg _).trans h
  exact ⟨c, e, hc.trans (this.trans (div_le_div_of_nonneg_left h0 (by positivity) (by norm_num)))⟩

theorem sub_within {X : ℝ} (hX : Mid X) {a b : D} (h : |r a - r b| ≤ X) :
    ∃ c, CNum.sub a b = .ok c ∧ |r c - (r a - r b)| ≤ X / 2 ^ 52 := by
  obtain ⟨c, e, hc⟩ := (Flt.rounding binary64).sub a b (h.trans hX.max)
  have := half_step h
  have h0 := (abs_nonneg _).trans h
  exact ⟨c, e, hc.trans (this.trans (div_le_div_of_nonneg_left h0 (by positivity) (by norm_num)))⟩

theorem mul_within {X : ℝ} (hX : Mid X) {a b : D} (h : |r a * r b| ≤ X) :
    ∃ c, CNum.mul a b = .ok c ∧ |r c - r a * r b| ≤ X / 2 ^ 52 := by
  obtain ⟨c, e, hc⟩ := (Flt.rounding binary64).mul a b (h.trans hX.max)
  have h1 := half_step h
  have h2 := hX.eta
  refine ⟨c, e, hc.trans ((add_le_add h1 h2).trans (le_of_eq ?_))⟩
  ring

theorem scale {k x m : ℝ} (h0 : 0 ≤ k) (hx : |x| ≤ m) : |k * x| ≤ k * m := by
  rw [abs_mul, abs_of_nonneg h0]
  exact mul_le_mul_of_nonneg_left hx h0

/-- The operations on the estimate in one update. -/
theorem update_ops {M : ℝ} (hM : Mid (136 * M)) {y0 y1 half v z g0 g1 : D} (hy0 : |r y0| ≤ 115 * M) (hy1 : |r y1| ≤ 18 * M)
    (hv : |r v| ≤ M) (hz : |r z| ≤ M) (hh : r half = 1 / 2) (hg0 : 0 ≤ r g0 ∧ r g0 ≤ 19 / 100)
    (hg1 : 0 ≤ r g1 ∧ r g1 ≤ 1 / 50) : ∃ s w c0 c1 i d0 d1 e0 e1 : D,
      (CNum.add y0 y1 = .ok s ∧ CNum.mul half v = .ok w ∧ CNum.add s w = .ok c0 ∧ CNum.add y1 v = .ok c1 ∧
        CNum.sub z c0 = .ok i ∧ CNum.mul g0 i = .ok d0 ∧ CNum.mul g1 i = .ok d1 ∧ CNum.add c0 d0 = .ok e0 ∧
        CNum.add c1 d1 = .ok e1) ∧
      |r e0 - (r y0 + r y1 + r v / 2 + r g0 * (r z - (r y0 + r y1 + r v / 2)))| ≤ 6 * (136 * M / 2 ^ 52) ∧
      |r e1 - (r y1 + r v + r g1 * (r z - (r y0 + r y1 + r v / 2)))| ≤ 4 * (136 * M / 2 ^ 52) := by
  have hM0 : 0 ≤ M := (abs_nonneg _).trans hv
  have hμ : 136 * M / 2 ^ 52 ≤ M / 1000 := by
    rw [div_le_div_iff₀ (by norm_num) (by norm_num)]
    nlinarith
  have hμ0 : 0 ≤ 136 * M / 2 ^ 52 := by positivity
  obtain ⟨s, es, hs⟩ := add_within hM (a := y0) (b := y1) (by rw [abs_le] at *; constructor <;> linarith)
  obtain ⟨w, ew, hw⟩ := mul_within hM (a := half) (b := v) (by
    rw [hh]; exact (scale (by norm_num) hv).trans (by linarith))
  rw [hh] at hw
  generalize hμe : 136 * M / 2 ^ 52 = μ at *
  have hc' : |r s + r w - (r y0 + r y1 + r v / 2)| ≤ 2 * μ := by rw [abs_le] at *; constructor <;> linarith
  have hC : |r y0 + r y1 + r v / 2| ≤ 267 / 2 * M := by rw [abs_le] at *; constructor <;> linarith
  obtain ⟨c0, ec0, hc0⟩ := add_within hM (a := s) (b := w) (by rw [abs_le] at *; constructor <;> linarith)
  obtain ⟨c1, ec1, hc1⟩ := add_within hM (a := y1) (b := v) (by rw [abs_le] at *; constructor <;> linarith)
  rw [hμe] at hc0 hc1
  have Hc0 : |r c0 - (r y0 + r y1 + r v / 2)| ≤ 3 * μ := by rw [abs_le] at *; constructor <;> linarith
  clear hc0 hc' hs hw
  generalize r y0 + r y1 + r v / 2 = C at *
  obtain ⟨i, ei, hi⟩ := sub_within hM (a := z) (b := c0) (by rw [abs_le] at *; constructor <;> linarith)
  rw [hμe] at hi
  have Hi : |r i - (r z - C)| ≤ 4 * μ := by rw [abs_le] at *; constructor <;> linarith
  have Im : |r i| ≤ 135 * M := by rw [abs_le] at *; constructor <;> linarith
  have m0 := scale hg0.1 Im
  have m1 := scale hg1.1 Im
  have n0 := scale hg0.1 Hi
  have n1 := scale hg1.1 Hi
  have q0 : r g0 * (135 * M) ≤ 19 / 100 * (135 * M) := mul_le_mul_of_nonneg_right hg0.2 (by positivity)
  have q1 : r g1 * (135 * M) ≤ 1 / 50 * (135 * M) := mul_le_mul_of_nonneg_right hg1.2 (by positivity)
  have p0 : r g0 * (4 * μ) ≤ 19 / 100 * (4 * μ) := mul_le_mul_of_nonneg_right hg0.2 (by positivity)
  have p1 : r g1 * (4 * μ) ≤ 1 / 50 * (4 * μ) := mul_le_mul_of_nonneg_right hg1.2 (by positivity)
  obtain ⟨d0, ed0, hd0⟩ := mul_within hM (a := g0) (b := i) (m0.trans (by linarith))
  obtain ⟨d1, ed1, hd1⟩ := mul_within hM (a := g1) (b := i) (m1.trans (by linarith))
  rw [hμe] at hd0 hd1
  have Z0 : |r c0 + r g0 * r i| ≤ 135 * M := by
    have e : r c0 + r g0 * r i = (1 - r g0) * r c0 + r g0 * (r c0 + r i) := by ring
    have a1 := scale (show 0 ≤ 1 - r g0 by linarith [hg0.2]) (show |r c0| ≤ 135 * M by rw [abs_le] at *; constructor <;> linarith)
    have a2 := scale hg0.1 (show |r c0 + r i| ≤ 135 * M by rw [abs_le] at *; constructor <;> linarith)
    rw [e]
    exact (abs_add_le _ _).trans (by linarith)
  obtain ⟨e0, ee0, he0⟩ := add_within hM (a := c0) (b := d0) (by rw [abs_le] at *; constructor <;> linarith)
  obtain ⟨e1, ee1, he1⟩ := add_within hM (a := c1) (b := d1) (by rw [abs_le] at *; constructor <;> linarith)
  rw [hμe] at he0 he1
  rw [mul_sub] at n0 n1
  refine ⟨s, w, c0, c1, i, d0, d1, e0, e1, ⟨es, ew, ec0, ec1, ei, ed0, ed1, ee0, ee1⟩, ?_, ?_⟩
  · rw [abs_le] at *; constructor <;> linarith
  · rw [abs_le] at *; constructor <;> linarith

/-! ### One update -/

/-- The size of the estimate after an update. -/
theorem size_step {ρ g0 g1 : ℚ} (h : Contracts ρ g0 g1) (hg0 : 0 ≤ g0 ∧ g0 ≤ 19 / 100) (hg1 : 0 ≤ g1 ∧ g1 ≤ 1 / 50)
    {M b μ y0 y1 v z e0 e1 : ℝ} (hy : size y0 y1 ≤ b * M) (hv : |v| ≤ M) (hz : |z| ≤ M) (hμ : μ ≤ M / 1000)
    (h0 : |e0 - (y0 + y1 + v / 2 + g0 * (z - (y0 + y1 + v / 2)))| ≤ 6 * μ)
    (h1 : |e1 - (y1 + v + g1 * (z - (y0 + y1 + v / 2)))| ≤ 4 * μ) : size e0 e1 ≤ (ρ * b + 71 / 10) * M := by
  have hρ : (0 : ℝ) ≤ ρ := by exact_mod_cast h.1
  have a0 : (0 : ℝ) ≤ g0 ∧ (g0 : ℝ) ≤ 19 / 100 := by
    have := (Rat.cast_le (K := ℝ)).2 hg0.2; push_cast at this; exact ⟨by exact_mod_cast hg0.1, this⟩
  have a1 : (0 : ℝ) ≤ g1 ∧ (g1 : ℝ) ≤ 1 / 50 := by
    have := (Rat.cast_le (K := ℝ)).2 hg1.2; push_cast at this; exact ⟨by exact_mod_cast hg1.1, this⟩
  have hM : 0 ≤ M := (abs_nonneg _).trans hv
  have hm := size_map h y0 y1
  have hs := size_add ((1 - g0) * (y0 + y1)) (y1 - g1 * (y0 + y1)) (e0 - (1 - g0) * (y0 + y1)) (e1 - (y1 - g1 * (y0 + y1)))
  rw [add_sub_cancel, add_sub_cancel] at hs
  have hr := size_le (e0 - (1 - g0) * (y0 + y1)) (e1 - (y1 - g1 * (y0 + y1)))
  have q0 : |e0 - (1 - g0) * (y0 + y1)| ≤ (595 / 1000 + 6 / 1000) * M := by
    have m1 := scale (show 0 ≤ (1 - (g0 : ℝ)) / 2 by linarith) hv
    have m2 := scale a0.1 hz
    have m3 : (g0 : ℝ) * M ≤ 19 / 100 * M := mul_le_mul_of_nonneg_right a0.2 hM
    rw [abs_le] at *
    constructor <;> linarith
  have q1 : |e1 - (y1 - g1 * (y0 + y1))| ≤ (101 / 100 + 4 / 1000) * M := by
    have m1 := scale (show 0 ≤ 1 - (g1 : ℝ) / 2 by linarith) hv
    have m2 := scale a1.1 hz
    have m3 : (g1 : ℝ) * M ≤ 1 / 50 * M := mul_le_mul_of_nonneg_right a1.2 hM
    rw [abs_le] at *
    constructor <;> linarith
  have m := mul_le_mul_of_nonneg_left hy hρ
  linarith

/-- The difference from the exact estimate after an update. -/
theorem error_step {ρ g0 g1 : ℚ} (h : Contracts ρ g0 g1) {M a y0 y1 Y0 Y1 G0 G1 v z e0 e1 : ℝ}
    (hy : size (y0 - Y0) (y1 - Y1) ≤ a) (hI : |z - (Y0 + Y1 + v / 2)| ≤ 136 * M) (hG0 : |(g0 : ℝ) - G0| ≤ 1 / 2 ^ 52)
    (hG1 : |(g1 : ℝ) - G1| ≤ 1 / 2 ^ 56)
    (h0 : |e0 - (y0 + y1 + v / 2 + g0 * (z - (y0 + y1 + v / 2)))| ≤ 6 * (136 * M / 2 ^ 52))
    (h1 : |e1 - (y1 + v + g1 * (z - (y0 + y1 + v / 2)))| ≤ 4 * (136 * M / 2 ^ 52)) :
    size (e0 - (Y0 + Y1 + v / 2 + G0 * (z - (Y0 + Y1 + v / 2)))) (e1 - (Y1 + v + G1 * (z - (Y0 + Y1 + v / 2)))) ≤
      ρ * a + 33 * (136 * M / 2 ^ 52) := by
  have hρ : (0 : ℝ) ≤ ρ := by exact_mod_cast h.1
  have hm := size_map h (y0 - Y0) (y1 - Y1)
  set E0 := e0 - (Y0 + Y1 + v / 2 + G0 * (z - (Y0 + Y1 + v / 2))) with hE0
  set E1 := e1 - (Y1 + v + G1 * (z - (Y0 + Y1 + v / 2))) with hE1
  set F0 := (1 - (g0 : ℝ)) * (y0 - Y0 + (y1 - Y1)) with hF0
  set F1 := y1 - Y1 - (g1 : ℝ) * (y0 - Y0 + (y1 - Y1)) with hF1
  have hs := size_add F0 F1 (E0 - F0) (E1 - F1)
  rw [add_sub_cancel, add_sub_cancel] at hs
  have hr := size_le (E0 - F0) (E1 - F1)
  have p0 : |((g0 : ℝ) - G0) * (z - (Y0 + Y1 + v / 2))| ≤ 1 / 2 ^ 52 * (136 * M) := by
    rw [abs_mul]; exact mul_le_mul hG0 hI (abs_nonneg _) (by positivity)
  have p1 : |((g1 : ℝ) - G1) * (z - (Y0 + Y1 + v / 2))| ≤ 1 / 2 ^ 56 * (136 * M) := by
    rw [abs_mul]; exact mul_le_mul hG1 hI (abs_nonneg _) (by positivity)
  have q0 : |E0 - F0| ≤ 7 * (136 * M / 2 ^ 52) := by
    have e : E0 - F0 = e0 - (y0 + y1 + v / 2 + g0 * (z - (y0 + y1 + v / 2))) +
        ((g0 : ℝ) - G0) * (z - (Y0 + Y1 + v / 2)) := by rw [hE0, hF0]; ring
    rw [e]
    exact (abs_add_le _ _).trans (by linarith)
  have q1 : |E1 - F1| ≤ (4 + 1 / 16) * (136 * M / 2 ^ 52) := by
    have e : E1 - F1 = e1 - (y1 + v + g1 * (z - (y0 + y1 + v / 2))) +
        ((g1 : ℝ) - G1) * (z - (Y0 + Y1 + v / 2)) := by rw [hE1, hF1]; ring
    rw [e]
    exact (abs_add_le _ _).trans (by linarith)
  have m := mul_le_mul_of_nonneg_left hy hρ
  linarith

/-- The clock never overflows. -/
theorem tick {t : D} (h0 : 0 ≤ t.val) (h1 : t.val ≤ 2 ^ 53) : ∃ s, CNum.add t (CNum.one : D) = .ok s ∧ 0 ≤ s.val ∧ s.val ≤ 2 ^ 53 := by
  have e1 : (CNum.one : D).val = 1 := rfl
  have hm : (2 : ℚ) ^ 54 ≤ binary64.max := by
    unfold Format.max binary64
    have h2 : (2 : ℚ) ^ (2 : ℤ) ≤ 2 ^ (971 : ℤ) := zpow_le_zpow_right₀ (by norm_num) (by norm_num)
    have h1 : (2 : ℚ) ^ 54 ≤ (2 ^ 53 - 1) * 2 ^ (2 : ℤ) := by norm_num
    exact h1.trans (mul_le_mul_of_nonneg_left h2 (by norm_num))
  obtain ⟨s, hs, hv⟩ := Flt.ofRat_ok (f := binary64) (x := t.val + (CNum.one : D).val) (by
    rw [e1, abs_of_nonneg (by linarith)]
    exact le_trans (by norm_num; linarith) hm)
  refine ⟨s, hs, ?_, ?_⟩
  · rw [hv, e1]
    have := rnd_mono binary64 (show (0 : ℚ) ≤ t.val + 1 by linarith)
    rwa [show rnd binary64 0 = 0 by decide +kernel] at this
  · rw [hv, e1]
    have := rnd_mono binary64 (show t.val + 1 ≤ (2 : ℚ) ^ 53 + 1 by linarith)
    rwa [show rnd binary64 (2 ^ 53 + 1) = 2 ^ 53 by decide +kernel] at this

theorem mulM11_vec {f : Format} {a b v s t : Flt f} (h : CNum.mul a v = .ok s) (h' : CNum.mul b v = .ok t) :
    (⟨#v[a, b]⟩ : Mat (Flt f) 2 1).mulM11 (⟨#v[v]⟩ : Mat (Flt f) 1 1) = .ok ⟨#v[s, t]⟩ := mulS_vec h h'

/-- One update in `double` in terms of single operations. -/
theorem update_float {half : D} {k : Kalman D .one .one}
    (hA : k.A = Mat.mk22 CNum.one CNum.one CNum.zero CNum.one) (hB : k.B = ⟨#v[half, CNum.one]⟩) (hH : k.H = hPos)
    {y0 y1 k0 k1 τ : D} {Pm P' : Mat D 2 2} (hx : k.xhat = ⟨#v[y0, y1]⟩)
    (hPm : Kalman.predictCov k.A k.P k.Q = .ok Pm) (hK : Kalman.gain .one Pm k.H k.R = .ok ⟨#v[k0, k1]⟩)
    (hP : Kalman.correctCov .one ⟨#v[k0, k1]⟩ k.H Pm = .ok P') (ht : CNum.add k.t k.dt = .ok τ)
    {v z s w c0 c1 i d0 d1 e0 e1 : D}
    (h : CNum.add y0 y1 = .ok s ∧ CNum.mul half v = .ok w ∧ CNum.add s w = .ok c0 ∧ CNum.add y1 v = .ok c1 ∧
        CNum.sub z c0 = .ok i ∧ CNum.mul k0 i = .ok d0 ∧ CNum.mul k1 i = .ok d1 ∧ CNum.add c0 d0 = .ok e0 ∧
        CNum.add c1 d1 = .ok e1) :
    k.update (⟨#v[v]⟩ : Mat D 1 1) (⟨#v[z]⟩ : Mat D 1 1) =
      .ok { k with K := some ⟨#v[k0, k1]⟩, P := P', xhat := ⟨#v[e0, e1]⟩, t := τ } := by
  obtain ⟨es, ew, ec0, ec1, ei, ed0, ed1, ee0, ee1⟩ := h
  unfold Kalman.update Kalman.predictState Kalman.control
  rw [ht, bind_ok, hA, hx, mulVec_trans es, bind_ok, hB]
  simp only
  rw [mulM11_vec ew (Flt.one_mul' v), bind_ok, add_vec ec0 ec1, bind_ok, ← hA, hPm, bind_ok, hK, bind_ok]
  unfold Kalman.correctState
  simp only
  rw [hH, dot_pos, bind_ok, sub11s_one ei, bind_ok, mulS_vec ed0 ed1, bind_ok, add_vec ee0 ee1, bind_ok, ← hH, hP, bind_ok]

/-- One update exactly. -/
theorem update_real {k : Kalman ℝ .one .one} (hk : Good exact k) {n : ℕ} (hP : k.P.toMatrix = covSeq exact first n)
    {Y0 Y1 : ℝ} (hx : k.xhat.toMatrix = !![Y0; Y1]) (v z : ℝ) : ∃ k' G0 G1,
      k.update (⟨#v[v]⟩ : Mat ℝ 1 1) (⟨#v[z]⟩ : Mat ℝ 1 1) = .ok k' ∧ Good exact k' ∧
      k'.P.toMatrix = covSeq exact first (n + 1) ∧ G0 = covSeq exact first (n + 1) 0 0 / 100 ∧
      G1 = covSeq exact first (n + 1) 1 0 / 100 ∧
      k'.xhat.toMatrix = !![Y0 + Y1 + v / 2 + G0 * (z - (Y0 + Y1 + v / 2)); Y1 + v + G1 * (z - (Y0 + Y1 + v / 2))] := by
  have hQ : k.Q.toMatrix.PosSemidef := by rw [hk.Q]; exact Q_psd
  have hRd : k.R.toMatrix.PosDef := by rw [hk.R]; exact R_posDef
  obtain ⟨k', G, hu, hs, -, eP, eG, ex, -⟩ := k.update_ricc (⟨#v[v]⟩ : Mat ℝ 1 1) (⟨#v[z]⟩ : Mat ℝ 1 1) hk.P hQ hRd
  have eP' : k'.P.toMatrix = covSeq exact first (n + 1) := by rw [eP, hk.A, hk.H, hk.Q, hk.R, hP]; rfl
  have hP' : k'.P.toMatrix.PosSemidef := by rw [eP]; exact KF.ricc_psd hk.P hQ hRd
  have hG (i : Fin 2) : G.toMatrix i 0 = covSeq exact first (n + 1) i 0 / 100 := by
    rw [eG, hk.H, hk.R, ← eP']
    refine (gain_elem exact _ i).trans ?_
    unfold exact
    norm_num
  have e1 : G.toMatrix = !![covSeq exact first (n + 1) 0 0 / 100; covSeq exact first (n + 1) 1 0 / 100] := by
    ext i j
    fin_cases j
    fin_cases i
    · exact hG 0
    · exact hG 1
  have e2 (z : ℝ) : (⟨#v[z]⟩ : Mat ℝ 1 1).toMatrix = !![z] := by
    ext i j; fin_cases i; fin_cases j; rfl
  have hxm : k.xm (⟨#v[v]⟩ : Mat ℝ 1 1) = !![Y0 + Y1 + v / 2; Y1 + v] := by
    rw [Kalman.xm, hk.A, hk.B, hx, mA_mat, mB_mat, e2]
    unfold exact
    ext i j
    fin_cases j
    fin_cases i
    · simp; ring
    · simp
  refine ⟨k', _, _, hu, ⟨by rw [hs.A, hk.A], by rw [hs.B, hk.B], by rw [hs.H, hk.H], by rw [hs.Q, hk.Q],
    by rw [hs.R, hk.R], hP'⟩, eP', rfl, rfl, ?_⟩
  rw [ex, hxm, e1, e2, hk.H, mH_mat]
  ext i j
  fin_cases i <;> fin_cases j <;> simp

/-! ### All updates -/

/-- What holds after `n` updates. -/
structure Track (half : D) (M : ℝ) (k₀ k : Kalman D .one .one) (l : Kalman ℝ .one .one) (n : ℕ) : Prop where
  at_ : At k₀ k n
  t : 0 ≤ k.t.val ∧ k.t.val ≤ 2 ^ 53
  good : Good exact l
  P : l.P.toMatrix = covSeq exact first n
  x : ∃ y0 y1 : D, ∃ Y0 Y1 : ℝ, k.xhat = ⟨#v[y0, y1]⟩ ∧ l.xhat.toMatrix = !![Y0; Y1] ∧
    size (r y0) (r y1) ≤ bound n * M ∧ size (r y0 - Y0) (r y1 - Y1) ≤ 5 / 2 ^ 45 * bound n * M

theorem bound_real (n : ℕ) : (0 : ℝ) ≤ bound n ∧ (bound n : ℝ) ≤ 93 := by
  have h := bound_le n
  have := (Rat.cast_le (K := ℝ)).2 h.2
  push_cast at this
  exact ⟨by exact_mod_cast h.1, this⟩

theorem bound_succ (n : ℕ) : (bound (n + 1) : ℝ) = rate n * bound n + 71 / 10 := by
  rw [bound]
  push_cast
  rfl

theorem Track.step {half : D} (hh : half.val = 1 / 2) {M : ℝ} (hM : Mid (136 * M)) {p A B H k₀ x}
    (hs : setup = .ok (p, A, B, H, k₀, x)) (hA : k₀.A = Mat.mk22 CNum.one CNum.one CNum.zero CNum.one)
    (hB : k₀.B = ⟨#v[half, CNum.one]⟩) (hH : k₀.H = hPos) (hdt : k₀.dt = CNum.one) {k l n} (h : Track half M k₀ k l n)
    {v z : D} (hv : |r v| ≤ M) (hz : |r z| ≤ M) : ∃ k' l', k.update (⟨#v[v]⟩ : Mat D 1 1) (⟨#v[z]⟩ : Mat D 1 1) = .ok k' ∧
      l.update (⟨#v[r v]⟩ : Mat ℝ 1 1) (⟨#v[r z]⟩ : Mat ℝ 1 1) = .ok l' ∧ Track half M k₀ k' l' (n + 1) := by
  have hM0 : 0 ≤ M := (abs_nonneg _).trans hv
  obtain ⟨Pm, K, P', a1, a2, a3, a4, a5⟩ := h.at_.next hs
  obtain ⟨g0, g1, rfl, f0, f1⟩ := gain_val a4
  obtain ⟨y0, y1, Y0, Y1, ey, eY, hy, hd⟩ := h.x
  obtain ⟨hc, b0, b1⟩ := fine n
  have near := near_all n
  obtain ⟨hb0, hb⟩ := bound_real n
  have rg0 : r g0 = (inUnits (st n).2.2.2.2.1 : ℝ) := by rw [r, f0]
  have rg1 : r g1 = (inUnits (st n).2.2.2.2.2 : ℝ) := by rw [r, f1]
  have c0 : 0 ≤ r g0 ∧ r g0 ≤ 19 / 100 := by
    have := (Rat.cast_le (K := ℝ)).2 b0.2; push_cast at this; rw [rg0]; exact ⟨by exact_mod_cast b0.1, this⟩
  have c1 : 0 ≤ r g1 ∧ r g1 ≤ 1 / 50 := by
    have := (Rat.cast_le (K := ℝ)).2 b1.2; push_cast at this; rw [rg1]; exact ⟨by exact_mod_cast b1.1, this⟩
  have hbM : (bound n : ℝ) * M ≤ 93 * M := mul_le_mul_of_nonneg_right hb hM0
  have hy0 : |r y0| ≤ 1143 / 10 * M := (pos_le _ (r y1)).trans (by linarith)
  have hy1 : |r y1| ≤ 179 / 10 * M := (vel_le (r y0) _).trans (by linarith)
  have hd' : size (r y0 - Y0) (r y1 - Y1) ≤ M / 1000 := hd.trans (by nlinarith)
  have hd0 : |r y0 - Y0| ≤ M / 100 := (pos_le _ (r y1 - Y1)).trans (by linarith)
  have hd1 : |r y1 - Y1| ≤ M / 100 := (vel_le (r y0 - Y0) _).trans (by linarith)
  have rh : r half = 1 / 2 := by rw [r, hh]; norm_num
  obtain ⟨s, w, u0, u1, i, q0, q1, e0, e1, ops, w0, w1⟩ := update_ops hM (hy0.trans (by linarith)) (hy1.trans (by linarith))
    hv hz rh c0 c1
  obtain ⟨τ, ht, τ0, τ1⟩ := tick h.t.1 h.t.2
  have up := update_float (h.at_.A.trans hA) (h.at_.B.trans hB) (h.at_.H.trans hH) ey a1 a2 a3
    (by rw [h.at_.dt, hdt]; exact ht) ops
  obtain ⟨l', G0, G1, ul, hg, hP, eG0, eG1, ex⟩ := update_real h.good h.P eY (r v) (r z)
  refine ⟨_, l', up, ul, ⟨h.at_.A, h.at_.B, h.at_.H, h.at_.Q, h.at_.R, h.at_.dt, a5⟩, ⟨τ0, τ1⟩, hg, hP, e0, e1, _, _, rfl, ex, ?_, ?_⟩
  · rw [bound_succ]
    rw [rg0] at w0
    rw [rg1] at w1
    exact size_step hc b0 b1 hy hv hz (by
      rw [div_le_div_iff₀ (by norm_num) (by norm_num)]
      nlinarith) w0 w1
  · rw [bound_succ]
    rw [rg0] at w0
    rw [rg1] at w1
    refine (error_step (G0 := G0) (G1 := G1) hc hd ?_ (by rw [eG0]; exact near.g0) (by rw [eG1]; exact near.g1) w0 w1).trans ?_
    · rw [abs_le] at *
      constructor <;> linarith
    · have : (33 * (136 * M / 2 ^ 52) : ℝ) ≤ 5 / 2 ^ 45 * (71 / 10) * M := by linarith
      linarith

theorem Track.run {half : D} (hh : half.val = 1 / 2) {M : ℝ} (hM : Mid (136 * M)) {p A B H k₀ x}
    (hs : setup = .ok (p, A, B, H, k₀, x)) (hA : k₀.A = Mat.mk22 CNum.one CNum.one CNum.zero CNum.one)
    (hB : k₀.B = ⟨#v[half, CNum.one]⟩) (hH : k₀.H = hPos) (hdt : k₀.dt = CNum.one) (ds : List (D × D)) :
    ∀ {k l n}, Track half M k₀ k l n → (∀ d ∈ ds, |r d.1| ≤ M ∧ |r d.2| ≤ M) →
      ∃ k' l', k.run (ds.map fun d => ((⟨#v[d.1]⟩ : Mat D 1 1), (⟨#v[d.2]⟩ : Mat D 1 1))) = .ok k' ∧
        l.run (ds.map fun d => ((⟨#v[r d.1]⟩ : Mat ℝ 1 1), (⟨#v[r d.2]⟩ : Mat ℝ 1 1))) = .ok l' ∧
        Track half M k₀ k' l' (n + ds.length) := by
  induction ds with
  | nil => exact fun h _ => ⟨_, _, rfl, rfl, h⟩
  | cons d ds ih =>
    intro k l n h hd
    obtain ⟨k', l', u1, u2, h'⟩ := h.step hh hM hs hA hB hH hdt (hd d (by simp)).1 (hd d (by simp)).2
    obtain ⟨k'', l'', r1, r2, h''⟩ := ih h' fun e he => hd e (List.mem_cons_of_mem _ he)
    refine ⟨k'', l'', ?_, ?_, ?_⟩
    · rw [List.map_cons, Kalman.run]
      exact (congrArg (· >>= _) u1).trans r1
    · rw [List.map_cons, Kalman.run]
      exact (congrArg (· >>= _) u2).trans r2
    · rw [List.length_cons, show n + (ds.length + 1) = n + 1 + ds.length by omega]
      exact h''

/-- Before the first update. -/
theorem Track.start {half : D} {M : ℝ} {avr avr' : Bool} {p A B H k₀ k l}
    (hs : setup = .ok (p, A, B, H, k₀, (⟨#v[CNum.zero, CNum.zero]⟩ : Mat D 2 1))) (hk : estim avr p = .ok k)
    (hl : estim avr' exact = .ok l) : Track half M k₀ k l 0 := by
  obtain ⟨l₀, hl₀, hg, hP, hx⟩ := estim_eq avr' exact
  cases hl₀.symm.trans hl
  have e : k.xhat = ⟨#v[CNum.zero, CNum.zero]⟩ ∧ k.t = CNum.zero := by
    unfold setup at hs
    obtain ⟨p', hp, hs⟩ := bind_eq_ok.1 hs
    obtain ⟨A', hA, hs⟩ := bind_eq_ok.1 hs
    obtain ⟨B', hB, hs⟩ := bind_eq_ok.1 hs
    obtain ⟨H', hH, hs⟩ := bind_eq_ok.1 hs
    obtain ⟨k', hk', hs⟩ := bind_eq_ok.1 hs
    obtain ⟨x', hx, hs⟩ := bind_eq_ok.1 hs
    injection hs with hs
    injection hs with h1 hs
    injection hs with h2 hs
    injection hs with h3 hs
    injection hs with h4 hs
    injection hs with h5 h6
    subst h1
    subst h6
    unfold estim at hk
    rw [hx, bind_ok, hA, bind_ok, hB, bind_ok, hH, bind_ok] at hk
    obtain ⟨Q, hQ, hk⟩ := bind_eq_ok.1 hk
    obtain ⟨R, hR, hk⟩ := bind_eq_ok.1 hk
    rw [hQ, bind_ok] at hk
    cases hk
    exact ⟨rfl, rfl⟩
  have z0 : (CNum.zero : D).val = 0 := rfl
  have rz : r (CNum.zero : D) = 0 := by rw [r, z0]; norm_num
  refine ⟨At.start hs hk, by rw [e.2, z0]; norm_num, hg, ?_, CNum.zero, CNum.zero, 0, 0, e.1, ?_, ?_, ?_⟩
  · rw [hP, mQ_mat, covSeq, KF.riccSeq, first, covMat]
    unfold exact
    ext i j
    fin_cases i <;> fin_cases j <;> simp <;> norm_num
  · rw [hx]
    ext i j
    fin_cases i <;> fin_cases j <;> rfl
  · rw [rz, size_zero, bound]; simp
  · rw [rz, sub_zero, size_zero, bound]; simp

/-- The parts of the program. -/
theorem parts : ∃ p A B H k₀ half, setup = .ok (p, A, B, H, k₀, (⟨#v[CNum.zero, CNum.zero]⟩ : Mat D 2 1)) ∧
    constants binary64 = .ok p ∧ half.val = 1 / 2 ∧ k₀.A = Mat.mk22 CNum.one CNum.one CNum.zero CNum.one ∧
    k₀.B = ⟨#v[half, CNum.one]⟩ ∧ k₀.H = hPos ∧ k₀.dt = CNum.one ∧ ∀ avr, ∃ k, estim avr p = .ok k := by
  obtain ⟨⟨p, A, B, H, k₀, x⟩, hs, h⟩ := Res.of_yields setup_ok
  obtain ⟨half, -, h⟩ := Res.of_yields h
  obtain ⟨h1, h2, -, -, -, h3, h4, h5, h6, h7, h8, h9, -⟩ := of_decide_eq_true h
  subst h9
  have hs' := hs
  unfold setup at hs'
  obtain ⟨p', hp, hs'⟩ := bind_eq_ok.1 hs'
  obtain ⟨A', hA, hs'⟩ := bind_eq_ok.1 hs'
  obtain ⟨B', hB, hs'⟩ := bind_eq_ok.1 hs'
  obtain ⟨H', hH, hs'⟩ := bind_eq_ok.1 hs'
  obtain ⟨k', hk', hs'⟩ := bind_eq_ok.1 hs'
  obtain ⟨x', hx, hs'⟩ := bind_eq_ok.1 hs'
  injection hs' with e
  injection e with e1 e
  injection e with e2 e
  injection e with e3 e
  injection e with e4 e
  injection e with e5 e6
  subst e1
  subst e5
  have hk := hk'
  unfold estim at hk
  rw [hx, bind_ok, hA, bind_ok, hB, bind_ok, hH, bind_ok] at hk
  obtain ⟨Q, hQ, hk⟩ := bind_eq_ok.1 hk
  obtain ⟨R, hR, hk⟩ := bind_eq_ok.1 hk
  rw [hQ, bind_ok] at hk
  refine ⟨p', A, B, H, k', half, hs, hp, h1, h6.trans h3, h7.trans h4, h8.trans h5, ?_, fun avr => ?_⟩
  · rw [← h2]
    cases hk
    rfl
  · unfold estim
    rw [hx, bind_ok, hA, bind_ok, hB, bind_ok, hH, bind_ok, hQ, bind_ok, hR, bind_ok, bind_ok]
    exact ⟨_, rfl⟩

/-- A run with data 1. -/
theorem ones (n : ℕ) : ∃ p k k', constants binary64 = .ok p ∧ estim false p = .ok k ∧
    k.run (List.replicate n ((⟨#v[CNum.one]⟩ : Mat D 1 1), (⟨#v[CNum.one]⟩ : Mat D 1 1))) = .ok k' := by
  obtain ⟨p, A, B, H, k₀, half, hs, hp, hh, hA, hB, hH, hdt, hk⟩ := parts
  obtain ⟨k, hk⟩ := hk false
  obtain ⟨l, hl, -⟩ := estim_eq false exact
  have hMid : Mid (136 * 1) := ⟨(one_div_le_one_div_of_le one_pos (one_le_pow₀ one_le_two)).trans (by norm_num),
    le_trans (by norm_num : (136 * 1 : ℝ) ≤ 2 ^ 8) (pow_le_pow_right₀ one_le_two (by norm_num))⟩
  have r1 : r (CNum.one : D) = 1 := by
    have : (CNum.one : D).val = 1 := rfl
    rw [r, this, Rat.cast_one]
  obtain ⟨k', l', h, -⟩ := (Track.start (half := half) (M := 1) hs hk hl).run hh hMid hs hA hB hH hdt
    (List.replicate n (CNum.one, CNum.one)) (fun d hd => by
      rw [List.eq_of_mem_replicate hd, r1, abs_one]
      exact ⟨le_rfl, le_rfl⟩)
  rw [List.map_replicate] at h
  exact ⟨p, k, k', hp, hk, h⟩

/-! ### The simulation -/

theorem mid_of {X : ℝ} (h0 : 1 ≤ X) (h1 : X ≤ 2 ^ 100) : Mid X :=
  ⟨(one_div_le_one_div_of_le one_pos (one_le_pow₀ one_le_two)).trans (by rw [div_one]; exact h0),
    h1.trans (pow_le_pow_right₀ one_le_two (by norm_num))⟩

theorem near_le {a b e B : ℝ} (h : |a - b| ≤ e) (hb : |b| ≤ B) : |a| ≤ B + e := by
  have := abs_add_le (a - b) b
  rw [sub_add_cancel] at this
  linarith

theorem sum_le {a b A B X : ℝ} (ha : |a| ≤ A) (hb : |b| ≤ B) (h : A + B ≤ X) : |a + b| ≤ X :=
  (abs_add_le a b).trans ((add_le_add ha hb).trans h)

theorem prod_le {a b A B : ℝ} (ha : |a| ≤ A) (hb : |b| ≤ B) : |a * b| ≤ A * B := by
  rw [abs_mul]
  exact mul_le_mul ha hb (abs_nonneg _) ((abs_nonneg _).trans ha)

/-- The simulated system in the pass after `N` passes. -/
theorem draw_ops {N : ℝ} (hN : 0 ≤ N) (hN' : N ≤ 2 ^ 40) {half acc meas x0 x1 g1 g2 g3 : D} (hh : r half = 1 / 2)
    (hm : r meas = 10) (ha : |r acc| ≤ 21 / 100) (hx0 : |r x0| ≤ 16 * N ^ 2) (hx1 : |r x1| ≤ 16 * N)
    (h1 : |r g1| ≤ 16) (h2 : |r g2| ≤ 16) (h3 : |r g3| ≤ 16) : ∃ s s' v w w0 w1 n0 n1 m z : D,
    (CNum.add x0 x1 = .ok s ∧ CNum.add s half = .ok s' ∧ CNum.add x1 CNum.one = .ok v ∧
      CNum.mul half g1 = .ok w ∧ CNum.mul w acc = .ok w0 ∧ CNum.mul g2 acc = .ok w1 ∧
      CNum.add s' w0 = .ok n0 ∧ CNum.add v w1 = .ok n1 ∧ CNum.mul meas g3 = .ok m ∧ CNum.add n0 m = .ok z) ∧
    |r n0| ≤ 16 * (N + 1) ^ 2 ∧ |r n1| ≤ 16 * (N + 1) ∧ |r z| ≤ 2 ^ 90 := by
  have q : (N + 1) ^ 2 ≤ 2 ^ 41 * (N + 1) := by nlinarith
  have q' : N ^ 2 ≤ (N + 1) ^ 2 := by nlinarith
  have qN : (N + 1) ^ 2 = N ^ 2 + 2 * N + 1 := by ring
  have m0 : Mid (256 * (N + 1) ^ 2) := mid_of (by nlinarith) (by nlinarith)
  have m1 : Mid (256 * (N + 1)) := mid_of (by linarith) (by linarith)
  have r1 : r (CNum.one : D) = 1 := by
    have : (CNum.one : D).val = 1 := rfl
    rw [r, this, Rat.cast_one]
  have r1' : |r (CNum.one : D)| = 1 := by rw [r1, abs_one]
  have hh' : |r half| = 1 / 2 := by rw [hh]; norm_num
  have hm'' : |r meas| = 10 := by rw [hm]; norm_num
  have e0 : 256 * (N + 1) ^ 2 / 2 ^ 52 ≤ (N + 1) / 8 := by
    rw [div_le_div_iff₀ (by norm_num) (by norm_num)]
    nlinarith
  have e1 : 256 * (N + 1) / 2 ^ 52 ≤ 1 / 4 := by
    rw [div_le_div_iff₀ (by norm_num) (by norm_num)]
    nlinarith
  have k0 : (0 : ℝ) ≤ 256 * (N + 1) ^ 2 / 2 ^ 52 := by positivity
  have k1 : (0 : ℝ) ≤ 256 * (N + 1) / 2 ^ 52 := by positivity
  obtain ⟨s, es, hs⟩ := add_within m0 (a := x0) (b := x1) (sum_le hx0 hx1 (by linarith))
  have bs := near_le hs (sum_le hx0 hx1 le_rfl)
  obtain ⟨s', es', hs'⟩ := add_within m0 (a := s) (b := half) (sum_le bs hh'.le (by linarith))
  have bs' := near_le hs' (sum_le bs hh'.le le_rfl)
  obtain ⟨v, ev, hv⟩ := add_within m1 (a := x1) (b := CNum.one) (sum_le hx1 r1'.le (by linarith))
  have bv := near_le hv (sum_le hx1 r1'.le le_rfl)
  obtain ⟨w, ew, hw⟩ := mul_within m1 (a := half) (b := g1) ((prod_le hh'.le h1).trans (by linarith))
  have bw : |r w| ≤ 9 := (near_le hw (prod_le hh'.le h1)).trans (by linarith)
  obtain ⟨w0, ew0, hw0⟩ := mul_within m1 (a := w) (b := acc) ((prod_le bw ha).trans (by linarith))
  have bw0 : |r w0| ≤ 3 := (near_le hw0 (prod_le bw ha)).trans (by linarith)
  obtain ⟨w1, ew1, hw1⟩ := mul_within m1 (a := g2) (b := acc) ((prod_le h2 ha).trans (by linarith))
  have bw1 : |r w1| ≤ 4 := (near_le hw1 (prod_le h2 ha)).trans (by linarith)
  obtain ⟨n0, en0, hn0⟩ := add_within m0 (a := s') (b := w0) (sum_le bs' bw0 (by linarith))
  have bn0 : |r n0| ≤ 16 * (N + 1) ^ 2 := (near_le hn0 (sum_le bs' bw0 le_rfl)).trans (by linarith)
  obtain ⟨n1, en1, hn1⟩ := add_within m1 (a := v) (b := w1) (sum_le bv bw1 (by linarith))
  have bn1 : |r n1| ≤ 16 * (N + 1) := (near_le hn1 (sum_le bv bw1 le_rfl)).trans (by linarith)
  obtain ⟨m, em, hm'⟩ := mul_within m1 (a := meas) (b := g3) ((prod_le hm''.le h3).trans (by linarith))
  have bm : |r m| ≤ 161 := (near_le hm' (prod_le hm''.le h3)).trans (by linarith)
  have q2 : (1 : ℝ) ≤ (N + 1) ^ 2 := by linarith [sq_nonneg N]
  obtain ⟨z, ez, hz⟩ := add_within m0 (a := n0) (b := m) (sum_le bn0 bm (by linarith))
  have bz := near_le hz (sum_le bn0 bm le_rfl)
  exact ⟨s, s', v, w, w0, w1, n0, n1, m, z, ⟨es, es', ev, ew, ew0, ew1, en0, en1, em, ez⟩, bn0, bn1, bz.trans (by linarith)⟩

/-- The passes of the simulation. -/
theorem loop_ok {half : D} (hh : half.val = 1 / 2) {p A B H k₀ x} (hs : setup = .ok (p, A, B, H, k₀, x)) (hp : Sys p half)
    (hm : r p.measnoise = 10) (ha : |r p.accelnoise| ≤ 21 / 100)
    (hA : k₀.A = Mat.mk22 CNum.one CNum.one CNum.zero CNum.one) (hB : k₀.B = ⟨#v[half, CNum.one]⟩) (hH : k₀.H = hPos)
    (hdt : k₀.dt = CNum.one) (gs : List (D × D × D)) : ∀ {k l n} {x0 x1 : D}, n + gs.length ≤ 2 ^ 40 →
    Track half (2 ^ 90) k₀ k l n → |r x0| ≤ 16 * (n : ℝ) ^ 2 → |r x1| ≤ 16 * (n : ℝ) →
    (∀ g ∈ gs, |r g.1| ≤ 16 ∧ |r g.2.1| ≤ 16 ∧ |r g.2.2| ≤ 16) →
      ∃ rs, loop p k₀.A k₀.B k₀.H k ⟨#v[x0, x1]⟩ gs = .ok rs := by
  have rh : r half = 1 / 2 := by rw [r, hh]; norm_num
  have r1 : |r (CNum.one : D)| ≤ 2 ^ 90 := by
    have : (CNum.one : D).val = 1 := rfl
    rw [r, this]; norm_num
  induction gs with
  | nil => exact fun _ _ _ _ _ => ⟨[], rfl⟩
  | cons g gs ih =>
    intro k l n x0 x1 hn h hx0 hx1 hg
    rw [List.length_cons] at hn
    obtain ⟨g1, g2, g3⟩ := g
    obtain ⟨q1, q2, q3⟩ := hg _ List.mem_cons_self
    have hN : (n : ℝ) ≤ 2 ^ 40 := by exact_mod_cast (by omega : n ≤ 2 ^ 40)
    obtain ⟨s, s', v, w, w0, w1, n0, n1, m, z, ops, b0, b1, bz⟩ := draw_ops n.cast_nonneg hN rh hm ha hx0 hx1 q1 q2 q3
    have hM : Mid (136 * 2 ^ 90) := mid_of (by norm_num) (by norm_num)
    obtain ⟨k', l', u1, -, h'⟩ := h.step hh hM hs hA hB hH hdt r1 bz
    have hst : ∃ row, step p k₀.A k₀.B k₀.H k ⟨#v[x0, x1]⟩ (g1, g2, g3) = .ok (k', ⟨#v[n0, n1]⟩, row) := by
      obtain ⟨es, es', ev, ew, ew0, ew1, en0, en1, em, ez⟩ := ops
      have o1 : Mat.ofList 1 1 [(CNum.one : D)] = .ok ⟨#v[CNum.one]⟩ := rfl
      have o2 : process_noise p g1 g2 = .ok ⟨#v[w0, w1]⟩ := by
        unfold process_noise
        rw [hp.dt, Flt.one_mul', bind_ok]
        obtain ⟨two, t2, t3⟩ := bind_eq_ok.1 hp.half
        rw [t2, bind_ok, t3, bind_ok, ew, bind_ok, Flt.one_mul', bind_ok]
        have : Mat.ofList 2 1 [w, g2] = .ok ⟨#v[w, g2]⟩ := rfl
        rw [this, bind_ok, mulS_vec ew0 ew1]
      have o4 : meas_noise p g3 = .ok m := em
      have o5 : (Mat.fill 1 1 z : Mat D 1 1) = ⟨#v[z]⟩ := rfl
      obtain ⟨Pm, K, P, -, -, -, -, -⟩ := h.at_.next hs
      obtain ⟨-, K, hK, -⟩ := h.at_.update hs u1
      unfold step
      rw [hp.lit1, bind_ok, o1, bind_ok, hA, mulVec_trans es, bind_ok, hB, mulM11_one, bind_ok, add_vec es' ev,
        bind_ok, o2, bind_ok, add_vec en0 en1, bind_ok, hH, dot_pos, bind_ok, o4, bind_ok, ez, bind_ok, o5]
      rw [show k.update (⟨#v[CNum.one]⟩ : Mat D 1 1) (⟨#v[z]⟩ : Mat D 1 1) = .ok k' from u1, bind_ok]
      have i0 (x : ColVec D 2) : x.idx 0 = .ok (x.get 0 0) := x.idx_ok (by decide)
      have i1 (x : ColVec D 2) : x.idx 1 = .ok (x.get 1 0) := x.idx_ok (by decide)
      simp only [Kalman.kalman_gain, Kalman.system_state, Kalman.estimation_error_covariance, hK, bind_ok]
      rw [i0, bind_ok, i0, bind_ok, i0, bind_ok, (Mat.idx22 _).1, bind_ok, i1, bind_ok, i1, bind_ok, i1, bind_ok,
        (Mat.idx22 _).2.1, bind_ok]
      exact ⟨_, rfl⟩
    obtain ⟨row, hst⟩ := hst
    obtain ⟨rs, hrs⟩ := ih (by omega) h' (by push_cast; exact b0) (by push_cast; exact b1)
      (fun g hg' => hg g (List.mem_cons_of_mem _ hg'))
    refine ⟨row :: rs, ?_⟩
    rw [loop, hst, bind_ok]
    simp only
    rw [hrs, bind_ok]

theorem main_ok (avr : Bool) {p : Params D} (hp : constants binary64 = .ok p) (gs : List (D × D × D)) (hl : gs.length ≤ 2 ^ 40)
    (hg : ∀ g ∈ gs, |r g.1| ≤ 16 ∧ |r g.2.1| ≤ 16 ∧ |r g.2.2| ≤ 16) : ∃ rs, main avr p gs = .ok rs := by
  obtain ⟨⟨p', A, B, H, k₀, x⟩, hs, h⟩ := Res.of_yields setup_ok
  obtain ⟨half, -, h⟩ := Res.of_yields h
  obtain ⟨h1, h2, hm, ha, hd, h3, h4, h5, h6, h7, h8, h9, -⟩ := of_decide_eq_true h
  subst h9
  have hs' := hs
  unfold setup at hs'
  rw [hp, bind_ok] at hs'
  obtain ⟨A', hA, hs'⟩ := bind_eq_ok.1 hs'
  obtain ⟨B', hB, hs'⟩ := bind_eq_ok.1 hs'
  obtain ⟨H', hH, hs'⟩ := bind_eq_ok.1 hs'
  obtain ⟨k', hk', hs'⟩ := bind_eq_ok.1 hs'
  obtain ⟨x', hx, hs'⟩ := bind_eq_ok.1 hs'
  injection hs' with e
  injection e with e1 e
  injection e with e2 e
  injection e with e3 e
  injection e with e4 e
  injection e with e5 e6
  subst e1 e2 e3 e4 e5 e6
  obtain ⟨pp, _, _, _, kk, hf, ss, pc, -, -, -, -, dtt, hk⟩ := parts
  cases pc.symm.trans hp
  cases ss.symm.trans hs
  obtain ⟨k, hk⟩ := hk avr
  obtain ⟨l, hl', -⟩ := estim_eq avr exact
  have tr := Track.start (half := half) (M := 2 ^ 90) hs hk hl'
  have rz : r (CNum.zero : D) = 0 := by
    have z0 : (CNum.zero : D).val = 0 := rfl
    rw [r, z0]; norm_num
  have ha' : |r p.accelnoise| ≤ 21 / 100 := by
    have h0 : |r p.accelnoise - 1 / 5| ≤ 1 / 2 ^ 54 := by
      have := (Rat.cast_le (K := ℝ)).2 ha; push_cast at this; exact this
    exact (near_le h0 (le_of_eq (abs_of_pos (by norm_num)))).trans (by norm_num)
  have hm' : r p.measnoise = 10 := by rw [r, hm]; norm_num
  have lit1 : (CLit.lit 1 : Res D) = .ok CNum.one := by decide +kernel
  obtain ⟨rs, hrs⟩ := loop_ok h1 hs ⟨h2, lit1, hd⟩ hm' ha' (h6.trans h3) (h7.trans h4) (h8.trans h5) dtt gs
    (n := 0) (x0 := CNum.zero) (x1 := CNum.zero) (by omega) tr (by rw [rz]; simp) (by rw [rz]; simp) hg
  refine ⟨rs, ?_⟩
  unfold main
  rw [hA, bind_ok, hB, bind_ok, hH, bind_ok, hk, bind_ok, hx, bind_ok, ← h6, ← h7, ← h8]
  exact hrs

end EternalRun
end Verif
