import Verif.Lemmas.KalmanSim
import Verif.Lemmas.KalmanSimRun

/-
The simulation of kalman-sim.e.cpp in `double` against the same simulation over the reals: bounds of magnitudes
and errors, one pass at a time.
-/

namespace Verif
open KalmanSim Ieee

namespace ErrorRun

/-- `double`. -/
abbrev D := Flt binary64
/-- The real number. -/
noncomputable def r (x : D) : ℝ := (x.val : ℝ)

/-- Bound of the rounding error of one operation on numbers up to 32768. -/
noncomputable def μ : ℝ := 1 / 2 ^ 38

theorem max_ge : (32768 : ℝ) ≤ ((binary64.max : ℚ) : ℝ) := by
  have h : (32768 : ℚ) ≤ binary64.max := by
    unfold Format.max binary64
    have h2 : (1 : ℚ) ≤ 2 ^ (971 : ℤ) := one_le_zpow₀ (by norm_num) (by norm_num)
    have h1 : (32768 : ℚ) ≤ 2 ^ 53 - 1 := by norm_num
    exact h1.trans (le_mul_of_one_le_right (by norm_num) h2)
  exact_mod_cast h

theorem eta_le : (2 : ℝ) ^ binary64.q / 2 ≤ 1 / 2 ^ 53 := by
  have h : (2 : ℝ) ^ binary64.q ≤ 2 ^ (-53 : ℤ) := zpow_le_zpow_right₀ (by norm_num) (by decide)
  have : (2 : ℝ) ^ (-53 : ℤ) = 1 / 2 ^ 53 := by rw [zpow_neg]; norm_num
  rw [← this]
  exact (half_le_self (zpow_nonneg (by norm_num) _)).trans h

theorem add_near {a b : D} (h : |r a + r b| ≤ 32767) : ∃ c, CNum.add a b = .ok c ∧ |r c - (r a + r b)| ≤ μ := by
  obtain ⟨c, e, hc⟩ := (Flt.rounding binary64).add a b (by have := max_ge; exact h.trans (by linarith))
  refine ⟨c, e, hc.trans ?_⟩
  have : (1 : ℝ) / 2 ^ binary64.p * |r a + r b| ≤ 1 / 2 ^ binary64.p * 32767 :=
    mul_le_mul_of_nonneg_left h (by positivity)
  refine this.trans ?_
  unfold μ binary64
  norm_num

theorem sub_near {a b : D} (h : |r a - r b| ≤ 32767) : ∃ c, CNum.sub a b = .ok c ∧ |r c - (r a - r b)| ≤ μ := by
  obtain ⟨c, e, hc⟩ := (Flt.rounding binary64).sub a b (by have := max_ge; exact h.trans (by linarith))
  refine ⟨c, e, hc.trans ?_⟩
  have : (1 : ℝ) / 2 ^ binary64.p * |r a - r b| ≤ 1 / 2 ^ binary64.p * 32767 :=
    mul_le_mul_of_nonneg_left h (by positivity)
  refine this.trans ?_
  unfold μ binary64
  norm_num

theorem mul_near {a b : D} (h : |r a * r b| ≤ 32767) : ∃ c, CNum.mul a b = .ok c ∧ |r c - r a * r b| ≤ μ := by
  obtain ⟨c, e, hc⟩ := (Flt.rounding binary64).mul a b (by have := max_ge; exact h.trans (by linarith))
  refine ⟨c, e, hc.trans ?_⟩
  have h1 : (1 : ℝ) / 2 ^ binary64.p * |r a * r b| ≤ 1 / 2 ^ binary64.p * 32767 :=
    mul_le_mul_of_nonneg_left h (by positivity)
  have h2 := eta_le
  refine (add_le_add h1 h2).trans ?_
  unfold μ binary64
  norm_num

/-- Bounds: magnitude of the true state (`B`), distance of the estimate from it (`E`), errors of the true state
(`a`) and of the estimate (`b`) against exact arithmetic, each for position (`0`) and velocity (`1`). -/
structure Bnd where
  B0 : ℚ
  B1 : ℚ
  E0 : ℚ
  E1 : ℚ
  a0 : ℚ
  a1 : ℚ
  b0 : ℚ
  b1 : ℚ

/-- `μ` as a rational number. -/
def u : ℚ := 1 / 2 ^ 38
/-- Bound of the error of the gains. -/
def κ : ℚ := 1 / 2 ^ 50

/-- The bounds after a pass with gains `k0` and `k1`. -/
def Bnd.next (b : Bnd) (k0 k1 : ℚ) : Bnd where
  B0 := b.B0 + b.B1 + 3
  B1 := b.B1 + 5
  E0 := (1 - k0) * (b.E0 + b.E1 + 2) + k0 * 161 + 1
  E1 := b.E1 + 4 + k1 * (b.E0 + b.E1 + 170)
  a0 := b.a0 + b.a1 + 7 * u
  a1 := b.a1 + 5 * u
  b0 := (1 - k0) * (b.b0 + b.b1 + 2 * u) + k0 * (b.a0 + b.a1 + 9 * u) + κ * (b.E0 + b.E1 + 171) + 3 * u
  b1 := (1 - k1) * b.b1 + k1 * (b.b0 + b.a0 + b.a1 + 11 * u) + κ * (b.E0 + b.E1 + 171) + 4 * u

/-- The bounds hold for the double state `x`, estimate `y` and the exact `X`, `Y`. -/
structure Bnd.Holds (b : Bnd) (x0 x1 y0 y1 X0 X1 Y0 Y1 : ℝ) : Prop where
  B0 : |x0| ≤ b.B0
  B1 : |x1| ≤ b.B1
  E0 : |y0 - x0| ≤ b.E0
  E1 : |y1 - x1| ≤ b.E1
  a0 : |x0 - X0| ≤ b.a0
  a1 : |x1 - X1| ≤ b.a1
  b0 : |y0 - Y0| ≤ b.b0
  b1 : |y1 - Y1| ≤ b.b1

/-- The bounds are small enough for the next pass. -/
def Bnd.Small (b : Bnd) : Prop :=
  b.B0 + b.B1 + b.E0 + 2 * b.E1 ≤ 32000 ∧ b.a0 + b.a1 + b.b0 + b.b1 ≤ 1 / 2
instance (b : Bnd) : Decidable b.Small := by unfold Bnd.Small; infer_instance

theorem abs3 {a b c : ℝ} {x y : ℝ} (h1 : |a - b| ≤ x) (h2 : |b - c| ≤ y) : |a - c| ≤ x + y := by
  rw [abs_le] at *; constructor <;> linarith [h1.1, h1.2, h2.1, h2.2]

theorem mul_le_of {k x m : ℝ} (h0 : 0 ≤ k) (hx : |x| ≤ m) : |k * x| ≤ k * m := by
  rw [abs_mul, abs_of_nonneg h0]; exact mul_le_mul_of_nonneg_left hx h0

theorem μ_small : (0 : ℝ) < μ ∧ μ ≤ 1 / 1000000 := by unfold μ; norm_num

/-- The operations on the true state and the measurement. -/
theorem state_ops {B0 B1 : ℝ} (hB : B0 + B1 ≤ 32000) {x0 x1 half one meas acc g1 g2 g3 : D}
    (hx0 : |r x0| ≤ B0) (hx1 : |r x1| ≤ B1) (hh : r half = 1 / 2) (h1 : r one = 1) (hm : r meas = 10)
    (ha : |r acc - 1 / 5| ≤ 1 / 2 ^ 54) (hg1 : |r g1| ≤ 16) (hg2 : |r g2| ≤ 16) (hg3 : |r g3| ≤ 16) :
    ∃ s s' v w w0 w1 n0 n1 m z : D,
      (CNum.add x0 x1 = .ok s ∧ CNum.add s half = .ok s' ∧ CNum.add x1 one = .ok v ∧
      CNum.mul half g1 = .ok w ∧ CNum.mul w acc = .ok w0 ∧ CNum.mul g2 acc = .ok w1 ∧
      CNum.add s' w0 = .ok n0 ∧ CNum.add v w1 = .ok n1 ∧ CNum.mul meas g3 = .ok m ∧ CNum.add n0 m = .ok z) ∧
      |r n0 - (r x0 + r x1 + 1 / 2 + 1 / 2 * r g1 * (1 / 5))| ≤ 6 * μ ∧
      |r n1 - (r x1 + 1 + r g2 * (1 / 5))| ≤ 4 * μ ∧ |r z - (r n0 + 10 * r g3)| ≤ 2 * μ := by
  obtain ⟨μ0, μ1⟩ := μ_small
  have p0 := (abs_nonneg _).trans hx0
  have p1 := (abs_nonneg _).trans hx1
  have hδ : (16 : ℝ) * (1 / 2 ^ 54) ≤ μ := by unfold μ; norm_num
  have hacc : |r acc| ≤ 1 / 4 := by
    rw [abs_le] at ha ⊢
    have : (1 : ℝ) / 2 ^ 54 ≤ 1 / 100 := by norm_num
    constructor <;> linarith [ha.1, ha.2]
  obtain ⟨s, es, hs⟩ := add_near (a := x0) (b := x1) (by
    rw [abs_le] at hx0 hx1 ⊢; constructor <;> linarith)
  obtain ⟨s', es', hs'⟩ := add_near (a := s) (b := half) (by
    rw [hh]; rw [abs_le] at hx0 hx1 hs ⊢; constructor <;> linarith)
  rw [hh] at hs'
  obtain ⟨v, ev, hv⟩ := add_near (a := x1) (b := one) (by
    rw [h1]; rw [abs_le] at hx1 ⊢; constructor <;> linarith)
  rw [h1] at hv
  obtain ⟨w, ew, hw⟩ := mul_near (a := half) (b := g1) (by
    rw [hh]; rw [abs_le] at hg1 ⊢; constructor <;> linarith)
  rw [hh] at hw
  have hw9 : |r w| ≤ 9 := by rw [abs_le] at hg1 hw ⊢; constructor <;> linarith
  have hwa : |r w * r acc| ≤ 9 * (1 / 4) := by
    rw [abs_mul]; exact mul_le_mul hw9 hacc (abs_nonneg _) (by norm_num)
  obtain ⟨w0, ew0, hw0⟩ := mul_near (a := w) (b := acc) (hwa.trans (by norm_num))
  have hw0' : |r w0 - 1 / 2 * r g1 * (1 / 5)| ≤ 3 * μ := by
    have e1 : |r w * r acc - 1 / 2 * r g1 * r acc| ≤ μ * (1 / 4) := by
      rw [← sub_mul, abs_mul]; exact mul_le_mul hw hacc (abs_nonneg _) μ0.le
    have e2 : |1 / 2 * r g1 * r acc - 1 / 2 * r g1 * (1 / 5)| ≤ 16 * (1 / 2 ^ 54) := by
      rw [← mul_sub, abs_mul]
      refine mul_le_mul ?_ ha (abs_nonneg _) (by norm_num)
      rw [abs_le] at hg1 ⊢; constructor <;> linarith
    have := abs3 (abs3 hw0 e1) e2
    linarith
  have hw0m : |1 / 2 * r g1 * (1 / 5)| ≤ 8 / 5 := by rw [abs_le] at hg1 ⊢; constructor <;> linarith
  have hg2a : |r g2 * r acc| ≤ 16 * (1 / 4) := by
    rw [abs_mul]; exact mul_le_mul hg2 hacc (abs_nonneg _) (by norm_num)
  obtain ⟨w1, ew1, hw1⟩ := mul_near (a := g2) (b := acc) (hg2a.trans (by norm_num))
  have hw1' : |r w1 - r g2 * (1 / 5)| ≤ 2 * μ := by
    have e2 : |r g2 * r acc - r g2 * (1 / 5)| ≤ 16 * (1 / 2 ^ 54) := by
      rw [← mul_sub, abs_mul]
      exact mul_le_mul hg2 ha (abs_nonneg _) (by norm_num)
    have := abs3 hw1 e2
    linarith
  have hw1m : |r g2 * (1 / 5)| ≤ 16 / 5 := by rw [abs_le] at hg2 ⊢; constructor <;> linarith
  obtain ⟨n0, en0, hn0⟩ := add_near (a := s') (b := w0) (by
    rw [abs_le] at hx0 hx1 hs hs' hw0' hw0m ⊢
    constructor <;> linarith)
  obtain ⟨n1, en1, hn1⟩ := add_near (a := v) (b := w1) (by
    rw [abs_le] at hx1 hv hw1' hw1m ⊢
    constructor <;> linarith)
  have Hn0 : |r n0 - (r x0 + r x1 + 1 / 2 + 1 / 2 * r g1 * (1 / 5))| ≤ 6 * μ := by
    rw [abs_le] at hs hs' hw0' hn0 ⊢
    constructor <;> linarith
  have Hn1 : |r n1 - (r x1 + 1 + r g2 * (1 / 5))| ≤ 4 * μ := by
    rw [abs_le] at hv hw1' hn1 ⊢
    constructor <;> linarith
  obtain ⟨m, em, hm'⟩ := mul_near (a := meas) (b := g3) (by
    rw [hm]; rw [abs_le] at hg3 ⊢; constructor <;> linarith)
  rw [hm] at hm'
  obtain ⟨z, ez, hz⟩ := add_near (a := n0) (b := m) (by
    rw [abs_le] at hx0 hx1 Hn0 hw0m hg3 hm' ⊢
    constructor <;> linarith)
  refine ⟨s, s', v, w, w0, w1, n0, n1, m, z, ⟨es, es', ev, ew, ew0, ew1, en0, en1, em, ez⟩, Hn0, Hn1, ?_⟩
  rw [abs_le] at hm' hz ⊢
  constructor <;> linarith

/-- The operations on the estimate. -/
theorem estimate_ops {B0 B1 E0 E1 : ℝ} (hB : B0 + B1 + E0 + 2 * E1 ≤ 32000) {x0 x1 y0 y1 half one k0 k1 z : D} {Z : ℝ}
    (hx0 : |r x0| ≤ B0) (hx1 : |r x1| ≤ B1) (hy0 : |r y0 - r x0| ≤ E0) (hy1 : |r y1 - r x1| ≤ E1)
    (hh : r half = 1 / 2) (h1 : r one = 1) (hk0 : 0 ≤ r k0 ∧ r k0 ≤ 1) (hk1 : 0 ≤ r k1 ∧ r k1 ≤ 1)
    (hz : |r z - (r x0 + r x1 + 1 / 2)| ≤ Z) (hZ : Z ≤ 165) :
    ∃ t t' f i d0 d1 e0 e1 : D,
      (CNum.add y0 y1 = .ok t ∧ CNum.add t half = .ok t' ∧ CNum.add y1 one = .ok f ∧
      CNum.sub z t' = .ok i ∧ CNum.mul k0 i = .ok d0 ∧ CNum.mul k1 i = .ok d1 ∧
      CNum.add t' d0 = .ok e0 ∧ CNum.add f d1 = .ok e1) ∧
      |r t' - (r y0 + r y1 + 1 / 2)| ≤ 2 * μ ∧ |r f - (r y1 + 1)| ≤ μ ∧
      |r i| ≤ E0 + E1 + 166 ∧ |r i - (r z - r t')| ≤ μ ∧
      |r e0 - (r t' + r k0 * r i)| ≤ 2 * μ ∧ |r e1 - (r f + r k1 * r i)| ≤ 2 * μ := by
  obtain ⟨μ0, μ1⟩ := μ_small
  have p0 := (abs_nonneg _).trans hx0
  have p1 := (abs_nonneg _).trans hx1
  have p2 := (abs_nonneg _).trans hy0
  have p3 := (abs_nonneg _).trans hy1
  have y0m : |r y0| ≤ B0 + E0 := by rw [abs_le] at hx0 hy0 ⊢; constructor <;> linarith
  have y1m : |r y1| ≤ B1 + E1 := by rw [abs_le] at hx1 hy1 ⊢; constructor <;> linarith
  obtain ⟨t, et, ht⟩ := add_near (a := y0) (b := y1) (by
    rw [abs_le] at y0m y1m ⊢; constructor <;> linarith)
  obtain ⟨t', et', ht'⟩ := add_near (a := t) (b := half) (by
    rw [hh]; rw [abs_le] at y0m y1m ht ⊢; constructor <;> linarith)
  rw [hh] at ht'
  have Ht : |r t' - (r y0 + r y1 + 1 / 2)| ≤ 2 * μ := by
    rw [abs_le] at ht ht' ⊢; constructor <;> linarith
  clear ht ht'
  obtain ⟨f, ef, hf⟩ := add_near (a := y1) (b := one) (by
    rw [h1]; rw [abs_le] at y1m ⊢; constructor <;> linarith)
  rw [h1] at hf
  have hdist : |r z - r t'| ≤ E0 + E1 + 165 + 2 * μ := by
    rw [abs_le] at hy0 hy1 hz Ht ⊢
    constructor <;> linarith
  obtain ⟨i, ei, hi⟩ := sub_near (a := z) (b := t') (hdist.trans (by linarith))
  have hI : |r i| ≤ E0 + E1 + 166 := by
    rw [abs_le] at hdist hi ⊢
    constructor <;> linarith
  have hd {k : ℝ} (h : 0 ≤ k ∧ k ≤ 1) : |k * r i| ≤ E0 + E1 + 166 :=
    (mul_le_of h.1 hI).trans (mul_le_of_le_one_left (by linarith) h.2)
  obtain ⟨d0, ed0, hd0⟩ := mul_near (a := k0) (b := i) ((hd hk0).trans (by linarith))
  obtain ⟨d1, ed1, hd1⟩ := mul_near (a := k1) (b := i) ((hd hk1).trans (by linarith))
  have tm : |r t' + r k0 * r i| ≤ 32300 := by
    have e : r t' + r k0 * r i = (1 - r k0) * r t' + r k0 * (r t' + r i) := by ring
    have m1 : |r t'| ≤ 32200 := by rw [abs_le] at y0m y1m Ht ⊢; constructor <;> linarith
    have m2 : |r t' + r i| ≤ 32200 := by
      rw [abs_le] at hx0 hx1 hi hz ⊢; constructor <;> linarith
    rw [e]
    have n1 := mul_le_of (k := 1 - r k0) (by linarith [hk0.2]) m1
    have n2 := mul_le_of hk0.1 m2
    have := abs_add_le ((1 - r k0) * r t') (r k0 * (r t' + r i))
    linarith
  obtain ⟨e0, ee0, he0⟩ := add_near (a := t') (b := d0) (by
    rw [abs_le] at tm hd0 ⊢; constructor <;> linarith)
  have fm := hd hk1
  obtain ⟨e1, ee1, he1⟩ := add_near (a := f) (b := d1) (by
    rw [abs_le] at fm hd1 hf y1m ⊢; constructor <;> linarith)
  refine ⟨t, t', f, i, d0, d1, e0, e1, ⟨et, et', ef, ei, ed0, ed1, ee0, ee1⟩, Ht, hf, hI, hi, ?_, ?_⟩
  · rw [abs_le] at hd0 he0 ⊢; constructor <;> linarith
  · rw [abs_le] at hd1 he1 ⊢; constructor <;> linarith

/-- The operations of one pass succeed and the new bounds hold. -/
theorem pass_ops {b : Bnd} (hb : b.Small) {x0 x1 y0 y1 half one meas acc k0 k1 g1 g2 g3 : D} {q0 q1 : ℚ}
    {X0 X1 Y0 Y1 c0 c1 : ℝ}
    (h : b.Holds (r x0) (r x1) (r y0) (r y1) X0 X1 Y0 Y1) (hh : r half = 1 / 2) (h1 : r one = 1) (hm : r meas = 10)
    (ha : |r acc - 1 / 5| ≤ 1 / 2 ^ 54) (hk0 : r k0 = q0) (hk1 : r k1 = q1) (hq0 : 0 ≤ q0 ∧ q0 ≤ 1) (hq1 : 0 ≤ q1 ∧ q1 ≤ 1)
    (hc0 : |(q0 : ℝ) - c0| ≤ κ) (hc1 : |(q1 : ℝ) - c1| ≤ κ) (hg1 : |r g1| ≤ 16) (hg2 : |r g2| ≤ 16) (hg3 : |r g3| ≤ 16) :
    ∃ s s' v w w0 w1 n0 n1 m z t t' f i d0 d1 e0 e1 : D,
      (CNum.add x0 x1 = .ok s ∧ CNum.add s half = .ok s' ∧ CNum.add x1 one = .ok v ∧
      CNum.mul half g1 = .ok w ∧ CNum.mul w acc = .ok w0 ∧ CNum.mul g2 acc = .ok w1 ∧
      CNum.add s' w0 = .ok n0 ∧ CNum.add v w1 = .ok n1 ∧ CNum.mul meas g3 = .ok m ∧ CNum.add n0 m = .ok z) ∧
      (CNum.add y0 y1 = .ok t ∧ CNum.add t half = .ok t' ∧ CNum.add y1 one = .ok f ∧
      CNum.sub z t' = .ok i ∧ CNum.mul k0 i = .ok d0 ∧ CNum.mul k1 i = .ok d1 ∧
      CNum.add t' d0 = .ok e0 ∧ CNum.add f d1 = .ok e1) ∧
      |r z - (X0 + X1 + 1 / 2 + 1 / 2 * r g1 * (1 / 5) + 10 * r g3)| ≤ (b.next q0 q1).a0 + 2 * μ ∧
      (b.next q0 q1).Holds (r n0) (r n1) (r e0) (r e1) (X0 + X1 + 1 / 2 + 1 / 2 * r g1 * (1 / 5))
        (X1 + 1 + r g2 * (1 / 5))
        (Y0 + Y1 + 1 / 2 + c0 * (X0 + X1 + 1 / 2 + 1 / 2 * r g1 * (1 / 5) + 10 * r g3 - (Y0 + Y1 + 1 / 2)))
        (Y1 + 1 + c1 * (X0 + X1 + 1 / 2 + 1 / 2 * r g1 * (1 / 5) + 10 * r g3 - (Y0 + Y1 + 1 / 2))) := by
  obtain ⟨μ0, μ1⟩ := μ_small
  obtain ⟨hB, hS⟩ := hb
  have hB : (b.B0 : ℝ) + b.B1 + b.E0 + 2 * b.E1 ≤ 32000 := by exact_mod_cast hB
  have hS : (b.a0 : ℝ) + b.a1 + b.b0 + b.b1 ≤ 1 / 2 := by
    have : ((b.a0 + b.a1 + b.b0 + b.b1 : ℚ) : ℝ) ≤ ((1 / 2 : ℚ) : ℝ) := by exact_mod_cast hS
    push_cast at this; exact this
  obtain ⟨B0, B1, E0, E1, A0, A1, C0, C1⟩ := h
  have pE0 := (abs_nonneg _).trans E0
  have pE1 := (abs_nonneg _).trans E1
  have hκ : (0 : ℝ) ≤ ((κ : ℚ) : ℝ) := by unfold κ; norm_num
  have hq0 : (0 : ℝ) ≤ q0 ∧ (q0 : ℝ) ≤ 1 := ⟨by exact_mod_cast hq0.1, by exact_mod_cast hq0.2⟩
  have hq1 : (0 : ℝ) ≤ q1 ∧ (q1 : ℝ) ≤ 1 := ⟨by exact_mod_cast hq1.1, by exact_mod_cast hq1.2⟩
  have hu : ((u : ℚ) : ℝ) = μ := by unfold u μ; norm_num
  obtain ⟨s, s', v, w, w0, w1, n0, n1, m, z, hops, Hn0, Hn1, Hz⟩ :=
    state_ops (by linarith : (b.B0 : ℝ) + b.B1 ≤ 32000) B0 B1 hh h1 hm ha hg1 hg2 hg3
  have wm : |1 / 2 * r g1 * (1 / 5)| ≤ 8 / 5 := by rw [abs_le] at hg1 ⊢; constructor <;> linarith
  have wm1 : |r g2 * (1 / 5)| ≤ 16 / 5 := by rw [abs_le] at hg2 ⊢; constructor <;> linarith
  obtain ⟨t, t', f, i, d0, d1, e0, e1, hops', Ht, Hf, hI, Hi, He0, He1⟩ :=
    estimate_ops hB (z := z) (Z := 165) B0 B1 E0 E1 hh h1 (by rw [hk0]; exact hq0) (by rw [hk1]; exact hq1)
      (by rw [abs_le] at Hz Hn0 wm hg3 ⊢; constructor <;> linarith) le_rfl
  refine ⟨s, s', v, w, w0, w1, n0, n1, m, z, t, t', f, i, d0, d1, e0, e1, hops, hops', ?_, ?_⟩
  · show _ ≤ (((b.a0 + b.a1 + 7 * u : ℚ)) : ℝ) + _
    push_cast
    rw [hu]
    rw [abs_le] at Hz Hn0 A0 A1 ⊢
    constructor <;> linarith
  rw [hk0] at He0
  rw [hk1] at He1
  generalize hW : 1 / 2 * r g1 * (1 / 5) = W at *
  generalize hW1 : r g2 * (1 / 5) = W1 at *
  set Zr : ℝ := X0 + X1 + 1 / 2 + W + 10 * r g3 with hZr
  set Tr : ℝ := Y0 + Y1 + 1 / 2 with hTr
  have dz : |r z - Zr| ≤ b.a0 + b.a1 + 8 * μ := by
    rw [abs_le] at Hz Hn0 A0 A1 ⊢; constructor <;> linarith
  have dt : |r t' - Tr| ≤ b.b0 + b.b1 + 2 * μ := by
    rw [abs_le] at Ht C0 C1 ⊢; constructor <;> linarith
  have hIr : |Zr - Tr| ≤ b.E0 + b.E1 + 171 := by
    rw [abs_le] at dz dt hI Hi ⊢; constructor <;> linarith
  constructor <;> simp only [Bnd.next] <;> push_cast <;> (try rw [hu])
  · rw [abs_le] at Hn0 B0 B1 wm ⊢; constructor <;> linarith
  · rw [abs_le] at Hn1 B1 wm1 ⊢; constructor <;> linarith
  · have e : r e0 - r n0 = (1 - (q0 : ℝ)) * (r t' - r n0) + q0 * (r z - r n0) + q0 * (r i - (r z - r t')) +
        (r e0 - (r t' + q0 * r i)) := by ring
    have m1 : |r t' - r n0| ≤ b.E0 + b.E1 + 2 := by
      rw [abs_le] at Ht E0 E1 Hn0 wm ⊢; constructor <;> linarith
    have m2 : |r z - r n0| ≤ 161 := by rw [abs_le] at Hz hg3 ⊢; constructor <;> linarith
    have n1 := mul_le_of (k := 1 - (q0 : ℝ)) (by linarith [hq0.2]) m1
    have n2 := mul_le_of hq0.1 m2
    have n3 := (mul_le_of hq0.1 Hi).trans (mul_le_of_le_one_left μ0.le hq0.2)
    rw [e]
    rw [abs_le] at n1 n2 n3 He0 ⊢
    constructor <;> linarith
  · have e : r e1 - r n1 = (r f - r n1) + q1 * r i + (r e1 - (r f + q1 * r i)) := by ring
    have n1 := mul_le_of hq1.1 hI
    rw [e]
    have n4 : (q1 : ℝ) * (b.E0 + b.E1 + 166) ≤ q1 * (b.E0 + b.E1 + 170) :=
      mul_le_mul_of_nonneg_left (by linarith) hq1.1
    rw [abs_le] at n1 He1 Hf E1 Hn1 wm1 ⊢
    constructor <;> linarith
  · rw [abs_le] at Hn0 A0 A1 ⊢; constructor <;> linarith
  · rw [abs_le] at Hn1 A1 ⊢; constructor <;> linarith
  · have e : r e0 - (Tr + c0 * (Zr - Tr)) = (1 - (q0 : ℝ)) * (r t' - Tr) + q0 * (r z - Zr) + (q0 - c0) * (Zr - Tr) +
        q0 * (r i - (r z - r t')) + (r e0 - (r t' + q0 * r i)) := by ring
    have n1 := mul_le_of (k := 1 - (q0 : ℝ)) (by linarith [hq0.2]) dt
    have n2 := mul_le_of hq0.1 dz
    have n3 := (mul_le_of hq0.1 Hi).trans (mul_le_of_le_one_left μ0.le hq0.2)
    have n4 : |((q0 : ℝ) - c0) * (Zr - Tr)| ≤ (κ : ℚ) * (b.E0 + b.E1 + 171) := by
      rw [abs_mul]; exact mul_le_mul hc0 hIr (abs_nonneg _) hκ
    have n5 : (q0 : ℝ) * (b.a0 + b.a1 + 8 * μ) ≤ q0 * (b.a0 + b.a1 + 9 * μ) :=
      mul_le_mul_of_nonneg_left (by linarith) hq0.1
    rw [e]
    rw [abs_le] at n1 n2 n3 n4 He0 ⊢
    constructor <;> linarith
  · have e : r e1 - (Y1 + 1 + c1 * (Zr - Tr)) = (1 - (q1 : ℝ)) * (r y1 - Y1) +
        q1 * ((r z - Zr) - (r y0 - Y0) - (r t' - (r y0 + r y1 + 1 / 2))) + (q1 - c1) * (Zr - Tr) +
        q1 * (r i - (r z - r t')) + (r f - (r y1 + 1)) + (r e1 - (r f + q1 * r i)) := by rw [hTr]; ring
    have n1 := mul_le_of (k := 1 - (q1 : ℝ)) (by linarith [hq1.2]) C1
    have m2 : |(r z - Zr) - (r y0 - Y0) - (r t' - (r y0 + r y1 + 1 / 2))| ≤ b.b0 + b.a0 + b.a1 + 11 * μ := by
      rw [abs_le] at dz C0 Ht ⊢; constructor <;> linarith
    have n2 := mul_le_of hq1.1 m2
    have n3 := (mul_le_of hq1.1 Hi).trans (mul_le_of_le_one_left μ0.le hq1.2)
    have n4 : |((q1 : ℝ) - c1) * (Zr - Tr)| ≤ (κ : ℚ) * (b.E0 + b.E1 + 171) := by
      rw [abs_mul]; exact mul_le_mul hc1 hIr (abs_nonneg _) hκ
    rw [e]
    rw [abs_le] at n1 n2 n3 n4 He1 Hf ⊢
    constructor <;> linarith

end ErrorRun
end Verif
