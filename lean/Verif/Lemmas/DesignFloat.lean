import Mathlib.Tactic.Linarith
import Mathlib.Tactic.Positivity
import Mathlib.Tactic.NormNum
import Mathlib.Tactic.FieldSimp
import Mathlib.Tactic.Ring
import Verif.Spec.DesignFloat
import Verif.Lemmas.Ieee
import Verif.Lemmas.Loop

/-
Rounding analysis of the denominators of the designed sections.
-/

namespace Verif.DesignFloat

section
variable {u e v d s t D n c c2 a1 m N a2 : ℚ}

/-- Of a sum of three terms, the rounded value. -/
theorem plus_error (u0 : 0 < u) (u1 : u ≤ 1 / 64) (hv : 0 ≤ v) (hd : 0 ≤ d) (hs : 0 ≤ s)
    (ht : |t - (v + d)| ≤ u * |v + d|) (hD : |D - (t + s)| ≤ u * |t + s|) :
    |D - (v + d + s)| ≤ 21 / 10 * (u * (v + d + s)) := by
  rw [abs_of_nonneg (by positivity : 0 ≤ v + d)] at ht
  obtain ⟨t1, t2⟩ := abs_le.1 ht
  have hu : u * (v + d) ≤ 1 / 64 * (v + d) := mul_le_mul_of_nonneg_right u1 (by positivity)
  rw [abs_of_nonneg (by linarith : 0 ≤ t + s)] at hD
  obtain ⟨d1, d2⟩ := abs_le.1 hD
  have h1 : u * (t + s) ≤ u * (65 / 64 * (v + d) + s) := mul_le_mul_of_nonneg_left (by linarith) u0.le
  have h2 : 0 ≤ u * s := by positivity
  have h3 : 0 ≤ u * (v + d) := by positivity
  rw [abs_le]
  constructor <;> nlinarith

theorem minus_error (u0 : 0 < u) (u1 : u ≤ 1 / 64) (hv : 0 ≤ v) (hd : 0 ≤ d) (hs : 0 ≤ s)
    (hm : |m - (v - d)| ≤ u * |v - d|) (hN : |N - (m + s)| ≤ u * |m + s|) :
    |N - (v - d + s)| ≤ 21 / 10 * (u * (v + d + s)) := by
  have h0 : |v - d| ≤ v + d := abs_le.2 ⟨by linarith, by linarith⟩
  have hm' : |m - (v - d)| ≤ u * (v + d) := hm.trans (mul_le_mul_of_nonneg_left h0 u0.le)
  obtain ⟨t1, t2⟩ := abs_le.1 hm'
  have hu : u * (v + d) ≤ 1 / 64 * (v + d) := mul_le_mul_of_nonneg_right u1 (by positivity)
  have h1 : |m + s| ≤ 65 / 64 * (v + d) + s := abs_le.2 ⟨by linarith, by linarith⟩
  have hN' := hN.trans (mul_le_mul_of_nonneg_left h1 u0.le)
  obtain ⟨d1, d2⟩ := abs_le.1 hN'
  have h2 : 0 ≤ u * s := by positivity
  have h3 : 0 ≤ u * (v + d) := by positivity
  rw [abs_le]
  constructor <;> nlinarith

/-- The reciprocal. -/
theorem norm_error (u0 : 0 < u) (u1 : u ≤ 1 / 64) {W : ℚ} (hW : 0 < W) (hW1 : u * W ≤ 1) (he0 : 0 ≤ e) (he : e ≤ u ^ 3)
    (hD : |D - W| ≤ 21 / 10 * (u * W)) (hn : |n - 1 / D| ≤ u * |1 / D| + e) :
    0 < n ∧ |n * D - 1| ≤ 105 / 100 * u ∧ 95 / 100 ≤ n * W ∧ n * W ≤ 106 / 100 ∧ |n * W - 1| ≤ 34 / 10 * u := by
  have hu : u * W ≤ 1 / 64 * W := mul_le_mul_of_nonneg_right u1 hW.le
  obtain ⟨d1, d2⟩ := abs_le.1 hD
  have hD0 : 0 < D := by linarith
  rw [abs_of_pos (by positivity : 0 < 1 / D)] at hn
  obtain ⟨n1, n2⟩ := abs_le.1 hn
  have heD : e * D ≤ 4 / 100 * u := by
    have h1 : e * D ≤ u ^ 3 * (104 / 100 * W) := mul_le_mul he (by linarith) hD0.le (by positivity)
    have h2 : u ^ 3 * (104 / 100 * W) = 104 / 100 * u ^ 2 * (u * W) := by ring
    have h3 : 104 / 100 * u ^ 2 * (u * W) ≤ 104 / 100 * u ^ 2 * 1 := mul_le_mul_of_nonneg_left hW1 (by positivity)
    have h4 : u ^ 2 ≤ 1 / 64 * u := by rw [pow_two]; exact mul_le_mul_of_nonneg_right u1 u0.le
    linarith
  have e1 : 1 / D * D = 1 := by field_simp
  have m1 := mul_le_mul_of_nonneg_right n1 hD0.le
  have m2 := mul_le_mul_of_nonneg_right n2 hD0.le
  have r1 : -(u * (1 / D) + e) * D = -(u + e * D) := by field_simp
  have r2 : (u * (1 / D) + e) * D = u + e * D := by field_simp
  rw [r1, sub_mul, e1] at m1
  rw [r2, sub_mul, e1] at m2
  have hnD : |n * D - 1| ≤ 105 / 100 * u := abs_le.2 ⟨by linarith, by linarith⟩
  obtain ⟨k1, k2⟩ := abs_le.1 hnD
  have hn0 : 0 < n := by
    by_contra h
    have : n * D ≤ 0 := mul_nonpos_of_nonpos_of_nonneg (not_lt.1 h) hD0.le
    linarith
  have b1 := mul_le_mul_of_nonneg_left d1 hn0.le
  have b2 := mul_le_mul_of_nonneg_left d2 hn0.le
  have p0 : 0 < n * W := by positivity
  have p1 : u * (n * W) ≤ 1 / 64 * (n * W) := mul_le_mul_of_nonneg_right u1 p0.le
  have q1 : n * W ≤ 106 / 100 := by nlinarith
  have q2 : 95 / 100 ≤ n * W := by nlinarith
  have q3 : u * (n * W) ≤ u * (106 / 100) := mul_le_mul_of_nonneg_left q1 u0.le
  refine ⟨hn0, hnD, q2, q1, abs_le.2 ⟨by nlinarith, by nlinarith⟩⟩

/-- The stability conditions for the rounded coefficients. -/
theorem stable_core (u0 : 0 < u) (u1 : u ≤ 1 / 64) (hv : 0 ≤ v) (hd : 0 ≤ d) (hs : 0 ≤ s) (he0 : 0 ≤ e) (he : e ≤ u ^ 3)
    (hW1 : u * (v + d + s) ≤ 1) (hW : 0 < v + d + s)
    (wv : 4 * (u * (v + d + s)) ≤ v) (wd : 4 * (u * (v + d + s)) ≤ d) (ws : 4 * (u * (v + d + s)) ≤ s)
    (hD : |D - (v + d + s)| ≤ 21 / 10 * (u * (v + d + s))) (hn : |n - 1 / D| ≤ u * |1 / D| + e)
    (hc : |c - (s - v)| ≤ u * |s - v|) (hc2 : |c2 - 2 * c| ≤ u * |2 * c|) (ha1 : |a1 - c2 * n| ≤ u * |c2 * n| + e)
    (hN : |N - (v - d + s)| ≤ 21 / 10 * (u * (v + d + s))) (ha2 : |a2 - N * n| ≤ u * |N * n| + e) :
    |a2| < 1 ∧ |a1| < 1 + a2 := by
  obtain ⟨hn0, hnD, q2, q1, -⟩ := norm_error u0 u1 hW hW1 he0 he hD hn
  set W := v + d + s with hWdef
  obtain ⟨k1, k2⟩ := abs_le.1 hnD
  have hu3 : e ≤ 1 / 4096 * u := by
    have i1 : u * u ≤ 1 / 64 * (1 / 64) := mul_le_mul u1 u1 u0.le (by norm_num)
    have i2 : u * u * u ≤ 1 / 64 * (1 / 64) * u := mul_le_mul_of_nonneg_right i1 u0.le
    have i3 : u ^ 3 = u * u * u := by ring
    linarith
  set U := u * (n * W) with hU
  have U1 : u * (95 / 100) ≤ U := mul_le_mul_of_nonneg_left q2 u0.le
  have U2 : U ≤ u * (106 / 100) := mul_le_mul_of_nonneg_left q1 u0.le
  have eU : n * (u * W) = U := by rw [hU]; ring
  obtain ⟨d1, d2⟩ := abs_le.1 hD
  obtain ⟨g1, g2⟩ := abs_le.1 hN
  have D1 := mul_le_mul_of_nonneg_left d1 hn0.le
  have D2 := mul_le_mul_of_nonneg_left d2 hn0.le
  have G1 := mul_le_mul_of_nonneg_left g1 hn0.le
  have G2 := mul_le_mul_of_nonneg_left g2 hn0.le
  have V1 := mul_le_mul_of_nonneg_left wv hn0.le
  have V2 := mul_le_mul_of_nonneg_left wd hn0.le
  have V3 := mul_le_mul_of_nonneg_left ws hn0.le
  have nv : 0 ≤ n * v := by positivity
  have nd : 0 ≤ n * d := by positivity
  have ns : 0 ≤ n * s := by positivity
  have eW : n * W = n * v + n * d + n * s := by rw [hWdef]; ring
  have x1 : n * (-(21 / 10 * (u * W))) = -(21 / 10) * U := by rw [← eU]; ring
  have x2 : n * (21 / 10 * (u * W)) = 21 / 10 * U := by rw [← eU]; ring
  have x3 : n * (4 * (u * W)) = 4 * U := by rw [← eU]; ring
  have y1 : n * (D - W) = n * D - n * W := by ring
  have y2 : n * (N - (v - d + s)) = N * n - n * v + n * d - n * s := by ring
  rw [x1, y1] at D1
  rw [x2, y1] at D2
  rw [x1, y2] at G1
  rw [x2, y2] at G2
  rw [x3] at V1 V2 V3
  have hNn : |N * n| ≤ 11 / 10 := abs_le.2 ⟨by linarith, by linarith⟩
  have hb := mul_le_mul_of_nonneg_left hNn u0.le
  obtain ⟨A1, A2⟩ := abs_le.1 (ha2.trans (add_le_add hb hu3))
  have hsv : |s - v| * n ≤ n * W := by
    rw [mul_comm]
    exact mul_le_mul_of_nonneg_left (abs_le.2 ⟨by linarith, by linarith⟩) hn0.le
  have a0 : 0 ≤ |s - v| * n := by positivity
  have c1 : |c| ≤ (1 + u) * |s - v| := by
    have := abs_sub_abs_le_abs_sub c (s - v)
    linarith
  have c3 : |c2| ≤ (1 + u) * (2 * |c|) := by
    have := abs_sub_abs_le_abs_sub c2 (2 * c)
    rw [abs_mul, abs_of_pos (by norm_num : (0 : ℚ) < 2)] at this hc2
    linarith
  have c4 : |a1| ≤ (1 + u) * (|c2| * n) + e := by
    have := abs_sub_abs_le_abs_sub a1 (c2 * n)
    rw [abs_mul, abs_of_pos hn0] at this ha1
    linarith
  have hu : 0 < 1 + u := by linarith
  have c5 : |a1| ≤ (1 + u) * ((1 + u) * (2 * ((1 + u) * |s - v|)) * n) + e := by
    refine c4.trans (add_le_add (mul_le_mul_of_nonneg_left (mul_le_mul_of_nonneg_right (c3.trans ?_) hn0.le) hu.le) le_rfl)
    exact mul_le_mul_of_nonneg_left (by linarith) hu.le
  have c6 : (1 + u) * ((1 + u) * (2 * ((1 + u) * |s - v|)) * n) = 2 * (1 + u) ^ 3 * (|s - v| * n) := by ring
  have c7 : (1 + u) ^ 3 ≤ 1 + 31 / 10 * u := by
    have i1 : u * u ≤ 1 / 64 * u := mul_le_mul_of_nonneg_right u1 u0.le
    have i2 : u * (u * u) ≤ u * (1 / 64 * u) := mul_le_mul_of_nonneg_left i1 u0.le
    have i3 : (1 + u) ^ 3 = 1 + 3 * u + 3 * (u * u) + u * (u * u) := by ring
    rw [i3]
    linarith
  have c8 : 2 * (1 + u) ^ 3 * (|s - v| * n) ≤ 2 * (1 + 31 / 10 * u) * (|s - v| * n) :=
    mul_le_mul_of_nonneg_right (by linarith) a0
  have c9 : u * (|s - v| * n) ≤ U := mul_le_mul_of_nonneg_left hsv u0.le
  have hmin : 2 * (|s - v| * n) ≤ 2 * (n * v) + 2 * (n * s) - 16 * U := by
    rcases abs_cases (s - v) with ⟨h, -⟩ | ⟨h, -⟩
    · rw [h, show (s - v) * n = n * s - n * v by ring]; linarith
    · rw [h, show -(s - v) * n = n * v - n * s by ring]; linarith
  have main : |a1| < 1 + a2 := by
    have i1 : 2 * (1 + 31 / 10 * u) * (|s - v| * n) = 2 * (|s - v| * n) + 62 / 10 * (u * (|s - v| * n)) := by ring
    rw [c6] at c5
    rw [i1] at c8
    linarith
  refine ⟨abs_lt.2 ⟨by linarith [abs_nonneg a1], by linarith⟩, main⟩

/-- The distance of the rounded coefficients from the exact ones. -/
theorem accuracy_core (u0 : 0 < u) (u1 : u ≤ 1 / 64) (hv : 0 ≤ v) (hd : 0 ≤ d) (hs : 0 ≤ s) (he0 : 0 ≤ e) (he : e ≤ u ^ 3)
    (hW1 : u * (v + d + s) ≤ 1) (hW : 0 < v + d + s)
    (hD : |D - (v + d + s)| ≤ 21 / 10 * (u * (v + d + s))) (hn : |n - 1 / D| ≤ u * |1 / D| + e)
    (hc : |c - (s - v)| ≤ u * |s - v|) (hc2 : |c2 - 2 * c| ≤ u * |2 * c|) (ha1 : |a1 - c2 * n| ≤ u * |c2 * n| + e)
    (hN : |N - (v - d + s)| ≤ 21 / 10 * (u * (v + d + s))) (ha2 : |a2 - N * n| ≤ u * |N * n| + e) :
    |a1 - 2 * (s - v) / (v + d + s)| ≤ 14 * u ∧ |a2 - (v - d + s) / (v + d + s)| ≤ 7 * u := by
  obtain ⟨hn0, -, q2, q1, q3⟩ := norm_error u0 u1 hW hW1 he0 he hD hn
  set W := v + d + s with hWdef
  have hu3 : e ≤ 1 / 4096 * u := by
    have i1 : u * u ≤ 1 / 64 * (1 / 64) := mul_le_mul u1 u1 u0.le (by norm_num)
    have i2 : u * u * u ≤ 1 / 64 * (1 / 64) * u := mul_le_mul_of_nonneg_right i1 u0.le
    have i3 : u ^ 3 = u * u * u := by ring
    linarith
  have hsW : |s - v| ≤ W := abs_le.2 ⟨by linarith, by linarith⟩
  have hdW : |v - d + s| ≤ W := abs_le.2 ⟨by linarith, by linarith⟩
  have prod {x y : ℚ} (h : |x| ≤ y * W) (hy : 0 ≤ y) : |x * n| ≤ 106 / 100 * y := by
    rw [abs_mul, abs_of_pos hn0]
    calc |x| * n ≤ y * W * n := mul_le_mul_of_nonneg_right h hn0.le
      _ = y * (n * W) := by ring
      _ ≤ y * (106 / 100) := mul_le_mul_of_nonneg_left q1 hy
      _ = _ := by ring
  have inv {x : ℚ} (h : |x| ≤ W) : |x * n - x / W| ≤ 34 / 10 * u := by
    have : x * n - x / W = x / W * (n * W - 1) := by field_simp
    rw [this, abs_mul, abs_div, abs_of_pos hW]
    calc |x| / W * |n * W - 1| ≤ 1 * |n * W - 1| :=
          mul_le_mul_of_nonneg_right ((div_le_one hW).2 h) (abs_nonneg _)
      _ ≤ _ := by rw [one_mul]; exact q3
  have huu : u * u ≤ 1 / 64 * u := mul_le_mul_of_nonneg_right u1 u0.le
  refine ⟨?_, ?_⟩
  · have c1 : |c| ≤ (1 + u) * |s - v| := by
      have := abs_sub_abs_le_abs_sub c (s - v)
      linarith
    have c3 : |c2 - 2 * (s - v)| ≤ 41 / 10 * u * W := by
      have e1 : c2 - 2 * (s - v) = (c2 - 2 * c) + 2 * (c - (s - v)) := by ring
      have e2 : |c2 - 2 * (s - v)| ≤ |c2 - 2 * c| + |2 * (c - (s - v))| := e1 ▸ abs_add_le _ _
      rw [abs_mul, abs_of_pos (by norm_num : (0 : ℚ) < 2)] at e2 hc2
      have e3 : u * (2 * |c|) ≤ u * (2 * ((1 + u) * |s - v|)) :=
        mul_le_mul_of_nonneg_left (by linarith) u0.le
      have e4 : u * (2 * ((1 + u) * |s - v|)) + 2 * (u * |s - v|) = (4 * u + 2 * (u * u)) * |s - v| := by ring
      have e5 : (4 * u + 2 * (u * u)) * |s - v| ≤ (41 / 10 * u) * |s - v| :=
        mul_le_mul_of_nonneg_right (by linarith) (abs_nonneg _)
      have e6 : (41 / 10 * u) * |s - v| ≤ (41 / 10 * u) * W := mul_le_mul_of_nonneg_left hsW (by positivity)
      linarith
    have c4 : |c2| ≤ 21 / 10 * W := by
      have := abs_sub_abs_le_abs_sub c2 (2 * (s - v))
      rw [abs_mul, abs_of_pos (by norm_num : (0 : ℚ) < 2)] at this
      have h2 : 41 / 10 * u * W ≤ 41 / 10 * (1 / 64) * W :=
        mul_le_mul_of_nonneg_right (by linarith) hW.le
      linarith
    have p1 := prod c3 (by positivity)
    have p2 := prod c4 (by norm_num)
    have p3 := mul_le_mul_of_nonneg_left p2 u0.le
    have p4 := inv hsW
    obtain ⟨l1, l2⟩ := abs_le.1 ha1
    obtain ⟨m1, m2⟩ := abs_le.1 p1
    obtain ⟨n1, n2⟩ := abs_le.1 p4
    have e1 : (c2 - 2 * (s - v)) * n = c2 * n - 2 * ((s - v) * n) := by ring
    have e2 : 2 * (s - v) / W = 2 * ((s - v) / W) := by ring
    rw [e1] at m1 m2
    rw [e2]
    exact abs_le.2 ⟨by linarith, by linarith⟩
  · have c4 : |N| ≤ 104 / 100 * W := by
      have := abs_sub_abs_le_abs_sub N (v - d + s)
      have h2 : u * W ≤ 1 / 64 * W := mul_le_mul_of_nonneg_right u1 hW.le
      linarith
    have p1 := prod (x := N - (v - d + s)) (y := 21 / 10 * u) (by linarith) (by positivity)
    have p2 := prod c4 (by norm_num)
    have p3 := mul_le_mul_of_nonneg_left p2 u0.le
    have p4 := inv hdW
    obtain ⟨l1, l2⟩ := abs_le.1 ha2
    obtain ⟨m1, m2⟩ := abs_le.1 p1
    obtain ⟨n1, n2⟩ := abs_le.1 p4
    have e1 : (N - (v - d + s)) * n = N * n - (v - d + s) * n := by ring
    rw [e1] at m1 m2
    exact abs_le.2 ⟨by linarith, by linarith⟩

end

/-! ### Operations of the floating-point numbers -/

variable {f : Ieee.Format}
open Ieee

theorem add_err {a b c : Flt f} (h : CNum.add a b = .ok c) :
    |c.val - (a.val + b.val)| ≤ 1 / 2 ^ f.p * |a.val + b.val| := by
  rw [Flt.ofRat_eq h]
  obtain ⟨m, hm⟩ := rep_multiple f a.rep
  obtain ⟨n, hn⟩ := rep_multiple f b.rep
  exact rnd_multiple f (m + n) (by rw [hm, hn]; push_cast; ring)

theorem sub_err {a b c : Flt f} (h : CNum.sub a b = .ok c) :
    |c.val - (a.val - b.val)| ≤ 1 / 2 ^ f.p * |a.val - b.val| := by
  rw [Flt.ofRat_eq h]
  obtain ⟨m, hm⟩ := rep_multiple f a.rep
  obtain ⟨n, hn⟩ := rep_multiple f b.rep
  exact rnd_multiple f (m - n) (by rw [hm, hn]; push_cast; ring)

theorem rnd_err (x : ℚ) : |rnd f x - x| ≤ 1 / 2 ^ f.p * |x| + 2 ^ f.q / 2 := by
  have h1 : (0 : ℚ) ≤ 1 / 2 ^ f.p * |x| := by positivity
  have h2 : (0 : ℚ) ≤ 2 ^ f.q / 2 := (div_pos (zpow_pos (by norm_num) _) (by norm_num)).le
  rcases rnd_cases f x with ⟨-, h⟩ | h <;> linarith

theorem mul_err {a b c : Flt f} (h : CNum.mul a b = .ok c) :
    |c.val - a.val * b.val| ≤ 1 / 2 ^ f.p * |a.val * b.val| + 2 ^ f.q / 2 := by
  rw [Flt.ofRat_eq h]
  exact rnd_err _

theorem div_err {a b c : Flt f} (h : CNum.div a b = .ok c) :
    b.val ≠ 0 ∧ |c.val - a.val / b.val| ≤ 1 / 2 ^ f.p * |a.val / b.val| + 2 ^ f.q / 2 := by
  have h : (if b.val = 0 then .error .divByZero else Flt.ofRat f (a.val / b.val)) = .ok c := h
  split_ifs at h with h0
  rw [Flt.ofRat_eq h]
  exact ⟨h0, rnd_err _⟩

theorem two_rep : Rep f 2 := by
  have hp := f.two_le
  refine ⟨⟨1, 1, ?_, ?_, by norm_num⟩, ?_⟩
  · rw [abs_one]
    exact one_lt_pow₀ (by norm_num) (by omega)
  · have := f.q_le
    omega
  · rw [abs_of_pos (by norm_num)]
    unfold Format.max
    have h1 : (2 : ℚ) ^ 2 ≤ 2 ^ f.p := pow_le_pow_right₀ (by norm_num) hp
    have h2 : (1 : ℚ) ≤ 2 ^ f.top := one_le_zpow₀ (by norm_num) f.top_nonneg
    nlinarith

theorem lit_two {c : Flt f} (h : CLit.lit 2 = .ok c) : c.val = 2 := by
  rw [Flt.ofRat_eq (show Flt.ofRat f ((2 : ℤ) : ℚ) = .ok c from h)]
  exact rnd_rep f two_rep

theorem unit_pos : 0 < unit f := by unfold unit; positivity

theorem unit_le (h : 6 ≤ f.p) : unit f ≤ 1 / 64 := by
  unfold unit
  have : (2 : ℚ) ^ 6 ≤ 2 ^ f.p := pow_le_pow_right₀ (by norm_num) h
  exact one_div_le_one_div_of_le (by norm_num) (by linarith)

theorem tiny_nonneg : (0 : ℚ) ≤ 2 ^ f.q / 2 := (div_pos (zpow_pos (by norm_num) _) (by norm_num)).le

theorem tiny_le (h : f.q ≤ 1 - 3 * f.p) : (2 : ℚ) ^ f.q / 2 ≤ unit f ^ 3 := by
  have h1 : (2 : ℚ) ^ f.q ≤ 2 ^ (1 - 3 * (f.p : ℤ)) := zpow_le_zpow_right₀ (by norm_num) h
  have h2 : (2 : ℚ) ^ (1 - 3 * (f.p : ℤ)) = 2 * unit f ^ 3 := by
    unfold unit
    rw [zpow_sub₀ (by norm_num), zpow_one, mul_comm, zpow_mul, zpow_natCast, one_div, inv_pow, div_eq_mul_inv]
    rfl
  linarith

/-- The denominator of a designed section. -/
theorem denominator (hf : Usual f) {v d s w n a1 y a2 : Flt f} (hw : plus v d s = .ok w) (hn : CNum.div CNum.one w = .ok n)
    (h1 : twice s v n = .ok a1) (hy : minus v d s = .ok y) (h2 : CNum.mul y n = .ok a2) (v0 : 0 ≤ v.val) (d0 : 0 ≤ d.val)
    (s0 : 0 ≤ s.val) (W0 : 0 < v.val + d.val + s.val) (W1 : unit f * (v.val + d.val + s.val) ≤ 1) :
    |a1.val - 2 * (s.val - v.val) / (v.val + d.val + s.val)| ≤ 14 * unit f ∧
    |a2.val - (v.val - d.val + s.val) / (v.val + d.val + s.val)| ≤ 7 * unit f ∧
    (Well f v.val d.val s.val → InTriangle a1.val a2.val) := by
  obtain ⟨t, ht, hw⟩ := bind_eq_ok.1 hw
  obtain ⟨m, hm, hy⟩ := bind_eq_ok.1 hy
  obtain ⟨two, htwo, h1⟩ := bind_eq_ok.1 h1
  obtain ⟨c, hc, h1⟩ := bind_eq_ok.1 h1
  obtain ⟨c2, hc2, h1⟩ := bind_eq_ok.1 h1
  have u0 := unit_pos (f := f)
  have u1 := unit_le hf.1
  have e0 := tiny_nonneg (f := f)
  have e1 := tiny_le hf.2.1
  have hD := plus_error u0 u1 v0 d0 s0 (add_err ht) (add_err hw)
  have hN := minus_error u0 u1 v0 d0 s0 (sub_err hm) (add_err hy)
  have hn := (div_err hn).2
  have hc2 : |c2.val - 2 * c.val| ≤ unit f * |2 * c.val| := by
    have htwo := lit_two htwo
    rw [Flt.ofRat_eq (show Flt.ofRat f (two.val * c.val) = .ok c2 from hc2), htwo]
    obtain ⟨k, hk⟩ := rep_multiple f c.rep
    exact rnd_multiple f (2 * k) (by rw [hk]; push_cast; ring)
  refine ⟨?_, ?_, fun h => ?_⟩
  · exact (accuracy_core u0 u1 v0 d0 s0 e0 e1 W1 W0 hD hn (sub_err hc) hc2 (mul_err h1) hN (mul_err h2)).1
  · exact (accuracy_core u0 u1 v0 d0 s0 e0 e1 W1 W0 hD hn (sub_err hc) hc2 (mul_err h1) hN (mul_err h2)).2
  · exact stable_core u0 u1 v0 d0 s0 e0 e1 W1 W0 h.2.2.1 h.2.2.2.1 h.2.2.2.2 hD hn (sub_err hc) hc2 (mul_err h1) hN (mul_err h2)

section
variable {u e v d s t D n b x y W W' N N' δ : ℚ}

/-- A rounded product with the reciprocal. -/
theorem product_error (u0 : 0 < u) (he : e ≤ 1 / 4096 * u) (hW : 0 < W) (hn0 : 0 < n)
    (q1 : n * W ≤ 106 / 100) (q3 : |n * W - 1| ≤ 34 / 10 * u) (hx : |x| ≤ y * W) (hy : 1 ≤ y)
    (hb : |b - x * n| ≤ u * |x * n| + e) : |b - x / W| ≤ 45 / 10 * y * u := by
  have h1 : |x * n| ≤ 106 / 100 * y := by
    rw [abs_mul, abs_of_pos hn0]
    calc |x| * n ≤ y * W * n := mul_le_mul_of_nonneg_right hx hn0.le
      _ = y * (n * W) := by ring
      _ ≤ y * (106 / 100) := mul_le_mul_of_nonneg_left q1 (by linarith)
      _ = _ := by ring
  have h2 : |x * n - x / W| ≤ 34 / 10 * y * u := by
    have : x * n - x / W = x / W * (n * W - 1) := by field_simp
    rw [this, abs_mul, abs_div, abs_of_pos hW]
    calc |x| / W * |n * W - 1| ≤ y * (34 / 10 * u) :=
          mul_le_mul ((div_le_iff₀ hW).2 hx) q3 (abs_nonneg _) (by linarith)
      _ = _ := by ring
  have h3 := mul_le_mul_of_nonneg_left h1 u0.le
  have h4 : u ≤ y * u := le_mul_of_one_le_left u0.le hy
  obtain ⟨l1, l2⟩ := abs_le.1 hb
  obtain ⟨m1, m2⟩ := abs_le.1 h2
  exact abs_le.2 ⟨by linarith, by linarith⟩

/-- The change of a quotient. -/
theorem quotient_change (hW : 0 < W) (hδ0 : 0 ≤ δ) (hδ : δ ≤ 1 / 50) (hW' : |W' - W| ≤ δ * W) (hN : |N' - N| ≤ x * δ * W)
    (hNW : |N| ≤ y * W) (hx : 0 ≤ x) (hy : 0 ≤ y) : |N' / W' - N / W| ≤ 103 / 100 * (x + y) * δ := by
  obtain ⟨w1, w2⟩ := abs_le.1 hW'
  have h1 : δ * W ≤ 1 / 50 * W := mul_le_mul_of_nonneg_right hδ hW.le
  have hW0 : 0 < W' := by linarith
  have e1 : N' / W' - N / W = ((N' - N) * W - N * (W' - W)) / (W' * W) := by field_simp; ring
  rw [e1, abs_div, abs_of_pos (mul_pos hW0 hW), div_le_iff₀ (mul_pos hW0 hW)]
  have h2 : |(N' - N) * W - N * (W' - W)| ≤ |N' - N| * W + |N| * |W' - W| := by
    refine (abs_sub _ _).trans ?_
    rw [abs_mul, abs_mul, abs_of_pos hW]
  have h3 : |N' - N| * W ≤ x * δ * W * W := mul_le_mul_of_nonneg_right hN hW.le
  have h4 : |N| * |W' - W| ≤ y * W * (δ * W) := mul_le_mul hNW hW' (abs_nonneg _) (by positivity)
  have h5 : 0 ≤ (x + y) * δ * W := by positivity
  have h6 : (x + y) * δ * W * W ≤ (x + y) * δ * W * (103 / 100 * W') := mul_le_mul_of_nonneg_left (by linarith) h5
  have e2 : 103 / 100 * (x + y) * δ * (W' * W) = (x + y) * δ * W * (103 / 100 * W') := by ring
  have e3 : (x + y) * δ * W * W = x * δ * W * W + y * W * (δ * W) := by ring
  linarith

end


theorem max_large (hf : Usual f) : 7 ≤ unit f * f.max := by
  have h1 : (8 : ℚ) ≤ 2 ^ f.top := by
    have : (2 : ℚ) ^ (3 : ℤ) ≤ 2 ^ f.top := zpow_le_zpow_right₀ (by norm_num) hf.2.2
    norm_num at this; exact this
  have h2 := unit_le hf.1
  have h3 := unit_pos (f := f)
  have e1 : unit f * f.max = (1 - unit f) * 2 ^ f.top := by
    unfold Format.max unit
    field_simp
  rw [e1]
  nlinarith

theorem lit_two_ok : ∃ c : Flt f, CLit.lit 2 = .ok c ∧ c.val = 2 := by
  obtain ⟨c, h1, h2⟩ := Flt.ofRat_ok (f := f) (x := ((2 : ℤ) : ℚ)) two_rep.2
  exact ⟨c, h1, lit_two h1⟩

theorem add_ok {a b : Flt f} (h : |a.val + b.val| ≤ f.max) : ∃ c : Flt f, CNum.add a b = .ok c := by
  obtain ⟨c, h, -⟩ := Flt.ofRat_ok h; exact ⟨c, h⟩
theorem sub_ok {a b : Flt f} (h : |a.val - b.val| ≤ f.max) : ∃ c : Flt f, CNum.sub a b = .ok c := by
  obtain ⟨c, h, -⟩ := Flt.ofRat_ok h; exact ⟨c, h⟩
theorem mul_ok {a b : Flt f} (h : |a.val * b.val| ≤ f.max) : ∃ c : Flt f, CNum.mul a b = .ok c := by
  obtain ⟨c, h, -⟩ := Flt.ofRat_ok h; exact ⟨c, h⟩
theorem div_ok {a b : Flt f} (h0 : b.val ≠ 0) (h : |a.val / b.val| ≤ f.max) : ∃ c : Flt f, CNum.div a b = .ok c := by
  obtain ⟨c, h, -⟩ := Flt.ofRat_ok h; exact ⟨c, (if_neg h0).trans h⟩

/-- The denominator is computed without overflow. -/
theorem denominator_ok (hf : Usual f) {v d s : Flt f} (v0 : 0 ≤ v.val) (d0 : 0 ≤ d.val) (s0 : 0 ≤ s.val)
    (W0 : 1 / 2 ≤ v.val + d.val + s.val) (W1 : unit f * (v.val + d.val + s.val) ≤ 1) :
    ∃ w n a1 y a2 : Flt f, plus v d s = .ok w ∧ CNum.div CNum.one w = .ok n ∧ twice s v n = .ok a1 ∧
      minus v d s = .ok y ∧ CNum.mul y n = .ok a2 ∧ 0 < n.val ∧ n.val * (v.val + d.val + s.val) ≤ 106 / 100 ∧
      |n.val * (v.val + d.val + s.val) - 1| ≤ 34 / 10 * unit f := by
  have u0 := unit_pos (f := f)
  have u1 := unit_le hf.1
  have e0 := tiny_nonneg (f := f)
  have e1 := tiny_le hf.2.1
  have hmax := max_large hf
  set W := v.val + d.val + s.val with hW
  have big {x : ℚ} (h : |x| ≤ 4 * W + 3) : |x| ≤ f.max := by
    have h1 := mul_le_mul_of_nonneg_left h u0.le
    have h2 : unit f * |x| ≤ unit f * f.max := by linarith
    exact le_of_mul_le_mul_left h2 u0
  have hu : unit f * W ≤ 1 / 64 * W := mul_le_mul_of_nonneg_right u1 (by linarith)
  have hu' : 1 / 2 ^ f.p * W ≤ 1 / 64 * W := hu
  obtain ⟨t, ht⟩ := add_ok (f := f) (a := v) (b := d) (big (by rw [abs_of_nonneg] <;> linarith))
  have te := add_err ht
  rw [abs_of_nonneg (by linarith : 0 ≤ v.val + d.val)] at te
  have hvd : 1 / 2 ^ f.p * (v.val + d.val) ≤ 1 / 64 * (v.val + d.val) := mul_le_mul_of_nonneg_right u1 (by linarith)
  obtain ⟨t1, t2⟩ := abs_le.1 te
  obtain ⟨w, hw⟩ := add_ok (f := f) (a := t) (b := s) (big (by rw [abs_of_nonneg] <;> linarith))
  have hD := plus_error u0 u1 v0 d0 s0 (add_err ht) (add_err hw)
  rw [← hW] at hD
  obtain ⟨D1, D2⟩ := abs_le.1 hD
  have w0 : 0 < w.val := by linarith
  obtain ⟨n, hn⟩ := div_ok (f := f) (a := CNum.one) (b := w) w0.ne' (big (by
    rw [show (CNum.one : Flt f).val = 1 from rfl, abs_of_pos (by positivity), div_le_iff₀ w0]
    have : 3 * (1 / 3) ≤ (4 * W + 3) * w.val := mul_le_mul (by linarith) (by linarith) (by norm_num) (by linarith)
    linarith))
  obtain ⟨n0, -, -, n1, n2⟩ := norm_error u0 u1 (by linarith) W1 e0 e1 hD (div_err hn).2
  have prod {x y : ℚ} (h : |x| ≤ y * W) (hy : 0 ≤ y) (hy3 : y ≤ 3) : |x * n.val| ≤ f.max := big (by
    rw [abs_mul, abs_of_pos n0]
    calc |x| * n.val ≤ y * W * n.val := mul_le_mul_of_nonneg_right h n0.le
      _ = y * (n.val * W) := by ring
      _ ≤ y * (106 / 100) := mul_le_mul_of_nonneg_left n1 hy
      _ ≤ _ := by linarith)
  obtain ⟨two, h2, h2v⟩ := lit_two_ok (f := f)
  have hsv : |s.val - v.val| ≤ W := abs_le.2 ⟨by linarith, by linarith⟩
  obtain ⟨c, hc⟩ := sub_ok (f := f) (a := s) (b := v) (big (by linarith))
  have ce := (sub_err hc).trans (mul_le_mul_of_nonneg_left hsv u0.le)
  have c1 : |c.val| ≤ 65 / 64 * W := by
    have := abs_sub_abs_le_abs_sub c.val (s.val - v.val)
    linarith
  have cc : |two.val * c.val| ≤ 65 / 32 * W := by rw [h2v, abs_mul, abs_of_pos (by norm_num)]; linarith
  obtain ⟨c2, hc2⟩ := mul_ok (f := f) (a := two) (b := c) (big (by linarith))
  have c2e : |c2.val| ≤ 3 * W := by
    have h1 := mul_err hc2
    have h3 := abs_sub_abs_le_abs_sub c2.val (two.val * c.val)
    have h4 := mul_le_mul_of_nonneg_right u1 (abs_nonneg (two.val * c.val))
    have h5 : (2 : ℚ) ^ f.q / 2 ≤ 1 / 64 := e1.trans (by
      have i1 : unit f * unit f ≤ 1 := by nlinarith
      have i2 : unit f * unit f * unit f ≤ 1 * unit f := mul_le_mul_of_nonneg_right i1 u0.le
      rw [show unit f ^ 3 = unit f * unit f * unit f by ring]; linarith)
    have h6 : 1 / 2 ^ f.p * |two.val * c.val| ≤ 1 / 64 * |two.val * c.val| := h4
    linarith
  obtain ⟨a1, ha1⟩ := mul_ok (f := f) (a := c2) (b := n) (prod c2e (by norm_num) (by norm_num))
  obtain ⟨m, hm⟩ := sub_ok (f := f) (a := v) (b := d) (big (abs_le.2 ⟨by linarith, by linarith⟩))
  have me := (sub_err hm).trans (mul_le_mul_of_nonneg_left (abs_le.2 ⟨by linarith, by linarith⟩ : |v.val - d.val| ≤ W) u0.le)
  obtain ⟨m1, m2⟩ := abs_le.1 me
  obtain ⟨y, hy⟩ := add_ok (f := f) (a := m) (b := s) (big (abs_le.2 ⟨by linarith, by linarith⟩))
  have hN := minus_error u0 u1 v0 d0 s0 (sub_err hm) (add_err hy)
  obtain ⟨N1, N2⟩ := abs_le.1 hN
  rw [← hW] at N1 N2
  obtain ⟨a2, ha2⟩ := mul_ok (f := f) (a := y) (b := n)
    (prod (y := 2) (abs_le.2 ⟨by linarith, by linarith⟩) (by norm_num) (by norm_num))
  refine ⟨w, n, a1, y, a2, ?_, hn, ?_, ?_, ha2, n0, n1, n2⟩
  · unfold plus; rw [ht]; exact hw
  · unfold twice; rw [h2, bind_ok, hc, bind_ok, hc2]; exact ha1
  · unfold minus; rw [hm]; exact hy

theorem terms_near (hf : Usual f) {K Q : Flt f} (h : Apart f K.val Q.val) :
    ∃ d s : Flt f, CNum.div K Q = .ok d ∧ CNum.mul K K = .ok s ∧
      |d.val - K.val / Q.val| ≤ 101 / 100 * unit f * (K.val / Q.val) ∧
      |s.val - K.val ^ 2| ≤ 101 / 100 * unit f * K.val ^ 2 ∧ Well f (CNum.one : Flt f).val d.val s.val := by
  obtain ⟨K0, Q0, h1, h2, h3⟩ := h
  have u0 := unit_pos (f := f)
  have u1 := unit_le hf.1
  have e0 := tiny_nonneg (f := f)
  have e1 := tiny_le hf.2.1
  have hmax := max_large hf
  have x0 : 0 < K.val / Q.val := div_pos K0 Q0
  have s0 : 0 < K.val ^ 2 := by positivity
  set x := K.val / Q.val with hx
  set S := K.val ^ 2 with hS
  set W := 1 + x + S with hW
  have big {y : ℚ} (y0 : 0 ≤ y) (h : y ≤ W) : |y| ≤ f.max := by
    have h1 := mul_le_mul_of_nonneg_left h u0.le
    have h2 : unit f * y ≤ unit f * f.max := by linarith
    rw [abs_of_nonneg y0]
    exact le_of_mul_le_mul_left h2 u0
  have uW : unit f ≤ unit f * W := le_mul_of_one_le_right u0.le (by linarith)
  have small {y : ℚ} (h : 5 * (unit f * W) ≤ y) : (2 : ℚ) ^ f.q / 2 ≤ 1 / 100 * unit f * y := by
    have i1 : unit f * unit f ≤ 1 / 64 * unit f := mul_le_mul_of_nonneg_right u1 u0.le
    have i2 : unit f * (unit f * unit f) ≤ unit f * (1 / 64 * unit f) := mul_le_mul_of_nonneg_left i1 u0.le
    have i3 : unit f * (5 * unit f) ≤ unit f * y := mul_le_mul_of_nonneg_left (by linarith) u0.le
    have i4 : 0 ≤ unit f * unit f := by positivity
    rw [show unit f ^ 3 = unit f * (unit f * unit f) by ring] at e1
    linarith
  obtain ⟨d, hd⟩ := div_ok (f := f) (a := K) (b := Q) Q0.ne' (big x0.le (by linarith))
  obtain ⟨s, hs⟩ := mul_ok (f := f) (a := K) (b := K) (big (mul_pos K0 K0).le (by rw [← pow_two]; linarith))
  have de := (div_err hd).2
  have se := mul_err hs
  rw [← pow_two, ← hS, abs_of_pos s0] at se
  rw [← hx, abs_of_pos x0] at de
  have du : 1 / 2 ^ f.p * x = unit f * x := rfl
  have su : 1 / 2 ^ f.p * S = unit f * S := rfl
  have D : |d.val - x| ≤ 101 / 100 * unit f * x := by linarith [small h2]
  have S' : |s.val - S| ≤ 101 / 100 * unit f * S := by linarith [small h3]
  refine ⟨d, s, hd, hs, D, S', ?_⟩
  have ux : unit f * x ≤ 1 / 64 * x := mul_le_mul_of_nonneg_right u1 x0.le
  have us : unit f * S ≤ 1 / 64 * S := mul_le_mul_of_nonneg_right u1 s0.le
  obtain ⟨D1, D2⟩ := abs_le.1 D
  obtain ⟨S1, S2⟩ := abs_le.1 S'
  have one : (CNum.one : Flt f).val = 1 := rfl
  have key : unit f * ((CNum.one : Flt f).val + d.val + s.val) ≤ 102 / 100 * (unit f * W) := by
    have := mul_le_mul_of_nonneg_left (show (CNum.one : Flt f).val + d.val + s.val ≤ 102 / 100 * W by linarith) u0.le
    linarith
  refine ⟨by linarith, by linarith, by linarith, by linarith, by linarith⟩

set_option maxHeartbeats 1000000 in
/-- The four base kinds. -/
theorem base (hf : Usual f) (M : Math (Flt f)) (R : Design.Kind) (dbGain fr fs Q K : Flt f) (x : BqB ℚ × BqA ℚ)
    (hK : prewarp M fr fs = .ok K) (h : Apart f K.val Q.val) (hx : exact R K.val Q.val = some x) :
    ∃ c, biquad_design M R dbGain fr fs Q = .ok c ∧ InTriangle c.a.a1.val c.a.a2.val ∧ Near (24 * unit f) c x := by
  obtain ⟨d, s, hd, hs, D, S, hw⟩ := terms_near hf h
  obtain ⟨K0, Q0, h1, h2, h3⟩ := h
  have u0 := unit_pos (f := f)
  have u1 := unit_le hf.1
  have e0 := tiny_nonneg (f := f)
  have e1 := tiny_le hf.2.1
  have hmax := max_large hf
  have one : (CNum.one : Flt f).val = 1 := rfl
  have x0 : 0 < K.val / Q.val := div_pos K0 Q0
  have s0 : 0 < K.val ^ 2 := by positivity
  have hu3 : (2 : ℚ) ^ f.q / 2 ≤ 1 / 4096 * unit f := by
    have i1 : unit f * unit f ≤ 1 / 64 * (1 / 64) := mul_le_mul u1 u1 u0.le (by norm_num)
    have i2 : unit f * unit f * unit f ≤ 1 / 64 * (1 / 64) * unit f := mul_le_mul_of_nonneg_right i1 u0.le
    have i3 : unit f ^ 3 = unit f * unit f * unit f := by ring
    linarith
  obtain ⟨W0, W1, w1, w2, w3⟩ := id hw
  have pW := mul_pos u0 W0
  have d0 : 0 ≤ d.val := by linarith
  have t0 : 0 ≤ s.val := by linarith
  obtain ⟨w, n, a1, y, a2, ew, en, ea1, ey, ea2, n0, n1, n2⟩ :=
    denominator_ok hf (v := CNum.one) (by rw [one]; norm_num) d0 t0 (by linarith) W1
  obtain ⟨A1, A2, A3⟩ := denominator hf ew en ea1 ey ea2 (by rw [one]; norm_num) d0 t0 W0 W1
  have A3 := A3 hw
  rw [one] at A1 A2 n1 n2
  set X := K.val / Q.val with hX
  set Y := K.val ^ 2 with hY
  set W := 1 + X + Y with hW
  set W' := 1 + d.val + s.val with hW'
  have Wp : 0 < W := by linarith
  have Wp' : 0 < W' := by linarith
  set δ := 101 / 100 * unit f with hδ
  have δ0 : 0 ≤ δ := by positivity
  have δ1 : δ ≤ 1 / 50 := by linarith
  have δX : 0 ≤ δ * X := by positivity
  have δY : 0 ≤ δ * Y := by positivity
  have δW : δ * W = δ + δ * X + δ * Y := by rw [hW]; ring
  obtain ⟨D1, D2⟩ := abs_le.1 D
  obtain ⟨S1, S2⟩ := abs_le.1 S
  have cW : |W' - W| ≤ δ * W := abs_le.2 ⟨by linarith, by linarith⟩
  have B1 : |a1.val - 2 * (Y - 1) / W| ≤ 24 * unit f := by
    have := quotient_change (N := 2 * (Y - 1)) (N' := 2 * (s.val - 1)) (x := 2) (y := 2) Wp δ0 δ1 cW
      (abs_le.2 ⟨by linarith, by linarith⟩) (abs_le.2 ⟨by linarith, by linarith⟩) (by norm_num) (by norm_num)
    obtain ⟨i1, i2⟩ := abs_le.1 this
    obtain ⟨j1, j2⟩ := abs_le.1 A1
    exact abs_le.2 ⟨by linarith, by linarith⟩
  have B2 : |a2.val - (1 - X + Y) / W| ≤ 24 * unit f := by
    have := quotient_change (N := 1 - X + Y) (N' := 1 - d.val + s.val) (x := 1) (y := 1) Wp δ0 δ1 cW
      (abs_le.2 ⟨by linarith, by linarith⟩) (abs_le.2 ⟨by linarith, by linarith⟩) (by norm_num) (by norm_num)
    obtain ⟨i1, i2⟩ := abs_le.1 this
    obtain ⟨j1, j2⟩ := abs_le.1 A2
    exact abs_le.2 ⟨by linarith, by linarith⟩
  -- a numerator `z n` with `z` near `Z`
  have num (z : Flt f) (Z : ℚ) (hz : |z.val - Z| ≤ 21 / 10 * δ * W) (hZ : |Z| ≤ W) :
      ∃ b : Flt f, CNum.mul z n = .ok b ∧ |b.val - Z / W| ≤ 9 * unit f ∧ |b.val| ≤ 3 / 2 := by
    have i1 := abs_sub_abs_le_abs_sub z.val Z
    obtain ⟨c1, c2⟩ := abs_le.1 cW
    have i2 : δ * W ≤ 1 / 50 * W := mul_le_mul_of_nonneg_right δ1 Wp.le
    have i3 : |z.val| ≤ 11 / 10 * W' := by linarith
    have i4 : |z.val * n.val| ≤ 12 / 10 := by
      rw [abs_mul, abs_of_pos n0]
      have := mul_le_mul_of_nonneg_right i3 n0.le
      nlinarith
    obtain ⟨b, hb⟩ := mul_ok (f := f) (a := z) (b := n) (by
      have : unit f * |z.val * n.val| ≤ unit f * f.max := by
        have := mul_le_mul_of_nonneg_left i4 u0.le
        linarith
      exact le_of_mul_le_mul_left this u0)
    have i5 := product_error u0 hu3 Wp' n0 n1 n2 i3 (by norm_num) (mul_err hb)
    have i6 := quotient_change (N := Z) (N' := z.val) (x := 21 / 10) (y := 1) Wp δ0 δ1 cW hz (by linarith)
      (by norm_num) (by norm_num)
    obtain ⟨j1, j2⟩ := abs_le.1 i5
    obtain ⟨k1, k2⟩ := abs_le.1 i6
    have i7 : |b.val - Z / W| ≤ 9 * unit f := abs_le.2 ⟨by linarith, by linarith⟩
    refine ⟨b, hb, i7, ?_⟩
    have i8 : |Z / W| ≤ 1 := by rw [abs_div, abs_of_pos Wp]; exact (div_le_one Wp).2 hZ
    have i9 := abs_sub_abs_le_abs_sub b.val (Z / W)
    linarith
  have dbl (c b : Flt f) (k : ℚ) (hk : |k| = 2) (hc : c.val = k) (hb : |b.val| ≤ 3 / 2) (Z : ℚ)
      (hZ : |b.val - Z| ≤ 9 * unit f) : ∃ b1 : Flt f, CNum.mul c b = .ok b1 ∧ |b1.val - k * Z| ≤ 24 * unit f := by
    have i1 : |c.val * b.val| ≤ 3 := by rw [hc, abs_mul, hk]; linarith
    obtain ⟨b1, h1⟩ := mul_ok (f := f) (a := c) (b := b) (by
      have : unit f * |c.val * b.val| ≤ unit f * f.max := by
        have := mul_le_mul_of_nonneg_left i1 u0.le
        linarith
      exact le_of_mul_le_mul_left this u0)
    refine ⟨b1, h1, ?_⟩
    have i2 := mul_err h1
    have i3 : 1 / 2 ^ f.p * |c.val * b.val| ≤ unit f * 3 := mul_le_mul_of_nonneg_left i1 u0.le
    have i4 : |k * (b.val - Z)| ≤ 18 * unit f := by rw [abs_mul, hk]; linarith
    rw [hc] at i2 i3
    obtain ⟨j1, j2⟩ := abs_le.1 i2
    obtain ⟨k1, k2⟩ := abs_le.1 i4
    exact abs_le.2 ⟨by linarith, by linarith⟩
  obtain ⟨two, htwo, htwo'⟩ := lit_two_ok (f := f)
  obtain ⟨mtwo, hmtwo, hmtwo'⟩ : ∃ c : Flt f, CLit.lit (-2) = .ok c ∧ c.val = -2 := by
    have h2 : Rep f (((-2 : ℤ) : ℚ)) := by
      have := (Flt.neg ⟨_, two_rep (f := f)⟩).rep
      norm_num
      exact this
    obtain ⟨c, h1, h3⟩ := Flt.ofRat_ok (f := f) (x := ((-2 : ℤ) : ℚ)) h2.2
    refine ⟨c, h1, ?_⟩
    rw [h3, rnd_rep f h2]
    norm_num
  have fin (c : Coeff (Flt f)) (ca : c.a = ⟨a1, a2⟩) : InTriangle c.a.a1.val c.a.a2.val := by rw [ca]; exact A3
  have r9 {z : ℚ} (h : |z| ≤ 9 * unit f) : |z| ≤ 24 * unit f := by linarith
  cases R <;> simp only [exact, Option.some.injEq, reduceCtorEq] at hx <;> subst hx
  · -- low pass
    obtain ⟨b0, hb0, b0e, b0m⟩ := num s Y (by linarith) (by rw [abs_of_pos s0]; linarith)
    obtain ⟨b1, hb1, b1e⟩ := dbl two b0 2 (by norm_num) htwo' b0m _ b0e
    refine ⟨⟨⟨b0, b1, b0⟩, ⟨a1, a2⟩⟩, ?_, fin _ rfl, r9 b0e, ?_, r9 b0e, B1, B2⟩
    · simp only [biquad_design, low_pass, hK, hd, hs, ew, en, hb0, htwo, hb1, ea1, ey, ea2, bind_ok]
    · rw [mul_div_assoc]; exact b1e
  · -- high pass
    obtain ⟨b0, hb0, b0e, b0m⟩ := num CNum.one 1 (by rw [one, sub_self, abs_zero]; positivity)
      (by rw [abs_of_pos one_pos]; linarith)
    obtain ⟨b1, hb1, b1e⟩ := dbl mtwo b0 (-2) (by norm_num) hmtwo' b0m _ b0e
    refine ⟨⟨⟨b0, b1, b0⟩, ⟨a1, a2⟩⟩, ?_, fin _ rfl, r9 b0e, ?_, r9 b0e, B1, B2⟩
    · simp only [biquad_design, high_pass, hK, hd, hs, ew, en, hb0, hmtwo, hb1, ea1, ey, ea2, bind_ok]
    · rw [show (-2 : ℚ) / W = -2 * (1 / W) by ring]; exact b1e
  · -- band pass
    obtain ⟨b0, hb0, b0e, b0m⟩ := num d X (by linarith) (by rw [abs_of_pos x0]; linarith)
    refine ⟨⟨⟨b0, CNum.zero, b0.neg⟩, ⟨a1, a2⟩⟩, ?_, fin _ rfl, r9 b0e, ?_, ?_, B1, B2⟩
    · simp only [biquad_design, band_pass, hK, hd, hs, ew, en, hb0, ea1, ey, ea2, bind_ok]
      rfl
    · change |(0 : ℚ) - 0| ≤ _
      rw [sub_zero, abs_zero]; positivity
    · change |-b0.val - -X / W| ≤ _
      rw [show -b0.val - -X / W = -(b0.val - X / W) by ring, abs_neg]
      exact r9 b0e
  · -- band stop
    obtain ⟨z, hz⟩ := add_ok (f := f) (a := CNum.one) (b := s) (by
      have h1 : unit f * (1 + s.val) ≤ unit f * f.max := by
        have : unit f * (1 + s.val) ≤ unit f * W' := mul_le_mul_of_nonneg_left (by linarith) u0.le
        rw [one] at W1
        linarith
      rw [one, abs_of_nonneg (by linarith)]
      exact le_of_mul_le_mul_left h1 u0)
    have ze := add_err hz
    rw [one, abs_of_nonneg (by linarith : 0 ≤ 1 + s.val)] at ze
    rw [show 1 / 2 ^ f.p * (1 + s.val) = unit f + unit f * s.val by rw [unit]; ring] at ze
    have ey' : δ * Y = 101 / 100 * (unit f * Y) := by rw [hδ]; ring
    obtain ⟨z1, z2⟩ := abs_le.1 ze
    have u2 : unit f * s.val ≤ unit f * (102 / 100 * Y) := mul_le_mul_of_nonneg_left (by
      have : δ * Y ≤ 1 / 50 * Y := mul_le_mul_of_nonneg_right δ1 s0.le
      linarith) u0.le
    obtain ⟨b0, hb0, b0e, b0m⟩ := num z (1 + Y) (abs_le.2 ⟨by linarith, by linarith⟩)
      (by rw [abs_of_pos (by linarith)]; linarith)
    refine ⟨⟨⟨b0, a1, b0⟩, ⟨a1, a2⟩⟩, ?_, fin _ rfl, r9 b0e, B1, r9 b0e, B1, B2⟩
    simp only [biquad_design, band_stop, hK, hd, hs, ew, en, hz, hb0, ea1, ey, ea2, bind_ok]

end Verif.DesignFloat
