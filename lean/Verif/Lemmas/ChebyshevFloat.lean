import Verif.Lemmas.DesignFloat
import Verif.Spec.ChebyshevFloat

/-
Rounding analysis of the sections of the Chebyshev filters.
-/

namespace Verif.ChebyshevFloat
open DesignFloat

section
variable {u e x y z X Y α β A B W E P Q p q t D N c c2 a1 a2 r m : ℚ}

/-- One rounded addition. -/
theorem add_step (u0 : 0 < u) (u1 : u ≤ 1 / 64) (hx : |x - X| ≤ α) (hy : |y - Y| ≤ β) (hX : |X| ≤ A) (hY : |Y| ≤ B)
    (hz : |z - (x + y)| ≤ u * |x + y|) : |z - (X + Y)| ≤ 65 / 64 * (α + β) + u * (A + B) := by
  have h0 : 0 ≤ α + β := by linarith [abs_nonneg (x - X), abs_nonneg (y - Y)]
  have h1 : |x + y| ≤ (A + B) + (α + β) := by
    rw [abs_le] at *
    constructor <;> linarith
  have h2 := hz.trans (mul_le_mul_of_nonneg_left h1 u0.le)
  have h3 : u * (α + β) ≤ 1 / 64 * (α + β) := mul_le_mul_of_nonneg_right u1 h0
  rw [mul_add] at h2
  rw [abs_le] at *
  constructor <;> linarith

theorem sub_step (u0 : 0 < u) (u1 : u ≤ 1 / 64) (hx : |x - X| ≤ α) (hy : |y - Y| ≤ β) (hX : |X| ≤ A) (hY : |Y| ≤ B)
    (hz : |z - (x - y)| ≤ u * |x - y|) : |z - (X - Y)| ≤ 65 / 64 * (α + β) + u * (A + B) := by
  have := add_step (y := -y) (Y := -Y) (β := β) (B := B) u0 u1 hx (by rwa [neg_sub_neg, abs_sub_comm]) hX (by rwa [abs_neg])
    (by rwa [← sub_eq_add_neg])
  rwa [← sub_eq_add_neg] at this

/-- The tiny error is a small part of a roundoff. -/
theorem tiny_part (u0 : 0 < u) (u1 : u ≤ 1 / 64) (he : e ≤ u ^ 3) : e ≤ 1 / 4096 * u := by
  have i1 : u * u ≤ 1 / 64 * (1 / 64) := mul_le_mul u1 u1 u0.le (by norm_num)
  have i2 : u * u * u ≤ 1 / 64 * (1 / 64) * u := mul_le_mul_of_nonneg_right i1 u0.le
  have i3 : u ^ 3 = u * u * u := by ring
  linarith

/-- The sum of the four terms. -/
theorem four_error (u0 : 0 < u) (u1 : u ≤ 1 / 64) (he : e ≤ 1 / 4096 * u) (hE : |Y| = E) (hP : 0 ≤ P) (hQ : 0 ≤ Q)
    (hy : |y - Y| ≤ u * E + e) (hp : |p - P| ≤ u * P + e) (hq : |q - Q| ≤ u * Q + e)
    (h1 : |x - (1 + y)| ≤ u * |1 + y|) (h2 : |t - (x + p)| ≤ u * |x + p|) (h3 : |D - (t + q)| ≤ u * |t + q|) :
    |D - (1 + Y + P + Q)| ≤ 41 / 10 * (u * (1 + E + P + Q)) := by
  have E0 : 0 ≤ E := hE ▸ abs_nonneg Y
  have a1 := add_step (x := 1) (X := 1) (α := 0) u0 u1 (by simp) hy (abs_one (α := ℚ)).le hE.le h1
  have a2 := add_step (A := 1 + E) u0 u1 a1 hp (by
    have := abs_add_le 1 Y
    rw [abs_one, hE] at this
    exact this) (abs_of_nonneg hP).le h2
  have a3 := add_step (A := 1 + E + P) u0 u1 a2 hq (by
    have := abs_add_le (1 + Y) P
    have h := abs_add_le 1 Y
    rw [abs_one, hE] at h
    rw [abs_of_nonneg hP] at this
    linarith : |1 + Y + P| ≤ 1 + E + P) (abs_of_nonneg hQ).le h3
  refine a3.trans ?_
  have i1 : 0 ≤ u * E := by positivity
  have i2 : 0 ≤ u * P := by positivity
  have i3 : 0 ≤ u * Q := by positivity
  rw [show u * (1 + E + P + Q) = u + u * E + u * P + u * Q by ring, show u * (1 + E) = u + u * E by ring,
    show u * (1 + E + P) = u + u * E + u * P by ring]
  linarith

/-- The coefficients, as quotients of the rounded sums. -/
theorem section_core (u0 : 0 < u) (u1 : u ≤ 1 / 64) (he : e ≤ 1 / 4096 * u) (hE : 0 ≤ E) (hP : 0 ≤ P)
    (hW : W = 1 + E + P) (hD : |D - W| ≤ 41 / 10 * (u * W)) (hN : |N - (1 - E + P)| ≤ 41 / 10 * (u * W))
    (hc : |c - (P - 1)| ≤ 31 / 10 * (u * W)) (ha1 : |a1 - 2 * c / D| ≤ u * |2 * c / D| + e)
    (ha2 : |a2 - N / D| ≤ u * |N / D| + e) :
    0 < D ∧ |a1 - 2 * (P - 1) / W| ≤ 18 * u ∧ |a2 - (1 - E + P) / W| ≤ 11 * u ∧
      (5 * (u * W) ≤ 1 → 5 * (u * W) ≤ E → 5 * (u * W) ≤ P → |a2| < 1 ∧ |a1| < 1 + a2) := by
  have W0 : 0 < W := by rw [hW]; positivity
  have W1 : 1 ≤ W := by rw [hW]; linarith
  have hu : u * W ≤ 1 / 64 * W := mul_le_mul_of_nonneg_right u1 W0.le
  have uW : 0 < u * W := by positivity
  obtain ⟨d1, d2⟩ := abs_le.1 hD
  have D0 : 0 < D := by linarith
  have hN1 : |N| ≤ 107 / 100 * W := by
    rw [abs_le] at *; constructor <;> linarith
  have hc1 : |2 * c| ≤ 21 / 10 * W := by
    rw [abs_le] at *; constructor <;> linarith
  have eD : e * D ≤ 1 / 1000 * (u * W) := by
    have : e * D ≤ 1 / 4096 * u * (107 / 100 * W) :=
      mul_le_mul he (by linarith) D0.le (by positivity)
    nlinarith
  have ha2' : |a2 * D - N| ≤ 108 / 100 * (u * W) := by
    have h := mul_le_mul_of_nonneg_right ha2 D0.le
    have e1 : |a2 - N / D| * D = |a2 * D - N| := by
      rw [← abs_of_pos D0, ← abs_mul, abs_of_pos D0, sub_mul, div_mul_cancel₀ _ D0.ne']
    have e2 : (u * |N / D| + e) * D = u * |N| + e * D := by
      rw [abs_div, abs_of_pos D0]; field_simp
    rw [e1, e2] at h
    have := mul_le_mul_of_nonneg_left hN1 u0.le
    linarith
  have ha1' : |a1 * D - 2 * c| ≤ 211 / 100 * (u * W) := by
    have h := mul_le_mul_of_nonneg_right ha1 D0.le
    have e1 : |a1 - 2 * c / D| * D = |a1 * D - 2 * c| := by
      rw [← abs_of_pos D0, ← abs_mul, abs_of_pos D0, sub_mul, div_mul_cancel₀ _ D0.ne']
    have e2 : (u * |2 * c / D| + e) * D = u * |2 * c| + e * D := by
      rw [abs_div, abs_of_pos D0]; field_simp
    rw [e1, e2] at h
    have := mul_le_mul_of_nonneg_left hc1 u0.le
    linarith
  have acc {a X k l : ℚ} (hX : |X| ≤ l * W) (h : |a * D - X| ≤ k * (u * W)) (hl : 0 ≤ l) (hk : 0 ≤ k) :
      |a - X / W| ≤ 108 / 100 * (k + 41 / 10 * l) * u := by
    have e1 : (a - X / W) * D = (a * D - X) - X / W * (D - W) := by field_simp; ring
    have h1 : |X / W * (D - W)| ≤ l * (41 / 10 * (u * W)) := by
      rw [abs_mul]
      refine mul_le_mul ?_ hD (abs_nonneg _) hl
      rw [abs_div, abs_of_pos W0, div_le_iff₀ W0]
      exact hX
    have h2 : |a - X / W| * D ≤ (k + 41 / 10 * l) * (u * W) := by
      rw [show |a - X / W| * D = |(a - X / W) * D| by rw [abs_mul, abs_of_pos D0], e1]
      refine (abs_sub _ _).trans ?_
      linarith
    have h3 : (k + 41 / 10 * l) * (u * W) ≤ 108 / 100 * (k + 41 / 10 * l) * u * D := by
      have : (k + 41 / 10 * l) * u * W ≤ (k + 41 / 10 * l) * u * (108 / 100 * D) :=
        mul_le_mul_of_nonneg_left (by linarith) (by positivity)
      linarith
    exact le_of_mul_le_mul_right (h2.trans h3) D0
  refine ⟨D0, ?_, ?_, fun w1 wE wP => ?_⟩
  · have h := acc (a := a1) (X := 2 * (P - 1)) (k := 831 / 100) (l := 2) (by
      rw [abs_le]; constructor <;> linarith) (by rw [abs_le] at *; constructor <;> linarith) (by norm_num) (by norm_num)
    linarith
  · have h := acc (a := a2) (X := 1 - E + P) (k := 518 / 100) (l := 1) (by
      rw [abs_le]; constructor <;> linarith) (by rw [abs_le] at *; constructor <;> linarith) (by norm_num) (by norm_num)
    linarith
  · have m1 : |a1| < 1 + a2 := by
      have e1 : |a1| * D = |a1 * D| := by rw [abs_mul, abs_of_pos D0]
      have h1 : |a1 * D| < (1 + a2) * D := by
        rw [abs_lt]
        rw [abs_le] at *
        constructor <;> linarith
      rw [← e1] at h1
      exact lt_of_mul_lt_mul_right h1 D0.le
    have m2 : a2 < 1 := by
      have : a2 * D < 1 * D := by
        rw [abs_le] at *
        linarith
      exact lt_of_mul_lt_mul_right this D0.le
    exact ⟨abs_lt.2 ⟨by linarith [abs_nonneg a1], m2⟩, m1⟩

/-- A rounded quotient by the denominator. -/
theorem gain_core (u0 : 0 < u) (u1 : u ≤ 1 / 64) (he : e ≤ 1 / 4096 * u) (W1 : 1 ≤ W) (hD : |D - W| ≤ 41 / 10 * (u * W))
    (hP : |P| ≤ W) (hN : |N - P| ≤ 21 / 10 * (u * W)) (ha : |r - N / D| ≤ u * |N / D| + e) : |r - P / W| ≤ 8 * u := by
  have W0 : 0 < W := by linarith
  have hu : u * W ≤ 1 / 64 * W := mul_le_mul_of_nonneg_right u1 W0.le
  have uW : 0 < u * W := by positivity
  obtain ⟨d1, d2⟩ := abs_le.1 hD
  have D0 : 0 < D := by linarith
  have hN1 : |N| ≤ 104 / 100 * W := by
    rw [abs_le] at *; constructor <;> linarith
  have eD : e * D ≤ 1 / 1000 * (u * W) := by
    have : e * D ≤ 1 / 4096 * u * (107 / 100 * W) :=
      mul_le_mul he (by linarith) D0.le (by positivity)
    nlinarith
  have ha' : |r * D - N| ≤ 105 / 100 * (u * W) := by
    have h := mul_le_mul_of_nonneg_right ha D0.le
    have e1 : |r - N / D| * D = |r * D - N| := by
      rw [← abs_of_pos D0, ← abs_mul, abs_of_pos D0, sub_mul, div_mul_cancel₀ _ D0.ne']
    have e2 : (u * |N / D| + e) * D = u * |N| + e * D := by
      rw [abs_div, abs_of_pos D0]; field_simp
    rw [e1, e2] at h
    have := mul_le_mul_of_nonneg_left hN1 u0.le
    linarith
  have e1 : (r - P / W) * D = (r * D - P) - P / W * (D - W) := by field_simp; ring
  have h1 : |P / W * (D - W)| ≤ 1 * (41 / 10 * (u * W)) := by
    rw [abs_mul]
    refine mul_le_mul ?_ hD (abs_nonneg _) (by norm_num)
    rw [abs_div, abs_of_pos W0]
    exact (div_le_one W0).2 hP
  have h2 : |r - P / W| * D ≤ 73 / 10 * (u * W) := by
    rw [show |r - P / W| * D = |(r - P / W) * D| by rw [abs_mul, abs_of_pos D0], e1]
    refine (abs_sub _ _).trans ?_
    have : |r * D - P| ≤ 315 / 100 * (u * W) := by
      rw [abs_le] at *; constructor <;> linarith
    linarith
  have h3 : 73 / 10 * (u * W) ≤ 8 * u * D := by
    have : u * W ≤ u * (107 / 100 * D) := mul_le_mul_of_nonneg_left (by linarith) u0.le
    have i : 0 ≤ u * D := by positivity
    linarith
  exact le_of_mul_le_mul_right (h2.trans h3) D0

/-- A quotient of two rounded values. -/
theorem ratio_core (u0 : 0 < u) (u1 : u ≤ 1 / 64) (he : e ≤ 1 / 4096 * u) (W0 : 0 < W) (hP : |P| ≤ W)
    (hN : |N - P| ≤ 21 / 10 * (u * W)) (hD : |D - W| ≤ 21 / 10 * (u * W)) (hND : |N| ≤ D)
    (hr : |r - 2 * N / D| ≤ u * |2 * N / D| + e) : |r - 2 * P / W| ≤ 12 * u := by
  have hu : u * W ≤ 1 / 64 * W := mul_le_mul_of_nonneg_right u1 W0.le
  have d1 := (abs_le.1 hD).1
  have D0 : 0 < D := by linarith
  have i3 : |2 * N / D| ≤ 2 := by
    rw [abs_div, abs_of_pos D0, div_le_iff₀ D0, abs_mul, abs_two]
    linarith
  have i4 : |r - 2 * N / D| ≤ 21 / 10 * u := by
    have := mul_le_mul_of_nonneg_left i3 u0.le
    linarith
  have i5 : |2 * N / D - 2 * P / W| ≤ 95 / 10 * u := by
    have e1 : (2 * N / D - 2 * P / W) * D = 2 * (N - P) - 2 * P / W * (D - W) := by
      field_simp
      ring
    have e2 : |2 * P / W| ≤ 2 := by
      rw [abs_div, abs_of_pos W0, div_le_iff₀ W0, abs_mul, abs_two]
      linarith
    have e3 : |2 * N / D - 2 * P / W| * D ≤ 84 / 10 * (u * W) := by
      rw [show |2 * N / D - 2 * P / W| * D = |(2 * N / D - 2 * P / W) * D| by rw [abs_mul, abs_of_pos D0], e1]
      refine (abs_sub _ _).trans ?_
      rw [abs_mul, abs_two, abs_mul]
      have := mul_le_mul e2 hD (abs_nonneg _) (by norm_num)
      linarith
    have e4 : 84 / 10 * (u * W) ≤ 95 / 10 * u * D := by
      have h1 : u * W ≤ u * (104 / 100 * D) := mul_le_mul_of_nonneg_left (by linarith) u0.le
      have h2 : 0 ≤ u * D := by positivity
      linarith
    exact le_of_mul_le_mul_right (e3.trans e4) D0
  have := abs_sub_le r (2 * N / D) (2 * P / W)
  linarith

/-- The product of two rounded quotients. -/
theorem product_core {s G b R g : ℚ} (u0 : 0 < u) (u1 : u ≤ 1 / 64) (he : e ≤ 1 / 4096 * u) (hs : |s| = 1)
    (hG : |G - R| ≤ 8 * u) (hR : |R| ≤ 1) (hb : |b - B| ≤ 12 * u) (hb2 : |b| ≤ 2)
    (hg : |g - s * G * b| ≤ u * |s * G * b| + e) : |g - s * (R * B)| ≤ 32 * u := by
  have e2 : |s * G * b - s * (R * B)| ≤ 28 * u := by
    rw [show s * G * b - s * (R * B) = s * ((G - R) * b + R * (b - B)) by ring, abs_mul, hs, one_mul]
    refine (abs_add_le _ _).trans ?_
    rw [abs_mul, abs_mul]
    have h1 := mul_le_mul hG hb2 (abs_nonneg _) (by positivity)
    have h2 := mul_le_mul hR hb (abs_nonneg _) (by norm_num)
    linarith
  have hG1 : |G| ≤ 115 / 100 := by
    have := abs_sub_abs_le_abs_sub G R
    linarith
  have e3 : |s * G * b| ≤ 23 / 10 := by
    rw [abs_mul, abs_mul, hs, one_mul]
    have := mul_le_mul hG1 hb2 (abs_nonneg _) (by norm_num)
    linarith
  have := mul_le_mul_of_nonneg_left e3 u0.le
  have := abs_sub_le g (s * G * b) (s * (R * B))
  linarith

/-- The first-order section. -/
theorem first_core {w G : ℚ} (u0 : 0 < u) (u1 : u ≤ 1 / 64) (he : e ≤ u ^ 3) (hW1 : 5 * (u * W) ≤ 1)
    (hW : 1 + 5 * (u * W) ≤ W) (hw : |w - W| ≤ u * W) (hG : |G - 1 / w| ≤ u * |1 / w| + e)
    (hy : |y - (2 * G - 1)| ≤ u * |2 * G - 1|) (g0 : 0 ≤ G) (g1 : G ≤ 1) : |y| < 1 := by
  have hW0 : 1 ≤ W := by
    by_contra h
    push Not at h
    have : W ≤ 0 ∨ 0 < W := le_or_gt W 0
    rcases this with h' | h'
    · have : u * W ≥ 1 / 64 * W := mul_le_mul_of_nonpos_right u1 h'
      linarith
    · have : 0 < u * W := by positivity
      linarith
  have uW : u ≤ u * W := le_mul_of_one_le_right u0.le hW0
  have uW' : u * W ≤ 1 / 64 * W := mul_le_mul_of_nonneg_right u1 (by linarith)
  obtain ⟨w1, w2⟩ := abs_le.1 hw
  have w0 : 0 < w := by linarith
  have hGw : |G * w - 1| ≤ 101 / 100 * u := by
    have h := mul_le_mul_of_nonneg_right hG w0.le
    rw [show |G - 1 / w| * w = |G * w - 1| by
      rw [show G * w - 1 = (G - 1 / w) * w by field_simp, abs_mul, abs_of_pos w0],
      show (u * |1 / w| + e) * w = u + e * w by rw [abs_of_pos (by positivity : 0 < 1 / w)]; field_simp] at h
    have h1 : e * w ≤ u ^ 3 * (65 / 64 * W) := mul_le_mul he (by linarith) w0.le (by positivity)
    have h2 : u ^ 3 * (65 / 64 * W) = 65 / 64 * u * (u * (u * W)) := by ring
    have h3 : u * (u * W) ≤ 1 / 64 * (1 / 5) := mul_le_mul u1 (by linarith) (by positivity) (by norm_num)
    have h4 : 65 / 64 * u * (u * (u * W)) ≤ 65 / 64 * u * (1 / 64 * (1 / 5)) := mul_le_mul_of_nonneg_left h3 (by positivity)
    linarith
  obtain ⟨k1, k2⟩ := abs_le.1 hGw
  have m1 : G ≤ 1 - 5 / 2 * u := by
    have h1 : G * (1 + 4 * u) ≤ G * w := mul_le_mul_of_nonneg_left (by linarith) g0
    by_contra h
    push Not at h
    have h2 : (1 - 5 / 2 * u) * (1 + 4 * u) ≤ G * (1 + 4 * u) := mul_le_mul_of_nonneg_right h.le (by positivity)
    have h3 : u * u ≤ 1 / 64 * u := mul_le_mul_of_nonneg_right u1 u0.le
    nlinarith
  have m2 : 4 * u ≤ G := by
    have h1 : u * w ≤ 21 / 100 := by
      have := mul_le_mul_of_nonneg_left (by linarith : w ≤ 65 / 64 * W) u0.le
      linarith
    by_contra h
    push Not at h
    have h2 : G * w ≤ 4 * u * w := mul_le_mul_of_nonneg_right h.le w0.le
    linarith
  have hb : |2 * G - 1| ≤ 1 := abs_le.2 ⟨by linarith, by linarith⟩
  have := mul_le_mul_of_nonneg_left hb u0.le
  obtain ⟨j1, j2⟩ := abs_le.1 hy
  exact abs_lt.2 ⟨by linarith, by linarith⟩

end

/-! ### Operations of the floating-point numbers -/

variable {F : Ieee.Format}
open Ieee

theorem rnd_twice (a : Flt F) : rnd F (2 * a.val) = 2 * a.val := by
  obtain ⟨⟨n, e, hn, he, hv⟩, -⟩ := a.rep
  have h := rnd_nearest F (2 * a.val) (2 * a.val) ⟨n, e + 1, hn, by omega, by
    rw [hv, zpow_add₀ (by norm_num), zpow_one]; ring⟩
  rw [sub_self, abs_zero] at h
  linarith [abs_eq_zero.1 (le_antisymm h (abs_nonneg _))]

theorem twice_val {t a b : Flt F} (ht : CLit.lit 2 = .ok t) (h : CNum.mul t a = .ok b) : b.val = 2 * a.val := by
  rw [Flt.ofRat_eq (show Flt.ofRat F (t.val * a.val) = .ok b from h), lit_two ht, rnd_twice]

theorem twice_val' {t a b : Flt F} (ht : CLit.lit 2 = .ok t) (h : CNum.mul a t = .ok b) : b.val = 2 * a.val := by
  rw [Flt.ofRat_eq (show Flt.ofRat F (a.val * t.val) = .ok b from h), lit_two ht, mul_comm, rnd_twice]

theorem sign_cases (low : Bool) : sign low = 1 ∨ sign low = -1 := by
  cases low <;> simp [sign]

theorem sign_abs (low : Bool) : |sign low| = 1 := by
  rcases sign_cases low with h | h <;> rw [h] <;> norm_num

theorem rnd_sign (low : Bool) (x : ℚ) : rnd F (sign low * x) = sign low * rnd F x := by
  rcases sign_cases low with h | h <;> rw [h]
  · rw [one_mul, one_mul]
  · rw [neg_one_mul, rnd_neg, neg_one_mul]

theorem sign_mul {low : Bool} {s a b : Flt F} (hs : s.val = sign low) (h : CNum.mul s a = .ok b) :
    b.val = sign low * a.val := by
  rw [Flt.ofRat_eq (show Flt.ofRat F (s.val * a.val) = .ok b from h), hs, rnd_sign, rnd_rep F a.rep]

theorem mul_sign {low : Bool} {s a b : Flt F} (hs : s.val = sign low) (h : CNum.mul a s = .ok b) :
    b.val = sign low * a.val := by
  rw [Flt.ofRat_eq (show Flt.ofRat F (a.val * s.val) = .ok b from h), hs, mul_comm, rnd_sign, rnd_rep F a.rep]

theorem sgn_val {low : Bool} {s : Flt F} (h : sgn low = .ok s) : s.val = sign low := by
  cases low
  · rw [Flt.ofRat_eq (show Flt.ofRat F ((-1 : ℤ) : ℚ) = .ok s from h)]
    have := rnd_rep F (CNum.one : Flt F).rep
    rw [show ((-1 : ℤ) : ℚ) = -(CNum.one : Flt F).val by push_cast; rfl, rnd_neg, this]
    rfl
  · obtain rfl := Except.ok.inj h
    rfl

theorem square_nonneg {a b : Flt F} (h : CNum.mul a a = .ok b) : 0 ≤ b.val := by
  rw [Flt.ofRat_eq (show Flt.ofRat F (a.val * a.val) = .ok b from h)]
  exact rnd_nonneg F (mul_self_nonneg _)

theorem mid_val {W0 c e : Flt F} (h : mid W0 c = .ok e) : e.val = rnd F (2 * (W0.val * c.val)) := by
  obtain ⟨two, h2, h⟩ := bind_eq_ok.1 h
  obtain ⟨w, hw, h⟩ := bind_eq_ok.1 h
  rw [Flt.ofRat_eq (show Flt.ofRat F (w.val * c.val) = .ok e from h), twice_val h2 hw, mul_assoc]

theorem mid_nonpos {W0 c e : Flt F} (h : mid W0 c = .ok e) (h0 : 0 ≤ W0.val) (hc : c.val ≤ 0) : e.val ≤ 0 := by
  have : 0 ≤ rnd F (-(2 * (W0.val * c.val))) := rnd_nonneg F (by nlinarith)
  rw [rnd_neg, ← mid_val h] at this
  linarith

theorem add_val {a b c : Flt F} (h : CNum.add a b = .ok c) : c.val = rnd F (a.val + b.val) :=
  Flt.ofRat_eq (show Flt.ofRat F (a.val + b.val) = .ok c from h)

theorem sub_val {a b c : Flt F} (h : CNum.sub a b = .ok c) : c.val = rnd F (a.val - b.val) :=
  Flt.ofRat_eq (show Flt.ofRat F (a.val - b.val) = .ok c from h)

theorem div_val {a b c : Flt F} (h : CNum.div a b = .ok c) : b.val ≠ 0 ∧ c.val = rnd F (a.val / b.val) := by
  have h : (if b.val = 0 then .error .divByZero else Flt.ofRat F (a.val / b.val)) = .ok c := h
  split_ifs at h with h0
  exact ⟨h0, Flt.ofRat_eq h⟩

theorem one_val : (CNum.one : Flt F).val = 1 := rfl

/-- The numerator of `a2` never exceeds the denominator: the operations correspond and rounding is monotone. -/
theorem num_le_den {e p q N D : Flt F} (he : e.val ≤ 0) (hp : 0 ≤ p.val) (hq : 0 ≤ q.val) (hN : num e p q = .ok N)
    (hD : den e p q = .ok D) : |N.val| ≤ D.val := by
  obtain ⟨x, hx, hN⟩ := bind_eq_ok.1 hN
  obtain ⟨y, hy, hN⟩ := bind_eq_ok.1 hN
  obtain ⟨x', hx', hD⟩ := bind_eq_ok.1 hD
  obtain ⟨y', hy', hD⟩ := bind_eq_ok.1 hD
  have i1 : |x.val| ≤ x'.val := by
    rw [add_val hx, sub_val hx', one_val, abs_le, ← rnd_neg]
    exact ⟨rnd_mono F (by linarith), rnd_mono F (by linarith)⟩
  have i2 : |y.val| ≤ y'.val := by
    rw [add_val hy, add_val hy', abs_le, ← rnd_neg]
    obtain ⟨j1, j2⟩ := abs_le.1 i1
    exact ⟨rnd_mono F (by linarith), rnd_mono F (by linarith)⟩
  rw [add_val hN, add_val hD, abs_le, ← rnd_neg]
  obtain ⟨j1, j2⟩ := abs_le.1 i2
  exact ⟨rnd_mono F (by linarith), rnd_mono F (by linarith)⟩

/-- A quotient of numbers of the format not greater than `k` is not greater when rounded. -/
theorem quotient_le {a b c : Flt F} {k : ℚ} (h : CNum.div a b = .ok c) (hk : rnd F k = k) (hab : |a.val| ≤ k * b.val)
    (hb : 0 ≤ b.val) : |c.val| ≤ k := by
  obtain ⟨h0, hc⟩ := div_val h
  have hb : 0 < b.val := lt_of_le_of_ne hb h0.symm
  obtain ⟨j1, j2⟩ := abs_le.1 hab
  rw [hc, abs_le]
  constructor
  · have := rnd_mono F (x := -k) (y := a.val / b.val) (by rw [le_div_iff₀ hb]; linarith)
    rwa [rnd_neg, hk] at this
  · have := rnd_mono F (x := a.val / b.val) (y := k) (by rw [div_le_iff₀ hb]; linarith)
    rwa [hk] at this

theorem rnd_one : rnd F 1 = 1 := rnd_rep F (CNum.one : Flt F).rep

theorem a2_le_one {e p q N D a2 : Flt F} (he : e.val ≤ 0) (hp : 0 ≤ p.val) (hq : 0 ≤ q.val) (hN : num e p q = .ok N)
    (hD : den e p q = .ok D) (h : CNum.div N D = .ok a2) : |a2.val| ≤ 1 := by
  have i := num_le_den he hp hq hN hD
  exact quotient_le h rnd_one (by linarith) ((abs_nonneg _).trans i)

theorem one_add_err {a c : Flt F} (h : CNum.add CNum.one a = .ok c) :
    |c.val - (1 + a.val)| ≤ unit F * |1 + a.val| := by
  have := add_err h
  rw [one_val] at this
  exact this

theorem one_sub_err {a c : Flt F} (h : CNum.sub CNum.one a = .ok c) :
    |c.val - (1 - a.val)| ≤ unit F * |1 - a.val| := by
  have := sub_err h
  rw [one_val] at this
  exact this

theorem sub_one_err {a c : Flt F} (h : CNum.sub a CNum.one = .ok c) :
    |c.val - (a.val - 1)| ≤ unit F * |a.val - 1| := by
  have := sub_err h
  rw [one_val] at this
  exact this

/-- The rounded terms and sums. -/
theorem terms_error {W0 Wi c e p q : Flt F} (h0 : 0 ≤ W0.val) (hc : c.val ≤ 0)
    (he : mid W0 c = .ok e) (hp : CNum.mul W0 W0 = .ok p) (hq : CNum.mul Wi Wi = .ok q) :
    |e.val - -(2 * (W0.val * |c.val|))| ≤ unit F * (2 * (W0.val * |c.val|)) + 2 ^ F.q / 2 ∧
    |p.val - W0.val ^ 2| ≤ unit F * W0.val ^ 2 + 2 ^ F.q / 2 ∧
    |q.val - Wi.val ^ 2| ≤ unit F * Wi.val ^ 2 + 2 ^ F.q / 2 := by
  have hE : 0 ≤ 2 * (W0.val * |c.val|) := by positivity
  refine ⟨?_, ?_, ?_⟩
  · rw [mid_val he, show -(2 * (W0.val * |c.val|)) = 2 * (W0.val * c.val) by rw [abs_of_nonpos hc]; ring]
    have := rnd_err (f := F) (2 * (W0.val * c.val))
    rwa [show |2 * (W0.val * c.val)| = 2 * (W0.val * |c.val|) by
      rw [abs_mul, abs_mul, abs_of_nonneg h0, abs_two]] at this
  · have := mul_err hp
    rwa [← pow_two, abs_of_nonneg (sq_nonneg W0.val)] at this
  · have := mul_err hq
    rwa [← pow_two, abs_of_nonneg (sq_nonneg Wi.val)] at this

theorem den_error (hF : Usual F) {W0 Wi c e p q D : Flt F} (h0 : 0 ≤ W0.val) (hc : c.val ≤ 0)
    (he : mid W0 c = .ok e) (hp : CNum.mul W0 W0 = .ok p) (hq : CNum.mul Wi Wi = .ok q) (h : den e p q = .ok D) :
    |D.val - weight W0.val Wi.val c.val| ≤ 41 / 10 * (unit F * weight W0.val Wi.val c.val) := by
  obtain ⟨e1, p1, q1⟩ := terms_error h0 hc he hp hq
  obtain ⟨x, hx, h⟩ := bind_eq_ok.1 h
  obtain ⟨t, ht, h⟩ := bind_eq_ok.1 h
  have hE : 0 ≤ 2 * (W0.val * |c.val|) := by positivity
  refine four_error unit_pos (unit_le hF.1) (tiny_part unit_pos (unit_le hF.1) (tiny_le hF.2.1)) (abs_of_nonneg hE)
    (sq_nonneg _) (sq_nonneg _) (y := -e.val) ?_ p1 q1 ?_ (add_err ht) (add_err h)
  · rw [← abs_neg]
    convert e1 using 2
    ring
  · have := one_sub_err hx
    rwa [sub_eq_add_neg 1] at this

theorem num_error (hF : Usual F) {W0 Wi c e p q N : Flt F} (h0 : 0 ≤ W0.val) (hc : c.val ≤ 0)
    (he : mid W0 c = .ok e) (hp : CNum.mul W0 W0 = .ok p) (hq : CNum.mul Wi Wi = .ok q) (h : num e p q = .ok N) :
    |N.val - (1 - 2 * (W0.val * |c.val|) + (W0.val ^ 2 + Wi.val ^ 2))| ≤
      41 / 10 * (unit F * weight W0.val Wi.val c.val) := by
  obtain ⟨e1, p1, q1⟩ := terms_error h0 hc he hp hq
  obtain ⟨x, hx, h⟩ := bind_eq_ok.1 h
  obtain ⟨t, ht, h⟩ := bind_eq_ok.1 h
  have hE : 0 ≤ 2 * (W0.val * |c.val|) := by positivity
  have := four_error unit_pos (unit_le hF.1) (tiny_part unit_pos (unit_le hF.1) (tiny_le hF.2.1))
    (show |-(2 * (W0.val * |c.val|))| = _ by rw [abs_neg, abs_of_nonneg hE])
    (sq_nonneg _) (sq_nonneg _) e1 p1 q1 (one_add_err hx) (add_err ht) (add_err h)
  rw [← sub_eq_add_neg, add_assoc] at this
  exact this

end Verif.ChebyshevFloat
