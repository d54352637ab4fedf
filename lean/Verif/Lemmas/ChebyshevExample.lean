import Verif.Props.Chebyshev
import Mathlib.Analysis.SpecialFunctions.Trigonometric.Bounds
import Mathlib.Analysis.Real.Pi.Bounds

/-
The numbers of the type 2 filters of example/chebyshev-design.e.cpp: their order and the frequencies around their zeros.
-/

namespace Verif.ChebyshevExample
open Design Cheb Real

theorem tan_sq {a : ℝ} (h : cos a ≠ 0) : tan a ^ 2 = (1 - cos (2 * a)) / (1 + cos (2 * a)) := by
  have h2 : cos a ^ 2 ≠ 0 := pow_ne_zero 2 h
  rw [tan_eq_sin_div_cos, div_pow, sin_sq, cos_two_mul]
  have : 1 + (2 * cos a ^ 2 - 1) ≠ 0 := by ring_nf; positivity
  rw [div_eq_div_iff h2 this]
  ring

theorem pi_low : 3.14159 < π := lt_trans (by norm_num) pi_gt_d6
theorem pi_high : π < 3.1416 := lt_trans pi_lt_d6 (by norm_num)

/-- `cos( 2 pi 24 / 100 )`. -/
theorem cos24 : 0.0627 < cos (2 * (π * 24 / 100)) ∧ cos (2 * (π * 24 / 100)) < 0.0629 := by
  have h1 := pi_low
  have h2 := pi_high
  have e : cos (2 * (π * 24 / 100)) = sin (π / 50) := by
    rw [← cos_pi_div_two_sub]
    congr 1
    ring
  have p : 0 < π / 50 := by linarith
  have s1 := sin_gt_sub_cube p
  have s2 := sin_lt p
  have s3 : (π / 50) ^ 3 ≤ 0.063 ^ 3 := pow_le_pow_left₀ p.le (by linarith) 3
  rw [e]
  constructor
  · norm_num at *
    linarith
  · linarith

/-- `cos( 2 pi 20 / 100 )`. -/
theorem cos20 : 0.309 < cos (2 * (π * 20 / 100)) ∧ cos (2 * (π * 20 / 100)) < 0.3091 := by
  have e : cos (2 * (π * 20 / 100)) = (√5 - 1) / 4 := by
    rw [show 2 * (π * 20 / 100) = 2 * (π / 5) by ring, cos_two_mul, cos_pi_div_five]
    have : √5 ^ 2 = 5 := Real.sq_sqrt (by norm_num)
    linear_combination (1 / 8) * this
  have h1 : 2.23605 ≤ √5 := Real.le_sqrt_of_sq_le (by norm_num)
  have h2 : √5 ≤ 2.2361 := Real.sqrt_le_iff.2 (by norm_num)
  rw [e]
  constructor <;> linarith

theorem cos_ne {f : ℝ} (h0 : 0 < f) (h1 : f < 50) : cos (π * f / 100) ≠ 0 := by
  have := pi_pos
  refine (cos_pos_of_mem_Ioo ⟨?_, ?_⟩).ne' <;> nlinarith

/-- The square of the ratio of the prewarped frequencies. -/
theorem ratio_sq (low : Bool) :
    let r := if low then warp true 24 100 / warp true 20 100 else warp false 20 100 / warp false 24 100
    1.669 < r ^ 2 ∧ r ^ 2 < 1.673 := by
  intro r
  have e : r ^ 2 = tan (π * 24 / 100) ^ 2 / tan (π * 20 / 100) ^ 2 := by
    cases low <;> simp only [r, warp, Bool.false_eq_true, if_false, if_true, div_pow, one_div]
    rw [inv_pow, inv_pow, inv_div_inv]
  obtain ⟨a1, a2⟩ := cos24
  obtain ⟨b1, b2⟩ := cos20
  rw [e, tan_sq (cos_ne (by norm_num) (by norm_num)), tan_sq (cos_ne (by norm_num) (by norm_num))]
  generalize cos (2 * (π * 24 / 100)) = c at *
  generalize cos (2 * (π * 20 / 100)) = b at *
  rw [div_div_eq_mul_div, div_mul_eq_mul_div, div_div]
  have hp : 0 < (1 + c) * (1 - b) := mul_pos (by linarith) (by linarith)
  constructor
  · rw [lt_div_iff₀ hp]
    nlinarith
  · rw [div_lt_iff₀ hp]
    nlinarith

theorem T_three (x : ℝ) : T 3 x = 4 * x ^ 3 - 3 * x := by
  unfold T
  rw [show ((3 : ℕ) : ℤ) = 1 + 2 from rfl, Polynomial.Chebyshev.T_add_two]
  simp [Polynomial.Chebyshev.T_two]
  ring

theorem T_four (x : ℝ) : T 4 x = 8 * (x ^ 2) ^ 2 - 8 * x ^ 2 + 1 := by
  unfold T
  rw [show ((4 : ℕ) : ℤ) = 2 + 2 from rfl, Polynomial.Chebyshev.T_add_two, show (2 : ℤ) + 1 = 1 + 2 from rfl,
    Polynomial.Chebyshev.T_add_two]
  simp [Polynomial.Chebyshev.T_two]
  ring

/-- `T 4` has no zero there. -/
theorem T_four_ne {x : ℝ} (h : x ^ 2 < 0.1464 ∨ 0.1465 < x ^ 2 ∧ x ^ 2 < 0.8535 ∨ 0.8536 < x ^ 2) : T 4 x ≠ 0 := by
  rw [T_four]
  have := sq_nonneg x
  generalize x ^ 2 = y at *
  rcases h with h | ⟨h1, h2⟩ | h
  · have : 0 < 8 * y ^ 2 - 8 * y + 1 := by nlinarith
    exact this.ne'
  · have : 8 * y ^ 2 - 8 * y + 1 < 0 := by nlinarith
    exact this.ne
  · have : 0 < 8 * y ^ 2 - 8 * y + 1 := by nlinarith
    exact this.ne'

theorem tenth : 0.75 < (10 : ℝ) ^ (-(1 : ℝ) / 10) ∧ (10 : ℝ) ^ (-(1 : ℝ) / 10) < 0.9 := by
  have e : ((10 : ℝ) ^ (-(1 : ℝ) / 10)) ^ 10 = 1 / 10 := by
    rw [← Real.rpow_natCast, ← Real.rpow_mul (by norm_num)]
    norm_num
  have p : (0 : ℝ) < 10 ^ (-(1 : ℝ) / 10) := by positivity
  constructor
  · refine lt_of_pow_lt_pow_left₀ 10 p.le ?_
    rw [e]
    norm_num
  · refine lt_of_pow_lt_pow_left₀ 10 (by norm_num) ?_
    rw [e]
    norm_num

theorem ripple_ten : ripple 10 ^ 2 = 9 := by
  unfold ripple
  rw [div_self (by norm_num), Real.rpow_one, Real.sq_sqrt (by norm_num)]
  norm_num

theorem valid (low : Bool) : Valid low 100 (if low then 20 else 24) (if low then 24 else 20) 1 10 := by
  cases low <;> constructor <;> norm_num

/-- Both filters have the order 4. -/
theorem order_eq (low : Bool) : order low 100 (if low then 20 else 24) (if low then 24 else 20) 1 10 = 4 := by
  have v := valid low
  obtain ⟨r1, r2⟩ := ratio_sq low
  have h3 := C66_least_order v 3
  have h4 := C66_least_order v 4
  have er : warp low (if low then 24 else 20) 100 / warp low (if low then 20 else 24) 100 =
      if low then warp true 24 100 / warp true 20 100 else warp false 20 100 / warp false 24 100 := by cases low <;> rfl
  rw [er, ripple_ten] at h3 h4
  rw [T_three] at h3
  rw [T_four] at h4
  set r := if low then warp true 24 100 / warp true 20 100 else warp false 20 100 / warp false 24 100
  obtain ⟨t1, t2⟩ := tenth
  have n3 : ¬ order low 100 (if low then 20 else 24) (if low then 24 else 20) 1 10 ≤ 3 := by
    rw [← h3]
    push Not
    refine lt_of_le_of_lt ?_ t1
    have e : (4 * r ^ 3 - 3 * r) ^ 2 = r ^ 2 * (4 * r ^ 2 - 3) ^ 2 := by ring
    rw [e, div_le_iff₀ (by positivity)]
    generalize r ^ 2 = y at *
    have : (4 * y - 3) ^ 2 ≤ 13.7 := by nlinarith
    nlinarith
  have n4 : order low 100 (if low then 20 else 24) (if low then 24 else 20) 1 10 ≤ 4 := by
    rw [← h4]
    refine t2.le.trans ?_
    rw [le_div_iff₀ (by positivity)]
    generalize r ^ 2 = y at *
    have : 9 < 8 * y ^ 2 - 8 * y + 1 := by nlinarith
    nlinarith
  omega

/-! ### Frequencies around the zeros -/

/-- The square of the argument of the Chebyshev polynomial for the low pass, from the cosine `C`. -/
theorem low_argument {g : ℝ} (h : sin (π * g) ≠ 0) : (warp true 24 100 * (cos (π * g) / sin (π * g))) ^ 2 =
    (1 - cos (2 * (π * 24 / 100))) / (1 + cos (2 * (π * 24 / 100))) * ((1 + cos (2 * (π * g))) / (1 - cos (2 * (π * g)))) := by
  have e : (cos (π * g) / sin (π * g)) ^ 2 = (1 + cos (2 * (π * g))) / (1 - cos (2 * (π * g))) := by
    have h2 : sin (π * g) ^ 2 ≠ 0 := pow_ne_zero 2 h
    have h3 : 1 - cos (2 * (π * g)) ≠ 0 := by
      rw [cos_two_mul, cos_sq']
      ring_nf
      positivity
    rw [div_pow, div_eq_div_iff h2 h3, cos_two_mul, sin_sq]
    ring
  rw [mul_pow, e]
  simp only [warp, if_true]
  rw [tan_sq (cos_ne (by norm_num) (by norm_num))]

theorem high_argument {g : ℝ} (h : cos (π * g) ≠ 0) : (warp false 20 100 * (sin (π * g) / -cos (π * g))) ^ 2 =
    (1 + cos (2 * (π * 20 / 100))) / (1 - cos (2 * (π * 20 / 100))) * ((1 - cos (2 * (π * g))) / (1 + cos (2 * (π * g)))) := by
  have e : (sin (π * g) / -cos (π * g)) ^ 2 = (1 - cos (2 * (π * g))) / (1 + cos (2 * (π * g))) := by
    rw [← tan_sq h, tan_eq_sin_div_cos, div_neg, neg_sq]
  rw [mul_pow, e]
  simp only [warp, Bool.false_eq_true, if_false]
  rw [one_div, inv_pow, tan_sq (cos_ne (by norm_num) (by norm_num)), inv_div]

variable {g : ℝ}

theorem cos_le_of {t : ℝ} (h0 : 0 ≤ t) (h : t ≤ g) (h1 : g ≤ 1 / 2) : cos (2 * (π * g)) ≤ cos (2 * (π * t)) := by
  have := pi_pos
  refine cos_le_cos_of_nonneg_of_le_pi (by positivity) ?_ ?_ <;> nlinarith

/-- A cosine somewhat above a right angle. -/
theorem cos_above {u : ℝ} (h : 0 < u) : u - u ^ 3 / 6 < -cos (π / 2 + u) ∧ -cos (π / 2 + u) < u := by
  rw [add_comm, cos_add_pi_div_two, neg_neg]
  exact ⟨sin_gt_sub_cube h, sin_lt h⟩

theorem low_first (h0 : 0 ≤ g) (h : g ≤ 0.25251) : -0.0158 < cos (2 * (π * g)) := by
  refine lt_of_lt_of_le ?_ (cos_le_of h0 h (by norm_num))
  have := (cos_above (u := π * 0.00502) (by have := pi_pos; positivity)).2
  rw [show π / 2 + π * 0.00502 = 2 * (π * 0.25251) by ring] at this
  have := pi_high
  linarith

theorem low_second (h : 0.25499 ≤ g) (h1 : g ≤ 1 / 2) : cos (2 * (π * g)) < -0.031 := by
  refine lt_of_le_of_lt (cos_le_of (by norm_num) h h1) ?_
  have p := pi_pos
  have := (cos_above (u := π * 0.00998) (by positivity)).1
  rw [show π / 2 + π * 0.00998 = 2 * (π * 0.25499) by ring] at this
  have s3 : (π * 0.00998) ^ 3 ≤ 0.032 ^ 3 := pow_le_pow_left₀ (by positivity) (by linarith [pi_high]) 3
  have := pi_low
  norm_num at *
  linarith

theorem root_two : 1.4142 < √2 ∧ √2 < 1.4143 :=
  ⟨Real.lt_sqrt_of_sq_lt (by norm_num), (Real.sqrt_lt' (by norm_num)).2 (by norm_num)⟩

theorem low_third (h0 : 0 ≤ g) (h : g ≤ 0.37501) : -0.7132 < cos (2 * (π * g)) := by
  refine lt_of_lt_of_le ?_ (cos_le_of h0 h (by norm_num))
  have := (abs_le.1 (abs_cos_sub_cos_le (2 * (π * 0.37501)) (π - π / 4))).1
  rw [cos_pi_sub, cos_pi_div_four, show 2 * (π * 0.37501) - (π - π / 4) = π * 0.00002 by ring,
    abs_of_pos (by have := pi_pos; positivity)] at this
  have := pi_high
  have := root_two.2
  linarith

theorem low_fourth (h : 0.37749 ≤ g) (h1 : g ≤ 1 / 2) : cos (2 * (π * g)) < -0.717 := by
  refine lt_of_le_of_lt (cos_le_of (by norm_num) h h1) ?_
  have p := pi_pos
  have e : cos (2 * (π * 0.37749)) = -(√2 / 2 * (cos (π * 0.00498) + sin (π * 0.00498))) := by
    rw [show 2 * (π * 0.37749) = π - (π / 4 - π * 0.00498) by ring, cos_pi_sub, cos_sub, cos_pi_div_four, sin_pi_div_four]
    ring
  have u0 : 0 < π * 0.00498 := by positivity
  have u1 : π * 0.00498 ≤ 0.0157 := by linarith [pi_high]
  have u2 : 0.0156 ≤ π * 0.00498 := by linarith [pi_low]
  have c := one_sub_sq_div_two_le_cos (x := π * 0.00498)
  have s := sin_gt_sub_cube u0
  have s3 : (π * 0.00498) ^ 3 ≤ 0.0157 ^ 3 := pow_le_pow_left₀ u0.le u1 3
  have s2 : (π * 0.00498) ^ 2 ≤ 0.0157 ^ 2 := pow_le_pow_left₀ u0.le u1 2
  have k : 1.0154 ≤ cos (π * 0.00498) + sin (π * 0.00498) := by
    norm_num at *
    linarith
  have r := root_two.1
  rw [e]
  nlinarith

/-- The low-pass filter rejects none of these frequencies. -/
theorem low_ne (h0 : 0.2 ≤ g) (h1 : g ≤ 1 / 2) (h : g ≤ 0.25251 ∨ 0.25499 ≤ g ∧ g ≤ 0.37501 ∨ 0.37749 ≤ g) :
    T 4 (warp true 24 100 * (cos (π * g) / sin (π * g))) ≠ 0 := by
  have p := pi_pos
  have hs : sin (π * g) ≠ 0 := (sin_pos_of_pos_of_lt_pi (by nlinarith) (by nlinarith)).ne'
  refine T_four_ne ?_
  rw [low_argument hs]
  obtain ⟨a1, a2⟩ := cos24
  have c1 := neg_one_le_cos (2 * (π * g))
  have l1 := @low_first g
  have l2 := @low_second g
  have l3 := @low_third g
  have l4 := @low_fourth g
  have l0 : cos (2 * (π * g)) < 0.5 := by
    refine lt_of_le_of_lt (cos_le_of (by norm_num) h0 h1) ?_
    rw [show 2 * (π * 0.2) = 2 * (π * 20 / 100) by ring]
    linarith [cos20.2]
  generalize cos (2 * (π * 24 / 100)) = c at *
  generalize cos (2 * (π * g)) = C at *
  rw [div_mul_div_comm]
  have hp : 0 < (1 + c) * (1 - C) := mul_pos (by linarith) (by linarith)
  rcases h with h | ⟨h, h'⟩ | h
  · have := l1 (by linarith) h
    refine .inr (.inr ?_)
    rw [lt_div_iff₀ hp]
    nlinarith
  · have i1 := l2 h h1
    have i2 := l3 (by linarith) h'
    refine .inr (.inl ⟨?_, ?_⟩)
    · rw [lt_div_iff₀ hp]
      nlinarith
    · rw [div_lt_iff₀ hp]
      nlinarith
  · have := l4 h h1
    refine .inl ?_
    rw [div_lt_iff₀ hp]
    nlinarith

theorem high_first (h0 : 0 ≤ g) (h : g ≤ 0.08501) : 0.8595 < cos (2 * (π * g)) := by
  refine lt_of_lt_of_le ?_ (cos_le_of h0 h (by norm_num))
  have p := pi_pos
  have e : cos (2 * (π * 0.08501)) = √3 / 2 * cos (π * (0.17002 - 1 / 6)) - 1 / 2 * sin (π * (0.17002 - 1 / 6)) := by
    rw [show 2 * (π * 0.08501) = π / 6 + π * (0.17002 - 1 / 6) by ring, cos_add, cos_pi_div_six, sin_pi_div_six]
  have u0 : 0 < π * (0.17002 - 1 / 6) := mul_pos p (by norm_num)
  have u1 : π * (0.17002 - 1 / 6) ≤ 0.0106 := by linarith [pi_high]
  have c := one_sub_sq_div_two_le_cos (x := π * (0.17002 - 1 / 6))
  have s := sin_lt u0
  have s2 : (π * (0.17002 - 1 / 6)) ^ 2 ≤ 0.0106 ^ 2 := pow_le_pow_left₀ u0.le u1 2
  have r : 1.732 ≤ √3 := Real.le_sqrt_of_sq_le (by norm_num)
  rw [e]
  generalize cos (π * (0.17002 - 1 / 6)) = C at *
  generalize sin (π * (0.17002 - 1 / 6)) = S at *
  have k : 0.9999 ≤ C := by
    norm_num at *
    linarith
  nlinarith

theorem high_second (h : 0.08749 ≤ g) (h1 : g ≤ 1 / 2) : cos (2 * (π * g)) < 0.854 := by
  refine lt_of_le_of_lt (cos_le_of (by norm_num) h h1) ?_
  have p := pi_pos
  have e : cos (2 * (π * 0.08749)) = √3 / 2 * cos (π * (0.17498 - 1 / 6)) - 1 / 2 * sin (π * (0.17498 - 1 / 6)) := by
    rw [show 2 * (π * 0.08749) = π / 6 + π * (0.17498 - 1 / 6) by ring, cos_add, cos_pi_div_six, sin_pi_div_six]
  have u0 : 0 < π * (0.17498 - 1 / 6) := mul_pos p (by norm_num)
  have u1 : π * (0.17498 - 1 / 6) ≤ 0.0262 := by linarith [pi_high]
  have u2 : 0.026 ≤ π * (0.17498 - 1 / 6) := by linarith [pi_low]
  have s := sin_gt_sub_cube u0
  have s3 : (π * (0.17498 - 1 / 6)) ^ 3 ≤ 0.0262 ^ 3 := pow_le_pow_left₀ u0.le u1 3
  have c := cos_le_one (π * (0.17498 - 1 / 6))
  have r : √3 ≤ 1.7321 := Real.sqrt_le_iff.2 (by norm_num)
  have r0 := Real.sqrt_nonneg 3
  rw [e]
  have k : √3 / 2 * cos (π * (0.17498 - 1 / 6)) ≤ √3 / 2 * 1 := mul_le_mul_of_nonneg_left c (by positivity)
  have k2 : 0.025 ≤ sin (π * (0.17498 - 1 / 6)) := by
    refine le_trans ?_ s.le
    refine le_trans ?_ (sub_le_sub u2 (div_le_div_of_nonneg_right s3 (by norm_num)))
    norm_num
  linarith

theorem sin_eighth : 0.3826 < sin (π / 8) ∧ sin (π / 8) < 0.3827 := by
  have r := root_two
  have r' : 1.41421 < √2 ∧ √2 < 1.41422 :=
    ⟨Real.lt_sqrt_of_sq_lt (by norm_num), (Real.sqrt_lt' (by norm_num)).2 (by norm_num)⟩
  rw [sin_pi_div_eight]
  have h1 : 0.7652 < √(2 - √2) := Real.lt_sqrt_of_sq_lt (by norm_num at *; linarith)
  have h2 : √(2 - √2) < 0.7654 := (Real.sqrt_lt' (by norm_num)).2 (by norm_num at *; linarith)
  constructor <;> linarith

theorem cos_eighth : 0.9238 < cos (π / 8) := by
  have r' : 1.41421 < √2 := Real.lt_sqrt_of_sq_lt (by norm_num)
  rw [cos_pi_div_eight]
  have h1 : 1.8476 < √(2 + √2) := Real.lt_sqrt_of_sq_lt (by norm_num at *; linarith)
  linarith

theorem high_third (h0 : 0 ≤ g) (h : g ≤ 0.18751) : 0.3824 < cos (2 * (π * g)) := by
  refine lt_of_lt_of_le ?_ (cos_le_of h0 h (by norm_num))
  have := (abs_le.1 (abs_cos_sub_cos_le (2 * (π * 0.18751)) (π / 2 - π / 8))).1
  rw [cos_pi_div_two_sub, show 2 * (π * 0.18751) - (π / 2 - π / 8) = π * 0.00002 by ring,
    abs_of_pos (by have := pi_pos; positivity)] at this
  have := pi_high
  have := sin_eighth.1
  linarith

theorem high_fourth (h : 0.18999 ≤ g) (h1 : g ≤ 1 / 2) : cos (2 * (π * g)) < 0.37 := by
  refine lt_of_le_of_lt (cos_le_of (by norm_num) h h1) ?_
  have p := pi_pos
  have e : cos (2 * (π * 0.18999)) = sin (π / 8) * cos (π * 0.00498) - cos (π / 8) * sin (π * 0.00498) := by
    rw [← sin_sub, ← cos_pi_div_two_sub]
    congr 1
    ring
  have u0 : 0 < π * 0.00498 := by positivity
  have u1 : π * 0.00498 ≤ 0.0157 := by linarith [pi_high]
  have u2 : 0.0156 ≤ π * 0.00498 := by linarith [pi_low]
  have s := sin_gt_sub_cube u0
  have s3 : (π * 0.00498) ^ 3 ≤ 0.0157 ^ 3 := pow_le_pow_left₀ u0.le u1 3
  have k : 0.0155 ≤ sin (π * 0.00498) := by
    norm_num at *
    linarith
  have a := sin_eighth
  have b := cos_eighth
  have c := cos_le_one (π * 0.00498)
  have k1 : sin (π / 8) * cos (π * 0.00498) ≤ sin (π / 8) * 1 := mul_le_mul_of_nonneg_left c (by linarith)
  have k2 : 0.9238 * 0.0155 ≤ cos (π / 8) * sin (π * 0.00498) := mul_le_mul b.le k (by norm_num) (by linarith)
  rw [e]
  linarith

/-- The high-pass filter rejects none of these frequencies. -/
theorem high_ne (h0 : 0 ≤ g) (h1 : g ≤ 0.24) (h : g ≤ 0.08501 ∨ 0.08749 ≤ g ∧ g ≤ 0.18751 ∨ 0.18999 ≤ g) :
    T 4 (warp false 20 100 * (sin (π * g) / -cos (π * g))) ≠ 0 := by
  have p := pi_pos
  have hs : cos (π * g) ≠ 0 := (cos_pos_of_mem_Ioo ⟨by nlinarith, by nlinarith⟩).ne'
  refine T_four_ne ?_
  rw [high_argument hs]
  obtain ⟨a1, a2⟩ := cos20
  have c1 := cos_le_one (2 * (π * g))
  have l1 := @high_first g
  have l2 := @high_second g
  have l3 := @high_third g
  have l4 := @high_fourth g
  have l0 : 0 < cos (2 * (π * g)) := by
    refine lt_of_lt_of_le ?_ (cos_le_of h0 h1 (by norm_num))
    rw [show 2 * (π * 0.24) = 2 * (π * 24 / 100) by ring]
    linarith [cos24.1]
  generalize cos (2 * (π * 20 / 100)) = c at *
  generalize cos (2 * (π * g)) = C at *
  rw [div_mul_div_comm]
  have hp : 0 < (1 - c) * (1 + C) := mul_pos (by linarith) (by linarith)
  rcases h with h | ⟨h, h'⟩ | h
  · have := l1 h0 h
    refine .inl ?_
    rw [div_lt_iff₀ hp]
    nlinarith
  · have i1 := l2 h (by linarith)
    have i2 := l3 h0 h'
    refine .inr (.inl ⟨?_, ?_⟩)
    · rw [lt_div_iff₀ hp]
      nlinarith
    · rw [div_lt_iff₀ hp]
      nlinarith
  · have := l4 h (by linarith)
    refine .inr (.inr ?_)
    rw [lt_div_iff₀ hp]
    nlinarith

end Verif.ChebyshevExample
