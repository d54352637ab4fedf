import Mathlib.Tactic.Linarith
import Mathlib.Tactic.Positivity
import Mathlib.Tactic.Ring
import Verif.Spec.Rounding
import Verif.Lemmas.Loop

/- Bookkeeping of rounding errors. -/

namespace Verif

/-- `v` approximates `e`, a number of modulus at most `m`, after at most `k` roundings in a row, `j` of
them products. -/
def Near (u η v e m : ℝ) (k j : ℕ) : Prop :=
  |e| ≤ m ∧ |v - e| ≤ ((1 + u) ^ k - 1) * m + j * (1 + u) ^ k * η

namespace Near
variable {u η v e m v' e' m' : ℝ} {k j k' j' : ℕ}

theorem refl {m : ℝ} (h : |v| ≤ m) : Near u η v v m 0 0 := by
  refine ⟨h, ?_⟩
  simp

theorem m_nonneg (h : Near u η v e m k j) : 0 ≤ m := (abs_nonneg e).trans h.1

theorem mono (hu : 0 ≤ u) (hη : 0 ≤ η) (h : Near u η v e m k j) (hk : k ≤ k') (hj : j ≤ j') (hm : m ≤ m') :
    Near u η v e m' k' j' := by
  refine ⟨h.1.trans hm, h.2.trans ?_⟩
  have h1 : (1 + u) ^ k ≤ (1 + u) ^ k' := pow_le_pow_right₀ (by linarith) hk
  have h0 : 1 ≤ (1 + u) ^ k := one_le_pow₀ (by linarith)
  have hj' : (j : ℝ) ≤ j' := by exact_mod_cast hj
  have h2 : ((1 + u) ^ k - 1) * m ≤ ((1 + u) ^ k' - 1) * m' :=
    mul_le_mul (by linarith) hm h.m_nonneg (by linarith)
  have h3 : (j : ℝ) * (1 + u) ^ k * η ≤ j' * (1 + u) ^ k' * η := by
    apply mul_le_mul_of_nonneg_right _ hη
    exact mul_le_mul hj' h1 (by linarith) (by positivity)
  linarith

/-- The modulus of an approximation. -/
theorem bound (h : Near u η v e m k j) : |v| ≤ (1 + u) ^ k * m + j * (1 + u) ^ k * η := by
  have h1 := abs_sub_abs_le_abs_sub v e
  have := h.1
  have := h.2
  linarith

/-- One more rounding after a sum or difference. -/
theorem round {w s : ℝ} (hu : 0 ≤ u) (hw : |w - s| ≤ u * |s|) {E : ℝ} (he : |E| ≤ m)
    (hs : |s - E| ≤ ((1 + u) ^ k - 1) * m + j * (1 + u) ^ k * η) : Near u η w E m (k + 1) j := by
  refine ⟨he, ?_⟩
  have h1 : |s| ≤ |E| + |s - E| := by
    have := abs_add_le E (s - E)
    rwa [add_sub_cancel] at this
  have h2 : |w - E| ≤ |w - s| + |s - E| := by
    have := abs_add_le (w - s) (s - E)
    rwa [sub_add_sub_cancel] at this
  have h3 : u * |s| ≤ u * (m + (((1 + u) ^ k - 1) * m + j * (1 + u) ^ k * η)) :=
    mul_le_mul_of_nonneg_left (by linarith) hu
  calc |w - E| ≤ u * (m + (((1 + u) ^ k - 1) * m + j * (1 + u) ^ k * η)) +
        (((1 + u) ^ k - 1) * m + j * (1 + u) ^ k * η) := by linarith
    _ = _ := by rw [pow_succ]; ring

end Near

namespace Rounding
variable {T : Type} [CNum T] {val : T → ℝ} {u η M : ℝ} {k j j' : ℕ} {a b : T} {ea eb ma mb : ℝ}

/-- A sum of approximations. -/
theorem near_add (R : Rounding T val u η M) (ha : Near u η (val a) ea ma k j)
    (hb : Near u η (val b) eb mb k j')
    (hM : (1 + u) ^ k * (ma + mb) + (j + j' : ℕ) * (1 + u) ^ k * η ≤ M) :
    ∃ c, CNum.add a b = .ok c ∧ Near u η (val c) (ea + eb) (ma + mb) (k + 1) (j + j') := by
  have h1 := ha.bound
  have h2 := hb.bound
  push_cast at hM
  obtain ⟨c, hc, e⟩ := R.add a b (by
    have := abs_add_le (val a) (val b)
    nlinarith)
  refine ⟨c, hc, Near.round R.u_nonneg e ?_ ?_⟩
  · exact (abs_add_le _ _).trans (add_le_add ha.1 hb.1)
  · have : val a + val b - (ea + eb) = (val a - ea) + (val b - eb) := by ring
    rw [this]
    refine (abs_add_le _ _).trans ?_
    have := ha.2
    have := hb.2
    push_cast
    linarith

/-- A difference of approximations. -/
theorem near_sub (R : Rounding T val u η M) (ha : Near u η (val a) ea ma k j)
    (hb : Near u η (val b) eb mb k j')
    (hM : (1 + u) ^ k * (ma + mb) + (j + j' : ℕ) * (1 + u) ^ k * η ≤ M) :
    ∃ c, CNum.sub a b = .ok c ∧ Near u η (val c) (ea - eb) (ma + mb) (k + 1) (j + j') := by
  have h1 := ha.bound
  have h2 := hb.bound
  push_cast at hM
  obtain ⟨c, hc, e⟩ := R.sub a b (by
    have := abs_sub (val a) (val b)
    nlinarith)
  refine ⟨c, hc, Near.round R.u_nonneg e ?_ ?_⟩
  · exact (abs_sub _ _).trans (add_le_add ha.1 hb.1)
  · have : val a - val b - (ea - eb) = (val a - ea) - (val b - eb) := by ring
    rw [this]
    refine (abs_sub _ _).trans ?_
    have := ha.2
    have := hb.2
    push_cast
    linarith

/-- A product of two given numbers. -/
theorem near_mul (R : Rounding T val u η M) (a b : T) {m : ℝ} (hm : |val a| * |val b| ≤ m)
    (hM : m ≤ M) :
    ∃ c, CNum.mul a b = .ok c ∧ Near u η (val c) (val a * val b) m 1 1 := by
  rw [← abs_mul] at hm
  obtain ⟨c, hc, e⟩ := R.mul a b (hm.trans hM)
  refine ⟨c, hc, hm, e.trans ?_⟩
  have := mul_le_mul_of_nonneg_left hm R.u_nonneg
  have := mul_nonneg R.u_nonneg R.η_nonneg
  push_cast
  nlinarith

end Rounding
end Verif
