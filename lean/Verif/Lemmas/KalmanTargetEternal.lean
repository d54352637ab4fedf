import Verif.Lemmas.KalmanTargetSettled
import Verif.Lemmas.KalmanSimEternal

/-
The estimate of the estimator of example/avr/avr-kalman-sim.e.cpp with its default numeric type `double`, which has 32 bits
on the target, against the exact one (for C155); as in KalmanSimEternal.
-/

namespace Verif
open KalmanSim Ieee

namespace TargetRun

open SettledRun (first Q_psd R_posDef)
open ErrorRun (inUnits exact covMat mulVec_trans add_vec mulS_vec dot_pos sub11s_one)
open EternalRun (size size_add size_le size_zero size_map pos_le vel_le Contracts rate bound rate_late bound_real bound_succ
  scale size_step update_real)

abbrev D := Flt binary32

/-- The value of a number. -/
noncomputable def r (x : D) : ℝ := x.val

/-- The gain after `n + 1` updates contracts. -/
def Fine (n : ℕ) : Prop :=
  Contracts (rate n) (inUnits (st n).2.2.2.2.1) (inUnits (st n).2.2.2.2.2) ∧
    (0 ≤ inUnits (st n).2.2.2.2.1 ∧ inUnits (st n).2.2.2.2.1 ≤ 19 / 100) ∧
    0 ≤ inUnits (st n).2.2.2.2.2 ∧ inUnits (st n).2.2.2.2.2 ≤ 1 / 50

instance (n) : Decidable (Fine n) := inferInstanceAs (Decidable (_ ∧ _))

theorem fine_early : ∀ n ∈ List.range 80, Fine n := by decide +kernel

theorem fine (n : ℕ) : Fine n := by
  by_cases h : n < 80
  · exact fine_early n (List.mem_range.2 h)
  · have e : st n = st 79 := by
      unfold st
      rw [Nat.min_eq_right (by omega), Nat.min_self]
    have := fine_early 79 (by decide)
    unfold Fine at this ⊢
    rwa [e, rate_late (by omega), ← rate_late (show 14 ≤ 79 by omega)]

theorem setup_ok : Res.yields setup (fun (p, A, B, H, k, x) => Res.yields (Flt.ofRat binary32 (1 / 2)) fun half =>
    decide (half.val = 1 / 2 ∧ p.dt = CNum.one ∧ p.measnoise.val = 10 ∧ |p.accelnoise.val - 1 / 5| ≤ 1 / 2 ^ 25 ∧
      (do CNum.div CNum.one (← CLit.lit 2)) = Except.ok (ε := Err) half ∧
      A = Mat.mk22 CNum.one CNum.one CNum.zero CNum.one ∧ B = ⟨#v[half, CNum.one]⟩ ∧ H = hPos ∧
      k.A = A ∧ k.B = B ∧ k.H = H ∧ x = ⟨#v[CNum.zero, CNum.zero]⟩ ∧ k.xhat = x)) = true := by decide +kernel

/-! ### Rounding -/

/-- A magnitude that neither overflows nor underflows. -/
structure Mid (X : ℝ) : Prop where
  lo : 1 / 2 ^ 100 ≤ X
  hi : X ≤ 2 ^ 120

theorem Mid.max {X : ℝ} (h : Mid X) : X ≤ ((binary32.max : ℚ) : ℝ) := by
  refine h.hi.trans ?_
  have e : ((binary32.max : ℚ) : ℝ) = (2 ^ 24 - 1) * 2 ^ 104 := by
    unfold Format.max binary32
    rw [Rat.cast_mul, Rat.cast_zpow, Rat.cast_sub, Rat.cast_pow, Rat.cast_ofNat, Rat.cast_one]
    rw [show (2 : ℝ) ^ (104 : ℤ) = 2 ^ 104 from zpow_natCast 2 104]
  have e' : (2 : ℝ) ^ 120 = 2 ^ 16 * 2 ^ 104 := by rw [← pow_add]
  rw [e, e']
  exact mul_le_mul_of_nonneg_right (by norm_num) (by positivity)

theorem Mid.eta {X : ℝ} (h : Mid X) : (2 : ℝ) ^ binary32.q / 2 ≤ X / 2 ^ 24 := by
  have h1 : (2 : ℝ) ^ binary32.q ≤ 2 ^ (-124 : ℤ) := zpow_le_zpow_right₀ (by norm_num) (by decide)
  have h2 : (2 : ℝ) ^ (-124 : ℤ) = 1 / 2 ^ 100 / 2 ^ 24 := by
    rw [zpow_neg, div_div, ← pow_add, one_div]
    rfl
  have h3 := (div_le_div_iff_of_pos_right (show (0 : ℝ) < 2 ^ 24 by positivity)).2 h.lo
  rw [← h2] at h3
  exact (half_le_self (zpow_nonneg (by norm_num) _)).trans (h1.trans h3)

theorem half_step {X x : ℝ} (h : |x| ≤ X) : 1 / 2 ^ binary32.p * |x| ≤ X / 2 ^ 24 := by
  rw [show binary32.p = 24 from rfl, one_div, inv_mul_eq_div]
  exact div_le_div_of_nonneg_right h (by positivity)

theorem add_within {X : ℝ} (hX : Mid X) {a b : D} (h : |r a + r b| ≤ X) :
    ∃ c, CNum.add a b = .ok c ∧ |r c - (r a + r b)| ≤ X / 2 ^ 23 := by
  obtain ⟨c, e, hc⟩ := (Flt.rounding binary32).add a b (h.trans hX.max)
  have := half_step h
  have h0 := (abs_nonneg _).trans h
  exact ⟨c, e, hc.trans (this.trans (div_le_div_of_nonneg_left h0 (by positivity) (by norm_num)))⟩

theorem sub_within {X : ℝ} (hX : Mid X) {a b : D} (h : |r a - r b| ≤ X) :
    ∃ c, CNum.sub a b = .ok c ∧ |r c - (r a - r b)| ≤ X / 2 ^ 23 := by
  obtain ⟨c, e, hc⟩ := (Flt.rounding binary32).sub a b (h.trans hX.max)
  have := half_step h
  have h0 := (abs_nonneg _).trans h
  exact ⟨c, e, hc.trans (this.trans (div_le_div_of_nonneg_left h0 (by positivity) (by norm_num)))⟩

theorem mul_within {X : ℝ} (hX : Mid X) {a b : D} (h : |r a * r b| ≤ X) :
    ∃ c, CNum.mul a b = .ok c ∧ |r c - r a * r b| ≤ X / 2 ^ 23 := by
  obtain ⟨c, e, hc⟩ := (Flt.rounding binary32).mul a b (h.trans hX.max)
  have h1 := half_step h
  have h2 := hX.eta
  refine ⟨c, e, hc.trans ((add_le_add h1 h2).trans (le_of_eq ?_))⟩
  ring

/-- The operations on the estimate in one update. -/
theorem update_ops {M : ℝ} (hM : Mid (136 * M)) {y0 y1 half v z g0 g1 : D} (hy0 : |r y0| ≤ 115 * M) (hy1 : |r y1| ≤ 18 * M)
    (hv : |r v| ≤ M) (hz : |r z| ≤ M) (hh : r half = 1 / 2) (hg0 : 0 ≤ r g0 ∧ r g0 ≤ 19 / 100)
    (hg1 : 0 ≤ r g1 ∧ r g1 ≤ 1 / 50) : ∃ s w c0 c1 i d0 d1 e0 e1 : D,
      (CNum.add y0 y1 = .ok s ∧ CNum.mul half v = .ok w ∧ CNum.add s w = .ok c0 ∧ CNum.add y1 v = .ok c1 ∧
        CNum.sub z c0 = .ok i ∧ CNum.mul g0 i = .ok d0 ∧ CNum.mul g1 i = .ok d1 ∧ CNum.add c0 d0 = .ok e0 ∧
        CNum.add c1 d1 = .ok e1) ∧
      |r e0 - (r y0 + r y1 + r v / 2 + r g0 * (r z - (r y0 + r y1 + r v / 2)))| ≤ 6 * (136 * M / 2 ^ 23) ∧
      |r e1 - (r y1 + r v + r g1 * (r z - (r y0 + r y1 + r v / 2)))| ≤ 4 * (136 * M / 2 ^ 23) := by
  have hM0 : 0 ≤ M := (abs_nonneg _).trans hv
  have hμ : 136 * M / 2 ^ 23 ≤ M / 1000 := by
    rw [div_le_div_iff₀ (by norm_num) (by norm_num)]
    nlinarith
  have hμ0 : 0 ≤ 136 * M / 2 ^ 23 := by positivity
  obtain ⟨s, es, hs⟩ := add_within hM (a := y0) (b := y1) (by rw [abs_le] at *; constructor <;> linarith)
  obtain ⟨w, ew, hw⟩ := mul_within hM (a := half) (b := v) (by
    rw [hh]; exact (scale (by norm_num) hv).trans (by linarith))
  rw [hh] at hw
  generalize hμe : 136 * M / 2 ^ 23 = μ at *
  have hc' : |r s + r w - (r y0 + r y1 + r v / 2)| ≤ 2 * μ := by rw [abs_le] at *; constructor <;> linarith
  have hC : |r y0 + r y1 + r v / 2| ≤ 267 / 2 * M := by rw [abs_le] at *; constructor <;> linarith
  obtain ⟨c0, ec0, hc0⟩ := add_within hM (a := s) (b := w) (by rw [abs_le] at *; constructor <;> linarith)
  obtain ⟨c1, ec1, hc1⟩ := add_within hM (a := y1) (b := v) (by rw [abs_le] at *; constructor <;> linarith)
  rw [hμe] at hc0 hc1
  have Hc0 : |r c0 - (r y0 + r y1 + r v / 2)| ≤ 3 * μ := by rw [abs_le] at *; constructor <;> linarith
  clear hc0 hc' hs hw
  generalize r y0 + r y1 + r v / 2 = C at *
  obtain ⟨i, ei, hi⟩ := sub_within hM (a := z) (b := c0) (by rw [abs_le] at *; constructor <;> linarith)
  rw [hμe] at hi
  have Hi : |r i - (r z - C)| ≤ 4 * μ := by rw [abs_le] at *; constructor <;> linarith
  have Im : |r i| ≤ 135 * M := by rw [abs_le] at *; constructor <;> linarith
  have m0 := scale hg0.1 Im
  have m1 := scale hg1.1 Im
  have n0 := scale hg0.1 Hi
  have n1 := scale hg1.1 Hi
  have q0 : r g0 * (135 * M) ≤ 19 / 100 * (135 * M) := mul_le_mul_of_nonneg_right hg0.2 (by positivity)
  have q1 : r g1 * (135 * M) ≤ 1 / 50 * (135 * M) := mul_le_mul_of_nonneg_right hg1.2 (by positivity)
  have p0 : r g0 * (4 * μ) ≤ 19 / 100 * (4 * μ) := mul_le_mul_of_nonneg_right hg0.2 (by positivity)
  have p1 : r g1 * (4 * μ) ≤ 1 / 50 * (4 * μ) := mul_le_mul_of_nonneg_right hg1.2 (by positivity)
  obtain ⟨d0, ed0, hd0⟩ := mul_within hM (a := g0) (b := i) (m0.trans (by linarith))
  obtain ⟨d1, ed1, hd1⟩ := mul_within hM (a := g1) (b := i) (m1.trans (by linarith))
  rw [hμe] at hd0 hd1
  have Z0 : |r c0 + r g0 * r i| ≤ 135 * M := by
    have e : r c0 + r g0 * r i = (1 - r g0) * r c0 + r g0 * (r c0 + r i) := by ring
    have a1 := scale (show 0 ≤ 1 - r g0 by linarith [hg0.2]) (show |r c0| ≤ 135 * M by rw [abs_le] at *; constructor <;> linarith)
    have a2 := scale hg0.1 (show |r c0 + r i| ≤ 135 * M by rw [abs_le] at *; constructor <;> linarith)
    rw [e]
    exact (abs_add_le _ _).trans (by linarith)
  obtain ⟨e0, ee0, he0⟩ := add_within hM (a := c0) (b := d0) (by rw [abs_le] at *; constructor <;> linarith)
  obtain ⟨e1, ee1, he1⟩ := add_within hM (a := c1) (b := d1) (by rw [abs_le] at *; constructor <;> linarith)
  rw [hμe] at he0 he1
  rw [mul_sub] at n0 n1
  refine ⟨s, w, c0, c1, i, d0, d1, e0, e1, ⟨es, ew, ec0, ec1, ei, ed0, ed1, ee0, ee1⟩, ?_, ?_⟩
  · rw [abs_le] at *; constructor <;> linarith
  · rw [abs_le] at *; constructor <;> linarith

/-! ### One update -/

/-- The difference from the exact estimate after an update. -/
theorem error_step {ρ g0 g1 : ℚ} (h : Contracts ρ g0 g1) {M a y0 y1 Y0 Y1 G0 G1 v z e0 e1 : ℝ}
    (hy : size (y0 - Y0) (y1 - Y1) ≤ a) (hI : |z - (Y0 + Y1 + v / 2)| ≤ 136 * M) (hG0 : |(g0 : ℝ) - G0| ≤ 1 / 2 ^ 23)
    (hG1 : |(g1 : ℝ) - G1| ≤ 1 / 2 ^ 27)
    (h0 : |e0 - (y0 + y1 + v / 2 + g0 * (z - (y0 + y1 + v / 2)))| ≤ 6 * (136 * M / 2 ^ 23))
    (h1 : |e1 - (y1 + v + g1 * (z - (y0 + y1 + v / 2)))| ≤ 4 * (136 * M / 2 ^ 23)) :
    size (e0 - (Y0 + Y1 + v / 2 + G0 * (z - (Y0 + Y1 + v / 2)))) (e1 - (Y1 + v + G1 * (z - (Y0 + Y1 + v / 2)))) ≤
      ρ * a + 33 * (136 * M / 2 ^ 23) := by
  have hρ : (0 : ℝ) ≤ ρ := by exact_mod_cast h.1
  have hm := size_map h (y0 - Y0) (y1 - Y1)
  set E0 := e0 - (Y0 + Y1 + v / 2 + G0 * (z - (Y0 + Y1 + v / 2))) with hE0
  set E1 := e1 - (Y1 + v + G1 * (z - (Y0 + Y1 + v / 2))) with hE1
  set F0 := (1 - (g0 : ℝ)) * (y0 - Y0 + (y1 - Y1)) with hF0
  set F1 := y1 - Y1 - (g1 : ℝ) * (y0 - Y0 + (y1 - Y1)) with hF1
  have hs := size_add F0 F1 (E0 - F0) (E1 - F1)
  rw [add_sub_cancel, add_sub_cancel] at hs
  have hr := size_le (E0 - F0) (E1 - F1)
  have p0 : |((g0 : ℝ) - G0) * (z - (Y0 + Y1 + v / 2))| ≤ 1 / 2 ^ 23 * (136 * M) := by
    rw [abs_mul]; exact mul_le_mul hG0 hI (abs_nonneg _) (by positivity)
  have p1 : |((g1 : ℝ) - G1) * (z - (Y0 + Y1 + v / 2))| ≤ 1 / 2 ^ 27 * (136 * M) := by
    rw [abs_mul]; exact mul_le_mul hG1 hI (abs_nonneg _) (by positivity)
  have q0 : |E0 - F0| ≤ 7 * (136 * M / 2 ^ 23) := by
    have e : E0 - F0 = e0 - (y0 + y1 + v / 2 + g0 * (z - (y0 + y1 + v / 2))) +
        ((g0 : ℝ) - G0) * (z - (Y0 + Y1 + v / 2)) := by rw [hE0, hF0]; ring
    rw [e]
    exact (abs_add_le _ _).trans (by linarith)
  have q1 : |E1 - F1| ≤ (4 + 1 / 16) * (136 * M / 2 ^ 23) := by
    have e : E1 - F1 = e1 - (y1 + v + g1 * (z - (y0 + y1 + v / 2))) +
        ((g1 : ℝ) - G1) * (z - (Y0 + Y1 + v / 2)) := by rw [hE1, hF1]; ring
    rw [e]
    exact (abs_add_le _ _).trans (by linarith)
  have m := mul_le_mul_of_nonneg_left hy hρ
  linarith

/-- The clock never overflows. -/
theorem tick {t : D} (h0 : 0 ≤ t.val) (h1 : t.val ≤ 2 ^ 24) : ∃ s, CNum.add t (CNum.one : D) = .ok s ∧ 0 ≤ s.val ∧ s.val ≤ 2 ^ 24 := by
  have e1 : (CNum.one : D).val = 1 := rfl
  have hm : (2 : ℚ) ^ 25 ≤ binary32.max := by
    unfold Format.max binary32
    have h2 : (2 : ℚ) ^ (2 : ℤ) ≤ 2 ^ (104 : ℤ) := zpow_le_zpow_right₀ (by norm_num) (by norm_num)
    have h1 : (2 : ℚ) ^ 25 ≤ (2 ^ 24 - 1) * 2 ^ (2 : ℤ) := by norm_num
    exact h1.trans (mul_le_mul_of_nonneg_left h2 (by norm_num))
  obtain ⟨s, hs, hv⟩ := Flt.ofRat_ok (f := binary32) (x := t.val + (CNum.one : D).val) (by
    rw [e1, abs_of_nonneg (by linarith)]
    exact le_trans (by norm_num; linarith) hm)
  refine ⟨s, hs, ?_, ?_⟩
  · rw [hv, e1]
    have := rnd_mono binary32 (show (0 : ℚ) ≤ t.val + 1 by linarith)
    rwa [show rnd binary32 0 = 0 by decide +kernel] at this
  · rw [hv, e1]
    have := rnd_mono binary32 (show t.val + 1 ≤ (2 : ℚ) ^ 24 + 1 by linarith)
    rwa [show rnd binary32 (2 ^ 24 + 1) = 2 ^ 24 by decide +kernel] at this

theorem mulM11_vec {f : Format} {a b v s t : Flt f} (h : CNum.mul a v = .ok s) (h' : CNum.mul b v = .ok t) :
    (⟨#v[a, b]⟩ : Mat (Flt f) 2 1).mulM11 (⟨#v[v]⟩ : Mat (Flt f) 1 1) = .ok ⟨#v[s, t]⟩ := mulS_vec h h'

/-- One update in `double` in terms of single operations. -/
theorem update_float {half : D} {k : Kalman D .one .one}
    (hA : k.A = Mat.mk22 CNum.one CNum.one CNum.zero CNum.one) (hB : k.B = ⟨#v[half, CNum.one]⟩) (hH : k.H = hPos)
    {y0 y1 k0 k1 τ : D} {Pm P' : Mat D 2 2} (hx : k.xhat = ⟨#v[y0, y1]⟩)
    (hPm : Kalman.predictCov k.A k.P k.Q = .ok Pm) (hK : Kalman.gain .one Pm k.H k.R = .ok ⟨#v[k0, k1]⟩)
    (hP : Kalman.correctCov .one ⟨#v[k0, k1]⟩ k.H Pm = .ok P') (ht : CNum.add k.t k.dt = .ok τ)
    {v z s w c0 c1 i d0 d1 e0 e1 : D}
    (h : CNum.add y0 y1 = .ok s ∧ CNum.mul half v = .ok w ∧ CNum.add s w = .ok c0 ∧ CNum.add y1 v = .ok c1 ∧
        CNum.sub z c0 = .ok i ∧ CNum.mul k0 i = .ok d0 ∧ CNum.mul k1 i = .ok d1 ∧ CNum.add c0 d0 = .ok e0 ∧
        CNum.add c1 d1 = .ok e1) :
    k.update (⟨#v[v]⟩ : Mat D 1 1) (⟨#v[z]⟩ : Mat D 1 1) =
      .ok { k with K := some ⟨#v[k0, k1]⟩, P := P', xhat := ⟨#v[e0, e1]⟩, t := τ } := by
  obtain ⟨es, ew, ec0, ec1, ei, ed0, ed1, ee0, ee1⟩ := h
  unfold Kalman.update Kalman.predictState Kalman.control
  rw [ht, bind_ok, hA, hx, mulVec_trans es, bind_ok, hB]
  simp only
  rw [mulM11_vec ew (Flt.one_mul' v), bind_ok, add_vec ec0 ec1, bind_ok, ← hA, hPm, bind_ok, hK, bind_ok]
  unfold Kalman.correctState
  simp only
  rw [hH, dot_pos, bind_ok, sub11s_one ei, bind_ok, mulS_vec ed0 ed1, bind_ok, add_vec ee0 ee1, bind_ok, ← hH, hP, bind_ok]

/-! ### All updates -/

/-- What holds after `n` updates. -/
structure Track (half : D) (M : ℝ) (k₀ k : Kalman D .one .one) (l : Kalman ℝ .one .one) (n : ℕ) : Prop where
  at_ : At k₀ k n
  t : 0 ≤ k.t.val ∧ k.t.val ≤ 2 ^ 24
  good : Good exact l
  P : l.P.toMatrix = covSeq exact first n
  x : ∃ y0 y1 : D, ∃ Y0 Y1 : ℝ, k.xhat = ⟨#v[y0, y1]⟩ ∧ l.xhat.toMatrix = !![Y0; Y1] ∧
    size (r y0) (r y1) ≤ bound n * M ∧ size (r y0 - Y0) (r y1 - Y1) ≤ 5 / 2 ^ 16 * bound n * M

theorem Track.step {half : D} (hh : half.val = 1 / 2) {M : ℝ} (hM : Mid (136 * M)) {p A B H k₀ x}
    (hs : setup = .ok (p, A, B, H, k₀, x)) (hA : k₀.A = Mat.mk22 CNum.one CNum.one CNum.zero CNum.one)
    (hB : k₀.B = ⟨#v[half, CNum.one]⟩) (hH : k₀.H = hPos) (hdt : k₀.dt = CNum.one) {k l n} (h : Track half M k₀ k l n)
    {v z : D} (hv : |r v| ≤ M) (hz : |r z| ≤ M) : ∃ k' l', k.update (⟨#v[v]⟩ : Mat D 1 1) (⟨#v[z]⟩ : Mat D 1 1) = .ok k' ∧
      l.update (⟨#v[r v]⟩ : Mat ℝ 1 1) (⟨#v[r z]⟩ : Mat ℝ 1 1) = .ok l' ∧ Track half M k₀ k' l' (n + 1) := by
  have hM0 : 0 ≤ M := (abs_nonneg _).trans hv
  obtain ⟨Pm, K, P', a1, a2, a3, a4, a5⟩ := h.at_.next hs
  obtain ⟨g0, g1, rfl, f0, f1⟩ := gain_val a4
  obtain ⟨y0, y1, Y0, Y1, ey, eY, hy, hd⟩ := h.x
  obtain ⟨hc, b0, b1⟩ := fine n
  have near := near_all n
  obtain ⟨hb0, hb⟩ := bound_real n
  have rg0 : r g0 = (inUnits (st n).2.2.2.2.1 : ℝ) := by rw [r, f0]
  have rg1 : r g1 = (inUnits (st n).2.2.2.2.2 : ℝ) := by rw [r, f1]
  have c0 : 0 ≤ r g0 ∧ r g0 ≤ 19 / 100 := by
    have := (Rat.cast_le (K := ℝ)).2 b0.2; push_cast at this; rw [rg0]; exact ⟨by exact_mod_cast b0.1, this⟩
  have c1 : 0 ≤ r g1 ∧ r g1 ≤ 1 / 50 := by
    have := (Rat.cast_le (K := ℝ)).2 b1.2; push_cast at this; rw [rg1]; exact ⟨by exact_mod_cast b1.1, this⟩
  have hbM : (bound n : ℝ) * M ≤ 93 * M := mul_le_mul_of_nonneg_right hb hM0
  have hy0 : |r y0| ≤ 1143 / 10 * M := (pos_le _ (r y1)).trans (by linarith)
  have hy1 : |r y1| ≤ 179 / 10 * M := (vel_le (r y0) _).trans (by linarith)
  have hd' : size (r y0 - Y0) (r y1 - Y1) ≤ M / 100 := hd.trans (by nlinarith)
  have hd0 : |r y0 - Y0| ≤ M / 50 := (pos_le _ (r y1 - Y1)).trans (by linarith)
  have hd1 : |r y1 - Y1| ≤ M / 50 := (vel_le (r y0 - Y0) _).trans (by linarith)
  have rh : r half = 1 / 2 := by rw [r, hh]; norm_num
  obtain ⟨s, w, u0, u1, i, q0, q1, e0, e1, ops, w0, w1⟩ := update_ops hM (hy0.trans (by linarith)) (hy1.trans (by linarith))
    hv hz rh c0 c1
  obtain ⟨τ, ht, τ0, τ1⟩ := tick h.t.1 h.t.2
  have up := update_float (h.at_.A.trans hA) (h.at_.B.trans hB) (h.at_.H.trans hH) ey a1 a2 a3
    (by rw [h.at_.dt, hdt]; exact ht) ops
  obtain ⟨l', G0, G1, ul, hg, hP, eG0, eG1, ex⟩ := update_real h.good h.P eY (r v) (r z)
  refine ⟨_, l', up, ul, ⟨h.at_.A, h.at_.B, h.at_.H, h.at_.Q, h.at_.R, h.at_.dt, a5⟩, ⟨τ0, τ1⟩, hg, hP, e0, e1, _, _, rfl, ex, ?_, ?_⟩
  · rw [bound_succ]
    rw [rg0] at w0
    rw [rg1] at w1
    exact size_step hc b0 b1 hy hv hz (by
      rw [div_le_div_iff₀ (by norm_num) (by norm_num)]
      nlinarith) w0 w1
  · rw [bound_succ]
    rw [rg0] at w0
    rw [rg1] at w1
    refine (error_step (G0 := G0) (G1 := G1) hc hd ?_ (by rw [eG0]; exact near.g0.trans (by norm_num)) (by rw [eG1]; exact near.g1) w0 w1).trans ?_
    · rw [abs_le] at *
      constructor <;> linarith
    · have : (33 * (136 * M / 2 ^ 23) : ℝ) ≤ 5 / 2 ^ 16 * (71 / 10) * M := by linarith
      linarith

theorem Track.run {half : D} (hh : half.val = 1 / 2) {M : ℝ} (hM : Mid (136 * M)) {p A B H k₀ x}
    (hs : setup = .ok (p, A, B, H, k₀, x)) (hA : k₀.A = Mat.mk22 CNum.one CNum.one CNum.zero CNum.one)
    (hB : k₀.B = ⟨#v[half, CNum.one]⟩) (hH : k₀.H = hPos) (hdt : k₀.dt = CNum.one) (ds : List (D × D)) :
    ∀ {k l n}, Track half M k₀ k l n → (∀ d ∈ ds, |r d.1| ≤ M ∧ |r d.2| ≤ M) →
      ∃ k' l', k.run (ds.map fun d => ((⟨#v[d.1]⟩ : Mat D 1 1), (⟨#v[d.2]⟩ : Mat D 1 1))) = .ok k' ∧
        l.run (ds.map fun d => ((⟨#v[r d.1]⟩ : Mat ℝ 1 1), (⟨#v[r d.2]⟩ : Mat ℝ 1 1))) = .ok l' ∧
        Track half M k₀ k' l' (n + ds.length) := by
  induction ds with
  | nil => exact fun h _ => ⟨_, _, rfl, rfl, h⟩
  | cons d ds ih =>
    intro k l n h hd
    obtain ⟨k', l', u1, u2, h'⟩ := h.step hh hM hs hA hB hH hdt (hd d (by simp)).1 (hd d (by simp)).2
    obtain ⟨k'', l'', r1, r2, h''⟩ := ih h' fun e he => hd e (List.mem_cons_of_mem _ he)
    refine ⟨k'', l'', ?_, ?_, ?_⟩
    · rw [List.map_cons, Kalman.run]
      exact (congrArg (· >>= _) u1).trans r1
    · rw [List.map_cons, Kalman.run]
      exact (congrArg (· >>= _) u2).trans r2
    · rw [List.length_cons, show n + (ds.length + 1) = n + 1 + ds.length by omega]
      exact h''

/-- Before the first update. -/
theorem Track.start {half : D} {M : ℝ} {avr avr' : Bool} {p A B H k₀ k l}
    (hs : setup = .ok (p, A, B, H, k₀, (⟨#v[CNum.zero, CNum.zero]⟩ : Mat D 2 1))) (hk : estim avr p = .ok k)
    (hl : estim avr' exact = .ok l) : Track half M k₀ k l 0 := by
  obtain ⟨l₀, hl₀, hg, hP, hx⟩ := estim_eq avr' exact
  cases hl₀.symm.trans hl
  have e : k.xhat = ⟨#v[CNum.zero, CNum.zero]⟩ ∧ k.t = CNum.zero := by
    unfold setup at hs
    obtain ⟨p', hp, hs⟩ := bind_eq_ok.1 hs
    obtain ⟨A', hA, hs⟩ := bind_eq_ok.1 hs
    obtain ⟨B', hB, hs⟩ := bind_eq_ok.1 hs
    obtain ⟨H', hH, hs⟩ := bind_eq_ok.1 hs
    obtain ⟨k', hk', hs⟩ := bind_eq_ok.1 hs
    obtain ⟨x', hx, hs⟩ := bind_eq_ok.1 hs
    injection hs with hs
    injection hs with h1 hs
    injection hs with h2 hs
    injection hs with h3 hs
    injection hs with h4 hs
    injection hs with h5 h6
    subst h1
    subst h6
    unfold estim at hk
    rw [hx, bind_ok, hA, bind_ok, hB, bind_ok, hH, bind_ok] at hk
    obtain ⟨Q, hQ, hk⟩ := bind_eq_ok.1 hk
    obtain ⟨R, hR, hk⟩ := bind_eq_ok.1 hk
    rw [hQ, bind_ok] at hk
    cases hk
    exact ⟨rfl, rfl⟩
  have z0 : (CNum.zero : D).val = 0 := rfl
  have rz : r (CNum.zero : D) = 0 := by rw [r, z0]; norm_num
  refine ⟨At.start hs hk, by rw [e.2, z0]; norm_num, hg, ?_, CNum.zero, CNum.zero, 0, 0, e.1, ?_, ?_, ?_⟩
  · rw [hP, mQ_mat, covSeq, KF.riccSeq, first, covMat]
    unfold exact
    ext i j
    fin_cases i <;> fin_cases j <;> simp <;> norm_num
  · rw [hx]
    ext i j
    fin_cases i <;> fin_cases j <;> rfl
  · rw [rz, size_zero, bound]; simp
  · rw [rz, sub_zero, size_zero, bound]; simp

/-- The parts of the program. -/
theorem parts : ∃ p A B H k₀ half, setup = .ok (p, A, B, H, k₀, (⟨#v[CNum.zero, CNum.zero]⟩ : Mat D 2 1)) ∧
    constants binary32 = .ok p ∧ half.val = 1 / 2 ∧ k₀.A = Mat.mk22 CNum.one CNum.one CNum.zero CNum.one ∧
    k₀.B = ⟨#v[half, CNum.one]⟩ ∧ k₀.H = hPos ∧ k₀.dt = CNum.one ∧ ∀ avr, ∃ k, estim avr p = .ok k := by
  obtain ⟨⟨p, A, B, H, k₀, x⟩, hs, h⟩ := Res.of_yields setup_ok
  obtain ⟨half, -, h⟩ := Res.of_yields h
  obtain ⟨h1, h2, -, -, -, h3, h4, h5, h6, h7, h8, h9, -⟩ := of_decide_eq_true h
  subst h9
  have hs' := hs
  unfold setup at hs'
  obtain ⟨p', hp, hs'⟩ := bind_eq_ok.1 hs'
  obtain ⟨A', hA, hs'⟩ := bind_eq_ok.1 hs'
  obtain ⟨B', hB, hs'⟩ := bind_eq_ok.1 hs'
  obtain ⟨H', hH, hs'⟩ := bind_eq_ok.1 hs'
  obtain ⟨k', hk', hs'⟩ := bind_eq_ok.1 hs'
  obtain ⟨x', hx, hs'⟩ := bind_eq_ok.1 hs'
  injection hs' with e
  injection e with e1 e
  injection e with e2 e
  injection e with e3 e
  injection e with e4 e
  injection e with e5 e6
  subst e1
  subst e5
  have hk := hk'
  unfold estim at hk
  rw [hx, bind_ok, hA, bind_ok, hB, bind_ok, hH, bind_ok] at hk
  obtain ⟨Q, hQ, hk⟩ := bind_eq_ok.1 hk
  obtain ⟨R, hR, hk⟩ := bind_eq_ok.1 hk
  rw [hQ, bind_ok] at hk
  refine ⟨p', A, B, H, k', half, hs, hp, h1, h6.trans h3, h7.trans h4, h8.trans h5, ?_, fun avr => ?_⟩
  · rw [← h2]
    cases hk
    rfl
  · unfold estim
    rw [hx, bind_ok, hA, bind_ok, hB, bind_ok, hH, bind_ok, hQ, bind_ok, hR, bind_ok, bind_ok]
    exact ⟨_, rfl⟩

/-- A run with data 1. -/
theorem ones (n : ℕ) : ∃ p k k', constants binary32 = .ok p ∧ estim false p = .ok k ∧
    k.run (List.replicate n ((⟨#v[CNum.one]⟩ : Mat D 1 1), (⟨#v[CNum.one]⟩ : Mat D 1 1))) = .ok k' := by
  obtain ⟨p, A, B, H, k₀, half, hs, hp, hh, hA, hB, hH, hdt, hk⟩ := parts
  obtain ⟨k, hk⟩ := hk false
  obtain ⟨l, hl, -⟩ := estim_eq false exact
  have hMid : Mid (136 * 1) := ⟨(one_div_le_one_div_of_le one_pos (one_le_pow₀ one_le_two)).trans (by norm_num),
    le_trans (by norm_num : (136 * 1 : ℝ) ≤ 2 ^ 8) (pow_le_pow_right₀ one_le_two (by norm_num))⟩
  have r1 : r (CNum.one : D) = 1 := by
    have : (CNum.one : D).val = 1 := rfl
    rw [r, this, Rat.cast_one]
  obtain ⟨k', l', h, -⟩ := (Track.start (half := half) (M := 1) hs hk hl).run hh hMid hs hA hB hH hdt
    (List.replicate n (CNum.one, CNum.one)) (fun d hd => by
      rw [List.eq_of_mem_replicate hd, r1, abs_one]
      exact ⟨le_rfl, le_rfl⟩)
  rw [List.map_replicate] at h
  exact ⟨p, k, k', hp, hk, h⟩

end TargetRun
end Verif
