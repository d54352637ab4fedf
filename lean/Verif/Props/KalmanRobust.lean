import Verif.Lemmas.KalmanRobust
import Verif.Lemmas.Ieee
import Verif.Props.KalmanStable

/-
C148: in arithmetic with rounding the estimator follows the exact one for ever.
-/

namespace Verif
open Kalman

variable {u : Dim}

/-- C148: let the process noise reach every state within two steps and let some fixed gain keep the error bounded.
For all bounds `D` of the data and all tolerances `δ` there is an accuracy `ω` of the arithmetic, of
the parameters and of the data from which on the covariance, the gain and the estimate of an estimator for one measurement
stay within `δ` of those of the exact estimator in runs of every length, and no step fails unless its clock does. -/
theorem C148_estimate (k0 : Kalman ℝ .one u) (hP : k0.P.toMatrix.PosSemidef) (hQ : k0.Q.toMatrix.PosSemidef)
    (hC : Steady.Reaches k0.A.toMatrix k0.Q.toMatrix) (hR : k0.R.toMatrix.PosDef)
    (hb : Steady.Bounded k0.A.toMatrix k0.H.toMatrix k0.Q.toMatrix k0.R.toMatrix) (D δ : ℝ) (hδ : 0 < δ) :
    ∃ ω : ℝ, 0 < ω ∧ ∀ ω', 0 < ω' → ω' ≤ ω → ∀ (T : Type) [CNum T] (val : T → ℝ) (k : Kalman T .one u), Accurate T val ω' →
      k.Near val ω' k0 → ∀ dd : List ((ColVec T u.val × ColVec T 1) × (ColVec ℝ u.val × ColVec ℝ 1)),
      (∀ d ∈ dd, NearData (m := .one) val ω' D d.1 d.2) →
      ∀ k', k.run (dd.map Prod.fst) = .ok k' →
        (∃ k0', k0.run (dd.map Prod.snd) = .ok k0' ∧
          k'.estimation_error_covariance.Near val δ k0'.estimation_error_covariance.toMatrix ∧
          k'.system_state.Near val δ k0'.system_state.toMatrix ∧
          (dd ≠ [] → ∃ g g0, k'.kalman_gain = .ok g ∧ k0'.kalman_gain = .ok g0 ∧ g.Near val δ g0.toMatrix)) ∧
        ∀ d d0 t, NearData (m := .one) val ω' D d d0 → CNum.add k'.t k'.dt = .ok t →
          ∃ k'', k'.update d.1 d.2 = .ok k'' := by
  obtain ⟨L, hL⟩ := settles hQ hC hR hb
  obtain ⟨ω, h0, h⟩ := robust k0 (hL k0.P hP) D hδ
  refine ⟨ω, h0, fun ω' h1 h2 T _ val k hacc hk dd hdd k' hr => ?_⟩
  obtain ⟨k0', e0, n1, n2, n3, n4⟩ := h ω' h1 h2 T val k hacc hk (.inl rfl) dd hdd k' hr
  refine ⟨⟨k0', e0, n1, n2, fun hne => ?_⟩, n4⟩
  obtain ⟨g, g0, e1, e2, n⟩ := n3 hne
  exact ⟨g, g0, by rw [kalman_gain, e1], by rw [kalman_gain, e2], n⟩

/-! ### Floating point -/

theorem Flt.accurate (f : Ieee.Format) {ω : ℝ} (h1 : 1 / 2 ^ f.p ≤ ω) (h2 : (2 : ℝ) ^ f.q / 2 ≤ ω)
    (h3 : 1 / ω ≤ (f.max : ℚ)) :
    Accurate (Flt f) (fun x => (x.val : ℝ)) ω := by
  have key (x : ℚ) (h : |(x : ℝ)| ≤ 1 / ω) : ∃ c, Flt.ofRat f x = .ok c ∧ |(c.val : ℝ) - x| ≤ ω * (|(x : ℝ)| + 1) := by
    have h' : |x| ≤ f.max := by exact_mod_cast h.trans h3
    obtain ⟨c, e, hc⟩ := Flt.ofRat_ok h'
    refine ⟨c, e, ?_⟩
    have h4 : |Ieee.rnd f x - x| ≤ 1 / 2 ^ f.p * |x| + 2 ^ f.q / 2 := by
      have h1 : (0 : ℚ) ≤ 1 / 2 ^ f.p * |x| := by positivity
      have h2 : (0 : ℚ) ≤ 2 ^ f.q / 2 := (div_pos (zpow_pos (by norm_num) _) (by norm_num)).le
      rcases Ieee.rnd_cases f x with ⟨-, h⟩ | h <;> linarith
    rw [← hc] at h4
    have h5 : ((|c.val - x| : ℚ) : ℝ) ≤ ((1 / 2 ^ f.p * |x| + 2 ^ f.q / 2 : ℚ) : ℝ) := by exact_mod_cast h4
    push_cast at h5
    refine h5.trans ?_
    rw [mul_add, mul_one]
    exact add_le_add (mul_le_mul_of_nonneg_right h1 (abs_nonneg _)) h2
  refine ⟨by simp [CNum.zero, Flt.zero], by simp [CNum.one, Flt.one], ?_, ?_, ?_, ?_, ?_, ?_⟩
  · intro a b h
    obtain ⟨c, h1, h2⟩ := key (a.val + b.val) (by push_cast; exact h)
    exact ⟨c, h1, by push_cast at h2; exact h2⟩
  · intro a b h
    obtain ⟨c, h1, h2⟩ := key (a.val - b.val) (by push_cast; exact h)
    exact ⟨c, h1, by push_cast at h2; exact h2⟩
  · intro a b h
    obtain ⟨c, h1, h2⟩ := key (a.val * b.val) (by push_cast; exact h)
    exact ⟨c, h1, by push_cast at h2; exact h2⟩
  · intro a b hb h
    have hb' : b.val ≠ 0 := by exact_mod_cast hb
    obtain ⟨c, h1, h2⟩ := key (a.val / b.val) (by push_cast; exact h)
    exact ⟨c, by simp only [CNum.div, if_neg hb']; exact h1, by push_cast at h2; exact h2⟩
  · intro a _
    refine ⟨a.neg, rfl, ?_⟩
    have h0 : 0 ≤ ω := le_trans (by positivity) h1
    simp only [Flt.neg, Rat.cast_neg, sub_self, abs_zero]
    positivity
  · intro a ha
    have : a.val ≠ 0 := by exact_mod_cast ha
    simp [CNum.isNonZero, this]

theorem Flt.accurate_bits {f : Ieee.Format} {n : ℕ} (hp : n ≤ f.p) (hq : f.q ≤ -n) (ht : n ≤ f.top) :
    Accurate (Flt f) (fun x => (x.val : ℝ)) (1 / 2 ^ n) := by
  refine Flt.accurate f (one_div_le_one_div_of_le (by positivity) (pow_le_pow_right₀ (by norm_num) hp)) ?_ ?_
  · have h1 : (2 : ℝ) ^ f.q ≤ 2 ^ (-(n : ℤ)) := zpow_le_zpow_right₀ (by norm_num) hq
    rw [zpow_neg, zpow_natCast, ← one_div] at h1
    have h2 : (0 : ℝ) < 2 ^ f.q := zpow_pos (by norm_num) _
    linarith
  · rw [one_div_one_div]
    unfold Ieee.Format.max
    push_cast
    have h1 : (2 : ℝ) ^ n ≤ 2 ^ f.top := by
      rw [← zpow_natCast]; exact zpow_le_zpow_right₀ (by norm_num) ht
    have h2 : (2 : ℝ) ≤ 2 ^ f.p := by
      calc (2 : ℝ) = 2 ^ 1 := by norm_num
        _ ≤ 2 ^ f.p := pow_le_pow_right₀ (by norm_num) (by have := f.two_le; omega)
    have h3 : (0 : ℝ) < 2 ^ f.top := zpow_pos (by norm_num) _
    nlinarith

/-- A clock that is advanced by less than half a unit in the last place of the largest number does not overflow: it
stops. -/
theorem clock_flt {f : Ieee.Format} (t dt : Flt f) (h : |dt.val| < 2 ^ f.top / 2) : ∃ t', CNum.add t dt = .ok t' := by
  have h1 := abs_add_le t.val dt.val
  have h2 := Ieee.rnd_finite f (t.val + dt.val) (by have := t.rep.2; linarith)
  exact ⟨_, dif_pos h2⟩

/-- C148: in every binary floating point format with enough digits and exponents, however long the run is, all steps
succeed (the clock stops, it does not overflow) and covariance, gain and estimate stay near those of the exact estimator. -/
theorem C148_float (k0 : Kalman ℝ .one u) (hP : k0.P.toMatrix.PosSemidef) (hQ : k0.Q.toMatrix.PosSemidef)
    (hC : Steady.Reaches k0.A.toMatrix k0.Q.toMatrix) (hR : k0.R.toMatrix.PosDef)
    (hb : Steady.Bounded k0.A.toMatrix k0.H.toMatrix k0.Q.toMatrix k0.R.toMatrix) (D δ : ℝ) (hδ : 0 < δ) :
    ∃ n : ℕ, ∀ f : Ieee.Format, n ≤ f.p → f.q ≤ -n → n ≤ f.top → ∀ k : Kalman (Flt f) .one u,
      k.Near (fun x => (x.val : ℝ)) (1 / 2 ^ n) k0 → |k.dt.val| < 2 ^ f.top / 2 →
      ∀ dd : List ((ColVec (Flt f) u.val × ColVec (Flt f) 1) × (ColVec ℝ u.val × ColVec ℝ 1)),
      (∀ d ∈ dd, NearData (m := .one) (fun x => (x.val : ℝ)) (1 / 2 ^ n) D d.1 d.2) →
      ∃ k' k0', k.run (dd.map Prod.fst) = .ok k' ∧ k0.run (dd.map Prod.snd) = .ok k0' ∧
        k'.estimation_error_covariance.Near (fun x => (x.val : ℝ)) δ k0'.estimation_error_covariance.toMatrix ∧
        k'.system_state.Near (fun x => (x.val : ℝ)) δ k0'.system_state.toMatrix ∧
        (dd ≠ [] → ∃ g g0, k'.kalman_gain = .ok g ∧ k0'.kalman_gain = .ok g0 ∧
          g.Near (fun x => (x.val : ℝ)) δ g0.toMatrix) := by
  obtain ⟨ω, h0, h⟩ := C148_estimate k0 hP hQ hC hR hb D δ hδ
  obtain ⟨n, hn⟩ := exists_pow_lt_of_lt_one h0 (show (1 / 2 : ℝ) < 1 by norm_num)
  have e : (1 / 2 : ℝ) ^ n = 1 / 2 ^ n := by rw [div_pow, one_pow]
  rw [e] at hn
  refine ⟨n, fun f hp hq ht k hk hdt dd hdd => ?_⟩
  have hacc := Flt.accurate_bits hp hq ht
  have hrun := h (1 / 2 ^ n) (by positivity) hn.le (Flt f) _ k hacc hk
  have all : ∃ k', k.run (dd.map Prod.fst) = .ok k' := by
    induction dd using List.reverseRecOn with
    | nil => exact ⟨k, rfl⟩
    | append_singleton dd d ih =>
      obtain ⟨k1, e1⟩ := ih fun d hd => hdd d (List.mem_append_left _ hd)
      obtain ⟨-, hp⟩ := hrun dd (fun d hd => hdd d (List.mem_append_left _ hd)) k1 e1
      have hdt' : k1.dt = k.dt := (run_same e1).dt
      obtain ⟨t, ht'⟩ := clock_flt k1.t k1.dt (by rw [hdt']; exact hdt)
      obtain ⟨k2, e2⟩ := hp d.1 d.2 t (hdd d (by simp)) ht'
      exact ⟨k2, by rw [List.map_append, run_append, e1, bind_ok]; exact run_cons.2 ⟨k2, e2, rfl⟩⟩
  obtain ⟨k', hr⟩ := all
  obtain ⟨⟨k0', e0, n1, n2, n3⟩, -⟩ := hrun dd hdd k' hr
  exact ⟨k', k0', hr, e0, n1, n2, n3⟩

/-- C148: covariance and gain stay near the exact ones whatever the data are, also for data the estimate cannot follow. -/
theorem C148_covariance (k0 : Kalman ℝ .one u) (hP : k0.P.toMatrix.PosSemidef) (hQ : k0.Q.toMatrix.PosSemidef)
    (hC : Steady.Reaches k0.A.toMatrix k0.Q.toMatrix) (hR : k0.R.toMatrix.PosDef)
    (hb : Steady.Bounded k0.A.toMatrix k0.H.toMatrix k0.Q.toMatrix k0.R.toMatrix) (δ : ℝ) (hδ : 0 < δ) :
    ∃ ω : ℝ, 0 < ω ∧ ∀ ω', 0 < ω' → ω' ≤ ω → ∀ (T : Type) [CNum T] (val : T → ℝ) (k : Kalman T .one u), Accurate T val ω' →
      k.A.Near val ω' k0.A.toMatrix → k.H.Near val ω' k0.H.toMatrix →
      k.Q.Near val ω' k0.Q.toMatrix → k.R.Near val ω' k0.R.toMatrix → k.P.Near val ω' k0.P.toMatrix →
      ∀ ds ds0, ds.length = ds0.length → ∀ k', k.run ds = .ok k' → ∃ k0', k0.run ds0 = .ok k0' ∧
        k'.estimation_error_covariance.Near val δ k0'.estimation_error_covariance.toMatrix ∧
        (ds ≠ [] → ∃ g g0, k'.kalman_gain = .ok g ∧ k0'.kalman_gain = .ok g0 ∧ g.Near val δ g0.toMatrix) := by
  have z (N M : ℕ) : ∀ i j, (Mat.ofEntries (fun (_ : Fin N) (_ : Fin M) => (0 : ℝ))).get i j = 0 := fun i j =>
    Mat.get_ofEntries _ i j
  obtain ⟨ω, h0, h⟩ := C148_estimate { k0 with xhat := .ofEntries fun _ _ => 0, B := .ofEntries fun _ _ => 0 }
    hP hQ hC hR hb 0 δ hδ
  refine ⟨ω, h0, fun ω' h1 h2 T _ val k hacc hA hH hQ' hR' hP' ds ds0 hl k' hr => ?_⟩
  have zz (N M : ℕ) : (Mat.ofEntries (fun (_ : Fin N) (_ : Fin M) => (CNum.zero : T))).Near val ω'
      (Mat.ofEntries (fun (_ : Fin N) (_ : Fin M) => (0 : ℝ))).toMatrix := by
    intro i j
    have e1 : (Mat.ofEntries (fun (_ : Fin N) (_ : Fin M) => (CNum.zero : T))).get i j = CNum.zero := Mat.get_ofEntries _ i j
    have e2 : (Mat.ofEntries (fun (_ : Fin N) (_ : Fin M) => (0 : ℝ))).toMatrix i j = 0 := Mat.get_ofEntries _ i j
    rw [e1, e2, hacc.zero, sub_self, abs_zero]
    exact h1.le
  obtain ⟨c, hc⟩ : ∃ c : Kalman T .one u, c = { k with xhat := .ofEntries fun _ _ => CNum.zero, B := .ofEntries fun _ _ => CNum.zero } :=
    ⟨_, rfl⟩
  obtain ⟨d, hd⟩ : ∃ d : (ColVec T u.val × ColVec T 1) × (ColVec ℝ u.val × ColVec ℝ 1),
      d = ((.ofEntries fun _ _ => CNum.zero, .ofEntries fun _ _ => CNum.zero), (.ofEntries fun _ _ => 0, .ofEntries fun _ _ => 0)) :=
    ⟨_, rfl⟩
  have hdn : NearData (m := .one) val ω' 0 d.1 d.2 := by
    subst hd
    exact ⟨zz _ _, zz _ _, fun i j => by rw [z, abs_zero], fun i j => by rw [z, abs_zero]⟩
  have hdd (n : ℕ) : ∀ e ∈ List.replicate n d, NearData (m := .one) val ω' 0 e.1 e.2 := fun e he => by
    rw [List.eq_of_mem_replicate he]; exact hdn
  have hrun := h ω' h1 h2 T val c hacc (by subst hc; exact ⟨hA, zz _ _, hH, hQ', hR', hP', zz _ _⟩)
  have data {ds k' c' n} (hn : ds.length = n) (hr : k.run ds = .ok k')
      (hs : c.run ((List.replicate n d).map Prod.fst) = .ok c') :
      k'.kalman_gain = c'.kalman_gain ∧ k'.estimation_error_covariance = c'.estimation_error_covariance ∧ k'.time = c'.time := by
    refine C13_data_independent (m := .one) k c k' c' ds ((List.replicate n d).map Prod.fst) ?_ ?_ ?_ ?_ ?_ ?_ ?_ ?_
      (by simp [hn]) hr hs <;> rw [hc]
  have all : ∃ c', c.run ((List.replicate ds.length d).map Prod.fst) = .ok c' := by
    clear hl
    induction ds using List.reverseRecOn generalizing k' with
    | nil => exact ⟨c, rfl⟩
    | append_singleton ds e ih =>
      rw [run_append] at hr
      obtain ⟨k1, e1, e2⟩ := bind_eq_ok.1 hr
      obtain ⟨c1, hc1⟩ := ih k1 e1
      obtain ⟨-, hp⟩ := hrun (List.replicate ds.length d) (hdd _) c1 hc1
      obtain ⟨k2, e3, -⟩ := run_cons.1 e2
      obtain ⟨t, -, -, -, -, -, ht, -⟩ := update_inv e3
      have e5 : c1.dt = k1.dt := by rw [(run_same hc1).dt, (run_same e1).dt, hc]
      have e6 : c1.t = k1.t := (data rfl e1 hc1).2.2.symm
      obtain ⟨c2, e4⟩ := hp d.1 d.2 t hdn (by rw [e5, e6]; exact ht)
      refine ⟨c2, ?_⟩
      rw [List.length_append, List.length_singleton, List.replicate_succ', List.map_append, run_append, hc1, bind_ok]
      exact run_cons.2 ⟨c2, e4, rfl⟩
  obtain ⟨c', hc'⟩ := all
  obtain ⟨⟨c0', e0, n1, -, n2⟩, -⟩ := hrun _ (hdd _) c' hc'
  obtain ⟨k0', e0', -⟩ := run_ricc k0 ds0 hP hQ hR
  obtain ⟨g1, g2, -⟩ := data rfl hr hc'
  obtain ⟨g3, g4, -⟩ := C13_data_independent (m := .one) k0
    { k0 with xhat := .ofEntries fun _ _ => 0, B := .ofEntries fun _ _ => 0 } k0' c0' ds0
    ((List.replicate ds.length d).map Prod.snd) rfl rfl rfl rfl rfl rfl rfl rfl (by simp [hl]) e0' e0
  refine ⟨k0', e0', ?_, fun hne => ?_⟩
  · rw [g2, g4]; exact n1
  · rw [g1, g3]
    exact n2 fun h => hne (by
      have := congrArg List.length h
      rw [List.length_replicate] at this
      exact List.length_eq_zero_iff.1 this)

/-- The hypotheses hold for a system with two integrators; the reals themselves are accurate. -/
example : ∃ k0 : Kalman ℝ .one .one, k0.P.toMatrix.PosSemidef ∧ k0.Q.toMatrix.PosSemidef ∧
    Steady.Reaches k0.A.toMatrix k0.Q.toMatrix ∧ k0.R.toMatrix.PosDef ∧
    Steady.Bounded k0.A.toMatrix k0.H.toMatrix k0.Q.toMatrix k0.R.toMatrix :=
  ⟨exK, exK_psd.1, exK_psd.2.1, 
    exK_steady.1.add_posSemidef (exK_psd.2.1.mul_mul_conjTranspose_same _), exK_psd.2.2,
    C96_bounded_of_observable _ _ _ _ exK_psd.2.1 exK_psd.2.2.posSemidef exK_steady.2.2⟩

set_option exponentiation.threshold 1000 in
/-- C148: `float` has accuracy 2^-24, `double` 2^-53. -/
theorem C148_formats : Accurate (Flt Ieee.binary32) (fun x => (x.val : ℝ)) (1 / 2 ^ 24) ∧
    Accurate (Flt Ieee.binary64) (fun x => (x.val : ℝ)) (1 / 2 ^ 53) := by
  constructor
  · refine Flt.accurate _ le_rfl ?_ ?_
    · show (2 : ℝ) ^ (-149 : ℤ) / 2 ≤ _
      norm_num
    · show _ ≤ (((2 ^ 24 - 1) * 2 ^ (104 : ℤ) : ℚ) : ℝ)
      norm_num
  · refine Flt.accurate _ le_rfl ?_ ?_
    · have h : (2 : ℝ) ^ (-1074 : ℤ) ≤ 2 ^ (-53 : ℤ) := zpow_le_zpow_right₀ (by norm_num) (by norm_num)
      show (2 : ℝ) ^ (-1074 : ℤ) / 2 ≤ _
      norm_num1 at h ⊢
      linarith
    · have h : (2 : ℝ) ^ (53 : ℤ) ≤ 2 ^ (971 : ℤ) := zpow_le_zpow_right₀ (by norm_num) (by norm_num)
      show _ ≤ (((2 ^ 53 - 1) * 2 ^ (971 : ℤ) : ℚ) : ℝ)
      push_cast
      generalize (2 : ℝ) ^ (971 : ℤ) = x at h ⊢
      rw [one_div_one_div]
      norm_num1 at h ⊢

end Verif
