import Mathlib.Logic.Function.Iterate
import Mathlib.Tactic.NormNum
import Mathlib.Tactic.Positivity
import Verif.Lemmas.RoundStep
import Verif.Lemmas.KalmanStable
import Verif.Lemmas.KalmanUnits
import Verif.Spec.KalmanStable

/- Estimators in arithmetic of sufficient accuracy: the deviation from the exact estimator does not grow. -/

namespace Verif
open Matrix Filter Topology

/-! ### Norms -/

namespace KF

/-- The sum of the moduli of the entries. -/
def nrm {a b : Type} [Fintype a] [Fintype b] (M : Matrix a b ℝ) : ℝ := ∑ i, ∑ j, |M i j|

section
variable {a b c : Type} [Fintype a] [Fintype b] [Fintype c]

theorem nrm_nonneg (M : Matrix a b ℝ) : 0 ≤ nrm M := Finset.sum_nonneg fun _ _ => Finset.sum_nonneg fun _ _ => abs_nonneg _

theorem entry_le (M : Matrix a b ℝ) (i : a) (j : b) : |M i j| ≤ nrm M :=
  (Finset.single_le_sum (f := fun j => |M i j|) (fun _ _ => abs_nonneg _) (Finset.mem_univ j)).trans
    (Finset.single_le_sum (f := fun i => ∑ j, |M i j|) (fun _ _ => Finset.sum_nonneg fun _ _ => abs_nonneg _) (Finset.mem_univ i))

theorem nrm_add (M N : Matrix a b ℝ) : nrm (M + N) ≤ nrm M + nrm N := by
  unfold nrm
  rw [← Finset.sum_add_distrib]
  refine Finset.sum_le_sum fun i _ => ?_
  rw [← Finset.sum_add_distrib]
  exact Finset.sum_le_sum fun j _ => abs_add_le _ _

theorem nrm_mul (M : Matrix a b ℝ) (N : Matrix b c ℝ) : nrm (M * N) ≤ nrm M * nrm N := by
  have h (i : a) : ∑ j, |(M * N) i j| ≤ (∑ k, |M i k|) * nrm N := by
    calc ∑ j, |(M * N) i j| ≤ ∑ j, ∑ k, |M i k| * |N k j| := by
          refine Finset.sum_le_sum fun j _ => ?_
          rw [Matrix.mul_apply]
          exact (Finset.abs_sum_le_sum_abs _ _).trans (le_of_eq (Finset.sum_congr rfl fun k _ => abs_mul _ _))
      _ = ∑ k, |M i k| * ∑ j, |N k j| := by
          rw [Finset.sum_comm]
          exact Finset.sum_congr rfl fun k _ => (Finset.mul_sum _ _ _).symm
      _ ≤ ∑ k, |M i k| * nrm N := by
          refine Finset.sum_le_sum fun k _ => mul_le_mul_of_nonneg_left ?_ (abs_nonneg _)
          exact Finset.single_le_sum (f := fun k => ∑ j, |N k j|) (fun _ _ => Finset.sum_nonneg fun _ _ => abs_nonneg _)
            (Finset.mem_univ k)
      _ = _ := (Finset.sum_mul _ _ _).symm
  calc nrm (M * N) ≤ ∑ i, (∑ k, |M i k|) * nrm N := Finset.sum_le_sum fun i _ => h i
    _ = _ := (Finset.sum_mul _ _ _).symm

theorem nrm_le {M : Matrix a b ℝ} {e : ℝ} (h : ∀ i j, |M i j| ≤ e) : nrm M ≤ Fintype.card a * (Fintype.card b * e) := by
  unfold nrm
  refine (Finset.sum_le_card_nsmul _ _ _ fun i _ => Finset.sum_le_card_nsmul _ _ _ fun j _ => h i j).trans (le_of_eq ?_)
  simp

theorem nrm_transpose (M : Matrix a b ℝ) : nrm Mᵀ = nrm M := by
  unfold nrm
  rw [Finset.sum_comm]
  rfl

theorem nrm_tendsto {ι : Type} {l : Filter ι} {f : ι → Matrix a b ℝ} (h : ∀ i j, Tendsto (fun k => f k i j) l (𝓝 0)) :
    Tendsto (fun k => nrm (f k)) l (𝓝 0) := by
  unfold nrm
  have := tendsto_finsetSum (Finset.univ (α := a)) fun i _ => tendsto_finsetSum (Finset.univ (α := b)) fun j _ => (h i j).abs
  simpa using this
end

/-- A norm in which an additive map with a small iterate shrinks everything. -/
theorem adapted {V : Type} [AddCommGroup V] (n : V → ℝ) (h0 : ∀ v, 0 ≤ n v) (hadd : ∀ v w, n (v + w) ≤ n v + n w) (F : V → V)
    (hF : ∀ v w, F (v + w) = F v + F w) {b : ℝ} (hb : ∀ v, n (F v) ≤ b * n v) {N : ℕ} (hN0 : 0 < N)
    (hN : ∀ v, n (F^[N] v) ≤ 1 / 2 * n v) :
    ∃ (p : V → ℝ) (C c : ℝ), 1 ≤ C ∧ 0 ≤ c ∧ c < 1 ∧ (∀ v, n v ≤ p v) ∧ (∀ v, p v ≤ C * n v) ∧
      (∀ v w, p (v + w) ≤ p v + p w) ∧ ∀ v, p (F v) ≤ c * p v := by
  obtain ⟨b, hb1, hb⟩ : ∃ b : ℝ, 1 ≤ b ∧ ∀ v, n (F v) ≤ b * n v :=
    ⟨max 1 b, le_max_left _ _, fun v => (hb v).trans (mul_le_mul_of_nonneg_right (le_max_right _ _) (h0 v))⟩
  have hit (k : ℕ) (v : V) : n (F^[k] v) ≤ b ^ k * n v := by
    induction k with
    | zero => simp
    | succ k ih =>
      rw [Function.iterate_succ_apply']
      refine (hb _).trans ?_
      rw [pow_succ', mul_assoc]
      exact mul_le_mul_of_nonneg_left ih (by linarith)
  have hita (k : ℕ) (v w : V) : F^[k] (v + w) = F^[k] v + F^[k] w := by
    induction k with
    | zero => rfl
    | succ k ih => rw [Function.iterate_succ_apply', Function.iterate_succ_apply', Function.iterate_succ_apply', ih, hF]
  have hC : 1 ≤ ∑ k ∈ Finset.range N, b ^ k := by
    have := Finset.single_le_sum (f := fun k => b ^ k) (fun k _ => by positivity) (Finset.mem_range.2 hN0)
    simpa using this
  have hp (v : V) : ∑ k ∈ Finset.range N, n (F^[k] v) ≤ (∑ k ∈ Finset.range N, b ^ k) * n v := by
    rw [Finset.sum_mul]
    exact Finset.sum_le_sum fun k _ => hit k v
  generalize hCe : ∑ k ∈ Finset.range N, b ^ k = C at hC hp
  have hc : 1 / (2 * C) ≤ 1 / 2 := one_div_le_one_div_of_le (by norm_num) (by linarith)
  have hc' : 0 < 1 / (2 * C) := by positivity
  refine ⟨fun v => ∑ k ∈ Finset.range N, n (F^[k] v), C, 1 - 1 / (2 * C), hC, by linarith, by linarith, fun v => ?_, hp,
    fun v w => ?_, fun v => ?_⟩
  · exact Finset.single_le_sum (f := fun k => n (F^[k] v)) (fun k _ => h0 _) (Finset.mem_range.2 hN0)
  · rw [← Finset.sum_add_distrib]
    refine Finset.sum_le_sum fun k _ => ?_
    rw [hita]
    exact hadd _ _
  · have e : ∑ k ∈ Finset.range N, n (F^[k] (F v)) = ∑ k ∈ Finset.range N, n (F^[k] v) - n v + n (F^[N] v) := by
      have h1 := Finset.sum_range_succ (fun k => n (F^[k] v)) N
      have h2 := Finset.sum_range_succ' (fun k => n (F^[k] v)) N
      simp only [Function.iterate_succ_apply, Function.iterate_zero_apply] at h2
      linarith
    have h1 := hN v
    have h2 := hp v
    have h3 : 1 / (2 * C) * ∑ k ∈ Finset.range N, n (F^[k] v) ≤ 1 / 2 * n v := by
      calc 1 / (2 * C) * ∑ k ∈ Finset.range N, n (F^[k] v) ≤ 1 / (2 * C) * (C * n v) :=
            mul_le_mul_of_nonneg_left h2 hc'.le
        _ = _ := by field_simp
    show ∑ k ∈ Finset.range N, n (F^[k] (F v)) ≤ _
    rw [e]
    linarith [sub_mul 1 (1 / (2 * C)) (∑ k ∈ Finset.range N, n (F^[k] v))]

/-- What holds near a matrix holds in a box around it. -/
theorem box_of_nhds {L : Matrix (Fin 2) (Fin 2) ℝ} {φ : Matrix (Fin 2) (Fin 2) ℝ → Prop} (h : ∀ᶠ P in 𝓝 L, φ P) :
    ∃ r : ℝ, 0 < r ∧ ∀ P : Matrix (Fin 2) (Fin 2) ℝ, (∀ i j, |P i j - L i j| ≤ r) → φ P := by
  obtain ⟨r, hr, h⟩ := Metric.eventually_nhds_iff (α := Fin 2 → Fin 2 → ℝ).1 h
  refine ⟨r / 2, by linarith, fun P hP => h ?_⟩
  refine lt_of_le_of_lt ((dist_pi_le_iff (by linarith)).2 fun i => (dist_pi_le_iff (by linarith)).2 fun j => ?_) (half_lt_self hr)
  exact hP i j

section
variable {μ : Type} [Fintype μ] [DecidableEq μ] {A Q P L : Matrix (Fin 2) (Fin 2) ℝ} {H : Matrix μ (Fin 2) ℝ} {R : Matrix μ μ ℝ}

theorem innov_ne {H : Matrix (Fin 1) (Fin 2) ℝ} {R : Matrix (Fin 1) (Fin 1) ℝ} (hL : L.PosSemidef) (hQ : Q.PosSemidef)
    (hR : R.PosDef) : innov (pred A Q L) H R 0 0 ≠ 0 := by
  have := isUnit_iff_ne_zero.1 (innov_unit (A := A) (H := H) hL hQ hR)
  rwa [Matrix.det_fin_one] at this

/-- Norms in which the recursions shrink near the steady covariance. -/
theorem contract (s : Settles A H Q R P L) :
    ∃ (p : Matrix (Fin 2) (Fin 2) ℝ → ℝ) (q : Matrix (Fin 2) (Fin 1) ℝ → ℝ) (C c : ℝ), 1 ≤ C ∧ 0 ≤ c ∧ c < 1 ∧
      (∀ v, nrm v ≤ p v) ∧ (∀ v, p v ≤ C * nrm v) ∧ (∀ v w, p (v + w) ≤ p v + p w) ∧
      (∀ v, nrm v ≤ q v) ∧ (∀ v, q v ≤ C * nrm v) ∧ (∀ v w, q (v + w) ≤ q v + q w) ∧
      ∀ δ : ℝ, 0 < δ → ∃ r, 0 < r ∧ r ≤ δ ∧ ∀ P : Matrix (Fin 2) (Fin 2) ℝ, (∀ i j, |P i j - L i j| ≤ r) →
        (innov (pred A Q P) H R).det ≠ 0 ∧ p (ricc A H Q R P - L) ≤ c * p (P - L) ∧
        (∀ e, q (closed A H Q R P * e) ≤ c * q e) ∧
        nrm (gain (pred A Q P) H R - gain (pred A Q L) H R) ≤ δ := by
  have hz := pow_tendsto (lyap_posDef s.hL) s.hW (lyap_eq s.hL.posSemidef s.hQ s.hR s.hfix)
  have h0 := isUnit_iff_ne_zero.1 (innov_unit (A := A) (H := H) s.hL.posSemidef s.hQ s.hR)
  generalize hX : closed A H Q R L = X at hz
  have hn := nrm_tendsto hz
  obtain ⟨N, hN0, hN⟩ : ∃ N : ℕ, 0 < N ∧ nrm (X ^ N) ≤ 1 / 2 := by
    obtain ⟨N, h1, h2⟩ := ((hn.eventually_le_const (u := 1 / 2) (by norm_num)).and (eventually_gt_atTop 0)).exists
    exact ⟨N, h2, h1⟩
  have itp (k : ℕ) (D : Matrix (Fin 2) (Fin 2) ℝ) : (fun D => X * D * Xᵀ)^[k] D = X ^ k * D * (X ^ k)ᵀ := by
    induction k with
    | zero => simp
    | succ k ih =>
      rw [Function.iterate_succ_apply', ih, pow_succ', Matrix.transpose_mul]
      simp only [Matrix.mul_assoc]
  have itq (k : ℕ) (D : Matrix (Fin 2) (Fin 1) ℝ) : (fun D => X * D)^[k] D = X ^ k * D := by
    induction k with
    | zero => simp
    | succ k ih => rw [Function.iterate_succ_apply', ih, pow_succ', Matrix.mul_assoc]
  obtain ⟨p, C1, c1, hC1, hc10, hc11, p1, p2, p3, p4⟩ := adapted (nrm (a := Fin 2) (b := Fin 2)) nrm_nonneg nrm_add
    (fun D => X * D * Xᵀ) (fun v w => by simp only [Matrix.mul_add, Matrix.add_mul]) (b := nrm X * nrm Xᵀ)
    (fun v => (nrm_mul _ _).trans (by
      have := mul_le_mul_of_nonneg_right (nrm_mul X v) (nrm_nonneg Xᵀ)
      linarith [this, mul_right_comm (nrm X) (nrm v) (nrm Xᵀ)])) hN0
    (fun v => by
      rw [itp]
      refine (nrm_mul _ _).trans ?_
      rw [nrm_transpose]
      have h1 := nrm_mul (X ^ N) v
      have h2 := nrm_nonneg v
      have h3 := nrm_nonneg (X ^ N)
      nlinarith [mul_nonneg h3 h2, mul_le_mul_of_nonneg_right h1 h3])
  obtain ⟨q, C2, c2, hC2, hc20, hc21, q1, q2, q3, q4⟩ := adapted (nrm (a := Fin 2) (b := Fin 1)) nrm_nonneg nrm_add
    (fun D => X * D) (fun v w => Matrix.mul_add _ _ _) (b := nrm X) (fun v => nrm_mul _ _) hN0
    (fun v => by
      rw [itq]
      exact (nrm_mul _ _).trans (mul_le_mul_of_nonneg_right hN (nrm_nonneg v)))
  have c1' : max c1 c2 < 1 := max_lt hc11 hc21
  have hC : 0 < max C1 C2 := lt_of_lt_of_le zero_lt_one (hC1.trans (le_max_left _ _))
  refine ⟨p, q, max C1 C2, (1 + max c1 c2) / 2, hC1.trans (le_max_left _ _), by linarith [le_max_left c1 c2], by linarith,
    p1, fun v => (p2 v).trans (mul_le_mul_of_nonneg_right (le_max_left _ _) (nrm_nonneg v)), p3,
    q1, fun v => (q2 v).trans (mul_le_mul_of_nonneg_right (le_max_right _ _) (nrm_nonneg v)), q3, fun δ hδ => ?_⟩
  -- the dynamics change little near the steady covariance
  have hid : Tendsto (fun P : Matrix (Fin 2) (Fin 2) ℝ => P) (𝓝 L) (𝓝 L) := tendsto_id
  have sub0 {a b : Type} [Fintype a] [Fintype b] {f : Matrix (Fin 2) (Fin 2) ℝ → Matrix a b ℝ} (h : Tendsto f (𝓝 L) (𝓝 (f L))) :
      Tendsto (fun P => nrm (f P - f L)) (𝓝 L) (𝓝 0) := by
    refine nrm_tendsto fun i j => ?_
    have := (tendsto_entries.1 h i j).sub_const (f L i j)
    rwa [sub_self] at this
  have e1 := (sub0 (closed_tendsto (A := A) hid h0)).eventually_le_const
    (u := (1 - max c1 c2) / (2 * max C1 C2 * (nrm X + 1)))
    (div_pos (by linarith) (mul_pos (by linarith) (by linarith [nrm_nonneg X])))
  have e2 := (sub0 (gain_tendsto (A := A) hid h0)).eventually_le_const hδ
  have e3 := (det_tendsto (A := A) (H := H) (Q := Q) (R := R) hid).eventually_ne h0
  obtain ⟨r, hr, hbox⟩ := box_of_nhds (e1.and (e2.and e3))
  refine ⟨min r δ, lt_min hr hδ, min_le_right _ _, fun P hP => ?_⟩
  obtain ⟨b1, b2, b3⟩ := hbox P fun i j => (hP i j).trans (min_le_left _ _)
  rw [hX] at b1
  have hE : max C1 C2 * (nrm (closed A H Q R P - X) * (nrm X + 1)) ≤ (1 - max c1 c2) / 2 := by
    rw [le_div_iff₀ (mul_pos (by linarith) (by linarith [nrm_nonneg X]))] at b1
    linarith
  have hx0 := nrm_nonneg X
  have hE0 := nrm_nonneg (closed A H Q R P - X)
  refine ⟨b3, ?_, fun e => ?_, b2⟩
  · have hs : IsUnit (innov (pred A Q P) H R).det := isUnit_iff_ne_zero.2 b3
    have e := ricc_sub (A := A) (H := H) (P := P) (symm_of_psd s.hL.posSemidef) (symm_of_psd s.hQ)
      (symm_of_psd s.hR.posSemidef) hs (innov_unit s.hL.posSemidef s.hQ s.hR)
    rw [s.hfix, hX] at e
    have e' : ricc A H Q R P - L = X * (P - L) * Xᵀ + (closed A H Q R P - X) * (P - L) * Xᵀ := by
      rw [e, Matrix.sub_mul (closed A H Q R P), Matrix.sub_mul]; abel
    rw [e']
    refine (p3 _ _).trans ?_
    have h1 := p4 (P - L)
    have h2 : p ((closed A H Q R P - X) * (P - L) * Xᵀ) ≤ (1 - max c1 c2) / 2 * p (P - L) := by
      refine (p2 _).trans ?_
      have h3 : nrm ((closed A H Q R P - X) * (P - L) * Xᵀ) ≤
          nrm (closed A H Q R P - X) * (nrm X + 1) * nrm (P - L) := by
        refine (nrm_mul _ _).trans ?_
        rw [nrm_transpose]
        refine (mul_le_mul_of_nonneg_right (nrm_mul _ _) hx0).trans ?_
        nlinarith [mul_nonneg hE0 (nrm_nonneg (P - L))]
      calc C1 * nrm ((closed A H Q R P - X) * (P - L) * Xᵀ)
          ≤ max C1 C2 * (nrm (closed A H Q R P - X) * (nrm X + 1) * nrm (P - L)) :=
            mul_le_mul (le_max_left _ _) h3 (nrm_nonneg _) hC.le
        _ = max C1 C2 * (nrm (closed A H Q R P - X) * (nrm X + 1)) * nrm (P - L) := by ring
        _ ≤ (1 - max c1 c2) / 2 * nrm (P - L) := mul_le_mul_of_nonneg_right hE (nrm_nonneg _)
        _ ≤ _ := mul_le_mul_of_nonneg_left (p1 _) (by linarith)
    have h4 : c1 * p (P - L) ≤ max c1 c2 * p (P - L) :=
      mul_le_mul_of_nonneg_right (le_max_left _ _) ((nrm_nonneg _).trans (p1 _))
    have h1 : p (X * (P - L) * Xᵀ) ≤ c1 * p (P - L) := h1
    linarith
  · have e' : closed A H Q R P * e = X * e + (closed A H Q R P - X) * e := by
      rw [Matrix.sub_mul]; abel
    rw [e']
    refine (q3 _ _).trans ?_
    have h1 : q (X * e) ≤ c2 * q e := q4 e
    have h2 : q ((closed A H Q R P - X) * e) ≤ (1 - max c1 c2) / 2 * q e := by
      refine (q2 _).trans ?_
      have h3 : nrm ((closed A H Q R P - X) * e) ≤ nrm (closed A H Q R P - X) * (nrm X + 1) * nrm e := by
        refine (nrm_mul _ _).trans ?_
        nlinarith [mul_nonneg (mul_nonneg hE0 (nrm_nonneg e)) hx0]
      calc C2 * nrm ((closed A H Q R P - X) * e)
          ≤ max C1 C2 * (nrm (closed A H Q R P - X) * (nrm X + 1) * nrm e) :=
            mul_le_mul (le_max_right _ _) h3 (nrm_nonneg _) hC.le
        _ = max C1 C2 * (nrm (closed A H Q R P - X) * (nrm X + 1)) * nrm e := by ring
        _ ≤ (1 - max c1 c2) / 2 * nrm e := mul_le_mul_of_nonneg_right hE (nrm_nonneg _)
        _ ≤ _ := mul_le_mul_of_nonneg_left (q1 _) (by linarith)
    have h4 : c2 * q e ≤ max c1 c2 * q e := mul_le_mul_of_nonneg_right (le_max_right _ _) ((nrm_nonneg _).trans (q1 _))
    linarith

end
end KF

/-! ### Runs -/

theorem Accurate.mono {T : Type} [CNum T] {val : T → ℝ} {ω ω' : ℝ} (h : Accurate T val ω) (h0 : 0 < ω) (hle : ω ≤ ω') :
    Accurate T val ω' := by
  have h1 : 1 / ω' ≤ 1 / ω := one_div_le_one_div_of_le h0 hle
  have h2 (x : ℝ) : ω * (|x| + 1) ≤ ω' * (|x| + 1) := mul_le_mul_of_nonneg_right hle (by positivity)
  exact ⟨h.zero, h.one,
    fun a b hab => (h.add a b (hab.trans h1)).imp fun _ hc => ⟨hc.1, hc.2.trans (h2 _)⟩,
    fun a b hab => (h.sub a b (hab.trans h1)).imp fun _ hc => ⟨hc.1, hc.2.trans (h2 _)⟩,
    fun a b hab => (h.mul a b (hab.trans h1)).imp fun _ hc => ⟨hc.1, hc.2.trans (h2 _)⟩,
    fun a b hb hab => (h.div a b hb (hab.trans h1)).imp fun _ hc => ⟨hc.1, hc.2.trans (h2 _)⟩,
    fun a ha => (h.neg a (ha.trans h1)).imp fun _ hc => ⟨hc.1, hc.2.trans (h2 _)⟩, h.nonZero⟩

theorem Mat.Near.mono {T : Type} {N M : Nat} {val : T → ℝ} {ε ε' : ℝ} {A : Mat T N M} {X} (h : A.Near val ε X) (hle : ε ≤ ε') :
    A.Near val ε' X := fun i j => (h i j).trans hle

/-- The values of the entries. -/
def Mat.vals {T : Type} {N M : Nat} (val : T → ℝ) (A : Mat T N M) : Matrix (Fin N) (Fin M) ℝ := fun i j => val (A.get i j)

theorem Mat.near_vals {T : Type} {N M : Nat} {val : T → ℝ} {ε : ℝ} (hε : 0 ≤ ε) (A : Mat T N M) : A.Near val ε (A.vals val) :=
  fun i j => by simpa [Mat.vals] using hε

namespace Kalman
variable {m u : Dim} {T : Type} [CNum T] {val : T → ℝ}

/-- The operands of an update. -/
def case (val : T → ℝ) (k : Kalman T m u) (v : ColVec T u.val) (z : ColVec T m.val) (P : Matrix (Fin 2) (Fin 2) ℝ)
    (X : Matrix (Fin 2) (Fin 1) ℝ) (W : Matrix (Fin u.val) (Fin 1) ℝ) (Z : Matrix (Fin m.val) (Fin 1) ℝ) : Case m u :=
  { T := T, val := val, a := k.A, b := k.B, h := k.H, q := k.Q, v := k.R, p := k.P, x := k.xhat, w := v, z := z, P := P, X := X,
    W := W, Z := Z }

section
variable {A : Matrix (Fin 2) (Fin 2) ℝ} {B : Matrix (Fin 2) (Fin u.val) ℝ} {H : Matrix (Fin m.val) (Fin 2) ℝ}
  {Q : Matrix (Fin 2) (Fin 2) ℝ} {R : Matrix (Fin m.val) (Fin m.val) ℝ} {k k' : Kalman T m u} {v : ColVec T u.val} {z : ColVec T m.val}
  {P : Matrix (Fin 2) (Fin 2) ℝ} {X : Matrix (Fin 2) (Fin 1) ℝ} {W : Matrix (Fin u.val) (Fin 1) ℝ} {Z : Matrix (Fin m.val) (Fin 1) ℝ}
  {ε : ℝ}

theorem step_update (hs : (case val k v z P X W Z).Step ε A B H Q R) (h : k.update v z = .ok k') :
    ∃ g, k'.K = some g ∧ Mat.Near val ε g (KF.gain (KF.pred A Q P) H R) ∧ k'.P.Near val ε (KF.ricc A H Q R P) ∧
      k'.xhat.Near val ε (KF.corrected A B H Q R P X W Z) := by
  obtain ⟨xm, pm, g, x', p', h1, h2, h3, h4, h5, n1, n2, n3⟩ := hs
  obtain ⟨t, x, P, K, x1, P1, -, e2, e3, e4, e5, e6, rfl⟩ := update_inv h
  obtain rfl : x = xm := Except.ok.inj (e2.symm.trans h1)
  obtain rfl : P = pm := Except.ok.inj (e3.symm.trans h2)
  obtain rfl : K = g := Except.ok.inj (e4.symm.trans h3)
  obtain rfl : x1 = x' := Except.ok.inj (e5.symm.trans h4)
  obtain rfl : P1 = p' := Except.ok.inj (e6.symm.trans h5)
  exact ⟨K, rfl, n1, n2, n3⟩

theorem step_progress (hs : (case val k v z P X W Z).Step ε A B H Q R) {t} (ht : CNum.add k.t k.dt = .ok t) :
    ∃ k', k.update v z = .ok k' := by
  obtain ⟨xm, pm, g, x', p', h1, h2, h3, h4, h5, -⟩ := hs
  exact ⟨_, update_intro ht h1 h2 h3 h4 h5⟩

end

/-- One step of the exact estimator. -/
theorem update_exact (k : Kalman ℝ m u) (v : ColVec ℝ u.val) (z : ColVec ℝ m.val) (hP : k.P.toMatrix.PosSemidef)
    (hQ : k.Q.toMatrix.PosSemidef) (hR : k.R.toMatrix.PosDef) :
    ∃ k' g, k.update v z = .ok k' ∧ SameModel k k' ∧ k'.K = some g ∧
      g.toMatrix = KF.gain (KF.pred k.A.toMatrix k.Q.toMatrix k.P.toMatrix) k.H.toMatrix k.R.toMatrix ∧
      k'.P.toMatrix = KF.ricc k.A.toMatrix k.H.toMatrix k.Q.toMatrix k.R.toMatrix k.P.toMatrix ∧
      k'.xhat.toMatrix = KF.corrected k.A.toMatrix k.B.toMatrix k.H.toMatrix k.Q.toMatrix k.R.toMatrix k.P.toMatrix
        k.xhat.toMatrix v.toMatrix z.toMatrix := by
  obtain ⟨k', g, h, hs, hK, eP, -, ex, eg⟩ := update_ricc k v z hP hQ hR
  refine ⟨k', g, h, hs, hK, eg, eP, ?_⟩
  rw [ex, eg]
  rfl

/-- The exact estimate stays bounded on bounded data. -/
theorem exact_bounded (k0 : Kalman ℝ m u) {L} (s : KF.Settles k0.A.toMatrix k0.H.toMatrix k0.Q.toMatrix k0.R.toMatrix
    k0.P.toMatrix L) (D : ℝ) : ∃ ρ : ℝ, ∀ ds : List (ColVec ℝ u.val × ColVec ℝ m.val),
      (∀ d ∈ ds, (∀ i j, |d.1.get i j| ≤ D) ∧ ∀ i j, |d.2.get i j| ≤ D) → ∀ k', k0.run ds = .ok k' →
      ∀ i j, |k'.xhat.toMatrix i j| ≤ ρ := by
  obtain ⟨C, γ, hC, hγ0, hγ1, h⟩ := run_stable (u := u) s
  have hE : ∀ i, |(0 : Matrix (Fin 2) (Fin 1) ℝ) i 0 - k0.xhat.toMatrix i 0| ≤ KF.nrm k0.xhat.toMatrix := fun i => by
    rw [Matrix.zero_apply, zero_sub, abs_neg]; exact KF.entry_le _ _ _
  set D' := max |D| (2 * (KF.nrm k0.B.toMatrix * (2 * |D|))) with hD'
  refine ⟨C * (KF.nrm k0.xhat.toMatrix + D'), fun ds hds k' hk' i j => ?_⟩
  have hdist : ∀ ds : List (ColVec ℝ u.val × ColVec ℝ m.val),
      (∀ d ∈ ds, (∀ i j, |d.1.get i j| ≤ D) ∧ ∀ i j, |d.2.get i j| ≤ D) →
      Disturbed (m := m) k0.A.toMatrix k0.B.toMatrix k0.H.toMatrix D' 0 ds 0 := by
    intro ds
    induction ds using List.reverseRecOn with
    | nil => exact fun _ => .nil
    | append_singleton ds d ih =>
      intro hds
      have h1 := ih fun e he => hds e (List.mem_append_left _ he)
      obtain ⟨hd1, hd2⟩ := hds d (by simp)
      have h2 := Disturbed.snoc (m := m) ds 0 d.1 d.2 (-(k0.B.toMatrix * d.1.toMatrix)) d.2.toMatrix h1
        (fun i => by
          rw [Matrix.neg_apply, abs_neg]
          refine (KF.entry_le _ _ _).trans ((KF.nrm_mul _ _).trans ?_)
          have h3 : KF.nrm d.1.toMatrix ≤ 2 * |D| := by
            refine (KF.nrm_le (M := d.1.toMatrix) (e := |D|) fun i j => (hd1 i j).trans (le_abs_self D)).trans ?_
            cases u <;> (simp [Dim.val]; try linarith [abs_nonneg D])
          have h4 := mul_le_mul_of_nonneg_left h3 (KF.nrm_nonneg k0.B.toMatrix)
          have h5 := mul_nonneg (KF.nrm_nonneg k0.B.toMatrix) (mul_nonneg zero_le_two (abs_nonneg D))
          exact (by linarith : _ ≤ 2 * (KF.nrm k0.B.toMatrix * (2 * |D|))).trans (le_max_right _ _))
        (fun i => ((hd2 i 0).trans (le_abs_self D)).trans (le_max_left _ _))
        (by simp)
      have e : k0.A.toMatrix * (0 : Matrix (Fin 2) (Fin 1) ℝ) + k0.B.toMatrix * d.1.toMatrix + -(k0.B.toMatrix * d.1.toMatrix) = 0 := by
        rw [Matrix.mul_zero, zero_add, add_neg_cancel]
      rwa [e] at h2
  obtain ⟨k1, h1, hb⟩ := h k0 rfl rfl rfl rfl rfl 0 _ D' (KF.nrm_nonneg _) ((abs_nonneg D).trans (le_max_left _ _)) hE ds 0
    (hdist ds hds)
  rw [hk'] at h1
  cases h1
  have hbi := hb i
  obtain rfl : j = 0 := Subsingleton.elim _ _
  rw [Matrix.zero_apply, zero_sub, abs_neg] at hbi
  refine hbi.trans (mul_le_mul_of_nonneg_left ?_ hC)
  have := mul_le_of_le_one_left (KF.nrm_nonneg k0.xhat.toMatrix) (pow_le_one₀ hγ0 hγ1.le : γ ^ ds.length ≤ 1)
  linarith

/-- Controls and measurements with the exact ones. -/
abbrev Paired (T : Type) (m u : Dim) := List ((ColVec T u.val × ColVec T m.val) × (ColVec ℝ u.val × ColVec ℝ m.val))

theorem good {k k1 : Kalman T m u} {k0 : Kalman ℝ m u} {ω ω' D r ρ : ℝ} {d : ColVec T u.val × ColVec T m.val}
    {d0 : ColVec ℝ u.val × ColVec ℝ m.val} {P C X} (h0 : 0 < ω) (hle : ω ≤ ω') (hacc : Accurate T val ω) (hk : k.Near val ω k0)
    (hs : SameModel k k1) (hP : k1.P.Near val ω' P) (hX : k1.xhat.Near val ω' X) (hd : NearData (m := m) val ω D d d0)
    (hb : ∀ i j, |P i j - C i j| ≤ r) (hsym : m = .one ∨ Pᵀ = P) (hx : ∀ i j, |X i j| ≤ ρ) (hD : D ≤ ρ) :
    (case val k1 d.1 d.2 P X d0.1.toMatrix d0.2.toMatrix).Good ω' k0.A.toMatrix k0.B.toMatrix k0.H.toMatrix k0.Q.toMatrix
      k0.R.toMatrix C r ρ where
  acc := hacc.mono h0 hle
  a := by show k1.A.Near _ _ _; rw [hs.A]; exact hk.A.mono hle
  b := by show k1.B.Near _ _ _; rw [hs.B]; exact hk.B.mono hle
  h := by show k1.H.Near _ _ _; rw [hs.H]; exact hk.H.mono hle
  q := by show k1.Q.Near _ _ _; rw [hs.Q]; exact hk.Q.mono hle
  v := by show k1.R.Near _ _ _; rw [hs.R]; exact hk.R.mono hle
  p := hP
  x := hX
  w := hd.control.mono hle
  z := hd.measurement.mono hle
  hP := hb
  sym := hsym
  hX := hx
  hW i j := (hd.bound1 i j).trans hD
  hZ i j := (hd.bound2 i j).trans hD

omit [CNum T] in
/-- A run on paired data, its last step split off. -/
theorem paired_snoc [CNum T] {k k' : Kalman T m u} {α : Type} {f : α → ColVec T u.val × ColVec T m.val} {dd : List α} {d : α}
    (h : k.run ((dd ++ [d]).map f) = .ok k') : ∃ k1, k.run (dd.map f) = .ok k1 ∧ k1.update (f d).1 (f d).2 = .ok k' := by
  rw [List.map_append, run_append] at h
  obtain ⟨k1, h1, h2⟩ := bind_eq_ok.1 h
  obtain ⟨k2, h3, h4⟩ := run_cons.1 h2
  cases h4
  exact ⟨k1, h1, h3⟩

/-- After `n` steps the estimator is within `ε` of the exact one, and the next step completes. -/
def At (k0 : Kalman ℝ m u) (D ε ω : ℝ) (n : ℕ) : Prop :=
  ∀ (T : Type) [CNum T] (val : T → ℝ) (k : Kalman T m u), Accurate T val ω → k.Near val ω k0 → ∀ dd : Paired T m u,
    dd.length = n → (∀ d ∈ dd, NearData (m := m) val ω D d.1 d.2) → ∀ k', k.run (dd.map Prod.fst) = .ok k' →
    ∃ k0', k0.run (dd.map Prod.snd) = .ok k0' ∧ k'.P.Near val ε k0'.P.toMatrix ∧ k'.xhat.Near val ε k0'.xhat.toMatrix ∧
      (dd ≠ [] → ∃ g g0, k'.K = some g ∧ k0'.K = some g0 ∧ g.Near val ε g0.toMatrix) ∧
      ∀ d d0, NearData (m := m) val ω D d d0 →
        (case val k' d.1 d.2 k0'.P.toMatrix k0'.xhat.toMatrix d0.1.toMatrix d0.2.toMatrix).Step ε k0.A.toMatrix k0.B.toMatrix
          k0.H.toMatrix k0.Q.toMatrix k0.R.toMatrix

theorem early (k0 : Kalman ℝ m u) {L} (s : KF.Settles k0.A.toMatrix k0.H.toMatrix k0.Q.toMatrix k0.R.toMatrix
    k0.P.toMatrix L) (D : ℝ) (n : ℕ) : ∀ ε : ℝ, 0 < ε → ∃ ω : ℝ, 0 < ω ∧ ∀ ω', 0 < ω' → ω' ≤ ω → At k0 D ε ω' n := by
  obtain ⟨ρ, hρ⟩ := exact_bounded k0 s D
  -- the next step
  have next (n : ℕ) (ε : ℝ) (hε : 0 < ε) : ∃ η : ℝ, 0 < η ∧ ∀ ω', 0 < ω' → ω' ≤ η → ∀ (T : Type) [CNum T] (val : T → ℝ)
      (k k' : Kalman T m u) (k0' : Kalman ℝ m u), Accurate T val ω' → k.Near val ω' k0 → SameModel k k' →
      k'.P.Near val η k0'.P.toMatrix → k'.xhat.Near val η k0'.xhat.toMatrix →
      k0'.P.toMatrix = KF.riccSeq k0.A.toMatrix k0.H.toMatrix k0.Q.toMatrix k0.R.toMatrix k0.P.toMatrix n →
      (∀ i j, |k0'.xhat.toMatrix i j| ≤ ρ) → ∀ d d0, NearData (m := m) val ω' D d d0 →
        (case val k' d.1 d.2 k0'.P.toMatrix k0'.xhat.toMatrix d0.1.toMatrix d0.2.toMatrix).Step ε k0.A.toMatrix k0.B.toMatrix
          k0.H.toMatrix k0.Q.toMatrix k0.R.toMatrix := by
    obtain ⟨η, hη, h⟩ := Case.uniform k0.A.toMatrix k0.B.toMatrix k0.H.toMatrix k0.Q.toMatrix k0.R.toMatrix
      (KF.riccSeq k0.A.toMatrix k0.H.toMatrix k0.Q.toMatrix k0.R.toMatrix k0.P.toMatrix n) 0 (max ρ D) (KF.symm_of_psd s.hQ) (KF.symm_of_psd s.hR.posSemidef) (fun P hP => by
        obtain rfl : P = _ := by
          ext i j
          exact sub_eq_zero.1 (abs_nonpos_iff.1 (hP i j))
        exact isUnit_iff_ne_zero.1 (KF.innov_unit (KF.riccSeq_psd s.hP s.hQ s.hR n) s.hQ s.hR)) hε
    refine ⟨η, hη, fun ω' h0 hle T _ val k k' k0' hacc hk hs hP hx eP hb d d0 hd => h η hη le_rfl _ ?_⟩
    exact good h0 hle hacc hk hs hP hx hd (fun i j => by rw [eP, sub_self, abs_zero])
      (.inr (by rw [eP]; exact KF.symm_of_psd (KF.riccSeq_psd s.hP s.hQ s.hR n))) (fun i j => (hb i j).trans (le_max_left _ _))
      (le_max_right _ _)
  induction n with
  | zero =>
    intro ε hε
    obtain ⟨η, hη, h⟩ := next 0 ε hε
    refine ⟨min ε η, lt_min hε hη, fun ω' h0 hle T _ val k hacc hk dd hlen hdd k' hrun => ?_⟩
    obtain rfl := List.length_eq_zero_iff.1 hlen
    cases hrun
    have h1 := hle.trans (min_le_left _ _)
    have h2 := hle.trans (min_le_right _ _)
    refine ⟨k0, rfl, hk.P.mono h1, hk.xhat.mono h1, fun h => absurd rfl h, ?_⟩
    exact h ω' h0 h2 T val k k k0 hacc hk (.rfl' _) (hk.P.mono h2) (hk.xhat.mono h2) rfl (hρ [] (by simp) k0 rfl)
  | succ n ih =>
    intro ε hε
    obtain ⟨η, hη, h⟩ := next (n + 1) ε hε
    obtain ⟨ω, hω, hih⟩ := ih (min ε η) (lt_min hε hη)
    refine ⟨min ω η, lt_min hω hη, fun ω' h0 hle T _ val k hacc hk dd hlen hdd k' hrun => ?_⟩
    have hle1 := hle.trans (min_le_left _ _)
    have hle2 := hle.trans (min_le_right _ _)
    obtain rfl | ⟨dd, d, rfl⟩ := List.eq_nil_or_concat dd
    · simp at hlen
    rw [List.concat_eq_append] at *
    obtain ⟨k1, h1, h2⟩ := paired_snoc hrun
    obtain ⟨k01, e1, -, -, -, hstep⟩ := hih ω' h0 hle1 T val k hacc hk dd (by simpa using hlen)
      (fun d hd => hdd d (List.mem_append_left _ hd)) k1 h1
    have hd := hdd d (by simp)
    obtain ⟨g, hg, n1, n2, n3⟩ := step_update (hstep d.1 d.2 hd) h2
    obtain ⟨k01', e1', hsm, eP, -⟩ := run_ricc k0 (dd.map Prod.snd) s.hP s.hQ s.hR
    rw [e1] at e1'
    cases e1'
    obtain ⟨k02, g0, e2, hsm2, hg0, eg, eP2, ex2⟩ := update_exact k01 d.2.1 d.2.2
      (by rw [eP]; exact KF.riccSeq_psd s.hP s.hQ s.hR _) (by rw [hsm.Q]; exact s.hQ) (by rw [hsm.R]; exact s.hR)
    rw [hsm.A, hsm.Q, hsm.H, hsm.R] at eg
    rw [hsm.A, hsm.Q, hsm.H, hsm.R] at eP2
    rw [hsm.A, hsm.Q, hsm.H, hsm.R, hsm.B] at ex2
    have hr2 : k0.run ((dd ++ [d]).map Prod.snd) = .ok k02 := by
      rw [List.map_append]; exact run_snoc e1 e2
    have l1 := min_le_left ε η
    have l2 := min_le_right ε η
    refine ⟨k02, hr2, ?_, ?_, fun _ => ⟨g, g0, hg, hg0, ?_⟩, ?_⟩
    · rw [eP2]; exact n2.mono l1
    · rw [ex2]; exact n3.mono l1
    · rw [eg]; exact n1.mono l1
    · refine h ω' h0 hle2 T val k k' k02 hacc hk (run_same hrun) (by rw [eP2]; exact n2.mono l2) (by rw [ex2]; exact n3.mono l2)
        ?_ (hρ _ ?_ k02 hr2)
      · rw [eP2, eP, List.length_map]
        simp only [List.length_append, List.length_cons, List.length_nil, Nat.zero_add, Nat.add_right_cancel_iff] at hlen
        rw [hlen]
        rfl
      · intro e he
        obtain ⟨e', he', rfl⟩ := List.mem_map.1 he
        exact ⟨(hdd e' he').bound1, (hdd e' he').bound2⟩

theorem early_all (k0 : Kalman ℝ m u) {L} (s : KF.Settles k0.A.toMatrix k0.H.toMatrix k0.Q.toMatrix k0.R.toMatrix
    k0.P.toMatrix L) (D : ℝ) {ε : ℝ} (hε : 0 < ε) (N : ℕ) :
    ∃ ω : ℝ, 0 < ω ∧ ∀ ω', 0 < ω' → ω' ≤ ω → ∀ n ≤ N, At k0 D ε ω' n := by
  induction N with
  | zero =>
    obtain ⟨ω, h0, h⟩ := early k0 s D 0 ε hε
    exact ⟨ω, h0, fun ω' h1 h2 n hn => by obtain rfl := Nat.le_zero.1 hn; exact h ω' h1 h2⟩
  | succ N ih =>
    obtain ⟨ω1, h1, h⟩ := early k0 s D (N + 1) ε hε
    obtain ⟨ω2, h2, h'⟩ := ih
    refine ⟨min ω1 ω2, lt_min h1 h2, fun ω' h3 h4 n hn => ?_⟩
    rcases Nat.lt_or_eq_of_le hn with hn | rfl
    · exact h' ω' h3 (h4.trans (min_le_right _ _)) n (Nat.lt_succ_iff.1 hn)
    · exact h ω' h3 (h4.trans (min_le_left _ _))

theorem corrected_sub {A P P' : Matrix (Fin 2) (Fin 2) ℝ} {B : Matrix (Fin 2) (Fin u.val) ℝ} {H : Matrix (Fin m.val) (Fin 2) ℝ}
    {Q : Matrix (Fin 2) (Fin 2) ℝ} {R : Matrix (Fin m.val) (Fin m.val) ℝ} {x x' : Matrix (Fin 2) (Fin 1) ℝ}
    {w : Matrix (Fin u.val) (Fin 1) ℝ} {z : Matrix (Fin m.val) (Fin 1) ℝ} :
    KF.corrected A B H Q R P x w z - KF.corrected A B H Q R P' x' w z = KF.closed A H Q R P * (x - x') +
      (KF.gain (KF.pred A Q P) H R - KF.gain (KF.pred A Q P') H R) * (z - H * (A * x' + B * w)) := by
  unfold KF.corrected KF.closed
  generalize KF.gain (KF.pred A Q P) H R = G
  generalize KF.gain (KF.pred A Q P') H R = G'
  simp only [Matrix.mul_sub, Matrix.sub_mul, Matrix.mul_add, Matrix.one_mul, Matrix.mul_assoc]
  abel

/-- In arithmetic that is accurate enough the estimator stays near the exact one for ever. -/
theorem robust (k0 : Kalman ℝ m u) {L} (s : KF.Settles k0.A.toMatrix k0.H.toMatrix k0.Q.toMatrix k0.R.toMatrix
    k0.P.toMatrix L) (D : ℝ) {δ : ℝ} (hδ : 0 < δ) :
    ∃ ω : ℝ, 0 < ω ∧ ∀ ω', 0 < ω' → ω' ≤ ω → ∀ (T : Type) [CNum T] (val : T → ℝ) (k : Kalman T m u), Accurate T val ω' →
      k.Near val ω' k0 → (m = .one ∨ ∀ ds k', k.run ds = .ok k' → k'.P.get 0 1 = k'.P.get 1 0) →
      ∀ dd : Paired T m u, (∀ d ∈ dd, NearData (m := m) val ω' D d.1 d.2) →
      ∀ k', k.run (dd.map Prod.fst) = .ok k' → ∃ k0', k0.run (dd.map Prod.snd) = .ok k0' ∧
        k'.P.Near val δ k0'.P.toMatrix ∧ k'.xhat.Near val δ k0'.xhat.toMatrix ∧
        (dd ≠ [] → ∃ g g0, k'.K = some g ∧ k0'.K = some g0 ∧ g.Near val δ g0.toMatrix) ∧
        ∀ d d0 t, NearData (m := m) val ω' D d d0 → CNum.add k'.t k'.dt = .ok t → ∃ k'', k'.update d.1 d.2 = .ok k'' := by
  obtain ⟨p, q, C, c, hC, hc0, hc1, p1, p2, p3, q1, q2, q3, hloc⟩ := KF.contract s
  obtain ⟨ρ, hρ⟩ := exact_bounded k0 s D
  have hC0 : 0 < C := by linarith
  -- the constants
  obtain ⟨κ, hκ0, hκ⟩ : ∃ κ : ℝ, 0 ≤ κ ∧ ∀ (x : Matrix (Fin 2) (Fin 1) ℝ) (w : Matrix (Fin u.val) (Fin 1) ℝ)
      (z : Matrix (Fin m.val) (Fin 1) ℝ), (∀ i j, |x i j| ≤ ρ) → (∀ i j, |w i j| ≤ D) → (∀ i j, |z i j| ≤ D) →
      KF.nrm (z - k0.H.toMatrix * (k0.A.toMatrix * x + k0.B.toMatrix * w)) ≤ κ := by
    refine ⟨2 * |D| + KF.nrm k0.H.toMatrix * (KF.nrm k0.A.toMatrix * (2 * |ρ|) + KF.nrm k0.B.toMatrix * (2 * |D|)), ?_,
      fun x w z hx hw hz => ?_⟩
    · have := KF.nrm_nonneg k0.H.toMatrix
      have := KF.nrm_nonneg k0.A.toMatrix
      have := KF.nrm_nonneg k0.B.toMatrix
      positivity
    · have nx : KF.nrm x ≤ 2 * |ρ| := by
        refine (KF.nrm_le (e := |ρ|) fun i j => (hx i j).trans (le_abs_self _)).trans (le_of_eq ?_)
        simp
      have nw : KF.nrm w ≤ 2 * |D| := by
        refine (KF.nrm_le (e := |D|) fun i j => (hw i j).trans (le_abs_self _)).trans ?_
        cases u <;> (simp [Dim.val]; try linarith [abs_nonneg D])
      have nz : KF.nrm z ≤ 2 * |D| := by
        refine (KF.nrm_le (e := |D|) fun i j => (hz i j).trans (le_abs_self _)).trans ?_
        cases m <;> (simp [Dim.val]; try linarith [abs_nonneg D])
      have n1 := (KF.nrm_mul k0.A.toMatrix x).trans (mul_le_mul_of_nonneg_left nx (KF.nrm_nonneg _))
      have n2 := (KF.nrm_mul k0.B.toMatrix w).trans (mul_le_mul_of_nonneg_left nw (KF.nrm_nonneg _))
      have n3 := KF.nrm_add (k0.A.toMatrix * x) (k0.B.toMatrix * w)
      have n4 := (KF.nrm_mul k0.H.toMatrix (k0.A.toMatrix * x + k0.B.toMatrix * w)).trans
        (mul_le_mul_of_nonneg_left (n3.trans (add_le_add n1 n2)) (KF.nrm_nonneg _))
      have n5 := KF.nrm_add z (-k0.H.toMatrix * (k0.A.toMatrix * x + k0.B.toMatrix * w))
      have n6 : KF.nrm (-k0.H.toMatrix * (k0.A.toMatrix * x + k0.B.toMatrix * w)) =
          KF.nrm (k0.H.toMatrix * (k0.A.toMatrix * x + k0.B.toMatrix * w)) := by
        rw [Matrix.neg_mul]; unfold KF.nrm; simp only [Matrix.neg_apply, abs_neg]
      rw [n6, Matrix.neg_mul, ← sub_eq_add_neg] at n5
      linarith
  have hg0 : 0 < min (δ / 4) ((1 - c) * δ / (8 * C * (κ + 1))) :=
    lt_min (by linarith) (div_pos (mul_pos (by linarith) hδ) (by positivity))
  obtain ⟨r, hr, hrle, hbox⟩ := hloc _ hg0
  have hr1 : r ≤ δ / 4 := hrle.trans (min_le_left _ _)
  obtain ⟨γ, hγ⟩ : ∃ γ, γ = min (δ / 4) ((1 - c) * δ / (8 * C * (κ + 1))) := ⟨_, rfl⟩
  rw [← hγ] at hg0 hrle hbox
  have hγ1 : γ ≤ δ / 4 := hγ ▸ min_le_left _ _
  have hγ2 : C * (2 * γ * κ) ≤ (1 - c) * δ / 4 := by
    have h : γ ≤ (1 - c) * δ / (8 * C * (κ + 1)) := hγ ▸ min_le_right _ _
    rw [le_div_iff₀ (by positivity)] at h
    nlinarith [mul_pos hC0 hg0]
  have hε0 : 0 < min (δ / 4) ((1 - c) * r / (4 * C)) :=
    lt_min (by linarith) (div_pos (mul_pos (by linarith) hr) (by positivity))
  obtain ⟨ε, hε⟩ : ∃ ε, ε = min (δ / 4) ((1 - c) * r / (4 * C)) := ⟨_, rfl⟩
  rw [← hε] at hε0
  have hε1 : ε ≤ δ / 4 := hε ▸ min_le_left _ _
  have hε2 : C * (4 * ε) ≤ (1 - c) * r := by
    have h : ε ≤ (1 - c) * r / (4 * C) := hε ▸ min_le_right _ _
    rw [le_div_iff₀ (by positivity)] at h
    linarith
  obtain ⟨η, hη, hstep⟩ := Case.uniform k0.A.toMatrix k0.B.toMatrix k0.H.toMatrix k0.Q.toMatrix k0.R.toMatrix
    L r (max (ρ + δ) D) (KF.symm_of_psd s.hQ) (KF.symm_of_psd s.hR.posSemidef) (fun P hP => (hbox P hP).1) hε0
  -- when the exact covariance has settled
  obtain ⟨N, hN⟩ : ∃ N : ℕ, ∀ n, N ≤ n → ∀ i j, |KF.riccSeq k0.A.toMatrix k0.H.toMatrix k0.Q.toMatrix k0.R.toMatrix
      k0.P.toMatrix n i j - L i j| ≤ r / (8 * C) := by
    have h (i j : Fin 2) : ∀ᶠ n in atTop, |KF.riccSeq k0.A.toMatrix k0.H.toMatrix k0.Q.toMatrix k0.R.toMatrix
        k0.P.toMatrix n i j - L i j| ≤ r / (8 * C) := by
      have := ((s.hlim i j).sub_const (L i j)).abs
      rw [sub_self, abs_zero] at this
      exact this.eventually_le_const (by positivity)
    exact eventually_atTop.1 (eventually_all.2 fun i => eventually_all.2 (h i))
  have hsettled (n) (hn : N ≤ n) : p (KF.riccSeq k0.A.toMatrix k0.H.toMatrix k0.Q.toMatrix k0.R.toMatrix k0.P.toMatrix n - L) ≤
      r / 2 := by
    refine (p2 _).trans ?_
    have h1 := KF.nrm_le (M := KF.riccSeq k0.A.toMatrix k0.H.toMatrix k0.Q.toMatrix k0.R.toMatrix k0.P.toMatrix n - L) (hN n hn)
    have h2 := mul_le_mul_of_nonneg_left h1 hC0.le
    refine h2.trans (le_of_eq ?_)
    simp only [Fintype.card_fin]
    field_simp
    norm_num
  have hε3 : 0 < min (δ / (2 * C)) (r / (8 * C)) := lt_min (by positivity) (by positivity)
  obtain ⟨ω, hω, hearly⟩ := early_all k0 s D hε3 N
  refine ⟨min ω η, lt_min hω hη, fun ω' h0 hle T _ val k hacc hk hsym => ?_⟩
  have hle1 := hle.trans (min_le_left _ _)
  have hle2 := hle.trans (min_le_right _ _)
  -- how far estimator and exact estimator are apart later on
  have fast (k' : Kalman T m u) (k0' : Kalman ℝ m u) (ds) (hrun : k.run ds = .ok k') (hx : ∀ i j, |k0'.xhat.toMatrix i j| ≤ ρ)
      (ip : p (k'.P.vals val - L) ≤ r) (iq : q (k'.xhat.vals val - k0'.xhat.toMatrix) ≤ δ) (d : ColVec T u.val × ColVec T m.val)
      (d0 : ColVec ℝ u.val × ColVec ℝ m.val) (hd : NearData (m := m) val ω' D d d0) :
      (case val k' d.1 d.2 (k'.P.vals val) (k'.xhat.vals val) d0.1.toMatrix d0.2.toMatrix).Step ε k0.A.toMatrix k0.B.toMatrix
        k0.H.toMatrix k0.Q.toMatrix k0.R.toMatrix := by
    refine hstep η hη le_rfl _ (good h0 hle2 hacc hk (run_same hrun) (Mat.near_vals hη.le _) (Mat.near_vals hη.le _) hd
      (fun i j => ?_) (hsym.imp_right fun h => ?_) (fun i j => ?_) (le_max_right _ _))
    · exact (KF.entry_le (k'.P.vals val - L) i j).trans ((p1 _).trans ip)
    · have e := h ds k' hrun
      ext i j
      fin_cases i <;> fin_cases j <;> simp [Mat.vals, e]
    · refine le_trans ?_ (le_max_left _ _)
      have h1 := (KF.entry_le (k'.xhat.vals val - k0'.xhat.toMatrix) i j).trans ((q1 _).trans iq)
      have h2 := abs_add_le (k0'.xhat.toMatrix i j) ((k'.xhat.vals val - k0'.xhat.toMatrix) i j)
      have h3 : k0'.xhat.toMatrix i j + (k'.xhat.vals val - k0'.xhat.toMatrix) i j = k'.xhat.vals val i j := by
        rw [Matrix.sub_apply]; ring
      rw [h3] at h2
      linarith [hx i j]
  have data {dd : Paired T m u} (hdd : ∀ d ∈ dd, NearData (m := m) val ω' D d.1 d.2) :
      ∀ d ∈ dd.map Prod.snd, (∀ i j, |d.1.get i j| ≤ D) ∧ ∀ i j, |d.2.get i j| ≤ D := by
    intro e he
    obtain ⟨e', he', rfl⟩ := List.mem_map.1 he
    exact ⟨(hdd e' he').bound1, (hdd e' he').bound2⟩
  have late (n : ℕ) (hn : N ≤ n) : ∀ dd : Paired T m u, dd.length = n → (∀ d ∈ dd, NearData (m := m) val ω' D d.1 d.2) →
      ∀ k', k.run (dd.map Prod.fst) = .ok k' → ∃ k0', k0.run (dd.map Prod.snd) = .ok k0' ∧ p (k'.P.vals val - L) ≤ r ∧
        q (k'.xhat.vals val - k0'.xhat.toMatrix) ≤ δ ∧
        (N < n → ∃ g g0, k'.K = some g ∧ k0'.K = some g0 ∧ g.Near val δ g0.toMatrix) := by
    induction n, hn using Nat.le_induction with
    | base =>
      intro dd hlen hdd k' hrun
      obtain ⟨k0', e0, n1, n2, -⟩ := hearly ω' h0 hle1 N le_rfl T val k hacc hk dd hlen hdd k' hrun
      refine ⟨k0', e0, ?_, ?_, fun h => absurd h (lt_irrefl _)⟩
      · obtain ⟨k0'', e0', -, eP, -⟩ := run_ricc k0 (dd.map Prod.snd) s.hP s.hQ s.hR
        rw [e0] at e0'
        cases e0'
        rw [List.length_map, hlen] at eP
        have e : k'.P.vals val - L = (k'.P.vals val - k0'.P.toMatrix) + (k0'.P.toMatrix - L) := by abel
        rw [e]
        refine (p3 _ _).trans ?_
        have h1 := hsettled N le_rfl
        rw [← eP] at h1
        have h2 := (p2 (k'.P.vals val - k0'.P.toMatrix)).trans (mul_le_mul_of_nonneg_left
          (KF.nrm_le (M := k'.P.vals val - k0'.P.toMatrix) (e := r / (8 * C)) fun i j => (n1 i j).trans (min_le_right _ _)) hC0.le)
        have h3 : C * (Fintype.card (Fin 2) * (Fintype.card (Fin 2) * (r / (8 * C)))) = r / 2 := by
          simp only [Fintype.card_fin]; field_simp; norm_num
        linarith
      · have h2 := (q2 (k'.xhat.vals val - k0'.xhat.toMatrix)).trans (mul_le_mul_of_nonneg_left
          (KF.nrm_le (M := k'.xhat.vals val - k0'.xhat.toMatrix) (e := δ / (2 * C)) fun i j =>
            (n2 i j).trans (min_le_left _ _)) hC0.le)
        have h3 : C * (Fintype.card (Fin 2) * (Fintype.card (Fin 1) * (δ / (2 * C)))) = δ := by
          simp only [Fintype.card_fin]; field_simp; norm_num
        linarith
    | succ n hn ih =>
      intro dd hlen hdd k' hrun
      obtain rfl | ⟨dd, d, rfl⟩ := List.eq_nil_or_concat dd
      · simp at hlen
      rw [List.concat_eq_append] at *
      obtain ⟨k1, h1, h2⟩ := paired_snoc hrun
      have hdd1 : ∀ d ∈ dd, NearData (m := m) val ω' D d.1 d.2 := fun d hd => hdd d (List.mem_append_left _ hd)
      have hlen1 : dd.length = n := by simpa using hlen
      obtain ⟨k01, e1, ip, iq, -⟩ := ih dd hlen1 hdd1 k1 h1
      have hd := hdd d (by simp)
      have hx := hρ _ (data hdd1) k01 e1
      have hst := fast k1 k01 _ h1 hx ip iq d.1 d.2 hd
      obtain ⟨g, hg, n1, n2, n3⟩ := step_update hst h2
      obtain ⟨k01', e1', hsm, eP, -⟩ := run_ricc k0 (dd.map Prod.snd) s.hP s.hQ s.hR
      rw [e1] at e1'
      cases e1'
      rw [List.length_map, hlen1] at eP
      obtain ⟨k02, g0, e2, hsm2, hg0, eg, eP2, ex2⟩ := update_exact k01 d.2.1 d.2.2
        (by rw [eP]; exact KF.riccSeq_psd s.hP s.hQ s.hR _) (by rw [hsm.Q]; exact s.hQ) (by rw [hsm.R]; exact s.hR)
      rw [hsm.A, hsm.Q, hsm.H, hsm.R] at eg
      rw [hsm.A, hsm.Q, hsm.H, hsm.R, hsm.B] at ex2
      have hr2 : k0.run ((dd ++ [d]).map Prod.snd) = .ok k02 := by
        rw [List.map_append]; exact run_snoc e1 e2
      have b1 := hbox (k1.P.vals val) fun i j => (KF.entry_le (k1.P.vals val - L) i j).trans ((p1 _).trans ip)
      have ip0 := hsettled n hn
      rw [← eP] at ip0
      have b2 := hbox k01.P.toMatrix fun i j => (KF.entry_le (k01.P.toMatrix - L) i j).trans ((p1 _).trans (by linarith))
      have hG : KF.nrm (KF.gain (KF.pred k0.A.toMatrix k0.Q.toMatrix (k1.P.vals val)) k0.H.toMatrix k0.R.toMatrix -
          KF.gain (KF.pred k0.A.toMatrix k0.Q.toMatrix k01.P.toMatrix) k0.H.toMatrix k0.R.toMatrix) ≤ 2 * γ := by
        have g1 := b1.2.2.2
        have g2 := b2.2.2.2
        generalize KF.gain (KF.pred k0.A.toMatrix k0.Q.toMatrix (k1.P.vals val)) k0.H.toMatrix k0.R.toMatrix = G1 at g1 ⊢
        generalize KF.gain (KF.pred k0.A.toMatrix k0.Q.toMatrix k01.P.toMatrix) k0.H.toMatrix k0.R.toMatrix = G2 at g2 ⊢
        generalize KF.gain (KF.pred k0.A.toMatrix k0.Q.toMatrix L) k0.H.toMatrix k0.R.toMatrix = G at g1 g2
        have h1 := KF.nrm_add (G1 - G) (-(G2 - G))
        have h2 : KF.nrm (-(G2 - G)) = KF.nrm (G2 - G) := by
          unfold KF.nrm; simp only [Matrix.neg_apply, abs_neg]
        have h3 : G1 - G + -(G2 - G) = G1 - G2 := by abel
        rw [h2, h3] at h1
        linarith
      refine ⟨k02, hr2, ?_, ?_, fun _ => ⟨g, g0, hg, hg0, fun i j => ?_⟩⟩
      · have e : k'.P.vals val - L = (k'.P.vals val - KF.ricc k0.A.toMatrix k0.H.toMatrix k0.Q.toMatrix k0.R.toMatrix
            (k1.P.vals val)) + (KF.ricc k0.A.toMatrix k0.H.toMatrix k0.Q.toMatrix k0.R.toMatrix (k1.P.vals val) - L) := by abel
        rw [e]
        refine (p3 _ _).trans ?_
        have h1 := (p2 (k'.P.vals val - KF.ricc k0.A.toMatrix k0.H.toMatrix k0.Q.toMatrix k0.R.toMatrix
            (k1.P.vals val))).trans (mul_le_mul_of_nonneg_left (KF.nrm_le (e := ε) n2) hC0.le)
        have h3 : C * (Fintype.card (Fin 2) * (Fintype.card (Fin 2) * ε)) = C * (4 * ε) := by
          simp only [Fintype.card_fin]; push_cast; ring
        have h4 := b1.2.1.trans (mul_le_mul_of_nonneg_left ip hc0)
        linarith
      · have e : k'.xhat.vals val - k02.xhat.toMatrix =
            (k'.xhat.vals val - KF.corrected k0.A.toMatrix k0.B.toMatrix k0.H.toMatrix k0.Q.toMatrix k0.R.toMatrix
              (k1.P.vals val) (k1.xhat.vals val) d.2.1.toMatrix d.2.2.toMatrix) +
            (KF.closed k0.A.toMatrix k0.H.toMatrix k0.Q.toMatrix k0.R.toMatrix (k1.P.vals val) *
              (k1.xhat.vals val - k01.xhat.toMatrix) +
            (KF.gain (KF.pred k0.A.toMatrix k0.Q.toMatrix (k1.P.vals val)) k0.H.toMatrix k0.R.toMatrix -
              KF.gain (KF.pred k0.A.toMatrix k0.Q.toMatrix k01.P.toMatrix) k0.H.toMatrix k0.R.toMatrix) *
              (d.2.2.toMatrix - k0.H.toMatrix * (k0.A.toMatrix * k01.xhat.toMatrix + k0.B.toMatrix * d.2.1.toMatrix))) := by
          rw [← corrected_sub, ex2]; abel
        rw [e]
        refine (q3 _ _).trans ((add_le_add_right (q3 _ _) _).trans ?_)
        have h1 := (q2 (k'.xhat.vals val - KF.corrected k0.A.toMatrix k0.B.toMatrix k0.H.toMatrix k0.Q.toMatrix k0.R.toMatrix
              (k1.P.vals val) (k1.xhat.vals val) d.2.1.toMatrix d.2.2.toMatrix)).trans
            (mul_le_mul_of_nonneg_left (KF.nrm_le (e := ε) n3) hC0.le)
        have h3 : C * (Fintype.card (Fin 2) * (Fintype.card (Fin 1) * ε)) = C * (4 * ε) / 2 := by
          simp only [Fintype.card_fin]; push_cast; ring
        have h4 := (b1.2.2.1 (k1.xhat.vals val - k01.xhat.toMatrix)).trans (mul_le_mul_of_nonneg_left iq hc0)
        have h5 := (q2 ((KF.gain (KF.pred k0.A.toMatrix k0.Q.toMatrix (k1.P.vals val)) k0.H.toMatrix k0.R.toMatrix -
              KF.gain (KF.pred k0.A.toMatrix k0.Q.toMatrix k01.P.toMatrix) k0.H.toMatrix k0.R.toMatrix) *
              (d.2.2.toMatrix - k0.H.toMatrix * (k0.A.toMatrix * k01.xhat.toMatrix + k0.B.toMatrix * d.2.1.toMatrix)))).trans
            (mul_le_mul_of_nonneg_left ((KF.nrm_mul _ _).trans (mul_le_mul hG
              (hκ k01.xhat.toMatrix d.2.1.toMatrix d.2.2.toMatrix hx hd.bound1 hd.bound2) (KF.nrm_nonneg _) (by linarith))) hC0.le)
        have h6 : (1 - c) * r ≤ (1 - c) * (δ / 4) := mul_le_mul_of_nonneg_left hr1 (by linarith)
        have h7 : 0 ≤ (1 - c) * δ := mul_nonneg (by linarith) hδ.le
        linarith
      · rw [eg]
        have h1 := n1 i j
        have h2 := (KF.entry_le _ i j).trans hG
        rw [Matrix.sub_apply] at h2
        have h3 := abs_add_le (val (g.get i j) -
          KF.gain (KF.pred k0.A.toMatrix k0.Q.toMatrix (k1.P.vals val)) k0.H.toMatrix k0.R.toMatrix i j)
          (KF.gain (KF.pred k0.A.toMatrix k0.Q.toMatrix (k1.P.vals val)) k0.H.toMatrix k0.R.toMatrix i j -
          KF.gain (KF.pred k0.A.toMatrix k0.Q.toMatrix k01.P.toMatrix) k0.H.toMatrix k0.R.toMatrix i j)
        rw [sub_add_sub_cancel] at h3
        linarith
  intro dd hdd k' hrun
  rcases Nat.lt_or_ge N dd.length with hlt | hge
  · obtain ⟨k0', e0, ip, iq, hK⟩ := late dd.length hlt.le dd rfl hdd k' hrun
    refine ⟨k0', e0, fun i j => ?_, fun i j => ?_, fun _ => hK hlt, fun d d0 t hd ht => ?_⟩
    · obtain ⟨k0'', e0', -, eP, -⟩ := run_ricc k0 (dd.map Prod.snd) s.hP s.hQ s.hR
      rw [e0] at e0'
      cases e0'
      rw [List.length_map] at eP
      have ip0 := hsettled dd.length hlt.le
      rw [← eP] at ip0
      have h1 := (KF.entry_le (k'.P.vals val - L) i j).trans ((p1 _).trans ip)
      have h2 := (KF.entry_le (k0'.P.toMatrix - L) i j).trans ((p1 _).trans ip0)
      rw [Matrix.sub_apply] at h1 h2
      rw [abs_sub_comm] at h2
      have h3 := abs_add_le (val (k'.P.get i j) - L i j) (L i j - k0'.P.toMatrix i j)
      rw [sub_add_sub_cancel] at h3
      have h1 : |val (k'.P.get i j) - L i j| ≤ r := h1
      linarith
    · exact (KF.entry_le (k'.xhat.vals val - k0'.xhat.toMatrix) i j).trans ((q1 _).trans iq)
    · exact step_progress (fast k' k0' _ hrun (hρ _ (data hdd) k0' e0) ip iq d d0 hd) ht
  · obtain ⟨k0', e0, n1, n2, hK, hst⟩ := hearly ω' h0 hle1 dd.length hge T val k hacc hk dd rfl hdd k' hrun
    have hm : min (δ / (2 * C)) (r / (8 * C)) ≤ δ :=
      (min_le_left _ _).trans (div_le_self hδ.le (by linarith))
    refine ⟨k0', e0, n1.mono hm, n2.mono hm, fun h => ?_, fun d d0 t hd ht => step_progress (hst d d0 hd) ht⟩
    obtain ⟨g, g0, h1, h2, h3⟩ := hK h
    exact ⟨g, g0, h1, h2, h3.mono hm⟩

end Kalman
end Verif
