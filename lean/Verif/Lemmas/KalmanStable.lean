import Verif.Lemmas.RiccatiExist
import Verif.Lemmas.KalmanSteady
import Verif.Spec.KalmanStable

/- Lemmas for C115: errors that stay within a multiple of a covariance. -/

namespace Verif.KF
open Matrix Filter Topology

section two
variable {L X : Matrix (Fin 2) (Fin 2) ℝ} {e d : Matrix (Fin 2) (Fin 1) ℝ}

theorem outer_psd {n : Type} [Finite n] (d : Matrix n (Fin 1) ℝ) : (d * dᵀ).PosSemidef := by
  have := Matrix.posSemidef_self_mul_conjTranspose d
  rwa [Matrix.conjTranspose_eq_transpose_of_trivial] at this

theorem outer_diag (d : Matrix (Fin 2) (Fin 1) ℝ) (i : Fin 2) : (d * dᵀ) i i = d i 0 ^ 2 := by
  rw [Matrix.mul_apply, Fin.sum_univ_one, Matrix.transpose_apply, sq]

theorem smul_le {a b : ℝ} (hL : L.PosSemidef) {M : Matrix (Fin 2) (Fin 2) ℝ} (hab : a ≤ b)
    (h : (a • L - M).PosSemidef) : (b • L - M).PosSemidef := by
  have := h.add (hL.smul (sub_nonneg.2 hab))
  have e : a • L - M + (b - a) • L = b • L - M := by rw [sub_smul]; abel
  rwa [e] at this

/-- A positive definite matrix is above every matrix after scaling. -/
theorem scale_above {c : ℝ} (hc : 0 < c) (hlow : (L - c • 1).PosSemidef)
    {M : Matrix (Fin 2) (Fin 2) ℝ} (hM : M.PosSemidef) :
    (((M 0 0 + M 1 1) / c) • L - M).PosSemidef := by
  have h0 := hM.diag_nonneg (i := 0)
  have h1 := hM.diag_nonneg (i := 1)
  have := (hlow.smul (div_nonneg (add_nonneg h0 h1) hc.le)).add (psd_upper hM)
  have e : ((M 0 0 + M 1 1) / c) • (L - c • 1) + ((M 0 0 + M 1 1) • 1 - M) =
      ((M 0 0 + M 1 1) / c) • L - M := by
    rw [smul_sub, smul_smul, div_mul_cancel₀ _ hc.ne']; abel
  rwa [e] at this

theorem vec_within {c s : ℝ} (hc : 0 < c) (hL : L.PosSemidef) (hlow : (L - c • 1).PosSemidef)
    (hd : ∀ i, |d i 0| ≤ s) : ((2 * s ^ 2 / c) • L - d * dᵀ).PosSemidef := by
  refine smul_le hL ?_ (scale_above hc hlow (outer_psd d))
  rw [outer_diag, outer_diag]
  have h (i : Fin 2) : d i 0 ^ 2 ≤ s ^ 2 := by rw [← sq_abs]; gcongr; exact hd i
  gcongr
  linarith [h 0, h 1]

theorem within_vec {c : ℝ} (h : (c • L - e * eᵀ).PosSemidef) (i : Fin 2) : e i 0 ^ 2 ≤ c * L i i := by
  have := h.diag_nonneg (i := i)
  rw [Matrix.sub_apply, outer_diag, Matrix.smul_apply, smul_eq_mul] at this
  linarith

/-- One step of a driven error. -/
theorem within_step {t g c δ : ℝ} (ht : 0 < t) (hc : 0 ≤ c)
    (he : (c • L - e * eᵀ).PosSemidef) (hX : (g • L - X * L * Xᵀ).PosSemidef)
    (hd : (δ • L - d * dᵀ).PosSemidef) :
    (((1 + t) * (g * c) + (1 + t⁻¹) * δ) • L - (X * e + d) * (X * e + d)ᵀ).PosSemidef := by
  have h1 := ((psd_congr he X).add (hX.smul hc)).smul (by positivity : 0 ≤ 1 + t)
  have h2 := hd.smul (by positivity : 0 ≤ 1 + t⁻¹)
  have h3 := (outer_psd (X * e - t⁻¹ • d)).smul ht.le
  have := (h1.add h2).add h3
  have e' : (1 + t) • (X * (c • L - e * eᵀ) * Xᵀ + c • (g • L - X * L * Xᵀ)) +
      (1 + t⁻¹) • (δ • L - d * dᵀ) + t • ((X * e - t⁻¹ • d) * (X * e - t⁻¹ • d)ᵀ) =
      ((1 + t) * (g * c) + (1 + t⁻¹) * δ) • L - (X * e + d) * (X * e + d)ᵀ := by
    have hx : X * (c • L - e * eᵀ) * Xᵀ = c • (X * L * Xᵀ) - (X * e) * (X * e)ᵀ := by
      rw [Matrix.transpose_mul]
      simp only [Matrix.mul_sub, Matrix.sub_mul, Matrix.mul_smul, Matrix.smul_mul, Matrix.mul_assoc]
    rw [hx]
    generalize X * e = a
    generalize X * L * Xᵀ = Y
    ext i j
    simp only [Matrix.add_apply, Matrix.sub_apply, Matrix.smul_apply, smul_eq_mul, Matrix.mul_apply,
      Fin.sum_univ_one, Matrix.transpose_apply]
    field_simp
    ring
  rwa [e'] at this

/-- The bound after several steps. -/
def grow (h a : Nat → ℝ) (c : ℝ) : Nat → ℝ
  | 0 => c
  | n + 1 => h n * grow h a c n + a n

theorem grow_nonneg {h a : Nat → ℝ} {c : ℝ} (hh : ∀ k, 0 ≤ h k) (ha : ∀ k, 0 ≤ a k) (hc : 0 ≤ c)
    (n : Nat) : 0 ≤ grow h a c n := by
  induction n with
  | zero => exact hc
  | succ n ih => exact add_nonneg (mul_nonneg (hh n) ih) (ha n)

/-- The growth of the first steps. -/
noncomputable def early (h : Nat → ℝ) (γ : ℝ) : Nat → ℝ
  | 0 => 1
  | n + 1 => early h γ n * max (h n / γ) 1

theorem one_le_early (h : Nat → ℝ) (γ : ℝ) (n : Nat) : 1 ≤ early h γ n := by
  induction n with
  | zero => exact le_rfl
  | succ n ih => exact one_le_mul_of_one_le_of_one_le ih (le_max_right _ _)

theorem early_le {h : Nat → ℝ} {γ : ℝ} (h0 : 0 < γ) {k0 : Nat} (hg : ∀ k, k0 ≤ k → h k ≤ γ) (n : Nat) :
    early h γ n ≤ early h γ k0 := by
  have hm (i j : Nat) : early h γ i ≤ early h γ (i + j) := by
    induction j with
    | zero => exact le_rfl
    | succ j ih =>
      refine ih.trans ?_
      show _ ≤ early h γ (i + j) * _
      exact le_mul_of_one_le_right (zero_le_one.trans (one_le_early h γ _)) (le_max_right _ _)
  rcases le_total n k0 with hn | hn
  · obtain ⟨j, rfl⟩ := Nat.exists_eq_add_of_le hn
    exact hm n j
  · obtain ⟨j, rfl⟩ := Nat.exists_eq_add_of_le hn
    refine le_of_eq ?_
    clear hn
    induction j with
    | zero => rfl
    | succ j ih =>
      show early h γ (k0 + j) * max (h (k0 + j) / γ) 1 = _
      rw [ih, max_eq_right ((div_le_one h0).2 (hg _ (Nat.le_add_right _ _))), mul_one]

theorem grow_bound {γ : ℝ} {h : Nat → ℝ} (h0 : 0 < γ) (h1 : γ < 1) (hh : ∀ k, 0 ≤ h k) {k0 : Nat}
    (hg : ∀ k, k0 ≤ k → h k ≤ γ) : ∃ M : ℝ, 1 ≤ M ∧ ∀ a c, 0 ≤ a → 0 ≤ c → ∀ n,
    grow h (fun _ => a) c n ≤ M * (γ ^ n * c + a / (1 - γ)) := by
  have h1' : 0 < 1 - γ := by linarith
  refine ⟨early h γ k0, one_le_early _ _ _, fun a c ha hc n => ?_⟩
  have hp (n : Nat) := one_le_early h γ n
  have key : grow h (fun _ => a) c n ≤ early h γ n * (γ ^ n * c + a / (1 - γ)) := by
    induction n with
    | zero =>
      have : 0 ≤ a / (1 - γ) := by positivity
      show c ≤ 1 * (γ ^ 0 * c + _)
      rw [pow_zero]; linarith
    | succ n ih =>
      have e1 : h n * early h γ n ≤ γ * early h γ (n + 1) := by
        show _ ≤ γ * (early h γ n * _)
        have : h n ≤ γ * max (h n / γ) 1 := by
          rw [← div_le_iff₀' h0]; exact le_max_left _ _
        nlinarith [hp n]
      have hq : 0 ≤ γ ^ n * c + a / (1 - γ) := by positivity
      calc h n * grow h (fun _ => a) c n + a
          ≤ h n * (early h γ n * (γ ^ n * c + a / (1 - γ))) + a := by gcongr; exact hh n
        _ = h n * early h γ n * (γ ^ n * c + a / (1 - γ)) + a := by ring
        _ ≤ γ * early h γ (n + 1) * (γ ^ n * c + a / (1 - γ)) + early h γ (n + 1) * a := by
            gcongr; exact le_mul_of_one_le_left ha (hp _)
        _ = early h γ (n + 1) * (γ ^ (n + 1) * c + a / (1 - γ)) := by
            field_simp; ring
  refine key.trans ?_
  gcongr
  exact early_le h0 hg n

theorem grow_tendsto {γ c : ℝ} {h a : Nat → ℝ} (h0 : 0 ≤ γ) (h1 : γ < 1) (hh : ∀ k, 0 ≤ h k)
    (ha : ∀ k, 0 ≤ a k) (hc : 0 ≤ c) {k0 : Nat} (hg : ∀ k, k0 ≤ k → h k ≤ γ)
    (hz : Tendsto a atTop (𝓝 0)) : Tendsto (grow h a c) atTop (𝓝 0) := by
  have h1' : 0 < 1 - γ := by linarith
  have hn := grow_nonneg hh ha hc
  rw [Metric.tendsto_atTop]
  intro ε hε
  have hη : 0 < ε / 2 * (1 - γ) := by positivity
  obtain ⟨N1, hN1⟩ := eventually_atTop.1 (hz.eventually_lt_const hη)
  have hb (k : Nat) : grow h a c (max N1 k0 + k) ≤ γ ^ k * grow h a c (max N1 k0) + ε / 2 := by
    induction k with
    | zero => rw [Nat.add_zero, pow_zero, one_mul]; linarith
    | succ k ih =>
      show h _ * grow h a c (max N1 k0 + k) + a _ ≤ _
      have e1 := hg (max N1 k0 + k) (by omega)
      have e2 := (hN1 (max N1 k0 + k) (by omega)).le
      have e3 : h (max N1 k0 + k) * grow h a c (max N1 k0 + k) ≤
          γ * (γ ^ k * grow h a c (max N1 k0) + ε / 2) :=
        mul_le_mul e1 ih (hn _) h0
      calc _ ≤ γ * (γ ^ k * grow h a c (max N1 k0) + ε / 2) + ε / 2 * (1 - γ) := add_le_add e3 e2
        _ = _ := by ring
  have hp : Tendsto (fun k => γ ^ k * grow h a c (max N1 k0)) atTop (𝓝 0) := by
    simpa using (tendsto_pow_atTop_nhds_zero_of_lt_one h0 h1).mul_const (grow h a c (max N1 k0))
  obtain ⟨N2, hN2⟩ := eventually_atTop.1 (hp.eventually_lt_const (half_pos hε))
  refine ⟨max N1 k0 + N2, fun n hle => ?_⟩
  obtain ⟨k, rfl⟩ := Nat.exists_eq_add_of_le hle
  rw [Real.dist_eq, sub_zero, abs_of_nonneg (hn _), Nat.add_assoc]
  have := hN2 (N2 + k) (by omega)
  linarith [hb (N2 + k)]

end two

/-! ### The estimator -/

section two
variable {m : Type} [Fintype m] [DecidableEq m] {A Q P L : Matrix (Fin 2) (Fin 2) ℝ}
  {H : Matrix m (Fin 2) ℝ} {R : Matrix m m ℝ}

/-- The covariance tends to a steady one. -/
structure Settles (A : Matrix (Fin 2) (Fin 2) ℝ) (H : Matrix m (Fin 2) ℝ) (Q : Matrix (Fin 2) (Fin 2) ℝ)
    (R : Matrix m m ℝ) (P L : Matrix (Fin 2) (Fin 2) ℝ) : Prop where
  hP : P.PosSemidef
  hL : L.PosDef
  hQ : Q.PosSemidef
  hR : R.PosDef
  hfix : ricc A H Q R L = L
  hW : (spread A H Q R L).PosDef
  hlim : ∀ i j, Tendsto (fun k => riccSeq A H Q R P k i j) atTop (𝓝 (L i j))

/-- The growth factors of the bound. -/
theorem Settles.factors (s : Settles A H Q R P L) : ∃ (Λ : Matrix (Fin 2) (Fin 2) ℝ) (t γ : ℝ)
    (g : Nat → ℝ) (k0 : Nat), Λ.PosDef ∧ 0 < t ∧ 0 < γ ∧ γ < 1 ∧ (∀ k, 0 ≤ g k) ∧ (∀ k, k0 ≤ k → (1 + t) * g k ≤ γ) ∧
    ∀ k, (g k • Λ - closed A H Q R (riccSeq A H Q R P k) * Λ *
      (closed A H Q R (riccSeq A H Q R P k))ᵀ).PosSemidef := by
  obtain ⟨ρ, hρ0, hρ1, hev⟩ := shrinks_eventually s.hP s.hL s.hQ s.hR s.hfix s.hW s.hlim
  have hΛ : (lyap A H Q R L).PosDef := lyap_posDef s.hL
  generalize lyap A H Q R L = Λ at hev hΛ
  obtain ⟨k0, hk0⟩ := eventually_atTop.1 hev
  obtain ⟨c, hc, hlow⟩ := posDef_lower hΛ
  have hpsd (k : Nat) := psd_congr hΛ.posSemidef (closed A H Q R (riccSeq A H Q R P k))
  refine ⟨Λ, (1 - ρ) / 4, (1 + ρ) / 2, fun k => if k0 ≤ k then ρ else
    ((closed A H Q R (riccSeq A H Q R P k) * Λ * (closed A H Q R (riccSeq A H Q R P k))ᵀ) 0 0 +
    (closed A H Q R (riccSeq A H Q R P k) * Λ * (closed A H Q R (riccSeq A H Q R P k))ᵀ) 1 1) / c,
    k0, hΛ, by linarith, by linarith, by linarith, fun k => ?_, fun k hk => ?_, fun k => ?_⟩
  · show 0 ≤ (if k0 ≤ k then _ else _)
    split
    · exact hρ0
    · have h0 := (hpsd k).diag_nonneg (i := 0)
      have h1 := (hpsd k).diag_nonneg (i := 1)
      positivity
  · show _ * (if k0 ≤ k then _ else _) ≤ _
    rw [if_pos hk]
    nlinarith
  · show ((if k0 ≤ k then _ else _) • Λ - _).PosSemidef
    split
    · exact hk0 k ‹_›
    · exact scale_above hc hlow (hpsd k)

/-- The gain in step `k`. -/
noncomputable def gainSeq (A : Matrix (Fin 2) (Fin 2) ℝ) (H : Matrix m (Fin 2) ℝ)
    (Q : Matrix (Fin 2) (Fin 2) ℝ) (R : Matrix m m ℝ) (P : Matrix (Fin 2) (Fin 2) ℝ) (k : Nat) :
    Matrix (Fin 2) m ℝ := riccSeq A H Q R P (k + 1) * Hᵀ * R⁻¹

theorem Settles.gain_tendsto (s : Settles A H Q R P L) (i : Fin 2) (j : m) :
    Tendsto (fun k => gainSeq A H Q R P k i j) atTop (𝓝 ((L * Hᵀ * R⁻¹) i j)) := by
  simp only [gainSeq, Matrix.mul_assoc]
  simp only [Matrix.mul_apply (N := Hᵀ * R⁻¹)]
  exact tendsto_finsetSum _ fun a _ =>
    ((tendsto_add_atTop_iff_nat 1).2 (s.hlim i a)).mul_const _

theorem Settles.gain_bound (s : Settles A H Q R P L) :
    ∃ b : ℝ, 0 ≤ b ∧ ∀ k i j, |gainSeq A H Q R P k i j| ≤ b := by
  have h (i : Fin 2) (j : m) : ∃ b : ℝ, ∀ k, |gainSeq A H Q R P k i j| ≤ b := by
    obtain ⟨b, hb⟩ := (s.gain_tendsto i j).abs.bddAbove_range
    exact ⟨b, fun k => hb ⟨k, rfl⟩⟩
  choose b hb using h
  refine ⟨∑ i, ∑ j, |b i j|, by positivity, fun k i j => (hb i j k).trans ?_⟩
  refine (le_abs_self _).trans ?_
  refine (Finset.single_le_sum (f := fun j => |b i j|) (fun _ _ => abs_nonneg _) (Finset.mem_univ j)).trans ?_
  exact Finset.single_le_sum (f := fun i => ∑ j, |b i j|) (fun _ _ => by positivity) (Finset.mem_univ i)

theorem mul_vec_le {a b : Type} [Fintype b] {M : Matrix a b ℝ} {v : Matrix b (Fin 1) ℝ} {r s : ℝ}
    (hr : 0 ≤ r) (hM : ∀ i j, |M i j| ≤ r) (hv : ∀ j, |v j 0| ≤ s) (i : a) :
    |(M * v) i 0| ≤ Fintype.card b * (r * s) := by
  rw [Matrix.mul_apply]
  refine (Finset.abs_sum_le_sum_abs _ _).trans ?_
  refine (Finset.sum_le_card_nsmul _ _ (r * s) fun j _ => ?_).trans (le_of_eq (by simp))
  rw [abs_mul]
  exact mul_le_mul (hM i j) (hv j) (abs_nonneg _) hr

theorem entry_bound {a b : Type} [Fintype a] [Fintype b] (M : Matrix a b ℝ) :
    ∃ r : ℝ, 0 ≤ r ∧ ∀ i j, |M i j| ≤ r := by
  refine ⟨∑ i, ∑ j, |M i j|, by positivity, fun i j => ?_⟩
  refine (Finset.single_le_sum (f := fun j => |M i j|) (fun _ _ => abs_nonneg _) (Finset.mem_univ j)).trans ?_
  exact Finset.single_le_sum (f := fun i => ∑ j, |M i j|) (fun _ _ => by positivity) (Finset.mem_univ i)

/-- What the disturbances of one step add to the error. -/
theorem Settles.noise_bound (s : Settles A H Q R P L) : ∃ κ : ℝ, 0 ≤ κ ∧ ∀ (k : Nat) (D : ℝ)
    (w : Matrix (Fin 2) (Fin 1) ℝ) (n : Matrix m (Fin 1) ℝ), 0 ≤ D → (∀ i, |w i 0| ≤ D) →
    (∀ i, |n i 0| ≤ D) → ∀ i, |(w - gainSeq A H Q R P k * (H * w + n)) i 0| ≤ κ * D := by
  obtain ⟨b, hb0, hb⟩ := s.gain_bound
  obtain ⟨r, hr0, hr⟩ := entry_bound H
  refine ⟨1 + Fintype.card m * (b * (2 * r + 1)), by positivity, fun k D w n hD hw hn i => ?_⟩
  have h1 (j : m) : |(H * w + n) j 0| ≤ (2 * r + 1) * D := by
    have := mul_vec_le hr0 hr hw j
    rw [Matrix.add_apply]
    refine (abs_add_le _ _).trans ((add_le_add this (hn j)).trans (le_of_eq ?_))
    simp; ring
  have h2 := mul_vec_le hb0 (hb k) h1 i
  rw [Matrix.sub_apply]
  refine (abs_sub _ _).trans ((add_le_add (hw i) h2).trans (le_of_eq ?_))
  ring

end two
end Verif.KF

namespace Verif
open Matrix Filter Topology

namespace Kalman
variable {m u : Dim}

theorem run_snoc {k k1 k2 : Kalman ℝ m u} {ds} {v z} (h1 : k.run ds = .ok k1)
    (h2 : k1.update v z = .ok k2) : k.run (ds ++ [(v, z)]) = .ok k2 := by
  rw [run_append, h1]
  show k1.run [(v, z)] = .ok k2
  exact run_cons.2 ⟨k2, h2, rfl⟩

theorem gainSeq_eq {k : Kalman ℝ m u} {L} (s : KF.Settles k.A.toMatrix k.H.toMatrix k.Q.toMatrix
    k.R.toMatrix k.P.toMatrix L) (n : Nat) :
    KF.closed k.A.toMatrix k.H.toMatrix k.Q.toMatrix k.R.toMatrix
      (KF.riccSeq k.A.toMatrix k.H.toMatrix k.Q.toMatrix k.R.toMatrix k.P.toMatrix n) =
    (1 - KF.gainSeq k.A.toMatrix k.H.toMatrix k.Q.toMatrix k.R.toMatrix k.P.toMatrix n * k.H.toMatrix) *
      k.A.toMatrix := by
  rw [KF.closed_post (KF.riccSeq_psd s.hP s.hQ s.hR n) s.hQ s.hR]
  rfl

/-- One more step of a run. -/
theorem run_step {k k1 : Kalman ℝ m u} {L} (s : KF.Settles k.A.toMatrix k.H.toMatrix k.Q.toMatrix
    k.R.toMatrix k.P.toMatrix L) {ds} (h1 : k.run ds = .ok k1) (v z) :
    ∃ k2, k.run (ds ++ [(v, z)]) = .ok k2 ∧
      k2.xhat.toMatrix = k.A.toMatrix * k1.xhat.toMatrix + k.B.toMatrix * v.toMatrix +
        KF.gainSeq k.A.toMatrix k.H.toMatrix k.Q.toMatrix k.R.toMatrix k.P.toMatrix ds.length *
          (z.toMatrix - k.H.toMatrix * (k.A.toMatrix * k1.xhat.toMatrix + k.B.toMatrix * v.toMatrix)) := by
  obtain ⟨k1', hr, hs, eP, -⟩ := run_ricc k ds s.hP s.hQ s.hR
  rw [h1] at hr
  cases hr
  obtain ⟨k2, G, h2, -, -, eP2, eG, ex, -⟩ := update_ricc k1 v z
    (by rw [eP]; exact KF.riccSeq_psd s.hP s.hQ s.hR _) (by rw [hs.Q]; exact s.hQ)
    (by rw [hs.R]; exact s.hR)
  refine ⟨k2, run_snoc h1 h2, ?_⟩
  rw [ex, eG, eP2, eP, xm, hs.A, hs.B, hs.H, hs.Q, hs.R]
  rfl

/-- The error stays within the bound. -/
theorem run_within {k : Kalman ℝ m u} {L} (s : KF.Settles k.A.toMatrix k.H.toMatrix k.Q.toMatrix
    k.R.toMatrix k.P.toMatrix L) {Λ : Matrix (Fin 2) (Fin 2) ℝ} {t δ c D : ℝ} {g : Nat → ℝ} (ht : 0 < t) (hg0 : ∀ k, 0 ≤ g k)
    (hg : ∀ j, (g j • Λ - KF.closed k.A.toMatrix k.H.toMatrix k.Q.toMatrix k.R.toMatrix
      (KF.riccSeq k.A.toMatrix k.H.toMatrix k.Q.toMatrix k.R.toMatrix k.P.toMatrix j) * Λ *
      (KF.closed k.A.toMatrix k.H.toMatrix k.Q.toMatrix k.R.toMatrix
      (KF.riccSeq k.A.toMatrix k.H.toMatrix k.Q.toMatrix k.R.toMatrix k.P.toMatrix j))ᵀ).PosSemidef)
    (hδ0 : 0 ≤ δ) (hc : 0 ≤ c)
    (hδ : ∀ j (w : Matrix (Fin 2) (Fin 1) ℝ) (n : Matrix (Fin m.val) (Fin 1) ℝ), (∀ i, |w i 0| ≤ D) →
      (∀ i, |n i 0| ≤ D) →
      (δ • Λ - (w - KF.gainSeq k.A.toMatrix k.H.toMatrix k.Q.toMatrix k.R.toMatrix k.P.toMatrix j *
        (k.H.toMatrix * w + n)) * (w - KF.gainSeq k.A.toMatrix k.H.toMatrix k.Q.toMatrix k.R.toMatrix
          k.P.toMatrix j * (k.H.toMatrix * w + n))ᵀ).PosSemidef)
    {x x' ds} (hx : (c • Λ - (x - k.xhat.toMatrix) * (x - k.xhat.toMatrix)ᵀ).PosSemidef)
    (hd : Disturbed k.A.toMatrix k.B.toMatrix k.H.toMatrix D x ds x') :
    ∃ k', k.run ds = .ok k' ∧
      (KF.grow (fun j => (1 + t) * g j) (fun _ => (1 + t⁻¹) * δ) c ds.length • Λ -
        (x' - k'.xhat.toMatrix) * (x' - k'.xhat.toMatrix)ᵀ).PosSemidef := by
  induction hd with
  | nil => exact ⟨k, rfl, hx⟩
  | snoc ds y v z w n _ hw hn hz ih =>
    obtain ⟨k1, h1, hp⟩ := ih
    obtain ⟨k2, h2, ex⟩ := run_step s h1 v z
    refine ⟨k2, h2, ?_⟩
    have := KF.within_step ht (KF.grow_nonneg (fun j => mul_nonneg (by positivity) (hg0 j))
      (fun _ => by positivity) hc _) hp (hg ds.length) (hδ ds.length w n hw hn)
    rw [gainSeq_eq s] at this
    rw [List.length_append, List.length_singleton, KF.grow, mul_assoc]
    convert this using 2
    have e : k.A.toMatrix * y + k.B.toMatrix * v.toMatrix + w - k2.xhat.toMatrix =
        (1 - KF.gainSeq k.A.toMatrix k.H.toMatrix k.Q.toMatrix k.R.toMatrix k.P.toMatrix ds.length *
          k.H.toMatrix) * k.A.toMatrix * (y - k1.xhat.toMatrix) +
        (w - KF.gainSeq k.A.toMatrix k.H.toMatrix k.Q.toMatrix k.R.toMatrix k.P.toMatrix ds.length *
          (k.H.toMatrix * w + n)) := by
      rw [ex, hz]
      simp only [Matrix.mul_sub, Matrix.sub_mul, Matrix.mul_add, Matrix.one_mul, Matrix.mul_assoc]
      abel
    rw [e]

/-- The error of the estimate: the initial error decays, the disturbances contribute in proportion. -/
theorem run_stable {A : Mat ℝ 2 2} {H : Mat ℝ m.val 2} {Q : Mat ℝ 2 2} {R : Mat ℝ m.val m.val} {P : Mat ℝ 2 2}
    {L} (s : KF.Settles A.toMatrix H.toMatrix Q.toMatrix R.toMatrix P.toMatrix L) :
    ∃ C γ : ℝ, 0 ≤ C ∧ 0 ≤ γ ∧ γ < 1 ∧ ∀ k : Kalman ℝ m u, k.A = A → k.H = H → k.Q = Q → k.R = R →
      k.P = P → ∀ (x : Matrix (Fin 2) (Fin 1) ℝ) (E D : ℝ), 0 ≤ E → 0 ≤ D →
      (∀ i, |x i 0 - k.xhat.toMatrix i 0| ≤ E) → ∀ ds x',
      Disturbed A.toMatrix k.B.toMatrix H.toMatrix D x ds x' →
      ∃ k', k.run ds = .ok k' ∧ ∀ i, |x' i 0 - k'.xhat.toMatrix i 0| ≤ C * (γ ^ ds.length * E + D) := by
  obtain ⟨Λ, t, γ, g, k0, hΛ, ht, hγ0, hγ1, hg0, hgγ, hg⟩ := s.factors
  obtain ⟨κ, hκ0, hκ⟩ := s.noise_bound
  obtain ⟨c, hc, hlow⟩ := KF.posDef_lower hΛ
  obtain ⟨M, hM, hb⟩ := KF.grow_bound (h := fun j => (1 + t) * g j) hγ0 hγ1
    (fun j => mul_nonneg (by positivity) (hg0 j)) hgγ
  have hγ1' : 0 < 1 - γ := by linarith
  obtain ⟨l, hl0, hl⟩ := KF.entry_bound Λ
  refine ⟨√(M * (2 / c) * l) + √(M * ((1 + t⁻¹) * (2 * κ ^ 2 / c) / (1 - γ)) * l), √γ, by positivity,
    Real.sqrt_nonneg _, by rw [Real.sqrt_lt' one_pos]; simpa using hγ1, ?_⟩
  rintro k rfl rfl rfl rfl rfl x E D hE hD hx ds x' hd
  have h0 := KF.vec_within (d := x - k.xhat.toMatrix) hc hΛ.posSemidef hlow hx
  obtain ⟨k', hr, hp⟩ := run_within s (δ := 2 * (κ * D) ^ 2 / c) ht hg0 hg (by positivity)
    (by positivity) (fun j w n hw hn => KF.vec_within hc hΛ.posSemidef hlow (hκ j D w n hD hw hn)) h0 hd
  refine ⟨k', hr, fun i => ?_⟩
  have hi := KF.within_vec hp i
  have hb' := hb ((1 + t⁻¹) * (2 * (κ * D) ^ 2 / c)) (2 * E ^ 2 / c) (by positivity) (by positivity)
    ds.length
  rw [Matrix.sub_apply] at hi
  have hll : Λ i i ≤ l := (le_abs_self _).trans (hl i i)
  have hL0 : 0 ≤ Λ i i := hΛ.posSemidef.diag_nonneg
  have h2 : (x' i 0 - k'.xhat.toMatrix i 0) ^ 2 ≤
      M * (2 / c) * l * (√γ ^ ds.length * E) ^ 2 +
        M * ((1 + t⁻¹) * (2 * κ ^ 2 / c) / (1 - γ)) * l * D ^ 2 := by
    have e1 : (√γ ^ ds.length * E) ^ 2 = γ ^ ds.length * E ^ 2 := by
      rw [mul_pow, ← pow_mul, mul_comm _ 2, pow_mul, Real.sq_sqrt hγ0.le]
    refine hi.trans ((mul_le_mul hb' hll hL0 (by positivity)).trans (le_of_eq ?_))
    rw [e1]
    field_simp
  have hX : 0 ≤ M * (2 / c) * l := by positivity
  have hY : 0 ≤ M * ((1 + t⁻¹) * (2 * κ ^ 2 / c) / (1 - γ)) * l := by positivity
  have hu : 0 ≤ √γ ^ ds.length * E := by positivity
  generalize √γ ^ ds.length * E = U at *
  generalize M * (2 / c) * l = X at *
  generalize M * ((1 + t⁻¹) * (2 * κ ^ 2 / c) / (1 - γ)) * l = Y at *
  have hsX := Real.sqrt_nonneg X
  have hsY := Real.sqrt_nonneg Y
  have h4 : X * U ^ 2 + Y * D ^ 2 ≤ ((√X + √Y) * (U + D)) ^ 2 := by
    have e : ((√X + √Y) * (U + D)) ^ 2 = √X ^ 2 * U ^ 2 + √Y ^ 2 * D ^ 2 +
        (√X ^ 2 * D ^ 2 + √Y ^ 2 * U ^ 2 + 2 * (√X * √Y) * (U + D) ^ 2 +
          2 * (√X ^ 2 + √Y ^ 2) * (U * D)) := by ring
    rw [e, Real.sq_sqrt hX, Real.sq_sqrt hY]
    have : 0 ≤ X * D ^ 2 + Y * U ^ 2 + 2 * (√X * √Y) * (U + D) ^ 2 + 2 * (X + Y) * (U * D) := by
      positivity
    linarith
  exact abs_le_of_sq_le_sq (h2.trans h4) (by positivity)

/-- Two estimators on the same data: the difference of their estimates stays within the bound. -/
theorem run_apart {k k2 : Kalman ℝ m u} (hm : SameModel k k2) {L L2}
    (s : KF.Settles k.A.toMatrix k.H.toMatrix k.Q.toMatrix k.R.toMatrix k.P.toMatrix L)
    (s2 : KF.Settles k2.A.toMatrix k2.H.toMatrix k2.Q.toMatrix k2.R.toMatrix k2.P.toMatrix L2)
    {Λ : Matrix (Fin 2) (Fin 2) ℝ} {t c D V : ℝ} {g δ : Nat → ℝ} (ht : 0 < t) (hg0 : ∀ k, 0 ≤ g k)
    (hg : ∀ j, (g j • Λ - KF.closed k2.A.toMatrix k2.H.toMatrix k2.Q.toMatrix k2.R.toMatrix
      (KF.riccSeq k2.A.toMatrix k2.H.toMatrix k2.Q.toMatrix k2.R.toMatrix k2.P.toMatrix j) * Λ *
      (KF.closed k2.A.toMatrix k2.H.toMatrix k2.Q.toMatrix k2.R.toMatrix
      (KF.riccSeq k2.A.toMatrix k2.H.toMatrix k2.Q.toMatrix k2.R.toMatrix k2.P.toMatrix j))ᵀ).PosSemidef)
    (hδ0 : ∀ j, 0 ≤ δ j) (hc : 0 ≤ c)
    (hδ : ∀ j (ν : Matrix (Fin m.val) (Fin 1) ℝ), (∀ i, |ν i 0| ≤ V) →
      (δ j • Λ - ((KF.gainSeq k.A.toMatrix k.H.toMatrix k.Q.toMatrix k.R.toMatrix k.P.toMatrix j -
        KF.gainSeq k2.A.toMatrix k2.H.toMatrix k2.Q.toMatrix k2.R.toMatrix k2.P.toMatrix j) * ν) *
        ((KF.gainSeq k.A.toMatrix k.H.toMatrix k.Q.toMatrix k.R.toMatrix k.P.toMatrix j -
        KF.gainSeq k2.A.toMatrix k2.H.toMatrix k2.Q.toMatrix k2.R.toMatrix k2.P.toMatrix j) * ν)ᵀ).PosSemidef)
    {x x' ds} (hx : (c • Λ - (k.xhat.toMatrix - k2.xhat.toMatrix) *
      (k.xhat.toMatrix - k2.xhat.toMatrix)ᵀ).PosSemidef)
    (hV : ∀ ds y k1, Disturbed k.A.toMatrix k.B.toMatrix k.H.toMatrix D x ds y → k.run ds = .ok k1 →
      ∀ (w : Matrix (Fin 2) (Fin 1) ℝ) (n : Matrix (Fin m.val) (Fin 1) ℝ), (∀ i, |w i 0| ≤ D) →
      (∀ i, |n i 0| ≤ D) → ∀ i, |(k.H.toMatrix * (k.A.toMatrix * (y - k1.xhat.toMatrix) + w) + n) i 0| ≤ V)
    (hd : Disturbed k.A.toMatrix k.B.toMatrix k.H.toMatrix D x ds x') :
    ∃ k' k2', k.run ds = .ok k' ∧ k2.run ds = .ok k2' ∧
      (KF.grow (fun j => (1 + t) * g j) (fun j => (1 + t⁻¹) * δ j) c ds.length • Λ -
        (k'.xhat.toMatrix - k2'.xhat.toMatrix) * (k'.xhat.toMatrix - k2'.xhat.toMatrix)ᵀ).PosSemidef := by
  induction hd with
  | nil => exact ⟨k, k2, rfl, rfl, hx⟩
  | snoc ds y v z w n hd hw hn hz ih =>
    obtain ⟨k1, k3, h1, h3, hp⟩ := ih
    obtain ⟨k1', h1', ex⟩ := run_step s h1 v z
    obtain ⟨k3', h3', ex3⟩ := run_step s2 h3 v z
    refine ⟨k1', k3', h1', h3', ?_⟩
    have := KF.within_step ht (KF.grow_nonneg (fun j => mul_nonneg (by positivity) (hg0 j))
      (fun j => mul_nonneg (by positivity) (hδ0 j)) hc _) hp (hg ds.length)
      (hδ ds.length _ (hV ds y k1 hd h1 w n hw hn))
    rw [gainSeq_eq s2] at this
    rw [List.length_append, List.length_singleton, KF.grow, mul_assoc]
    convert this using 2
    have e : k1'.xhat.toMatrix - k3'.xhat.toMatrix =
        (1 - KF.gainSeq k2.A.toMatrix k2.H.toMatrix k2.Q.toMatrix k2.R.toMatrix k2.P.toMatrix ds.length *
          k2.H.toMatrix) * k2.A.toMatrix * (k1.xhat.toMatrix - k3.xhat.toMatrix) +
        (KF.gainSeq k.A.toMatrix k.H.toMatrix k.Q.toMatrix k.R.toMatrix k.P.toMatrix ds.length -
          KF.gainSeq k2.A.toMatrix k2.H.toMatrix k2.Q.toMatrix k2.R.toMatrix k2.P.toMatrix ds.length) *
          (k.H.toMatrix * (k.A.toMatrix * (y - k1.xhat.toMatrix) + w) + n) := by
      rw [ex, ex3, hz]
      generalize KF.gainSeq k.A.toMatrix k.H.toMatrix k.Q.toMatrix k.R.toMatrix k.P.toMatrix ds.length = G
      generalize KF.gainSeq k2.A.toMatrix k2.H.toMatrix k2.Q.toMatrix k2.R.toMatrix k2.P.toMatrix ds.length
        = G2
      rw [hm.A, hm.B, hm.H]
      simp only [Matrix.mul_sub, Matrix.sub_mul, Matrix.mul_add, Matrix.one_mul,
        Matrix.mul_assoc]
      abel
    rw [e]

/-- The initial estimate and the initial covariance are forgotten. -/
theorem run_forget {A : Mat ℝ 2 2} {H : Mat ℝ m.val 2} {Q : Mat ℝ 2 2} {R : Mat ℝ m.val m.val}
    {P P2 : Mat ℝ 2 2} {L} (s : KF.Settles A.toMatrix H.toMatrix Q.toMatrix R.toMatrix P.toMatrix L)
    (s2 : KF.Settles A.toMatrix H.toMatrix Q.toMatrix R.toMatrix P2.toMatrix L)
    (E D ε : ℝ) (hE : 0 ≤ E) (hD : 0 ≤ D) (hε : 0 < ε) :
    ∃ N : Nat, ∀ k k2 : Kalman ℝ m u, k.A = A → k.H = H → k.Q = Q → k.R = R → k.P = P → k2.P = P2 →
      SameModel k k2 → ∀ x : Matrix (Fin 2) (Fin 1) ℝ, (∀ i, |x i 0 - k.xhat.toMatrix i 0| ≤ E) →
      (∀ i, |x i 0 - k2.xhat.toMatrix i 0| ≤ E) → ∀ ds x',
      Disturbed A.toMatrix k.B.toMatrix H.toMatrix D x ds x' → N ≤ ds.length →
      ∃ k' k2', k.run ds = .ok k' ∧ k2.run ds = .ok k2' ∧
        Steady.Close ε k'.xhat.toMatrix k2'.xhat.toMatrix := by
  obtain ⟨C, γ', hC, hγ'0, hγ'1, hst⟩ := run_stable (u := u) s
  obtain ⟨Λ, t, γ, g, k0, hΛ, ht, hγ0, hγ1, hg0, hgγ, hg⟩ := s2.factors
  obtain ⟨c, hc, hlow⟩ := KF.posDef_lower hΛ
  obtain ⟨l, hl0, hl⟩ := KF.entry_bound Λ
  obtain ⟨rA, hA0, hA⟩ := KF.entry_bound A.toMatrix
  obtain ⟨rH, hH0, hH⟩ := KF.entry_bound H.toMatrix
  -- the innovation is bounded
  let V := 2 * (rH * (2 * (rA * (C * (E + D))) + D)) + D
  have hV0 : 0 ≤ V := by positivity
  -- the difference of the gains vanishes
  let b : Nat → ℝ := fun j => ∑ a, ∑ i,
    |(KF.gainSeq A.toMatrix H.toMatrix Q.toMatrix R.toMatrix P.toMatrix j -
      KF.gainSeq A.toMatrix H.toMatrix Q.toMatrix R.toMatrix P2.toMatrix j) a i|
  have hb0 (j : Nat) : 0 ≤ b j := by positivity
  have hbz : Tendsto b atTop (𝓝 0) := by
    rw [show (0 : ℝ) = ∑ a : Fin 2, ∑ i : Fin m.val, |(L * H.toMatrixᵀ * R.toMatrix⁻¹) a i -
      (L * H.toMatrixᵀ * R.toMatrix⁻¹) a i| by simp]
    refine tendsto_finsetSum _ fun a _ => tendsto_finsetSum _ fun i _ => ?_
    exact ((s.gain_tendsto a i).sub (s2.gain_tendsto a i)).abs
  have hb (j : Nat) (a : Fin 2) (i : Fin m.val) :
      |(KF.gainSeq A.toMatrix H.toMatrix Q.toMatrix R.toMatrix P.toMatrix j -
        KF.gainSeq A.toMatrix H.toMatrix Q.toMatrix R.toMatrix P2.toMatrix j) a i| ≤ b j := by
    refine (Finset.single_le_sum (f := fun i => |(KF.gainSeq A.toMatrix H.toMatrix Q.toMatrix R.toMatrix
      P.toMatrix j - KF.gainSeq A.toMatrix H.toMatrix Q.toMatrix R.toMatrix P2.toMatrix j) a i|)
      (fun _ _ => abs_nonneg _) (Finset.mem_univ i)).trans ?_
    exact Finset.single_le_sum (f := fun a => ∑ i, |(KF.gainSeq A.toMatrix H.toMatrix Q.toMatrix R.toMatrix
      P.toMatrix j - KF.gainSeq A.toMatrix H.toMatrix Q.toMatrix R.toMatrix P2.toMatrix j) a i|)
      (fun _ _ => by positivity) (Finset.mem_univ a)
  have hz : Tendsto (KF.grow (fun j => (1 + t) * g j)
      (fun j => (1 + t⁻¹) * (2 * (Fintype.card (Fin m.val) * (b j * V)) ^ 2 / c)) (2 * (E + E) ^ 2 / c))
      atTop (𝓝 0) := by
    refine KF.grow_tendsto hγ0.le hγ1 (fun j => mul_nonneg (by positivity) (hg0 j))
      (fun j => by have := hb0 j; positivity) (by positivity) hgγ ?_
    have := (((((hbz.mul_const V).const_mul (Fintype.card (Fin m.val) : ℝ)).pow 2).const_mul 2).div_const
      c).const_mul (1 + t⁻¹)
    simpa using this
  have hz2 := (hz.mul_const l)
  rw [zero_mul] at hz2
  obtain ⟨N, hN⟩ := eventually_atTop.1 (hz2.eventually_lt_const (by positivity : 0 < ε ^ 2))
  refine ⟨N, ?_⟩
  rintro k k2 rfl rfl rfl rfl rfl rfl hm x hx hx2 ds x' hd hlen
  rw [← hm.A, ← hm.H, ← hm.Q, ← hm.R] at s2
  have hdiff (i : Fin 2) : |(k.xhat.toMatrix - k2.xhat.toMatrix) i 0| ≤ E + E := by
    rw [Matrix.sub_apply]
    have e : k.xhat.toMatrix i 0 - k2.xhat.toMatrix i 0 =
        (x i 0 - k2.xhat.toMatrix i 0) - (x i 0 - k.xhat.toMatrix i 0) := by ring
    rw [e]
    exact (abs_sub _ _).trans (add_le_add (hx2 i) (hx i))
  obtain ⟨k', k2', h1, h2, hp⟩ := run_apart (D := D) (V := V) hm s s2 ht hg0
    (by rw [hm.A, hm.H, hm.Q, hm.R]; exact hg)
    (δ := fun j => 2 * (Fintype.card (Fin m.val) * (b j * V)) ^ 2 / c) (fun j => by positivity)
    (by positivity : 0 ≤ 2 * (E + E) ^ 2 / c)
    (fun j ν hν => by
      refine KF.vec_within hc hΛ.posSemidef hlow (KF.mul_vec_le (hb0 j) ?_ hν)
      rw [hm.A, hm.H, hm.Q, hm.R]
      exact hb j)
    (KF.vec_within hc hΛ.posSemidef hlow hdiff)
    (fun ds y k1 hd hr w n hw hn i => by
      obtain ⟨k1', hr', he⟩ := hst k rfl rfl rfl rfl rfl x E D hE hD hx ds y hd
      rw [hr] at hr'
      cases hr'
      have he' (i : Fin 2) : |(y - k1.xhat.toMatrix) i 0| ≤ C * (E + D) := by
        refine (he i).trans ?_
        gcongr
        exact mul_le_of_le_one_left hE (pow_le_one₀ hγ'0 hγ'1.le)
      have e1 (i : Fin 2) : |(k.A.toMatrix * (y - k1.xhat.toMatrix) + w) i 0| ≤
          2 * (rA * (C * (E + D))) + D := by
        have := KF.mul_vec_le hA0 hA he' i
        rw [Fintype.card_fin] at this
        exact (abs_add_le _ _).trans (add_le_add this (hw i))
      have := KF.mul_vec_le hH0 hH e1 i
      rw [Fintype.card_fin] at this
      exact (abs_add_le _ _).trans (add_le_add this (hn i)))
    hd
  refine ⟨k', k2', h1, h2, fun i j => ?_⟩
  have hj : j = 0 := Subsingleton.elim _ _
  subst hj
  have hi := KF.within_vec hp i
  have hN' := hN ds.length hlen
  have hgn := KF.grow_nonneg (h := fun j => (1 + t) * g j)
    (a := fun j => (1 + t⁻¹) * (2 * (Fintype.card (Fin m.val) * (b j * V)) ^ 2 / c))
    (c := 2 * (E + E) ^ 2 / c) (fun j => mul_nonneg (by positivity) (hg0 j))
    (fun j => by positivity) (by positivity) ds.length
  have hll : Λ i i ≤ l := (le_abs_self _).trans (hl i i)
  rw [Matrix.sub_apply] at hi
  exact abs_lt_of_sq_lt_sq (hi.trans_lt ((mul_le_mul_of_nonneg_left hll hgn).trans_lt hN')) hε.le

end Kalman
end Verif
