import Verif.Lemmas.Trajectory
import Verif.Lemmas.KalmanStat
import Verif.Props.Kalman

/-
Properties C79-C83: in what sense the estimates of include/dsp/kalman.hpp are optimal.  The numeric
type is the real numbers.
-/

namespace Verif
open Matrix Kalman MeasureTheory
variable {m u : Dim}

/-! ## C79 The estimate ends the best-fitting trajectory -/

/-- C79: among all trajectories for the given controls and measurements one ending in the estimate has
the least total misfit, and every trajectory that ends elsewhere has a larger one. -/
theorem C79_best_trajectory (k : Kalman ℝ m u) (ds)
    (hP : k.P.toMatrix.PosDef) (hQ : k.Q.toMatrix.PosDef) (hR : k.R.toMatrix.PosDef) :
    ∃ k' x l, k.run ds = .ok k' ∧ l.map Prod.fst = ds ∧
      lastState x l = k'.system_state.toMatrix ∧
      ∀ x' l', l'.map Prod.fst = ds →
        totalMisfit k.A.toMatrix k.B.toMatrix k.H.toMatrix k.Q.toMatrix k.R.toMatrix
            k.P.toMatrix k.xhat.toMatrix x l ≤
          totalMisfit k.A.toMatrix k.B.toMatrix k.H.toMatrix k.Q.toMatrix k.R.toMatrix
            k.P.toMatrix k.xhat.toMatrix x' l' ∧
        (lastState x' l' ≠ k'.system_state.toMatrix →
          totalMisfit k.A.toMatrix k.B.toMatrix k.H.toMatrix k.Q.toMatrix k.R.toMatrix
              k.P.toMatrix k.xhat.toMatrix x l <
            totalMisfit k.A.toMatrix k.B.toMatrix k.H.toMatrix k.Q.toMatrix k.R.toMatrix
              k.P.toMatrix k.xhat.toMatrix x' l') := by
  obtain ⟨k', h', hP', c, hlow, hatt⟩ := trajectory_run k ds hP hQ hR
  obtain ⟨x, l, hl, hy, he⟩ := hatt k'.xhat.toMatrix
  have h0 : LS.quad k'.P.toMatrix⁻¹ (k'.xhat.toMatrix - k'.xhat.toMatrix) = 0 := by simp [LS.quad]
  rw [h0, zero_add] at he
  refine ⟨k', x, l, h', hl, hy, fun x' l' hl' => ⟨?_, fun hne => ?_⟩⟩
  · have h1 := hlow x' l' hl'
    have h2 := LS.quad_nonneg hP'.inv (lastState x' l' - k'.xhat.toMatrix)
    show LS.quad _ _ + _ ≤ LS.quad _ _ + _
    linarith
  · have h1 := hlow x' l' hl'
    have h2 : 0 < LS.quad k'.P.toMatrix⁻¹ (lastState x' l' - k'.xhat.toMatrix) :=
      LS.quad_pos hP'.inv (sub_ne_zero.2 hne)
    show LS.quad _ _ + _ < LS.quad _ _ + _
    linarith

theorem exK_one : exK.P.toMatrix = 1 ∧ exK.Q.toMatrix = 1 ∧ exK.R.toMatrix = 1 := by
  refine ⟨one22, one22, ?_⟩
  ext i j
  have hi : i = 0 := Subsingleton.elim _ _
  have hj : j = 0 := Subsingleton.elim _ _
  subst hi; subst hj
  rfl

example : exK.P.toMatrix.PosDef ∧ exK.Q.toMatrix.PosDef ∧ exK.R.toMatrix.PosDef := by
  obtain ⟨h1, h2, h3⟩ := exK_one
  rw [h1, h2, h3]
  exact ⟨.one, .one, .one⟩

/-! ## C80 The reported covariance is the covariance of the actual error -/

section random
variable {Ω : Type} [MeasurableSpace Ω]

/-- C80: if the initial error has the covariance given to the estimator and the disturbances have the
covariances `Q` and `R` and all are uncorrelated, then after any number of steps the covariance of the
actual estimation error is the covariance the estimator reports (which does not depend on chance). -/
theorem C80_error_covariance (μ : Measure Ω) (k : Kalman ℝ m u) (X : Ω → State)
    (steps : List (NoisyStep Ω u.val m.val)) (hR : k.R.toMatrix.PosDef)
    (hQ : k.Q.toMatrix.PosSemidef)
    (hu : Uncorrelated μ (fun ω => X ω - k.system_state.toMatrix) steps)
    (h0 : moment μ (fun ω => X ω - k.system_state.toMatrix)
      (fun ω => X ω - k.system_state.toMatrix) = k.P.toMatrix)
    (hn : ∀ s ∈ steps, moment μ s.process s.process = k.Q.toMatrix ∧
      moment μ s.measurement s.measurement = k.R.toMatrix) :
    ∃ κ : Ω → Kalman ℝ m u,
      (∀ ω, k.run (observed k.A.toMatrix k.B.toMatrix k.H.toMatrix X steps ω) = .ok (κ ω)) ∧
      ∀ ω₀, (κ ω₀).estimation_error_covariance.toMatrix =
        moment μ (fun ω => truth k.A.toMatrix k.B.toMatrix X steps ω - (κ ω).system_state.toMatrix)
          (fun ω => truth k.A.toMatrix k.B.toMatrix X steps ω - (κ ω).system_state.toMatrix) := by
  have hP : k.P.toMatrix.PosSemidef := by rw [← h0]; exact moment_psd hu.initial
  obtain ⟨Gs, κ, hlen, hrun, herr, hcov⟩ := random_run k (fun _ => k)
    (fun _ => ⟨SameModel.rfl' k, rfl⟩) X steps hP hQ hR
  refine ⟨κ, hrun, fun ω₀ => ?_⟩
  have e : (fun ω => truth k.A.toMatrix k.B.toMatrix X steps ω - (κ ω).system_state.toMatrix) =
      errors k.A.toMatrix k.H.toMatrix (Gs.zip steps) (fun ω => X ω - k.xhat.toMatrix) := funext herr
  have hz : (Gs.zip steps).map Prod.snd = steps := List.map_snd_zip hlen.ge
  have hz1 : (Gs.zip steps).map Prod.fst = Gs := List.map_fst_zip hlen.le
  rw [e, errors_covs (Q := k.Q.toMatrix) (R := k.R.toMatrix) _ _ (by rw [hz]; exact hu)
    (by rw [hz]; exact hn), hz1]
  refine (hcov ω₀).trans ?_
  rw [← h0]
  rfl

/-- The mean of a random vector. -/
noncomputable def mean (μ : Measure Ω) {n : Nat} (f : Ω → Matrix (Fin n) (Fin 1) ℝ) :
    Matrix (Fin n) (Fin 1) ℝ := Matrix.of fun i _ => ∫ ω, f ω i 0 ∂μ

/-- C80: if initial error and disturbances have mean zero, so has the estimation error. -/
theorem C80_unbiased (μ : Measure Ω) [IsFiniteMeasure μ] (k : Kalman ℝ m u) (X : Ω → State)
    (steps : List (NoisyStep Ω u.val m.val)) (hP : k.P.toMatrix.PosSemidef)
    (hQ : k.Q.toMatrix.PosSemidef) (hR : k.R.toMatrix.PosDef)
    (hu : Uncorrelated μ (fun ω => X ω - k.system_state.toMatrix) steps)
    (h0 : mean μ (fun ω => X ω - k.system_state.toMatrix) = 0)
    (hn : ∀ s ∈ steps, mean μ s.process = 0 ∧ mean μ s.measurement = 0) :
    ∃ κ : Ω → Kalman ℝ m u,
      (∀ ω, k.run (observed k.A.toMatrix k.B.toMatrix k.H.toMatrix X steps ω) = .ok (κ ω)) ∧
      mean μ (fun ω => truth k.A.toMatrix k.B.toMatrix X steps ω - (κ ω).system_state.toMatrix) =
        0 := by
  obtain ⟨Gs, κ, hlen, hrun, herr, hcov⟩ := random_run k (fun _ => k)
    (fun _ => ⟨SameModel.rfl' k, rfl⟩) X steps hP hQ hR
  refine ⟨κ, hrun, ?_⟩
  have e : (fun ω => truth k.A.toMatrix k.B.toMatrix X steps ω - (κ ω).system_state.toMatrix) =
      errors k.A.toMatrix k.H.toMatrix (Gs.zip steps) (fun ω => X ω - k.xhat.toMatrix) := funext herr
  rw [e]
  clear e herr hcov hrun
  have hz : (Gs.zip steps).map Prod.snd = steps := List.map_snd_zip hlen.ge
  generalize Gs.zip steps = l at *
  rw [← hz] at hu hn
  clear hz hlen
  change Uncorrelated μ (fun ω => X ω - k.xhat.toMatrix) _ at hu
  change mean μ (fun ω => X ω - k.xhat.toMatrix) = 0 at h0
  generalize (fun ω => X ω - k.xhat.toMatrix) = e at *
  induction l generalizing e with
  | nil => exact h0
  | cons a l ih =>
    obtain ⟨G, s⟩ := a
    refine ih (fun t ht => hn t (by rw [List.map_cons]; exact List.mem_cons_of_mem _ ht))
      (nextError k.A.toMatrix k.H.toMatrix G e s) (nextError_uncorrelated hu G) ?_
    obtain ⟨hw, hv⟩ := hu.noise s (by simp)
    obtain ⟨mw, mv⟩ := hn s (by simp)
    have I {n : Nat} {f : Ω → Matrix (Fin n) (Fin 1) ℝ} (hf : SquareIntegrable μ f) (i) :
        Integrable (fun ω => f ω i 0) μ := (hf i).integrable (by norm_num)
    have mm {n p : Nat} {f : Ω → Matrix (Fin n) (Fin 1) ℝ} (hf : SquareIntegrable μ f)
        (M : Matrix (Fin p) (Fin n) ℝ) : mean μ (fun ω => M * f ω) = M * mean μ f := by
      ext i j
      simp only [mean, Matrix.of_apply, Matrix.mul_apply]
      rw [integral_finsetSum _ fun k _ => (I hf k).const_mul _]
      simp only [integral_const_mul]
    have ma {n : Nat} {f g : Ω → Matrix (Fin n) (Fin 1) ℝ} (hf : SquareIntegrable μ f)
        (hg : SquareIntegrable μ g) : mean μ (fun ω => f ω + g ω) = mean μ f + mean μ g := by
      ext i j
      simp only [mean, Matrix.of_apply, Matrix.add_apply]
      exact integral_add (I hf i) (I hg i)
    have ms {n : Nat} {f g : Ω → Matrix (Fin n) (Fin 1) ℝ} (hf : SquareIntegrable μ f)
        (hg : SquareIntegrable μ g) : mean μ (fun ω => f ω - g ω) = mean μ f - mean μ g := by
      ext i j
      simp only [mean, Matrix.of_apply, Matrix.sub_apply]
      exact integral_sub (I hf i) (I hg i)
    have he := hu.initial
    unfold nextError
    rw [ms (((he.mul _).add hw).mul _) (hv.mul _), mm ((he.mul _).add hw), ma (he.mul _) hw, mm he,
      mm hv, h0, mw, mv]
    simp

/-! ## C81 Overstated noise: the reported covariance is an upper bound -/

/-- C81: if initial uncertainty and disturbances are at most as strong as the estimator was told, the
covariance of the actual error is at most the reported one; in particular each variance. -/
theorem C81_conservative (μ : Measure Ω) (k : Kalman ℝ m u) (X : Ω → State)
    (steps : List (NoisyStep Ω u.val m.val)) (hP : k.P.toMatrix.PosSemidef)
    (hQ : k.Q.toMatrix.PosSemidef) (hR : k.R.toMatrix.PosDef)
    (hu : Uncorrelated μ (fun ω => X ω - k.system_state.toMatrix) steps)
    (h0 : (k.P.toMatrix - moment μ (fun ω => X ω - k.system_state.toMatrix)
      (fun ω => X ω - k.system_state.toMatrix)).PosSemidef)
    (hn : ∀ s ∈ steps, (k.Q.toMatrix - moment μ s.process s.process).PosSemidef ∧
      (k.R.toMatrix - moment μ s.measurement s.measurement).PosSemidef) :
    ∃ κ : Ω → Kalman ℝ m u,
      (∀ ω, k.run (observed k.A.toMatrix k.B.toMatrix k.H.toMatrix X steps ω) = .ok (κ ω)) ∧
      ∀ ω₀, ((κ ω₀).estimation_error_covariance.toMatrix -
        moment μ (fun ω => truth k.A.toMatrix k.B.toMatrix X steps ω - (κ ω).system_state.toMatrix)
          (fun ω => truth k.A.toMatrix k.B.toMatrix X steps ω -
            (κ ω).system_state.toMatrix)).PosSemidef ∧
        ∀ i, ∫ ω, (truth k.A.toMatrix k.B.toMatrix X steps ω i 0 -
            (κ ω).system_state.toMatrix i 0) ^ 2 ∂μ ≤
          (κ ω₀).estimation_error_covariance.toMatrix i i := by
  obtain ⟨Gs, κ, hlen, hrun, herr, hcov⟩ := random_run k (fun _ => k)
    (fun _ => ⟨SameModel.rfl' k, rfl⟩) X steps hP hQ hR
  refine ⟨κ, hrun, fun ω₀ => ?_⟩
  have e : (fun ω => truth k.A.toMatrix k.B.toMatrix X steps ω - (κ ω).system_state.toMatrix) =
      errors k.A.toMatrix k.H.toMatrix (Gs.zip steps) (fun ω => X ω - k.xhat.toMatrix) := funext herr
  have hz : (Gs.zip steps).map Prod.snd = steps := List.map_snd_zip hlen.ge
  have hz1 : (Gs.zip steps).map Prod.fst = Gs := List.map_fst_zip hlen.le
  have h := errors_le (A := k.A.toMatrix) (H := k.H.toMatrix) (Gs.zip steps) _
    (by rw [hz]; exact hu) h0 (by rw [hz]; exact hn)
  rw [hz1, ← hcov ω₀] at h
  change ((κ ω₀).P.toMatrix - moment μ (errors k.A.toMatrix k.H.toMatrix (Gs.zip steps)
    (fun ω => X ω - k.xhat.toMatrix)) (errors k.A.toMatrix k.H.toMatrix (Gs.zip steps)
    (fun ω => X ω - k.xhat.toMatrix))).PosSemidef at h
  rw [← e] at h
  refine ⟨h, fun i => ?_⟩
  have := h.diag_nonneg (i := i)
  simp only [Matrix.sub_apply, moment, Matrix.of_apply, ← sq] at this
  exact sub_nonneg.1 this

/-! ## C82 No filter of the same form does better -/

/-- C82: for noise as in C80, every filter that starts with the same estimate and corrects its
prediction by arbitrary gains has an error covariance at least the one reported. -/
theorem C82_best_gains (μ : Measure Ω) (k : Kalman ℝ m u) (X : Ω → State)
    (steps : List (NoisyStep Ω u.val m.val)) (hR : k.R.toMatrix.PosDef)
    (hQ : k.Q.toMatrix.PosSemidef)
    (hu : Uncorrelated μ (fun ω => X ω - k.system_state.toMatrix) steps)
    (h0 : moment μ (fun ω => X ω - k.system_state.toMatrix)
      (fun ω => X ω - k.system_state.toMatrix) = k.P.toMatrix)
    (hn : ∀ s ∈ steps, moment μ s.process s.process = k.Q.toMatrix ∧
      moment μ s.measurement s.measurement = k.R.toMatrix)
    (Gs : List (Matrix (Fin 2) (Fin m.val) ℝ)) (hG : Gs.length = steps.length)
    (y : Ω → State) (hy : y = otherFilter k.A.toMatrix k.B.toMatrix k.H.toMatrix
      (fun _ => k.system_state.toMatrix) Gs
      (observed k.A.toMatrix k.B.toMatrix k.H.toMatrix X steps)) :
    ∀ ω₀, ∃ k', k.run (observed k.A.toMatrix k.B.toMatrix k.H.toMatrix X steps ω₀) = .ok k' ∧
      (moment μ (fun ω => truth k.A.toMatrix k.B.toMatrix X steps ω - y ω)
        (fun ω => truth k.A.toMatrix k.B.toMatrix X steps ω - y ω) -
          k'.estimation_error_covariance.toMatrix).PosSemidef := by
  intro ω₀
  have hP : k.P.toMatrix.PosSemidef := by rw [← h0]; exact moment_psd hu.initial
  obtain ⟨k', h', -, hopt⟩ := run_covs k
    (observed k.A.toMatrix k.B.toMatrix k.H.toMatrix X steps ω₀) hP hQ hR
  have hl : (observed k.A.toMatrix k.B.toMatrix k.H.toMatrix X steps ω₀).length = steps.length := by
    clear h' hopt hu hn hy hG h0
    induction steps generalizing X with
    | nil => rfl
    | cons s l ih => simp only [observed, List.length_cons, ih]
  refine ⟨k', h', ?_⟩
  have h := hopt Gs (hG.trans hl.symm)
  have e : (fun ω => truth k.A.toMatrix k.B.toMatrix X steps ω - y ω) =
      errors k.A.toMatrix k.H.toMatrix (Gs.zip steps) (fun ω => X ω - k.xhat.toMatrix) := by
    rw [hy]
    exact funext fun ω => otherFilter_error k.A.toMatrix k.B.toMatrix k.H.toMatrix
      (fun _ => k.system_state.toMatrix) X Gs steps hG ω
  have hz : (Gs.zip steps).map Prod.snd = steps := List.map_snd_zip hG.ge
  have hz1 : (Gs.zip steps).map Prod.fst = Gs := List.map_fst_zip hG.le
  rw [e, errors_covs (Q := k.Q.toMatrix) (R := k.R.toMatrix) _ _ (by rw [hz]; exact hu)
    (by rw [hz]; exact hn), hz1]
  rw [← h0] at h
  exact h

end random

/-! ## C83 More uncertainty in, more uncertainty out -/

/-- C83: of two estimators for the same system, the one given the larger initial covariance and noise
covariances reports the larger covariance after equally many updates, whatever the data. -/
theorem C83_monotone (k₁ k₂ : Kalman ℝ m u) (ds₁ ds₂) (hA : k₁.A = k₂.A) (hH : k₁.H = k₂.H)
    (hP₁ : k₁.P.toMatrix.PosSemidef) (hQ₁ : k₁.Q.toMatrix.PosSemidef) (hR₁ : k₁.R.toMatrix.PosDef)
    (hP : (k₂.P.toMatrix - k₁.P.toMatrix).PosSemidef)
    (hQ : (k₂.Q.toMatrix - k₁.Q.toMatrix).PosSemidef)
    (hR : (k₂.R.toMatrix - k₁.R.toMatrix).PosSemidef) (hlen : ds₁.length = ds₂.length) :
    ∃ k₁' k₂', k₁.run ds₁ = .ok k₁' ∧ k₂.run ds₂ = .ok k₂' ∧
      (k₂'.estimation_error_covariance.toMatrix -
        k₁'.estimation_error_covariance.toMatrix).PosSemidef := by
  have hP₂ : k₂.P.toMatrix.PosSemidef := by simpa using hP.add hP₁
  have hQ₂ : k₂.Q.toMatrix.PosSemidef := by simpa using hQ.add hQ₁
  have hR₂ : k₂.R.toMatrix.PosDef := by simpa using hR₁.posSemidef_add hR
  obtain ⟨k₁', h₁, -, hopt⟩ := run_covs k₁ ds₁ hP₁ hQ₁ hR₁
  obtain ⟨k₂', h₂, ⟨Gs, hl, e⟩, -⟩ := run_covs k₂ ds₂ hP₂ hQ₂ hR₂
  refine ⟨k₁', k₂', h₁, h₂, ?_⟩
  have a := hopt Gs (hl.trans hlen.symm)
  have b := covs_mono (A := k₁.A.toMatrix) (H := k₁.H.toMatrix) Gs hP hQ hR
  rw [hA, hH] at a b
  rw [← e] at b
  have := b.add a
  rwa [sub_add_sub_cancel] at this

example : exK.P.toMatrix.PosSemidef ∧ exK.Q.toMatrix.PosSemidef ∧ exK.R.toMatrix.PosDef ∧
    (({ exK with P := Mat.mk22 2 0 0 2 } : Kalman ℝ .one .one).P.toMatrix -
      exK.P.toMatrix).PosSemidef := by
  refine ⟨exK_psd.1, exK_psd.2.1, exK_psd.2.2, ?_⟩
  rw [exK_one.1]
  have : (Mat.mk22 (2 : ℝ) 0 0 2).toMatrix - 1 = 1 := by
    rw [Mat.toMatrix_mk22, Matrix.one_fin_two]
    ext i j
    fin_cases i <;> fin_cases j <;> norm_num
  show ((Mat.mk22 (2 : ℝ) 0 0 2).toMatrix - 1).PosSemidef
  rw [this]
  exact .one

/-! ### A concrete noisy system for C80-C82

Sixteen equally likely outcomes; the components of the noise are different Walsh functions (products
of four fair signs), so they have mean 0, variance 1 and are uncorrelated. -/

/-- Walsh function number `a`. -/
def walsh (a i : Fin 16) : ℤ :=
  [0, 1, 2, 3].foldl (fun s b => if a.val.testBit b && i.val.testBit b then -s else s) 1

theorem walsh_orthogonal : ∀ a b : Fin 16, ∑ i, walsh a i * walsh b i = if a = b then 16 else 0 := by
  decide +kernel

theorem walsh_mean : ∀ a : Fin 16, a ≠ 0 → ∑ i, walsh a i = 0 := by
  decide +kernel

/-- The uniform distribution. -/
noncomputable def exμ : Measure (Fin 16) := (1 / 16 : ENNReal) • Measure.count

instance : IsFiniteMeasure exμ := by
  constructor
  simp [exμ, ENNReal.mul_lt_top_iff]

theorem exμ_integral (f : Fin 16 → ℝ) : ∫ ω, f ω ∂exμ = (∑ i, f i) / 16 := by
  rw [exμ, integral_smul_measure, integral_count]
  simp [div_eq_inv_mul]

/-- A random vector with the given Walsh functions as components. -/
noncomputable def exVec {n : Nat} (a : Fin n → Fin 16) : Fin 16 → Matrix (Fin n) (Fin 1) ℝ :=
  fun ω => Matrix.of fun i _ => (walsh (a i) ω : ℝ)

theorem exVec_sq {n : Nat} (a : Fin n → Fin 16) : SquareIntegrable exμ (exVec a) :=
  fun _ => .of_discrete

theorem exVec_moment {n p : Nat} (a : Fin n → Fin 16) (b : Fin p → Fin 16) :
    moment exμ (exVec a) (exVec b) = Matrix.of fun i j => if a i = b j then 1 else 0 := by
  ext i j
  simp only [moment, exVec, Matrix.of_apply, exμ_integral]
  have := walsh_orthogonal (a i) (b j)
  have h : (∑ ω, (walsh (a i) ω : ℝ) * (walsh (b j) ω : ℝ)) = ((∑ ω, walsh (a i) ω * walsh (b j) ω : ℤ) : ℝ) := by
    push_cast; rfl
  rw [h, this]
  split <;> norm_num

/-- Two steps of noise. -/
noncomputable def exSteps : List (NoisyStep (Fin 16) 1 1) :=
  [⟨⟨#v[1]⟩, exVec ![3, 4], exVec ![5]⟩, ⟨⟨#v[-2]⟩, exVec ![6, 7], exVec ![8]⟩]

theorem exUncorrelated : Uncorrelated exμ (exVec ![1, 2]) exSteps := by
  refine ⟨exVec_sq _, ?_, ?_, ?_, ?_⟩
  · intro s hs
    simp only [exSteps, List.mem_cons, List.not_mem_nil, or_false] at hs
    rcases hs with rfl | rfl <;> exact ⟨exVec_sq _, exVec_sq _⟩
  · intro s hs
    simp only [exSteps, List.mem_cons, List.not_mem_nil, or_false] at hs
    rcases hs with rfl | rfl <;> refine ⟨?_, ?_⟩ <;> rw [exVec_moment] <;> ext i j <;>
      fin_cases i <;> fin_cases j <;> simp
  · intro s hs
    simp only [exSteps, List.mem_cons, List.not_mem_nil, or_false] at hs
    rcases hs with rfl | rfl <;> rw [exVec_moment] <;> ext i j <;>
      fin_cases i <;> fin_cases j <;> simp
  · simp only [exSteps, List.pairwise_cons, List.mem_cons, List.not_mem_nil, or_false,
      forall_eq, false_implies, implies_true, List.Pairwise.nil, and_true]
    refine ⟨?_, ?_, ?_, ?_⟩ <;> rw [exVec_moment] <;> ext i j <;> fin_cases i <;> fin_cases j <;> simp

theorem exK_state : exK.system_state.toMatrix = 0 := by
  ext i j
  have hj : j = 0 := Subsingleton.elim _ _
  subst hj
  fin_cases i <;> rfl

/-- The hypotheses of C80 (and C82) hold for the position/velocity estimator with this noise. -/
theorem exNoise :
    Uncorrelated exμ (fun ω => exVec ![1, 2] ω - exK.system_state.toMatrix) exSteps ∧
    moment exμ (fun ω => exVec ![1, 2] ω - exK.system_state.toMatrix)
      (fun ω => exVec ![1, 2] ω - exK.system_state.toMatrix) = exK.P.toMatrix ∧
    ∀ s ∈ exSteps, moment exμ s.process s.process = exK.Q.toMatrix ∧
      moment exμ s.measurement s.measurement = exK.R.toMatrix := by
  have e : (fun ω => exVec ![1, 2] ω - exK.system_state.toMatrix) = exVec ![1, 2] := by
    rw [exK_state]; simp only [sub_zero]
  rw [e, exK_one.1, exK_one.2.1, exK_one.2.2]
  refine ⟨exUncorrelated, ?_, ?_⟩
  · rw [exVec_moment]
    ext i j
    fin_cases i <;> fin_cases j <;> simp
  · intro s hs
    simp only [exSteps, List.mem_cons, List.not_mem_nil, or_false] at hs
    rcases hs with rfl | rfl <;> refine ⟨?_, ?_⟩ <;> rw [exVec_moment] <;> ext i j <;>
      fin_cases i <;> fin_cases j <;> simp

/-- So the actual error covariance of the example after two steps is the reported one. -/
example : ∃ κ : Fin 16 → Kalman ℝ .one .one,
    (∀ ω, exK.run (observed exK.A.toMatrix exK.B.toMatrix exK.H.toMatrix (exVec ![1, 2]) exSteps ω) =
      .ok (κ ω)) ∧
    ∀ ω₀, (κ ω₀).estimation_error_covariance.toMatrix =
      moment exμ (fun ω => truth exK.A.toMatrix exK.B.toMatrix (exVec ![1, 2]) exSteps ω -
          (κ ω).system_state.toMatrix)
        (fun ω => truth exK.A.toMatrix exK.B.toMatrix (exVec ![1, 2]) exSteps ω -
          (κ ω).system_state.toMatrix) :=
  C80_error_covariance exμ exK _ exSteps exK_psd.2.2 exK_psd.2.1 exNoise.1 exNoise.2.1 exNoise.2.2

/-- The means of the example are zero (hypotheses of `C80_unbiased`). -/
example : mean exμ (fun ω => exVec ![1, 2] ω - exK.system_state.toMatrix) = 0 ∧
    ∀ s ∈ exSteps, mean exμ s.process = 0 ∧ mean exμ s.measurement = 0 := by
  have e : (fun ω => exVec ![1, 2] ω - exK.system_state.toMatrix) = exVec ![1, 2] := by
    rw [exK_state]; simp only [sub_zero]
  have hm {n : Nat} (a : Fin n → Fin 16) (ha : ∀ i, a i ≠ 0) : mean exμ (exVec a) = 0 := by
    ext i j
    simp only [mean, exVec, Matrix.of_apply, exμ_integral, Matrix.zero_apply]
    have h : (∑ ω, (walsh (a i) ω : ℝ)) = ((∑ ω, walsh (a i) ω : ℤ) : ℝ) := by push_cast; rfl
    rw [h, walsh_mean (a i) (ha i)]
    simp
  rw [e]
  refine ⟨hm _ (by decide), ?_⟩
  intro s hs
  simp only [exSteps, List.mem_cons, List.not_mem_nil, or_false] at hs
  rcases hs with rfl | rfl <;> exact ⟨hm _ (by decide), hm _ (by decide)⟩

/-- The hypotheses of C81: an estimator told twice the noise there is. -/
example : (({ exK with P := Mat.mk22 2 0 0 2 } : Kalman ℝ .one .one).P.toMatrix -
    moment exμ (fun ω => exVec ![1, 2] ω - exK.system_state.toMatrix)
      (fun ω => exVec ![1, 2] ω - exK.system_state.toMatrix)).PosSemidef := by
  rw [exNoise.2.1, exK_one.1]
  have : (Mat.mk22 (2 : ℝ) 0 0 2).toMatrix - 1 = 1 := by
    rw [Mat.toMatrix_mk22, Matrix.one_fin_two]
    ext i j
    fin_cases i <;> fin_cases j <;> norm_num
  show ((Mat.mk22 (2 : ℝ) 0 0 2).toMatrix - 1).PosSemidef
  rw [this]
  exact .one

end Verif
