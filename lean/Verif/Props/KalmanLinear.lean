import Verif.Lemmas.KalmanLinear
import Verif.Props.KalmanStat

/-
Properties C116 and C117: the estimates of include/dsp/kalman.hpp are the best linear ones and its
innovations are uncorrelated.  The numeric type is the real numbers.
-/

namespace Verif
open Matrix Kalman MeasureTheory
variable {m u : Dim} {Ω : Type} [MeasurableSpace Ω]

/-! ## C116 The estimate is the best linear function of the data -/

/-- C116: for noise as in C80 with mean zero, the error covariance of *every* function of the
measurements that is linear up to a constant is the reported covariance plus the second moment of its
difference from the estimate. -/
theorem C116_pythagoras (μ : Measure Ω) [IsFiniteMeasure μ] (k : Kalman ℝ m u) (X : Ω → State)
    (steps : List (NoisyStep Ω u.val m.val)) (hR : k.R.toMatrix.PosDef)
    (hQ : k.Q.toMatrix.PosSemidef)
    (hu : Uncorrelated μ (fun ω => X ω - k.system_state.toMatrix) steps)
    (h0 : moment μ (fun ω => X ω - k.system_state.toMatrix)
      (fun ω => X ω - k.system_state.toMatrix) = k.P.toMatrix)
    (hn : ∀ s ∈ steps, moment μ s.process s.process = k.Q.toMatrix ∧
      moment μ s.measurement s.measurement = k.R.toMatrix)
    (h0' : mean μ (fun ω => X ω - k.system_state.toMatrix) = 0)
    (hn' : ∀ s ∈ steps, mean μ s.process = 0 ∧ mean μ s.measurement = 0) :
    ∃ κ : Ω → Kalman ℝ m u,
      (∀ ω, k.run (observed k.A.toMatrix k.B.toMatrix k.H.toMatrix X steps ω) = .ok (κ ω)) ∧
      ∀ (c : State) (Gs : List (Matrix (Fin 2) (Fin m.val) ℝ)) (y : Ω → State),
        (y = fun ω => affine c Gs
          (observed k.A.toMatrix k.B.toMatrix k.H.toMatrix X steps ω)) → ∀ ω₀,
        moment μ (fun ω => truth k.A.toMatrix k.B.toMatrix X steps ω - y ω)
            (fun ω => truth k.A.toMatrix k.B.toMatrix X steps ω - y ω) =
          (κ ω₀).estimation_error_covariance.toMatrix +
            moment μ (fun ω => (κ ω).system_state.toMatrix - y ω)
              (fun ω => (κ ω).system_state.toMatrix - y ω) := by
  have t : Tracks μ k (fun _ => k) X (steps ++ []) := by
    rw [List.append_nil]
    exact ⟨fun _ => SameModel.rfl' k, fun _ => rfl, hQ, hR, hu, h0, hn⟩
  obtain ⟨k', κ, hs, hrun, t', -, hlin⟩ := t.run
  have m0 {n : Nat} {f : Ω → Matrix (Fin n) (Fin 1) ℝ} (h : mean μ f = 0) (i) :
      ∫ ω, f ω i 0 ∂μ = 0 := congrFun (congrFun h i) 0
  have hc (c : State) : Known μ (fun ω => X ω - k.xhat.toMatrix) (steps ++ []) fun _ => c := by
    rw [List.append_nil]
    exact ⟨fun i => memLp_const _, moment_const (m0 h0') c,
      fun s h => ⟨moment_const (m0 (hn' s h).1) c, moment_const (m0 (hn' s h).2) c⟩⟩
  obtain ⟨hx, hy⟩ := hlin hc (hc _)
  refine ⟨κ, hrun, ?_⟩
  rintro c Gs y rfl ω₀
  have hY := hy (fun _ => c) Gs (hc c)
  show _ = (κ ω₀).P.toMatrix + moment μ (fun ω => (κ ω).xhat.toMatrix - _)
    (fun ω => (κ ω).xhat.toMatrix - _)
  rw [t'.cov ω₀, ← t'.error]
  have hd := hx.add t'.uncorrelated (hY.mul t'.uncorrelated (-1 : Matrix (Fin 2) (Fin 2) ℝ))
  simp only [Matrix.neg_mul, Matrix.one_mul, ← sub_eq_add_neg] at hd
  have e : (fun ω => truth k.A.toMatrix k.B.toMatrix X steps ω - affine c Gs
        (observed k.A.toMatrix k.B.toMatrix k.H.toMatrix X steps ω)) =
      fun ω => (truth k.A.toMatrix k.B.toMatrix X steps ω - (κ ω).xhat.toMatrix) +
        ((κ ω).xhat.toMatrix - affine c Gs
          (observed k.A.toMatrix k.B.toMatrix k.H.toMatrix X steps ω)) := by
    funext ω
    abel
  have he := t'.uncorrelated.initial
  have hd' := congrArg Matrix.transpose hd.error
  rw [moment_transpose, Matrix.transpose_zero] at hd'
  rw [e, moment_add he hd.sq (he.add hd.sq), moment_add_right he he hd.sq,
    moment_add_right hd.sq he hd.sq, hd.error, add_zero, hd', zero_add]

/-- C116: so no function of the measurements that is linear up to a constant has a smaller error
covariance, nor a smaller variance in any component. -/
theorem C116_best_linear (μ : Measure Ω) [IsFiniteMeasure μ] (k : Kalman ℝ m u) (X : Ω → State)
    (steps : List (NoisyStep Ω u.val m.val)) (hR : k.R.toMatrix.PosDef)
    (hQ : k.Q.toMatrix.PosSemidef)
    (hu : Uncorrelated μ (fun ω => X ω - k.system_state.toMatrix) steps)
    (h0 : moment μ (fun ω => X ω - k.system_state.toMatrix)
      (fun ω => X ω - k.system_state.toMatrix) = k.P.toMatrix)
    (hn : ∀ s ∈ steps, moment μ s.process s.process = k.Q.toMatrix ∧
      moment μ s.measurement s.measurement = k.R.toMatrix)
    (h0' : mean μ (fun ω => X ω - k.system_state.toMatrix) = 0)
    (hn' : ∀ s ∈ steps, mean μ s.process = 0 ∧ mean μ s.measurement = 0)
    (c : State) (Gs : List (Matrix (Fin 2) (Fin m.val) ℝ)) (y : Ω → State)
    (hy : y = fun ω => affine c Gs
      (observed k.A.toMatrix k.B.toMatrix k.H.toMatrix X steps ω)) :
    ∀ ω₀, ∃ k', k.run (observed k.A.toMatrix k.B.toMatrix k.H.toMatrix X steps ω₀) = .ok k' ∧
      (moment μ (fun ω => truth k.A.toMatrix k.B.toMatrix X steps ω - y ω)
        (fun ω => truth k.A.toMatrix k.B.toMatrix X steps ω - y ω) -
          k'.estimation_error_covariance.toMatrix).PosSemidef ∧
      ∀ i, k'.estimation_error_covariance.toMatrix i i ≤
        ∫ ω, (truth k.A.toMatrix k.B.toMatrix X steps ω i 0 - y ω i 0) ^ 2 ∂μ := by
  intro ω₀
  obtain ⟨κ, hrun, h⟩ := C116_pythagoras μ k X steps hR hQ hu h0 hn h0' hn'
  have t : Tracks μ k (fun _ => k) X (steps ++ []) := by
    rw [List.append_nil]
    exact ⟨fun _ => SameModel.rfl' k, fun _ => rfl, hQ, hR, hu, h0, hn⟩
  have hsq : SquareIntegrable μ (fun ω => (κ ω).system_state.toMatrix - y ω) := by
    obtain ⟨k', κ', hs, hrun', t', -, hlin⟩ := t.run
    have eκ : κ' = κ := by
      funext ω
      have a := hrun ω
      rw [hrun' ω] at a
      exact Except.ok.inj a
    subst eκ
    have m0 {n : Nat} {f : Ω → Matrix (Fin n) (Fin 1) ℝ} (h : mean μ f = 0) (i) :
        ∫ ω, f ω i 0 ∂μ = 0 := congrFun (congrFun h i) 0
    have hc (c : State) : Known μ (fun ω => X ω - k.xhat.toMatrix) (steps ++ []) fun _ => c := by
      rw [List.append_nil]
      exact ⟨fun i => memLp_const _, moment_const (m0 h0') c,
        fun s h => ⟨moment_const (m0 (hn' s h).1) c, moment_const (m0 (hn' s h).2) c⟩⟩
    obtain ⟨hx, hY⟩ := hlin hc (hc _)
    rw [hy]
    exact hx.sq.sub (hY (fun _ => c) Gs (hc c)).sq
  have hp : (moment μ (fun ω => truth k.A.toMatrix k.B.toMatrix X steps ω - y ω)
        (fun ω => truth k.A.toMatrix k.B.toMatrix X steps ω - y ω) -
          (κ ω₀).estimation_error_covariance.toMatrix).PosSemidef := by
    rw [h c Gs y hy ω₀, add_sub_cancel_left]
    exact moment_psd hsq
  refine ⟨κ ω₀, hrun ω₀, hp, fun i => ?_⟩
  have := hp.diag_nonneg (i := i)
  simp only [Matrix.sub_apply, moment, Matrix.of_apply, ← sq] at this
  exact sub_nonneg.1 this

/-- C116: and the estimate is such a function, whatever the data, with coefficients that depend on the
controls only. -/
theorem C116_is_linear (k : Kalman ℝ m u) (vs : List (ColVec ℝ u.val))
    (hP : k.P.toMatrix.PosSemidef) (hQ : k.Q.toMatrix.PosSemidef) (hR : k.R.toMatrix.PosDef) :
    ∃ (c : State) (Gs : List (Matrix (Fin 2) (Fin m.val) ℝ)), Gs.length = vs.length ∧
      ∀ ds, ds.map Prod.fst = vs → ∃ k', k.run ds = .ok k' ∧
        k'.system_state.toMatrix = affine c Gs ds := by
  suffices h : ∃ (M : Matrix (Fin 2) (Fin 2) ℝ) (c : State)
      (Gs : List (Matrix (Fin 2) (Fin m.val) ℝ)), Gs.length = vs.length ∧
      ∀ k₁, SameModel k k₁ → k₁.P = k.P → ∀ ds, ds.map Prod.fst = vs → ∃ k', k₁.run ds = .ok k' ∧
        k'.xhat.toMatrix = M * k₁.xhat.toMatrix + affine c Gs ds by
    obtain ⟨M, c, Gs, hl, h⟩ := h
    refine ⟨M * k.xhat.toMatrix + c, Gs, hl, fun ds hds => ?_⟩
    obtain ⟨k', h1, h2⟩ := h k (SameModel.rfl' k) rfl ds hds
    exact ⟨k', h1, by rw [affine_add]; exact h2⟩
  induction vs generalizing k with
  | nil =>
    refine ⟨1, 0, [], rfl, fun k₁ _ _ ds hds => ⟨k₁, ?_, ?_⟩⟩
    · obtain rfl : ds = [] := by simpa using hds
      rfl
    · simp [affine]
  | cons v vs ih =>
    obtain ⟨k1, hk1, hP1, -, eP1⟩ := update_joseph k v (ofMatrix 0) hP hQ hR
    have hs1 := update_same hk1
    obtain ⟨M, c, Gs, hl, h⟩ := ih k1 hP1 (by rw [hs1.Q]; exact hQ) (by rw [hs1.R]; exact hR)
    generalize hG : KF.gain k.Pm k.H.toMatrix k.R.toMatrix = G
    refine ⟨M * (1 - G * k.H.toMatrix) * k.A.toMatrix,
      M * (1 - G * k.H.toMatrix) * (k.B.toMatrix * v.toMatrix) + c, (M * G) :: Gs, by simp [hl],
      fun k₁ hs hP₁ ds hds => ?_⟩
    cases ds with
    | nil => simp at hds
    | cons d ds =>
      obtain ⟨hd, hds⟩ := List.cons.inj hds
      obtain ⟨k2, hk2, -, eX, eP⟩ := update_joseph k₁ d.1 d.2 (by rw [hP₁]; exact hP)
        (by rw [hs.Q]; exact hQ) (by rw [hs.R]; exact hR)
      have ePm : k₁.Pm = k.Pm := by unfold Pm; rw [hs.A, hs.Q, hP₁]
      have hs2 := hs.trans (update_same hk2)
      obtain ⟨k', h', e'⟩ := h k2 ⟨by rw [hs2.A, hs1.A], by rw [hs2.B, hs1.B], by rw [hs2.H, hs1.H],
        by rw [hs2.Q, hs1.Q], by rw [hs2.R, hs1.R], by rw [hs2.dt, hs1.dt]⟩
        (Mat.toMatrix_inj (by rw [eP, eP1, ePm, hs.A, hs.H, hs.Q, hs.R, hP₁])) ds hds
      refine ⟨k', run_cons.2 ⟨k2, hk2, h'⟩, ?_⟩
      have eA : affine (M * (1 - G * k.H.toMatrix) * (k.B.toMatrix * v.toMatrix) + c) ((M * G) :: Gs)
          (d :: ds) = M * (1 - G * k.H.toMatrix) * (k.B.toMatrix * v.toMatrix) +
            M * G * d.2.toMatrix + affine c Gs ds := by
        show affine (_ + c + _) Gs ds = _
        rw [add_right_comm, affine_add]
      rw [e', eX, ePm, hs.H, hs.R, hG, eA]
      unfold xm
      rw [hs.A, hs.B, ← hd]
      simp only [Matrix.mul_add, Matrix.mul_sub, Matrix.sub_mul, Matrix.mul_one, Matrix.mul_assoc]
      abel

/-! ## C117 Innovations -/

/-- C117: for noise as in C80, the innovation of a step has the covariance `H P⁻ Hᵀ + R` the estimator
computes its gain from, where `P⁻` is the predicted covariance. -/
theorem C117_innovation_covariance (μ : Measure Ω) (k : Kalman ℝ m u) (X : Ω → State)
    (before after : List (NoisyStep Ω u.val m.val)) (s : NoisyStep Ω u.val m.val)
    (hR : k.R.toMatrix.PosDef) (hQ : k.Q.toMatrix.PosSemidef)
    (hu : Uncorrelated μ (fun ω => X ω - k.system_state.toMatrix) (before ++ s :: after))
    (h0 : moment μ (fun ω => X ω - k.system_state.toMatrix)
      (fun ω => X ω - k.system_state.toMatrix) = k.P.toMatrix)
    (hn : ∀ r ∈ before ++ s :: after, moment μ r.process r.process = k.Q.toMatrix ∧
      moment μ r.measurement r.measurement = k.R.toMatrix) :
    ∃ κ : Ω → Kalman ℝ m u,
      (∀ ω, k.run (observed k.A.toMatrix k.B.toMatrix k.H.toMatrix X before ω) = .ok (κ ω)) ∧
      ∀ ω₀, moment μ
          (innovation k.A.toMatrix k.B.toMatrix k.H.toMatrix (truth k.A.toMatrix k.B.toMatrix X before)
            (fun ω => (κ ω).system_state.toMatrix) s)
          (innovation k.A.toMatrix k.B.toMatrix k.H.toMatrix (truth k.A.toMatrix k.B.toMatrix X before)
            (fun ω => (κ ω).system_state.toMatrix) s) =
        k.H.toMatrix * (k.A.toMatrix * (κ ω₀).estimation_error_covariance.toMatrix * k.A.toMatrixᵀ +
          k.Q.toMatrix) * k.H.toMatrixᵀ + k.R.toMatrix := by
  have t : Tracks μ k (fun _ => k) X (before ++ s :: after) :=
    ⟨fun _ => SameModel.rfl' k, fun _ => rfl, hQ, hR, hu, h0, hn⟩
  obtain ⟨k', κ, hs, hrun, t', -, -⟩ := t.run
  refine ⟨κ, hrun, fun ω₀ => ?_⟩
  rw [innovation_eq]
  refine (surprise_moment t'.uncorrelated).trans ?_
  show _ = k.H.toMatrix * (k.A.toMatrix * (κ ω₀).P.toMatrix * k.A.toMatrixᵀ + k.Q.toMatrix) *
    k.H.toMatrixᵀ + k.R.toMatrix
  rw [(hn s (by simp)).1, (hn s (by simp)).2, t'.cov ω₀, ← t'.error]

/-- C117: the innovations of two different steps are uncorrelated. -/
theorem C117_innovations_white (μ : Measure Ω) (k : Kalman ℝ m u) (X : Ω → State)
    (before between after : List (NoisyStep Ω u.val m.val)) (s r : NoisyStep Ω u.val m.val)
    (hR : k.R.toMatrix.PosDef) (hQ : k.Q.toMatrix.PosSemidef)
    (hu : Uncorrelated μ (fun ω => X ω - k.system_state.toMatrix)
      (before ++ s :: (between ++ r :: after)))
    (h0 : moment μ (fun ω => X ω - k.system_state.toMatrix)
      (fun ω => X ω - k.system_state.toMatrix) = k.P.toMatrix)
    (hn : ∀ q ∈ before ++ s :: (between ++ r :: after), moment μ q.process q.process = k.Q.toMatrix ∧
      moment μ q.measurement q.measurement = k.R.toMatrix) :
    ∃ κ κ' : Ω → Kalman ℝ m u,
      (∀ ω, k.run (observed k.A.toMatrix k.B.toMatrix k.H.toMatrix X before ω) = .ok (κ ω)) ∧
      (∀ ω, k.run (observed k.A.toMatrix k.B.toMatrix k.H.toMatrix X (before ++ s :: between) ω) =
        .ok (κ' ω)) ∧
      moment μ
          (innovation k.A.toMatrix k.B.toMatrix k.H.toMatrix
            (truth k.A.toMatrix k.B.toMatrix X (before ++ s :: between))
            (fun ω => (κ' ω).system_state.toMatrix) r)
          (innovation k.A.toMatrix k.B.toMatrix k.H.toMatrix (truth k.A.toMatrix k.B.toMatrix X before)
            (fun ω => (κ ω).system_state.toMatrix) s) = 0 := by
  have t : Tracks μ k (fun _ => k) X (before ++ s :: (between ++ r :: after)) :=
    ⟨fun _ => SameModel.rfl' k, fun _ => rfl, hQ, hR, hu, h0, hn⟩
  obtain ⟨k1, κ, hs1, hrun1, t1, -, -⟩ := t.run
  obtain ⟨k2, κ2, hs2, hup, t2, -, eE⟩ := t1.step
  have hL := t1.learnt
  rw [← eE] at hL
  obtain ⟨k3, κ', hs3, hrun3, t3, hkn, -⟩ := t2.run
  have hL3 := hkn _ _ hL
  rw [hs2.A, hs2.B, hs1.A, hs1.B] at t3 hL3
  rw [hs2.A, hs2.B, hs2.H] at hrun3
  rw [hs1.A, hs1.B, hs1.H] at hup hrun3
  rw [hs1.H] at hL3
  refine ⟨κ, κ', hrun1, fun ω => ?_, ?_⟩
  · rw [observed_append, run_append, hrun1 ω, bind_ok]
    exact run_cons.2 ⟨κ2 ω, hup ω, hrun3 ω⟩
  · rw [innovation_eq, innovation_eq, truth_append]
    exact surprise_known t3.uncorrelated hL3

/-! ### Examples -/

/-- The means of the example are zero. -/
theorem exMeans : mean exμ (fun ω => exVec ![1, 2] ω - exK.system_state.toMatrix) = 0 ∧
    ∀ s ∈ exSteps, mean exμ s.process = 0 ∧ mean exμ s.measurement = 0 := by
  have e : (fun ω => exVec ![1, 2] ω - exK.system_state.toMatrix) = exVec ![1, 2] := by
    rw [exK_state]; simp only [sub_zero]
  have hm {n : Nat} (a : Fin n → Fin 16) (ha : ∀ i, a i ≠ 0) : mean exμ (exVec a) = 0 := by
    ext i j
    simp only [mean, exVec, Matrix.of_apply, exμ_integral, Matrix.zero_apply]
    have h : (∑ ω, (walsh (a i) ω : ℝ)) = ((∑ ω, walsh (a i) ω : ℤ) : ℝ) := by push_cast; rfl
    rw [h, walsh_mean (a i) (ha i)]
    simp
  rw [e]
  refine ⟨hm _ (by decide), ?_⟩
  intro s hs
  simp only [exSteps, List.mem_cons, List.not_mem_nil, or_false] at hs
  rcases hs with rfl | rfl <;> exact ⟨hm _ (by decide), hm _ (by decide)⟩

/-- C116 for the noisy example: taking each measurement as the position, and half the sum of both, is
not better than the estimator. -/
example := C116_best_linear exμ exK _ exSteps exK_psd.2.2 exK_psd.2.1 exNoise.1 exNoise.2.1
  exNoise.2.2 exMeans.1 exMeans.2 !![3; 0] [!![1/2; 0], !![1/2; 1]] _ rfl

/-- C117 for the noisy example, whose two steps are the two innovations. -/
example := C117_innovations_white exμ exK (exVec ![1, 2]) [] [] []
  ⟨⟨#v[1]⟩, exVec ![3, 4], exVec ![5]⟩ ⟨⟨#v[-2]⟩, exVec ![6, 7], exVec ![8]⟩
  exK_psd.2.2 exK_psd.2.1 exNoise.1 exNoise.2.1 exNoise.2.2

example := C117_innovation_covariance exμ exK (exVec ![1, 2])
  [⟨⟨#v[1]⟩, exVec ![3, 4], exVec ![5]⟩] [] ⟨⟨#v[-2]⟩, exVec ![6, 7], exVec ![8]⟩
  exK_psd.2.2 exK_psd.2.1 exNoise.1 exNoise.2.1 exNoise.2.2

example := C116_is_linear exK [⟨#v[1]⟩, ⟨#v[-2]⟩] exK_psd.1 exK_psd.2.1 exK_psd.2.2

end Verif
