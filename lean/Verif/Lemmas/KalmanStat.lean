import Verif.Spec.KalmanStat
import Verif.Lemmas.KalmanRun
import Mathlib.MeasureTheory.Integral.Bochner.SumMeasure

/- Second moments of random vectors and the error recursion. -/

namespace Verif
open Matrix MeasureTheory

section moments
variable {Ω : Type} [MeasurableSpace Ω] {μ : Measure Ω} {n p q : Nat}
  {f f' : Ω → Matrix (Fin n) (Fin 1) ℝ} {g : Ω → Matrix (Fin p) (Fin 1) ℝ}

theorem toMatrix_ofMatrix (z : Matrix (Fin n) (Fin 1) ℝ) : (ofMatrix z).toMatrix = z := by
  ext i j
  have hj : j = 0 := Subsingleton.elim _ _
  subst hj
  simp [Mat.toMatrix, Mat.get, ofMatrix]

theorem SquareIntegrable.add (hf : SquareIntegrable μ f) (hf' : SquareIntegrable μ f') :
    SquareIntegrable μ (fun ω => f ω + f' ω) := fun i => (hf i).add (hf' i)

theorem SquareIntegrable.sub (hf : SquareIntegrable μ f) (hf' : SquareIntegrable μ f') :
    SquareIntegrable μ (fun ω => f ω - f' ω) := fun i => (hf i).sub (hf' i)

theorem SquareIntegrable.mul (hf : SquareIntegrable μ f) (M : Matrix (Fin p) (Fin n) ℝ) :
    SquareIntegrable μ (fun ω => M * f ω) := by
  intro i
  simp only [Matrix.mul_apply]
  exact memLp_finsetSum _ fun j _ => (hf j).const_mul (M i j)

theorem moment_int (hf : SquareIntegrable μ f) (hg : SquareIntegrable μ g) (i j) :
    Integrable (fun ω => f ω i 0 * g ω j 0) μ := (hf i).integrable_mul (hg j)

theorem moment_add (hf : SquareIntegrable μ f) (hf' : SquareIntegrable μ f')
    (hg : SquareIntegrable μ g) :
    moment μ (fun ω => f ω + f' ω) g = moment μ f g + moment μ f' g := by
  ext i j
  simp only [moment, Matrix.of_apply, Matrix.add_apply, add_mul]
  exact integral_add (moment_int hf hg i j) (moment_int hf' hg i j)

theorem moment_sub (hf : SquareIntegrable μ f) (hf' : SquareIntegrable μ f')
    (hg : SquareIntegrable μ g) :
    moment μ (fun ω => f ω - f' ω) g = moment μ f g - moment μ f' g := by
  ext i j
  simp only [moment, Matrix.of_apply, Matrix.sub_apply, sub_mul]
  exact integral_sub (moment_int hf hg i j) (moment_int hf' hg i j)

theorem moment_mul (hf : SquareIntegrable μ f) (hg : SquareIntegrable μ g)
    (M : Matrix (Fin q) (Fin n) ℝ) : moment μ (fun ω => M * f ω) g = M * moment μ f g := by
  ext i j
  simp only [moment, Matrix.of_apply, Matrix.mul_apply, Finset.sum_mul]
  rw [integral_finsetSum _ fun k _ => by
    simp only [mul_assoc]; exact (moment_int hf hg k j).const_mul _]
  simp only [mul_assoc, integral_const_mul]

theorem moment_transpose : (moment μ f g)ᵀ = moment μ g f := by
  ext i j
  simp only [moment, Matrix.transpose_apply, Matrix.of_apply, mul_comm]

theorem moment_psd (hf : SquareIntegrable μ f) : (moment μ f f).PosSemidef := by
  refine Matrix.PosSemidef.of_dotProduct_mulVec_nonneg ?_ fun x => ?_
  · rw [Matrix.IsHermitian, Matrix.conjTranspose_eq_transpose_of_trivial, moment_transpose]
  · have e : star x ⬝ᵥ (moment μ f f *ᵥ x) = ∫ ω, (∑ i, x i * f ω i 0) ^ 2 ∂μ := by
      have h1 : ∀ ω, (∑ i, x i * f ω i 0) ^ 2 =
          ∑ i, ∑ j, x i * x j * (f ω i 0 * f ω j 0) := by
        intro ω
        rw [sq, Finset.sum_mul_sum]
        exact Finset.sum_congr rfl fun i _ => Finset.sum_congr rfl fun j _ => by ring
      simp only [h1]
      rw [integral_finsetSum _ fun i _ => integrable_finsetSum _ fun j _ =>
        (moment_int hf hf i j).const_mul _]
      simp only [dotProduct, Matrix.mulVec, star_trivial, Finset.mul_sum]
      refine Finset.sum_congr rfl fun i _ => ?_
      rw [integral_finsetSum _ fun j _ => (moment_int hf hf i j).const_mul _]
      refine Finset.sum_congr rfl fun j _ => ?_
      rw [integral_const_mul]
      simp only [moment, Matrix.of_apply]
      ring
    rw [e]
    exact integral_nonneg fun ω => sq_nonneg _

end moments

section error
variable {Ω : Type} [MeasurableSpace Ω] {μ : Measure Ω} {m u : Nat}
  {A : Matrix (Fin 2) (Fin 2) ℝ} {H : Matrix (Fin m) (Fin 2) ℝ} {e : Ω → State}
  {s : NoisyStep Ω u m} {l : List (NoisyStep Ω u m)}

/-- The estimation error after a step with gain `G`. -/
def nextError (A : Matrix (Fin 2) (Fin 2) ℝ) (H : Matrix (Fin m) (Fin 2) ℝ)
    (G : Matrix (Fin 2) (Fin m) ℝ) (e : Ω → State) (s : NoisyStep Ω u m) : Ω → State :=
  fun ω => (1 - G * H) * (A * e ω + s.process ω) - G * s.measurement ω

theorem nextError_moment (h : Uncorrelated μ e (s :: l)) (G : Matrix (Fin 2) (Fin m) ℝ) :
    moment μ (nextError A H G e s) (nextError A H G e s) =
      (1 - G * H) * (A * moment μ e e * Aᵀ + moment μ s.process s.process) * (1 - G * H)ᵀ +
        G * moment μ s.measurement s.measurement * Gᵀ := by
  have he := h.initial
  obtain ⟨hw, hv⟩ := h.noise s (by simp)
  obtain ⟨hew, hev⟩ := h.initial_noise s (by simp)
  have hwv := h.same_step s (by simp)
  have hwe : moment μ s.process e = 0 := by rw [← moment_transpose, hew, Matrix.transpose_zero]
  have hAe := he.mul A
  have hsum := hAe.add hw
  have hF := hsum.mul (1 - G * H)
  have hGv := hv.mul G
  -- moments of the two parts
  have m1 : moment μ (fun ω => A * e ω + s.process ω) (fun ω => A * e ω + s.process ω) =
      A * moment μ e e * Aᵀ + moment μ s.process s.process := by
    rw [moment_add hAe hw hsum, moment_mul he hsum, ← moment_transpose (f := fun ω => _ + _) (g := e),
      moment_add hAe hw he, moment_mul he he, hwe, add_zero, Matrix.transpose_mul, moment_transpose,
      ← moment_transpose (f := fun ω => _ + _) (g := s.process), moment_add hAe hw hw,
      moment_mul he hw, hew, Matrix.mul_zero, zero_add, moment_transpose, Matrix.mul_assoc]
  have m2 : moment μ (fun ω => A * e ω + s.process ω) s.measurement = 0 := by
    rw [moment_add hAe hw hv, moment_mul he hv, hev, hwv, Matrix.mul_zero, add_zero]
  have c (M : Matrix (Fin 2) (Fin 2) ℝ) {p : Nat} (g : Ω → Matrix (Fin p) (Fin 1) ℝ)
      (hg : SquareIntegrable μ g) : moment μ g (fun ω => M * (A * e ω + s.process ω)) =
      moment μ g (fun ω => A * e ω + s.process ω) * Mᵀ := by
    rw [← moment_transpose, moment_mul hsum hg, Matrix.transpose_mul, moment_transpose]
  unfold nextError
  rw [moment_sub hF hGv (hF.sub hGv), ← moment_transpose (f := fun ω => _ - _) (g := fun ω => _ * _),
    ← moment_transpose (f := fun ω => _ - _) (g := fun ω => G * _), moment_sub hF hGv hF,
    moment_sub hF hGv hGv, moment_mul hsum hF, c _ _ hsum, m1, moment_mul hv hF, c _ _ hv,
    ← moment_transpose (f := fun ω => _ + _) (g := s.measurement), m2, moment_mul hsum hGv,
    moment_mul hv hGv, ← moment_transpose (f := fun ω => G * _) (g := fun ω => _ + _),
    moment_mul hv hsum, ← moment_transpose (f := fun ω => _ + _) (g := s.measurement), m2,
    ← moment_transpose (f := fun ω => G * _) (g := s.measurement), moment_mul hv hv]
  simp only [Matrix.transpose_zero, Matrix.zero_mul, Matrix.mul_zero, sub_zero, zero_sub,
    Matrix.transpose_neg, sub_neg_eq_add, Matrix.transpose_mul, moment_transpose]
  have hs : (A * moment μ e e * Aᵀ + moment μ s.process s.process)ᵀ =
      A * moment μ e e * Aᵀ + moment μ s.process s.process := by
    rw [← m1, moment_transpose]
  congr 1
  rw [Matrix.transpose_transpose, hs, Matrix.mul_assoc]

theorem nextError_uncorrelated (h : Uncorrelated μ e (s :: l)) (G : Matrix (Fin 2) (Fin m) ℝ) :
    Uncorrelated μ (nextError A H G e s) l := by
  have he := h.initial
  obtain ⟨hw, hv⟩ := h.noise s (by simp)
  have hsum := (he.mul A).add hw
  have hF := hsum.mul (1 - G * H)
  have hGv := hv.mul G
  have hp := List.pairwise_cons.1 h.other_step
  refine ⟨hF.sub hGv, fun t ht => h.noise t (by simp [ht]), fun t ht => ?_,
    fun t ht => h.same_step t (by simp [ht]), hp.2⟩
  obtain ⟨tw, tv⟩ := h.noise t (by simp [ht])
  obtain ⟨e1, e2⟩ := h.initial_noise t (by simp [ht])
  obtain ⟨p1, p2, p3, p4⟩ := hp.1 t ht
  unfold nextError
  constructor
  · rw [moment_sub hF hGv tw, moment_mul hsum tw, moment_add (he.mul A) hw tw, moment_mul he tw,
      moment_mul hv tw, e1, p1, p3]
    simp
  · rw [moment_sub hF hGv tv, moment_mul hsum tv, moment_add (he.mul A) hw tv, moment_mul he tv,
      moment_mul hv tv, e2, p2, p4]
    simp

/-- The error after several steps. -/
def errors (A : Matrix (Fin 2) (Fin 2) ℝ) (H : Matrix (Fin m) (Fin 2) ℝ) :
    List (Matrix (Fin 2) (Fin m) ℝ × NoisyStep Ω u m) → (Ω → State) → Ω → State
  | [], e => e
  | (G, s) :: l, e => errors A H l (nextError A H G e s)

/-- The covariance after a step with gain `G`. -/
def josephStep (A : Matrix (Fin 2) (Fin 2) ℝ) (H : Matrix (Fin m) (Fin 2) ℝ)
    (Q : Matrix (Fin 2) (Fin 2) ℝ) (R : Matrix (Fin m) (Fin m) ℝ) (G : Matrix (Fin 2) (Fin m) ℝ)
    (P : Matrix (Fin 2) (Fin 2) ℝ) : Matrix (Fin 2) (Fin 2) ℝ :=
  (1 - G * H) * (A * P * Aᵀ + Q) * (1 - G * H)ᵀ + G * R * Gᵀ

/-- The covariance after several steps. -/
def covs (A : Matrix (Fin 2) (Fin 2) ℝ) (H : Matrix (Fin m) (Fin 2) ℝ)
    (Q : Matrix (Fin 2) (Fin 2) ℝ) (R : Matrix (Fin m) (Fin m) ℝ) :
    List (Matrix (Fin 2) (Fin m) ℝ) → Matrix (Fin 2) (Fin 2) ℝ → Matrix (Fin 2) (Fin 2) ℝ
  | [], P => P
  | G :: l, P => covs A H Q R l (josephStep A H Q R G P)

theorem errors_covs {Q : Matrix (Fin 2) (Fin 2) ℝ} {R : Matrix (Fin m) (Fin m) ℝ}
    (l : List (Matrix (Fin 2) (Fin m) ℝ × NoisyStep Ω u m)) (e : Ω → State)
    (h : Uncorrelated μ e (l.map Prod.snd))
    (hn : ∀ s ∈ l.map Prod.snd, moment μ s.process s.process = Q ∧
      moment μ s.measurement s.measurement = R) :
    moment μ (errors A H l e) (errors A H l e) = covs A H Q R (l.map Prod.fst) (moment μ e e) := by
  induction l generalizing e with
  | nil => rfl
  | cons a l ih =>
    obtain ⟨G, s⟩ := a
    obtain ⟨hQ, hR⟩ := hn s (by simp)
    have := ih (nextError A H G e s) (nextError_uncorrelated h G) fun t ht => hn t (by
      rw [List.map_cons]; exact List.mem_cons_of_mem _ ht)
    show moment μ (errors A H l _) (errors A H l _) = covs A H Q R (l.map Prod.fst) _
    rw [this, nextError_moment h G, hQ, hR]
    rfl

theorem josephStep_mono {Q Q' : Matrix (Fin 2) (Fin 2) ℝ} {R R' : Matrix (Fin m) (Fin m) ℝ}
    {P P' : Matrix (Fin 2) (Fin 2) ℝ} (G : Matrix (Fin 2) (Fin m) ℝ)
    (hP : (P' - P).PosSemidef) (hQ : (Q' - Q).PosSemidef) (hR : (R' - R).PosSemidef) :
    (josephStep A H Q' R' G P' - josephStep A H Q R G P).PosSemidef := by
  have e : josephStep A H Q' R' G P' - josephStep A H Q R G P =
      (1 - G * H) * (A * (P' - P) * Aᵀ + (Q' - Q)) * (1 - G * H)ᵀ + G * (R' - R) * Gᵀ := by
    unfold josephStep
    simp only [Matrix.mul_sub, Matrix.sub_mul, Matrix.mul_add, Matrix.add_mul]
    abel
  rw [e]
  exact (KF.psd_congr ((KF.psd_congr hP A).add hQ) _).add (KF.psd_congr hR _)

theorem covs_mono {Q Q' : Matrix (Fin 2) (Fin 2) ℝ} {R R' : Matrix (Fin m) (Fin m) ℝ}
    {P P' : Matrix (Fin 2) (Fin 2) ℝ} (l : List (Matrix (Fin 2) (Fin m) ℝ))
    (hP : (P' - P).PosSemidef) (hQ : (Q' - Q).PosSemidef) (hR : (R' - R).PosSemidef) :
    (covs A H Q' R' l P' - covs A H Q R l P).PosSemidef := by
  induction l generalizing P P' with
  | nil => exact hP
  | cons G l ih => exact ih (josephStep_mono G hP hQ hR)

/-- The error when the noise is at most as strong as assumed. -/
theorem errors_le {Q : Matrix (Fin 2) (Fin 2) ℝ} {R : Matrix (Fin m) (Fin m) ℝ}
    {P : Matrix (Fin 2) (Fin 2) ℝ}
    (l : List (Matrix (Fin 2) (Fin m) ℝ × NoisyStep Ω u m)) (e : Ω → State)
    (h : Uncorrelated μ e (l.map Prod.snd)) (hP : (P - moment μ e e).PosSemidef)
    (hn : ∀ s ∈ l.map Prod.snd, (Q - moment μ s.process s.process).PosSemidef ∧
      (R - moment μ s.measurement s.measurement).PosSemidef) :
    (covs A H Q R (l.map Prod.fst) P - moment μ (errors A H l e) (errors A H l e)).PosSemidef := by
  induction l generalizing e P with
  | nil => exact hP
  | cons a l ih =>
    obtain ⟨G, s⟩ := a
    obtain ⟨hQ, hR⟩ := hn s (by simp)
    refine ih (nextError A H G e s) (nextError_uncorrelated h G) ?_ fun t ht => hn t (by
      rw [List.map_cons]; exact List.mem_cons_of_mem _ ht)
    rw [nextError_moment h G]
    exact josephStep_mono G hP hQ hR

end error

namespace Kalman
variable {m u : Dim}

/-- One update, for covariances for which it is well defined: the textbook gain and Joseph form. -/
theorem update_joseph (k : Kalman ℝ m u) (v : ColVec ℝ u.val) (z : ColVec ℝ m.val)
    (hP : k.P.toMatrix.PosSemidef) (hQ : k.Q.toMatrix.PosSemidef) (hR : k.R.toMatrix.PosDef) :
    ∃ k', k.update v z = .ok k' ∧ k'.P.toMatrix.PosSemidef ∧
      k'.xhat.toMatrix = k.xm v + KF.gain k.Pm k.H.toMatrix k.R.toMatrix *
        (z.toMatrix - k.H.toMatrix * k.xm v) ∧
      k'.P.toMatrix = josephStep k.A.toMatrix k.H.toMatrix k.Q.toMatrix k.R.toMatrix
        (KF.gain k.Pm k.H.toMatrix k.R.toMatrix) k.P.toMatrix := by
  have hPm : k.Pm.PosSemidef := (KF.psd_congr hP k.A.toMatrix).add hQ
  have hd := KF.posDef_det (KF.innov_posDef (H := k.H.toMatrix) hPm hR)
  obtain ⟨k1, G, h1, -, eG, eX, eP⟩ := update_symm k v z (KF.symm_of_psd hPm)
    (KF.symm_of_psd hR.posSemidef) (.inr (isUnit_iff_ne_zero.1 hd))
  rw [eG] at eX eP
  refine ⟨k1, h1, ?_, eX, ?_⟩
  · rw [eP]; exact KF.post_psd hPm hR
  · rw [eP, KF.joseph_gain (KF.symm_of_psd hPm) (KF.symm_of_psd hR.posSemidef) hd]
    rfl

/-- The reported covariance is that of some gains, and at most that of any gains. -/
theorem run_covs (k : Kalman ℝ m u) (ds : List (ColVec ℝ u.val × ColVec ℝ m.val))
    (hP : k.P.toMatrix.PosSemidef) (hQ : k.Q.toMatrix.PosSemidef) (hR : k.R.toMatrix.PosDef) :
    ∃ k', k.run ds = .ok k' ∧
      (∃ Gs : List (Matrix (Fin 2) (Fin m.val) ℝ), Gs.length = ds.length ∧ k'.P.toMatrix =
        covs k.A.toMatrix k.H.toMatrix k.Q.toMatrix k.R.toMatrix Gs k.P.toMatrix) ∧
      ∀ Gs : List (Matrix (Fin 2) (Fin m.val) ℝ), Gs.length = ds.length →
        (covs k.A.toMatrix k.H.toMatrix k.Q.toMatrix k.R.toMatrix Gs k.P.toMatrix -
          k'.P.toMatrix).PosSemidef := by
  induction ds generalizing k with
  | nil =>
    refine ⟨k, rfl, ⟨[], rfl, rfl⟩, fun Gs h => ?_⟩
    obtain rfl : Gs = [] := List.length_eq_zero_iff.1 h
    show (k.P.toMatrix - k.P.toMatrix).PosSemidef
    rw [sub_self]
    exact Matrix.PosSemidef.zero
  | cons d ds ih =>
    obtain ⟨k1, h1, hP1, -, eP⟩ := update_joseph k d.1 d.2 hP hQ hR
    have hs := update_same h1
    obtain ⟨k', h', ⟨Gs, hlen, hGs⟩, hopt⟩ := ih k1 hP1 (by rw [hs.Q]; exact hQ)
      (by rw [hs.R]; exact hR)
    rw [hs.A, hs.H, hs.Q, hs.R] at hGs hopt
    rw [eP] at hGs
    refine ⟨k', run_cons.2 ⟨k1, h1, h'⟩, ⟨_ :: Gs, by simp [hlen], hGs⟩, fun Gs h => ?_⟩
    cases Gs with
    | nil => simp at h
    | cons G Gs =>
      have h2 := hopt Gs (by simpa using h)
      have hPm : k.Pm.PosSemidef := (KF.psd_congr hP k.A.toMatrix).add hQ
      have h3 : (josephStep k.A.toMatrix k.H.toMatrix k.Q.toMatrix k.R.toMatrix G k.P.toMatrix -
          k1.P.toMatrix).PosSemidef := by
        have h4 := KF.optimal (H := k.H.toMatrix) hPm hR G
        rw [KF.joseph_gain (KF.symm_of_psd hPm) (KF.symm_of_psd hR.posSemidef)
          (KF.posDef_det (KF.innov_posDef (H := k.H.toMatrix) hPm hR))] at h4
        rw [eP]
        exact h4
      have h5 := covs_mono (A := k.A.toMatrix) (H := k.H.toMatrix) Gs h3
        (Q := k.Q.toMatrix) (Q' := k.Q.toMatrix) (by rw [sub_self]; exact Matrix.PosSemidef.zero)
        (R := k.R.toMatrix) (R' := k.R.toMatrix) (by rw [sub_self]; exact Matrix.PosSemidef.zero)
      have := h5.add h2
      rwa [sub_add_sub_cancel] at this

/-- Estimators on random data: the gains do not depend on chance and the error follows the error
recursion. -/
theorem random_run {Ω : Type} (k : Kalman ℝ m u) (κ : Ω → Kalman ℝ m u)
    (hκ : ∀ ω, SameModel k (κ ω) ∧ (κ ω).P = k.P) (X : Ω → State)
    (steps : List (NoisyStep Ω u.val m.val))
    (hP : k.P.toMatrix.PosSemidef) (hQ : k.Q.toMatrix.PosSemidef) (hR : k.R.toMatrix.PosDef) :
    ∃ (Gs : List (Matrix (Fin 2) (Fin m.val) ℝ)) (κ' : Ω → Kalman ℝ m u),
      Gs.length = steps.length ∧
      (∀ ω, (κ ω).run (observed k.A.toMatrix k.B.toMatrix k.H.toMatrix X steps ω) = .ok (κ' ω)) ∧
      (∀ ω, truth k.A.toMatrix k.B.toMatrix X steps ω - (κ' ω).xhat.toMatrix =
        errors k.A.toMatrix k.H.toMatrix (Gs.zip steps) (fun ω => X ω - (κ ω).xhat.toMatrix) ω) ∧
      ∀ ω, (κ' ω).P.toMatrix =
        covs k.A.toMatrix k.H.toMatrix k.Q.toMatrix k.R.toMatrix Gs k.P.toMatrix := by
  induction steps generalizing k κ X with
  | nil => exact ⟨[], κ, rfl, fun ω => rfl, fun ω => rfl, fun ω => by rw [(hκ ω).2]; rfl⟩
  | cons s l ih =>
    have up (ω) := update_joseph (κ ω) s.control
      (ofMatrix (k.H.toMatrix * (k.A.toMatrix * X ω + k.B.toMatrix * s.control.toMatrix + s.process ω)
        + s.measurement ω))
      (by rw [(hκ ω).2]; exact hP) (by rw [(hκ ω).1.Q]; exact hQ) (by rw [(hκ ω).1.R]; exact hR)
    choose κ1 h1 hP1 eX eP using up
    have ePm (ω) : (κ ω).Pm = k.Pm := by
      unfold Pm; rw [(hκ ω).1.A, (hκ ω).1.Q, (hκ ω).2]
    -- a common representative for the next step
    obtain ⟨k1, hk1, hk1P, -, ek1⟩ := update_joseph k s.control (ofMatrix 0) hP hQ hR
    have hs1 := update_same hk1
    have hκ1 : ∀ ω, SameModel k1 (κ1 ω) ∧ (κ1 ω).P = k1.P := by
      intro ω
      have hs := (hκ ω).1.trans (update_same (h1 ω))
      refine ⟨⟨?_, ?_, ?_, ?_, ?_, ?_⟩, Mat.toMatrix_inj ?_⟩
      · rw [hs.A, hs1.A]
      · rw [hs.B, hs1.B]
      · rw [hs.H, hs1.H]
      · rw [hs.Q, hs1.Q]
      · rw [hs.R, hs1.R]
      · rw [hs.dt, hs1.dt]
      · rw [eP ω, ek1, ePm ω, (hκ ω).1.A, (hκ ω).1.H, (hκ ω).1.Q, (hκ ω).1.R, (hκ ω).2]
    obtain ⟨Gs, κ', hlen, hrun, herr, hcov⟩ := ih k1 κ1 hκ1
      (fun ω => k.A.toMatrix * X ω + k.B.toMatrix * s.control.toMatrix + s.process ω) hk1P
      (by rw [hs1.Q]; exact hQ) (by rw [hs1.R]; exact hR)
    rw [hs1.A, hs1.B, hs1.H] at hrun
    rw [hs1.A, hs1.B, hs1.H] at herr
    rw [hs1.A, hs1.H, hs1.Q, hs1.R, ek1] at hcov
    refine ⟨KF.gain k.Pm k.H.toMatrix k.R.toMatrix :: Gs, κ', by simp [hlen],
      fun ω => run_cons.2 ⟨κ1 ω, h1 ω, hrun ω⟩, fun ω => ?_, hcov⟩
    refine (herr ω).trans ?_
    show errors _ _ (Gs.zip l) _ ω = errors _ _ (Gs.zip l) _ ω
    congr 1
    funext ω
    rw [eX ω, ePm ω, toMatrix_ofMatrix, (hκ ω).1.H, (hκ ω).1.R]
    unfold nextError xm
    rw [(hκ ω).1.A, (hκ ω).1.B]
    generalize KF.gain k.Pm k.H.toMatrix k.R.toMatrix = G
    simp only [Matrix.mul_add, Matrix.mul_sub, Matrix.sub_mul, Matrix.one_mul, Matrix.mul_assoc]
    abel

end Kalman

/-- The error of a filter with arbitrary gains. -/
theorem otherFilter_error {Ω : Type} {m u : Nat} (A : Matrix (Fin 2) (Fin 2) ℝ)
    (B : Matrix (Fin 2) (Fin u) ℝ) (H : Matrix (Fin m) (Fin 2) ℝ) (xh X : Ω → State)
    (Gs : List (Matrix (Fin 2) (Fin m) ℝ)) (steps : List (NoisyStep Ω u m))
    (h : Gs.length = steps.length) (ω : Ω) :
    truth A B X steps ω - otherFilter A B H xh Gs (observed A B H X steps) ω =
      errors A H (Gs.zip steps) (fun ω => X ω - xh ω) ω := by
  induction steps generalizing Gs xh X with
  | nil =>
    obtain rfl : Gs = [] := List.length_eq_zero_iff.1 h
    rfl
  | cons s l ih =>
    cases Gs with
    | nil => simp at h
    | cons G Gs =>
      refine (ih _ _ Gs (by simpa using h)).trans ?_
      show errors _ _ (Gs.zip l) _ ω = errors _ _ (Gs.zip l) _ ω
      congr 1
      funext ω
      simp only [observed, toMatrix_ofMatrix, nextError, Matrix.mul_add, Matrix.mul_sub,
        Matrix.sub_mul, Matrix.one_mul, Matrix.mul_assoc]
      abel

end Verif
