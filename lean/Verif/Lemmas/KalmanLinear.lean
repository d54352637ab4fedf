import Verif.Spec.KalmanLinear
import Verif.Lemmas.KalmanStat

/- Orthogonality of the estimation error to everything known. -/

namespace Verif
open Matrix MeasureTheory

section known
variable {Ω : Type} [MeasurableSpace Ω] {μ : Measure Ω} {m u n p : Nat}
  {A : Matrix (Fin 2) (Fin 2) ℝ} {B : Matrix (Fin 2) (Fin u) ℝ} {H : Matrix (Fin m) (Fin 2) ℝ}
  {e : Ω → State} {s : NoisyStep Ω u m} {l : List (NoisyStep Ω u m)}

/-- `f` is uncorrelated with the error and with all noise to come. -/
structure Known (μ : Measure Ω) (e : Ω → State) (l : List (NoisyStep Ω u m))
    (f : Ω → Matrix (Fin n) (Fin 1) ℝ) : Prop where
  sq : SquareIntegrable μ f
  error : moment μ e f = 0
  noise : ∀ s ∈ l, moment μ s.process f = 0 ∧ moment μ s.measurement f = 0

theorem moment_add_right {f : Ω → Matrix (Fin n) (Fin 1) ℝ} {g g' : Ω → Matrix (Fin p) (Fin 1) ℝ}
    (hf : SquareIntegrable μ f) (hg : SquareIntegrable μ g) (hg' : SquareIntegrable μ g') :
    moment μ f (fun ω => g ω + g' ω) = moment μ f g + moment μ f g' := by
  rw [← moment_transpose, moment_add hg hg' hf, Matrix.transpose_add, moment_transpose,
    moment_transpose]

theorem moment_mul_right {q : Nat} {f : Ω → Matrix (Fin n) (Fin 1) ℝ}
    {g : Ω → Matrix (Fin p) (Fin 1) ℝ}
    (hf : SquareIntegrable μ f) (hg : SquareIntegrable μ g) (M : Matrix (Fin q) (Fin p) ℝ) :
    moment μ f (fun ω => M * g ω) = moment μ f g * Mᵀ := by
  rw [← moment_transpose, moment_mul hg hf, Matrix.transpose_mul, moment_transpose]

theorem Known.add {f g : Ω → Matrix (Fin n) (Fin 1) ℝ} (he : Uncorrelated μ e l)
    (hf : Known μ e l f) (hg : Known μ e l g) : Known μ e l (fun ω => f ω + g ω) := by
  refine ⟨hf.sq.add hg.sq, ?_, fun s hs => ⟨?_, ?_⟩⟩
  · rw [moment_add_right he.initial hf.sq hg.sq, hf.error, hg.error, add_zero]
  · rw [moment_add_right (he.noise s hs).1 hf.sq hg.sq, (hf.noise s hs).1, (hg.noise s hs).1,
      add_zero]
  · rw [moment_add_right (he.noise s hs).2 hf.sq hg.sq, (hf.noise s hs).2, (hg.noise s hs).2,
      add_zero]

theorem Known.mul {f : Ω → Matrix (Fin n) (Fin 1) ℝ} (he : Uncorrelated μ e l)
    (hf : Known μ e l f) (M : Matrix (Fin p) (Fin n) ℝ) : Known μ e l (fun ω => M * f ω) := by
  refine ⟨hf.sq.mul M, ?_, fun s hs => ⟨?_, ?_⟩⟩
  · rw [moment_mul_right he.initial hf.sq, hf.error, Matrix.zero_mul]
  · rw [moment_mul_right (he.noise s hs).1 hf.sq, (hf.noise s hs).1, Matrix.zero_mul]
  · rw [moment_mul_right (he.noise s hs).2 hf.sq, (hf.noise s hs).2, Matrix.zero_mul]

/-- What is uncorrelated with the error stays so. -/
theorem Known.step {f : Ω → Matrix (Fin n) (Fin 1) ℝ} (h : Uncorrelated μ e (s :: l))
    (hf : Known μ e (s :: l) f) (G : Matrix (Fin 2) (Fin m) ℝ) :
    Known μ (nextError A H G e s) l f := by
  obtain ⟨hw, hv⟩ := h.noise s (by simp)
  obtain ⟨fw, fv⟩ := hf.noise s (by simp)
  have hsum := (h.initial.mul A).add hw
  refine ⟨hf.sq, ?_, fun t ht => hf.noise t (by simp [ht])⟩
  unfold nextError
  rw [moment_sub (hsum.mul _) (hv.mul G) hf.sq, moment_mul hsum hf.sq,
    moment_add (h.initial.mul A) hw hf.sq, moment_mul h.initial hf.sq, moment_mul hv hf.sq, hf.error,
    fw, fv]
  simp

/-- The part of the measurement that could not be predicted. -/
def surprise (A : Matrix (Fin 2) (Fin 2) ℝ) (H : Matrix (Fin m) (Fin 2) ℝ) (e : Ω → State)
    (s : NoisyStep Ω u m) : Ω → Matrix (Fin m) (Fin 1) ℝ :=
  fun ω => H * (A * e ω + s.process ω) + s.measurement ω

theorem surprise_sq (h : Uncorrelated μ e (s :: l)) : SquareIntegrable μ (surprise A H e s) := by
  obtain ⟨hw, hv⟩ := h.noise s (by simp)
  exact (((h.initial.mul A).add hw).mul H).add hv

/-- The part that could not be predicted is uncorrelated with everything known. -/
theorem surprise_known {f : Ω → Matrix (Fin n) (Fin 1) ℝ} (h : Uncorrelated μ e (s :: l))
    (hf : Known μ e (s :: l) f) : moment μ (surprise A H e s) f = 0 := by
  obtain ⟨hw, hv⟩ := h.noise s (by simp)
  obtain ⟨fw, fv⟩ := hf.noise s (by simp)
  have hsum := (h.initial.mul A).add hw
  unfold surprise
  rw [moment_add (hsum.mul H) hv hf.sq, moment_mul hsum hf.sq,
    moment_add (h.initial.mul A) hw hf.sq, moment_mul h.initial hf.sq, hf.error, fw, fv]
  simp

/-- The moments of the parts of a step. -/
theorem predict_moment (h : Uncorrelated μ e (s :: l)) :
    moment μ (fun ω => A * e ω + s.process ω) (fun ω => A * e ω + s.process ω) =
      A * moment μ e e * Aᵀ + moment μ s.process s.process ∧
    moment μ (fun ω => A * e ω + s.process ω) s.measurement = 0 := by
  have he := h.initial
  obtain ⟨hw, hv⟩ := h.noise s (by simp)
  obtain ⟨hew, hev⟩ := h.initial_noise s (by simp)
  have hwv := h.same_step s (by simp)
  have hwe : moment μ s.process e = 0 := by rw [← moment_transpose, hew, Matrix.transpose_zero]
  have hAe := he.mul A
  have hsum := hAe.add hw
  constructor
  · rw [moment_add hAe hw hsum, moment_mul he hsum, moment_add_right he hAe hw,
      moment_mul_right he he, hew, add_zero, moment_add_right hw hAe hw, moment_mul_right hw he, hwe,
      Matrix.zero_mul, zero_add, Matrix.mul_assoc]
  · rw [moment_add hAe hw hv, moment_mul he hv, hev, hwv, Matrix.mul_zero, add_zero]

theorem surprise_moment (h : Uncorrelated μ e (s :: l)) :
    moment μ (surprise A H e s) (surprise A H e s) =
      H * (A * moment μ e e * Aᵀ + moment μ s.process s.process) * Hᵀ +
        moment μ s.measurement s.measurement := by
  obtain ⟨hw, hv⟩ := h.noise s (by simp)
  obtain ⟨m1, m2⟩ := predict_moment (A := A) h
  have hsum := (h.initial.mul A).add hw
  have m3 : moment μ s.measurement (fun ω => A * e ω + s.process ω) = 0 := by
    rw [← moment_transpose, m2, Matrix.transpose_zero]
  have hd := surprise_sq (A := A) (H := H) h
  unfold surprise at hd ⊢
  rw [moment_add (hsum.mul H) hv hd, moment_mul hsum hd, moment_add_right hsum (hsum.mul H) hv,
    moment_mul_right hsum hsum, m1, m2, add_zero, moment_add_right hv (hsum.mul H) hv,
    moment_mul_right hv hsum, m3, Matrix.zero_mul, zero_add, ← Matrix.mul_assoc]

/-- With the optimal gain the remaining error is uncorrelated with what has just been learnt. -/
theorem surprise_next {Q : Matrix (Fin 2) (Fin 2) ℝ} {R : Matrix (Fin m) (Fin m) ℝ}
    (h : Uncorrelated μ e (s :: l)) (hQ : moment μ s.process s.process = Q)
    (hR : moment μ s.measurement s.measurement = R)
    (hd : IsUnit (KF.innov (A * moment μ e e * Aᵀ + Q) H R).det) :
    Known μ (nextError A H (KF.gain (A * moment μ e e * Aᵀ + Q) H R) e s) l
      (surprise A H e s) := by
  obtain ⟨hw, hv⟩ := h.noise s (by simp)
  obtain ⟨m1, m2⟩ := predict_moment (A := A) h
  have hsum := (h.initial.mul A).add hw
  have m3 : moment μ s.measurement (fun ω => A * e ω + s.process ω) = 0 := by
    rw [← moment_transpose, m2, Matrix.transpose_zero]
  have hp := List.pairwise_cons.1 h.other_step
  have hsq := surprise_sq (A := A) (H := H) h
  refine ⟨hsq, ?_, fun t ht => ?_⟩
  · rw [← hQ, ← hR] at hd ⊢
    have h1 := KF.post_mul_HT hd
    unfold surprise at hsq ⊢
    unfold nextError
    generalize KF.gain _ H _ = G at h1 ⊢
    rw [moment_sub (hsum.mul _) (hv.mul G) hsq, moment_mul hsum hsq, moment_mul hv hsq,
      moment_add_right hsum (hsum.mul H) hv, moment_add_right hv (hsum.mul H) hv,
      moment_mul_right hsum hsum, moment_mul_right hv hsum, m1, m2, m3, Matrix.zero_mul, add_zero,
      zero_add, ← Matrix.mul_assoc, h1, sub_self]
  · obtain ⟨tw, tv⟩ := h.noise t (by simp [ht])
    obtain ⟨e1, e2⟩ := h.initial_noise t (by simp [ht])
    obtain ⟨p1, p2, p3, p4⟩ := hp.1 t ht
    have hAe := h.initial.mul A
    unfold surprise
    constructor
    · rw [← moment_transpose, moment_add (hsum.mul H) hv tw, moment_mul hsum tw,
        moment_add hAe hw tw, moment_mul h.initial tw, e1, p1, p3]
      simp
    · rw [← moment_transpose, moment_add (hsum.mul H) hv tv, moment_mul hsum tv,
        moment_add hAe hw tv, moment_mul h.initial tv, e2, p2, p4]
      simp

end known

namespace Kalman
variable {m u : Dim} {Ω : Type} [MeasurableSpace Ω] {μ : Measure Ω}

/-- The estimators `κ ω` on random data share model and covariance with `k`, and their error `X - x̂`
is as the theory assumes. -/
structure Tracks (μ : Measure Ω) (k : Kalman ℝ m u) (κ : Ω → Kalman ℝ m u) (X : Ω → State)
    (steps : List (NoisyStep Ω u.val m.val)) : Prop where
  same : ∀ ω, SameModel k (κ ω)
  cov : ∀ ω, (κ ω).P = k.P
  Q : k.Q.toMatrix.PosSemidef
  R : k.R.toMatrix.PosDef
  uncorrelated : Uncorrelated μ (fun ω => X ω - (κ ω).xhat.toMatrix) steps
  error : moment μ (fun ω => X ω - (κ ω).xhat.toMatrix) (fun ω => X ω - (κ ω).xhat.toMatrix) =
    k.P.toMatrix
  noise : ∀ s ∈ steps, moment μ s.process s.process = k.Q.toMatrix ∧
    moment μ s.measurement s.measurement = k.R.toMatrix

theorem Tracks.step {k : Kalman ℝ m u} {κ : Ω → Kalman ℝ m u} {X : Ω → State}
    {s : NoisyStep Ω u.val m.val} {l} (t : Tracks μ k κ X (s :: l)) :
    ∃ k1 κ1, SameModel k k1 ∧
      (∀ ω, (κ ω).update s.control (ofMatrix (k.H.toMatrix * (k.A.toMatrix * X ω +
        k.B.toMatrix * s.control.toMatrix + s.process ω) + s.measurement ω)) = .ok (κ1 ω)) ∧
      Tracks μ k1 κ1 (fun ω => k.A.toMatrix * X ω + k.B.toMatrix * s.control.toMatrix + s.process ω)
        l ∧
      (∀ ω, (κ1 ω).xhat.toMatrix = k.A.toMatrix * (κ ω).xhat.toMatrix +
        k.B.toMatrix * s.control.toMatrix + KF.gain k.Pm k.H.toMatrix k.R.toMatrix *
          surprise k.A.toMatrix k.H.toMatrix (fun ω => X ω - (κ ω).xhat.toMatrix) s ω) ∧
      (fun ω => k.A.toMatrix * X ω + k.B.toMatrix * s.control.toMatrix + s.process ω -
        (κ1 ω).xhat.toMatrix) = nextError k.A.toMatrix k.H.toMatrix
          (KF.gain k.Pm k.H.toMatrix k.R.toMatrix) (fun ω => X ω - (κ ω).xhat.toMatrix) s := by
  have hP : k.P.toMatrix.PosSemidef := by rw [← t.error]; exact moment_psd t.uncorrelated.initial
  have up (ω) := update_joseph (κ ω) s.control
    (ofMatrix (k.H.toMatrix * (k.A.toMatrix * X ω + k.B.toMatrix * s.control.toMatrix + s.process ω)
      + s.measurement ω))
    (by rw [t.cov ω]; exact hP) (by rw [(t.same ω).Q]; exact t.Q) (by rw [(t.same ω).R]; exact t.R)
  choose κ1 h1 hP1 eX eP using up
  have ePm (ω) : (κ ω).Pm = k.Pm := by
    unfold Pm; rw [(t.same ω).A, (t.same ω).Q, t.cov ω]
  obtain ⟨k1, hk1, hk1P, -, ek1⟩ := update_joseph k s.control (ofMatrix 0) hP t.Q t.R
  have hs1 := update_same hk1
  have eX' (ω) : (κ1 ω).xhat.toMatrix = k.A.toMatrix * (κ ω).xhat.toMatrix +
        k.B.toMatrix * s.control.toMatrix + KF.gain k.Pm k.H.toMatrix k.R.toMatrix *
          surprise k.A.toMatrix k.H.toMatrix (fun ω => X ω - (κ ω).xhat.toMatrix) s ω := by
    rw [eX ω, ePm ω, toMatrix_ofMatrix, (t.same ω).H, (t.same ω).R]
    unfold surprise xm
    rw [(t.same ω).A, (t.same ω).B]
    generalize KF.gain k.Pm k.H.toMatrix k.R.toMatrix = G
    congr 2
    simp only [Matrix.mul_add, Matrix.mul_sub]
    abel
  have eE : (fun ω => k.A.toMatrix * X ω + k.B.toMatrix * s.control.toMatrix + s.process ω -
        (κ1 ω).xhat.toMatrix) = nextError k.A.toMatrix k.H.toMatrix
          (KF.gain k.Pm k.H.toMatrix k.R.toMatrix) (fun ω => X ω - (κ ω).xhat.toMatrix) s := by
    funext ω
    rw [eX' ω]
    unfold nextError surprise
    generalize KF.gain k.Pm k.H.toMatrix k.R.toMatrix = G
    simp only [Matrix.mul_add, Matrix.mul_sub, Matrix.sub_mul, Matrix.one_mul, Matrix.mul_assoc]
    abel
  refine ⟨k1, κ1, hs1, h1, ⟨fun ω => ?_, fun ω => Mat.toMatrix_inj ?_, by rw [hs1.Q]; exact t.Q,
    by rw [hs1.R]; exact t.R, ?_, ?_, ?_⟩, eX', eE⟩
  · have hs := (t.same ω).trans (update_same (h1 ω))
    exact ⟨by rw [hs.A, hs1.A], by rw [hs.B, hs1.B], by rw [hs.H, hs1.H], by rw [hs.Q, hs1.Q],
      by rw [hs.R, hs1.R], by rw [hs.dt, hs1.dt]⟩
  · rw [eP ω, ek1, ePm ω, (t.same ω).A, (t.same ω).H, (t.same ω).Q, (t.same ω).R, t.cov ω]
  · rw [eE]; exact nextError_uncorrelated t.uncorrelated _
  · rw [eE, nextError_moment t.uncorrelated, (t.noise s (by simp)).1, (t.noise s (by simp)).2,
      t.error, ek1]
    rfl
  · intro r hr
    rw [hs1.Q, hs1.R]
    exact t.noise r (by simp [hr])

/-- What has just been learnt is uncorrelated with the remaining error. -/
theorem Tracks.learnt {k : Kalman ℝ m u} {κ : Ω → Kalman ℝ m u} {X : Ω → State}
    {s : NoisyStep Ω u.val m.val} {l} (t : Tracks μ k κ X (s :: l)) :
    Known μ (nextError k.A.toMatrix k.H.toMatrix (KF.gain k.Pm k.H.toMatrix k.R.toMatrix)
        (fun ω => X ω - (κ ω).xhat.toMatrix) s) l
      (surprise k.A.toMatrix k.H.toMatrix (fun ω => X ω - (κ ω).xhat.toMatrix) s) := by
  have hP : k.P.toMatrix.PosSemidef := by rw [← t.error]; exact moment_psd t.uncorrelated.initial
  have hPm : k.Pm.PosSemidef := (KF.psd_congr hP k.A.toMatrix).add t.Q
  have hd := KF.posDef_det (KF.innov_posDef (H := k.H.toMatrix) hPm t.R)
  have e : k.Pm = k.A.toMatrix * moment μ (fun ω => X ω - (κ ω).xhat.toMatrix)
      (fun ω => X ω - (κ ω).xhat.toMatrix) * k.A.toMatrixᵀ + k.Q.toMatrix := by
    rw [t.error]; rfl
  have := surprise_next (A := k.A.toMatrix) (H := k.H.toMatrix) t.uncorrelated
    (t.noise s (by simp)).1 (t.noise s (by simp)).2 (by rw [← e]; exact hd)
  rw [← e] at this
  exact this

/-- A run: the errors stay as assumed, what was known stays known, and if the estimate is known (and
so far any competitor), then afterwards so is the estimate and every affine function of the data. -/
theorem Tracks.run {k : Kalman ℝ m u} {κ : Ω → Kalman ℝ m u} {X : Ω → State}
    {l r : List (NoisyStep Ω u.val m.val)} (t : Tracks μ k κ X (l ++ r)) :
    ∃ k' κ', SameModel k k' ∧
      (∀ ω, (κ ω).run (observed k.A.toMatrix k.B.toMatrix k.H.toMatrix X l ω) = .ok (κ' ω)) ∧
      Tracks μ k' κ' (truth k.A.toMatrix k.B.toMatrix X l) r ∧
      (∀ (n : Nat) (f : Ω → Matrix (Fin n) (Fin 1) ℝ),
        Known μ (fun ω => X ω - (κ ω).xhat.toMatrix) (l ++ r) f →
        Known μ (fun ω => truth k.A.toMatrix k.B.toMatrix X l ω - (κ' ω).xhat.toMatrix) r f) ∧
      ((∀ c : State, Known μ (fun ω => X ω - (κ ω).xhat.toMatrix) (l ++ r) fun _ => c) →
        Known μ (fun ω => X ω - (κ ω).xhat.toMatrix) (l ++ r) (fun ω => (κ ω).xhat.toMatrix) →
        Known μ (fun ω => truth k.A.toMatrix k.B.toMatrix X l ω - (κ' ω).xhat.toMatrix) r
          (fun ω => (κ' ω).xhat.toMatrix) ∧
        ∀ (y : Ω → State) (Gs : List (Matrix (Fin 2) (Fin m.val) ℝ)),
          Known μ (fun ω => X ω - (κ ω).xhat.toMatrix) (l ++ r) y →
          Known μ (fun ω => truth k.A.toMatrix k.B.toMatrix X l ω - (κ' ω).xhat.toMatrix) r
            (fun ω => affine (y ω) Gs
              (observed k.A.toMatrix k.B.toMatrix k.H.toMatrix X l ω))) := by
  induction l generalizing k κ X with
  | nil =>
    refine ⟨k, κ, SameModel.rfl' k, fun ω => rfl, t, fun n f h => h, fun _ h => ⟨h, ?_⟩⟩
    intro y Gs hy
    cases Gs <;> exact hy
  | cons s l ih =>
    obtain ⟨k1, κ1, hs1, hup, t1, eX, eE⟩ := Tracks.step (l := l ++ r) t
    have hL := Tracks.learnt (l := l ++ r) t
    obtain ⟨k', κ', hs', hrun, t', hkn, hlin⟩ := ih t1
    rw [hs1.A, hs1.B, hs1.H] at hrun hlin
    rw [hs1.A, hs1.B] at t' hkn
    have keep (n : Nat) (f : Ω → Matrix (Fin n) (Fin 1) ℝ)
        (hf : Known μ (fun ω => X ω - (κ ω).xhat.toMatrix) (s :: l ++ r) f) :
        Known μ (fun ω => k.A.toMatrix * X ω + k.B.toMatrix * s.control.toMatrix + s.process ω -
          (κ1 ω).xhat.toMatrix) (l ++ r) f := by
      rw [eE]
      exact Known.step (l := l ++ r) t.uncorrelated hf _
    rw [← eE] at hL
    refine ⟨k', κ', hs1.trans hs', fun ω => run_cons.2 ⟨κ1 ω, hup ω, hrun ω⟩, t',
      fun n f hf => hkn n f (keep n f hf), fun hc hx => ?_⟩
    have hx1 := keep _ _ hx
    have hxm := ((hx1.mul t1.uncorrelated k.A.toMatrix).add t1.uncorrelated
      (keep _ _ (hc (k.B.toMatrix * s.control.toMatrix))))
    obtain ⟨a, b⟩ := hlin (fun c => keep _ _ (hc c)) (by
      have := hxm.add t1.uncorrelated
        (hL.mul t1.uncorrelated (KF.gain k.Pm k.H.toMatrix k.R.toMatrix))
      simpa only [← eX] using this)
    refine ⟨a, fun y Gs hy => ?_⟩
    cases Gs with
    | nil => exact b y [] (keep _ _ hy)
    | cons G Gs =>
      refine b (fun ω => y ω + G * _) Gs ((keep _ _ hy).add t1.uncorrelated
        (Known.mul t1.uncorrelated ?_ G))
      have := (hxm.mul t1.uncorrelated k.H.toMatrix).add t1.uncorrelated hL
      convert this using 2 with ω
      rw [toMatrix_ofMatrix]
      unfold surprise
      simp only [Matrix.mul_add, Matrix.mul_sub]
      abel

/-- The data given to an estimator over two stretches of time. -/
theorem observed_append {Ω : Type} {m u : Nat} (A : Matrix (Fin 2) (Fin 2) ℝ)
    (B : Matrix (Fin 2) (Fin u) ℝ) (H : Matrix (Fin m) (Fin 2) ℝ) (X : Ω → State)
    (l r : List (NoisyStep Ω u m)) (ω : Ω) :
    observed A B H X (l ++ r) ω = observed A B H X l ω ++ observed A B H (truth A B X l) r ω := by
  induction l generalizing X with
  | nil => rfl
  | cons s l ih => simp only [List.cons_append, observed, ih, truth]

theorem truth_append {Ω : Type} {m u : Nat} (A : Matrix (Fin 2) (Fin 2) ℝ)
    (B : Matrix (Fin 2) (Fin u) ℝ) (X : Ω → State) (l r : List (NoisyStep Ω u m)) :
    truth A B X (l ++ r) = truth A B (truth A B X l) r := by
  induction l generalizing X with
  | nil => rfl
  | cons s l ih => simp only [List.cons_append, ih, truth]

theorem innovation_eq {Ω : Type} {m u : Nat} (A : Matrix (Fin 2) (Fin 2) ℝ)
    (B : Matrix (Fin 2) (Fin u) ℝ) (H : Matrix (Fin m) (Fin 2) ℝ) (x xh : Ω → State)
    (s : NoisyStep Ω u m) : innovation A B H x xh s = surprise A H (fun ω => x ω - xh ω) s := by
  funext ω
  unfold innovation surprise
  simp only [Matrix.mul_add, Matrix.mul_sub]
  abel

end Kalman

theorem affine_add {m u : Nat} (c c' : State) (Gs : List (Matrix (Fin 2) (Fin m) ℝ))
    (ds : List (ColVec ℝ u × ColVec ℝ m)) : affine (c + c') Gs ds = c + affine c' Gs ds := by
  induction Gs generalizing c' ds with
  | nil => rfl
  | cons G Gs ih =>
    cases ds with
    | nil => rfl
    | cons d ds => simp only [affine, add_assoc, ih]

/-- A constant is uncorrelated with what has mean zero. -/
theorem moment_const {Ω : Type} [MeasurableSpace Ω] {μ : Measure Ω} {n p : Nat}
    {f : Ω → Matrix (Fin n) (Fin 1) ℝ} (hf : ∀ i, ∫ ω, f ω i 0 ∂μ = 0)
    (c : Matrix (Fin p) (Fin 1) ℝ) : moment μ f (fun _ => c) = 0 := by
  ext i j
  simp only [moment, Matrix.of_apply, integral_mul_const, hf, zero_mul, Matrix.zero_apply]

end Verif
