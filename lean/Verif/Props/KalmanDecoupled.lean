import Verif.Lemmas.Decoupled
import Verif.Lemmas.KalmanRobust
import Verif.Props.KalmanRobust
import Verif.Props.FixedPoint
import Verif.Props.KalmanSkew

/-
C150: two measurements of two separate states.
-/

namespace Verif
open Kalman

variable {u : Dim}

/-! ### Diagonal matrices stay diagonal -/

/-- C150: if transition, measurement and noise matrices and the initial covariance are diagonal, covariance and gain are diagonal
after every run, exactly, in every arithmetic whose operations with zero are exact, however inexact the others are. -/
theorem C150_diagonal (T : Type) [CNum T] [ZeroExact T] (k k' : Kalman T .two u) (hA : Mat.IsDiag k.A) (hH : Mat.IsDiag k.H)
    (hQ : Mat.IsDiag k.Q) (hR : Mat.IsDiag k.R) (hP : Mat.IsDiag k.P) (ds : List (ColVec T u.val × ColVec T 2))
    (h : k.run ds = .ok k') :
    Mat.IsDiag k'.estimation_error_covariance ∧ (ds ≠ [] → ∃ g : Mat T 2 2, k'.kalman_gain = .ok g ∧ g.IsDiag) := by
  obtain ⟨h1, h2⟩ := Decoupled.run ⟨hA, hH, hQ, hR, hP⟩ h
  refine ⟨h1.P, fun hne => ?_⟩
  obtain ⟨G, e, hG⟩ := h2 hne
  exact ⟨G, by rw [kalman_gain, e], hG⟩

/-- C150: if the control matrix is diagonal, too, the two states are estimated separately: each component of the
estimate depends on the same component of the initial estimate, of the controls and of the measurements only. -/
theorem C150_separate (T : Type) [CNum T] [ZeroExact T] (k l k' l' : Kalman T .two .two) (hA : Mat.IsDiag k.A)
    (hB : Mat.IsDiag k.B) (hH : Mat.IsDiag k.H) (hQ : Mat.IsDiag k.Q) (hR : Mat.IsDiag k.R) (hP : Mat.IsDiag k.P)
    (eA : l.A = k.A) (eB : l.B = k.B) (eH : l.H = k.H) (eQ : l.Q = k.Q) (eR : l.R = k.R) (eP : l.P = k.P) (et : l.dt = k.dt)
    (c : Fin 2) (hx : l.system_state.get c 0 = k.system_state.get c 0)
    (ds es : List (ColVec T 2 × ColVec T 2))
    (hd : List.Forall₂ (fun d e => e.1.get c 0 = d.1.get c 0 ∧ e.2.get c 0 = d.2.get c 0) ds es)
    (h : k.run ds = .ok k') (h' : l.run es = .ok l') : l'.system_state.get c 0 = k'.system_state.get c 0 :=
  (Decoupled.run_comp c ⟨hA, hH, hQ, hR, hP⟩ hB ⟨eA, eB, eH, eQ, eR, et⟩ eP hx hd h h').2

/-! ### Rounding does not accumulate -/

/-- C150: with two measurements, too, the estimator follows the exact one for ever in arithmetic that is accurate enough, as
long as the computed covariance stays exactly symmetric.  (Without that condition the smallest asymmetry may grow: C147.) -/
theorem C150_symmetric (k0 : Kalman ℝ .two u) (hP : k0.P.toMatrix.PosSemidef) (hQ : k0.Q.toMatrix.PosSemidef)
    (hC : Steady.Reaches k0.A.toMatrix k0.Q.toMatrix) (hR : k0.R.toMatrix.PosDef)
    (hb : Steady.Bounded k0.A.toMatrix k0.H.toMatrix k0.Q.toMatrix k0.R.toMatrix) (D δ : ℝ) (hδ : 0 < δ) :
    ∃ ω : ℝ, 0 < ω ∧ ∀ ω', 0 < ω' → ω' ≤ ω → ∀ (T : Type) [CNum T] (val : T → ℝ) (k : Kalman T .two u), Accurate T val ω' →
      k.Near val ω' k0 → (∀ ds k', k.run ds = .ok k' → k'.P.get 0 1 = k'.P.get 1 0) →
      ∀ dd : List ((ColVec T u.val × ColVec T 2) × (ColVec ℝ u.val × ColVec ℝ 2)),
      (∀ d ∈ dd, NearData (m := .two) val ω' D d.1 d.2) →
      ∀ k', k.run (dd.map Prod.fst) = .ok k' →
        (∃ k0', k0.run (dd.map Prod.snd) = .ok k0' ∧
          k'.estimation_error_covariance.Near val δ k0'.estimation_error_covariance.toMatrix ∧
          k'.system_state.Near val δ k0'.system_state.toMatrix ∧
          (dd ≠ [] → ∃ g g0, k'.kalman_gain = .ok g ∧ k0'.kalman_gain = .ok g0 ∧ g.Near val δ g0.toMatrix)) ∧
        ∀ d d0 t, NearData (m := .two) val ω' D d d0 → CNum.add k'.t k'.dt = .ok t →
          ∃ k'', k'.update d.1 d.2 = .ok k'' := by
  obtain ⟨L, hL⟩ := settles hQ hC hR hb
  obtain ⟨ω, h0, h⟩ := robust k0 (hL k0.P hP) D hδ
  refine ⟨ω, h0, fun ω' h1 h2 T _ val k hacc hk hsym dd hdd k' hr => ?_⟩
  obtain ⟨k0', e0, n1, n2, n3, n4⟩ := h ω' h1 h2 T val k hacc hk (.inr hsym) dd hdd k' hr
  refine ⟨⟨k0', e0, n1, n2, fun hne => ?_⟩, n4⟩
  obtain ⟨g, g0, e1, e2, n⟩ := n3 hne
  exact ⟨g, g0, by rw [kalman_gain, e1], by rw [kalman_gain, e2], n⟩

/-- C150: in particular if the matrices are diagonal and the arithmetic has an exact zero. -/
theorem C150_estimate (k0 : Kalman ℝ .two u) (hP : k0.P.toMatrix.PosSemidef) (hQ : k0.Q.toMatrix.PosSemidef)
    (hC : Steady.Reaches k0.A.toMatrix k0.Q.toMatrix) (hR : k0.R.toMatrix.PosDef)
    (hb : Steady.Bounded k0.A.toMatrix k0.H.toMatrix k0.Q.toMatrix k0.R.toMatrix) (D δ : ℝ) (hδ : 0 < δ) :
    ∃ ω : ℝ, 0 < ω ∧ ∀ ω', 0 < ω' → ω' ≤ ω → ∀ (T : Type) [CNum T] [ZeroExact T] (val : T → ℝ) (k : Kalman T .two u),
      Accurate T val ω' → k.Near val ω' k0 →
      Mat.IsDiag k.A → Mat.IsDiag k.H → Mat.IsDiag k.Q → Mat.IsDiag k.R → Mat.IsDiag k.P →
      ∀ dd : List ((ColVec T u.val × ColVec T 2) × (ColVec ℝ u.val × ColVec ℝ 2)),
      (∀ d ∈ dd, NearData (m := .two) val ω' D d.1 d.2) →
      ∀ k', k.run (dd.map Prod.fst) = .ok k' →
        (∃ k0', k0.run (dd.map Prod.snd) = .ok k0' ∧
          k'.estimation_error_covariance.Near val δ k0'.estimation_error_covariance.toMatrix ∧
          k'.system_state.Near val δ k0'.system_state.toMatrix ∧
          (dd ≠ [] → ∃ g g0, k'.kalman_gain = .ok g ∧ k0'.kalman_gain = .ok g0 ∧ g.Near val δ g0.toMatrix)) ∧
        ∀ d d0 t, NearData (m := .two) val ω' D d d0 → CNum.add k'.t k'.dt = .ok t →
          ∃ k'', k'.update d.1 d.2 = .ok k'' := by
  obtain ⟨ω, h0, h⟩ := C150_symmetric k0 hP hQ hC hR hb D δ hδ
  refine ⟨ω, h0, fun ω' h1 h2 T _ _ val k hacc hk hA hH hQ hR hP dd hdd k' hr => ?_⟩
  refine h ω' h1 h2 T val k hacc hk (fun ds k' hr => ?_) dd hdd k' hr
  obtain ⟨⟨-, -, -, -, e⟩, -⟩ := Decoupled.run ⟨hA, hH, hQ, hR, hP⟩ hr
  rw [e.1, e.2]

/-! ### Arithmetics with an exact zero -/

/-- C150: operations with zero are exact in every binary floating point format (infinities, NaNs and the sign of zero are not
modelled). -/
theorem C150_float_zero (f : Ieee.Format) : ZeroExact (Flt f) := by
  have z : (CNum.zero : Flt f).val = 0 := rfl
  have h0 : Flt.ofRat f 0 = .ok CNum.zero := by rw [← z]; exact Flt.ofRat_val _
  refine ⟨fun a => ?_, fun a => ?_, fun a => ?_, fun a => ?_, fun a => ?_⟩
  · show Flt.ofRat f (a.val * (CNum.zero : Flt f).val) = _
    rw [z, mul_zero, h0]
  · show Flt.ofRat f ((CNum.zero : Flt f).val * a.val) = _
    rw [z, zero_mul, h0]
  · show Flt.ofRat f (a.val + (CNum.zero : Flt f).val) = _
    rw [z, add_zero, Flt.ofRat_val]
  · show Flt.ofRat f ((CNum.zero : Flt f).val + a.val) = _
    rw [z, zero_add, Flt.ofRat_val]
  · show Flt.ofRat f (a.val - (CNum.zero : Flt f).val) = _
    rw [z, sub_zero, Flt.ofRat_val]

/-- C150: and in fixed point, unless more bits are shifted than there are. -/
theorem C150_fixed_zero (p : Platform) (w : Width) (F : Nat) (hF : F < w.promote) : @ZeroExact (Fx w F) (Fx.cnum p w F) := by
  let _ := Fx.cnum p w F
  have z : (CNum.zero : Fx w F).val = 0 := by
    show (Fx.narrow w F 0).val = 0
    rw [Fx.val_narrow (by linarith [Fx.half_pos w]) (Fx.half_pos w)]; simp
  have same {a c : Fx w F} (h : c.val = a.val) : c = a := by
    have hp : (2 : ℚ) ^ F ≠ 0 := by positivity
    unfold Fx.val at h
    rw [div_left_inj' hp, Int.cast_inj] at h
    ext1
    exact BitVec.eq_of_toInt_eq h
  refine ⟨fun a => ?_, fun a => ?_, fun a => ?_, fun a => ?_, fun a => ?_⟩
  · exact C25_mul_exact p hF _ _ _ (by rw [z, mul_zero])
  · exact C25_mul_exact p hF _ _ _ (by rw [z, zero_mul])
  · obtain ⟨b1, b2⟩ := Fx.val_bounds a
    obtain ⟨c, e, hc⟩ := C24_add_exact p a CNum.zero (by rw [z, add_zero]; exact b1) (by rw [z, add_zero]; exact b2)
    rw [z, add_zero] at hc
    rw [same hc] at e
    exact e
  · obtain ⟨b1, b2⟩ := Fx.val_bounds a
    obtain ⟨c, e, hc⟩ := C24_add_exact p CNum.zero a (by rw [z, zero_add]; exact b1) (by rw [z, zero_add]; exact b2)
    rw [z, zero_add] at hc
    rw [same hc] at e
    exact e
  · obtain ⟨b1, b2⟩ := Fx.val_bounds a
    obtain ⟨c, e, hc⟩ := C24_sub_exact p a CNum.zero (by rw [z, sub_zero]; exact b1) (by rw [z, sub_zero]; exact b2)
    rw [z, sub_zero] at hc
    rw [same hc] at e
    exact e

/-- C150: in every binary floating point format with enough digits and exponents all runs with diagonal matrices succeed and
stay near the exact ones, however long they are. -/
theorem C150_float (k0 : Kalman ℝ .two u) (hP : k0.P.toMatrix.PosSemidef) (hQ : k0.Q.toMatrix.PosSemidef)
    (hC : Steady.Reaches k0.A.toMatrix k0.Q.toMatrix) (hR : k0.R.toMatrix.PosDef)
    (hb : Steady.Bounded k0.A.toMatrix k0.H.toMatrix k0.Q.toMatrix k0.R.toMatrix) (D δ : ℝ) (hδ : 0 < δ) :
    ∃ n : ℕ, ∀ f : Ieee.Format, n ≤ f.p → f.q ≤ -n → n ≤ f.top → ∀ k : Kalman (Flt f) .two u,
      k.Near (fun x => (x.val : ℝ)) (1 / 2 ^ n) k0 → |k.dt.val| < 2 ^ f.top / 2 →
      Mat.IsDiag k.A → Mat.IsDiag k.H → Mat.IsDiag k.Q → Mat.IsDiag k.R → Mat.IsDiag k.P →
      ∀ dd : List ((ColVec (Flt f) u.val × ColVec (Flt f) 2) × (ColVec ℝ u.val × ColVec ℝ 2)),
      (∀ d ∈ dd, NearData (m := .two) (fun x => (x.val : ℝ)) (1 / 2 ^ n) D d.1 d.2) →
      ∃ k' k0', k.run (dd.map Prod.fst) = .ok k' ∧ k0.run (dd.map Prod.snd) = .ok k0' ∧
        k'.estimation_error_covariance.Near (fun x => (x.val : ℝ)) δ k0'.estimation_error_covariance.toMatrix ∧
        k'.system_state.Near (fun x => (x.val : ℝ)) δ k0'.system_state.toMatrix ∧
        (dd ≠ [] → ∃ g g0, k'.kalman_gain = .ok g ∧ k0'.kalman_gain = .ok g0 ∧
          g.Near (fun x => (x.val : ℝ)) δ g0.toMatrix) := by
  obtain ⟨ω, h0, h⟩ := C150_estimate k0 hP hQ hC hR hb D δ hδ
  obtain ⟨n, hn⟩ := exists_pow_lt_of_lt_one h0 (show (1 / 2 : ℝ) < 1 by norm_num)
  rw [div_pow, one_pow] at hn
  refine ⟨n, fun f hp hq ht k hk hdt dA dH dQ dR dP dd hdd => ?_⟩
  have := C150_float_zero f
  have hrun := h (1 / 2 ^ n) (by positivity) hn.le (Flt f) _ k (Flt.accurate_bits hp hq ht) hk dA dH dQ dR dP
  have all : ∃ k', k.run (dd.map Prod.fst) = .ok k' := by
    induction dd using List.reverseRecOn with
    | nil => exact ⟨k, rfl⟩
    | append_singleton dd d ih =>
      obtain ⟨k1, e1⟩ := ih fun d hd => hdd d (List.mem_append_left _ hd)
      obtain ⟨-, hp⟩ := hrun dd (fun d hd => hdd d (List.mem_append_left _ hd)) k1 e1
      have hdt' : k1.dt = k.dt := (run_same e1).dt
      obtain ⟨t, ht'⟩ := clock_flt k1.t k1.dt (by rw [hdt']; exact hdt)
      obtain ⟨k2, e2⟩ := hp d.1 d.2 t (hdd d (by simp)) ht'
      exact ⟨k2, by rw [List.map_append, run_append, e1, bind_ok]; exact run_cons.2 ⟨k2, e2, rfl⟩⟩
  obtain ⟨k', hr⟩ := all
  obtain ⟨⟨k0', e0, n1, n2, n3⟩, -⟩ := hrun dd hdd k' hr
  exact ⟨k', k0', hr, e0, n1, n2, n3⟩

/-! ### A case -/

/-- Two random walks, measured with noise a quarter of theirs: a non-zero asymmetry of the covariance would grow (C147). -/
noncomputable def walks (T : Type) [CNum T] (q r : T) : Kalman T .two .two :=
  init false CNum.one ⟨#v[CNum.one, CNum.zero, CNum.zero, CNum.one]⟩ ⟨#v[CNum.zero, CNum.zero, CNum.zero, CNum.zero]⟩
    ⟨#v[CNum.one, CNum.zero, CNum.zero, CNum.one]⟩ ⟨#v[q, CNum.zero, CNum.zero, q]⟩ ⟨#v[r, CNum.zero, CNum.zero, r]⟩
    ⟨#v[CNum.one, CNum.zero, CNum.zero, CNum.one]⟩ ⟨#v[CNum.zero, CNum.zero]⟩

/-- The hypotheses on the matrices hold for the two random walks, in every arithmetic. -/
example (T : Type) [CNum T] (q r : T) : Mat.IsDiag (walks T q r).A ∧ Mat.IsDiag (walks T q r).B ∧ Mat.IsDiag (walks T q r).H ∧
    Mat.IsDiag (walks T q r).Q ∧ Mat.IsDiag (walks T q r).R ∧ Mat.IsDiag (walks T q r).P :=
  ⟨⟨rfl, rfl⟩, ⟨rfl, rfl⟩, ⟨rfl, rfl⟩, ⟨rfl, rfl⟩, ⟨rfl, rfl⟩, ⟨rfl, rfl⟩⟩

/-- The other hypotheses hold for the exact ones. -/
example : (walks ℝ 4 1).P.toMatrix.PosSemidef ∧ (walks ℝ 4 1).Q.toMatrix.PosSemidef ∧
    Steady.Reaches (walks ℝ 4 1).A.toMatrix (walks ℝ 4 1).Q.toMatrix ∧ (walks ℝ 4 1).R.toMatrix.PosDef ∧
    Steady.Bounded (walks ℝ 4 1).A.toMatrix (walks ℝ 4 1).H.toMatrix (walks ℝ 4 1).Q.toMatrix (walks ℝ 4 1).R.toMatrix := by
  have e1 : (⟨#v[CNum.one, CNum.zero, CNum.zero, CNum.one]⟩ : Mat ℝ 2 2).toMatrix = 1 := one22
  have e4 : (walks ℝ 4 1).Q.toMatrix = (4 : ℝ) • 1 := by
    ext i j; fin_cases i <;> fin_cases j <;> simp [walks, init, Mat.toMatrix, Mat.get] <;> rfl
  have eA : (walks ℝ 4 1).A.toMatrix = 1 := e1
  have eH : (walks ℝ 4 1).H.toMatrix = 1 := e1
  have eP : (walks ℝ 4 1).P.toMatrix = 1 := e1
  have eR : (walks ℝ 4 1).R.toMatrix = 1 := e1
  have p4 : ((4 : ℝ) • (1 : Matrix (Fin 2) (Fin 2) ℝ)).PosDef := Matrix.PosDef.one.smul (by norm_num)
  rw [e4, eA, eH, eP, eR]
  refine ⟨.one, p4.posSemidef, ?_, .one, ?_⟩
  · unfold Steady.Reaches
    rw [Matrix.one_mul, Matrix.transpose_one, Matrix.mul_one]
    exact p4.add p4
  · refine ⟨1, 1, .one, ?_⟩
    rw [Matrix.one_mul, sub_self, Matrix.zero_mul, Matrix.zero_mul, zero_add, Matrix.one_mul, Matrix.transpose_one,
      sub_self]
    exact .zero

/-- C150: the zeros have to be exact: from an asymmetry of any size `ε` of the initial covariance, such as a rounding error, an
asymmetry of at least 2 has arisen after some number of exact updates, whatever the data are. -/
theorem C150_needs_zero (ε : ℝ) (hε : ε ≠ 0) :
    ∃ n, ∀ ds, ds.length = n → ∃ k', Kalman.run { walks ℝ 4 1 with P := Mat.mk22 1 ε (-ε) 1 } ds = .ok k' ∧
      2 < |k'.estimation_error_covariance.get 0 1 - k'.estimation_error_covariance.get 1 0| := by
  have hs : Skew.skew (Mat.mk22 1 ε (-ε) 1).toMatrix = ε := by rw [Mat.toMatrix_mk22]; simp [Skew.skew]
  have e1 : (Mat.mk22 (1 : ℝ) 0 0 1).toMatrix = 1 := one22
  have e4 : (Mat.mk22 (4 : ℝ) 0 0 4).toMatrix = (4 : ℝ) • 1 := by
    rw [Mat.toMatrix_mk22]; ext i j; fin_cases i <;> fin_cases j <;> simp
  have p4 : ((4 : ℝ) • (1 : Matrix (Fin 2) (Fin 2) ℝ)).PosDef := Matrix.PosDef.one.smul (by norm_num)
  obtain ⟨n, h⟩ := C147_grows (u := .two) false 1 (Mat.mk22 1 0 0 1) (Mat.mk22 0 0 0 0) (Mat.mk22 1 0 0 1) (Mat.mk22 4 0 0 4)
    (Mat.mk22 1 0 0 1) (Mat.mk22 1 ε (-ε) 1) ⟨#v[0, 0]⟩ (by rw [e4]; exact p4.posSemidef) (by rw [e1]; exact .one)
    (by rw [e1, Matrix.det_one, abs_one])
    (by rw [e1, e4, Matrix.one_mul, Matrix.transpose_one, Matrix.mul_one, sub_self]; exact .zero)
    (by
      have e : Skew.sym (Mat.mk22 1 ε (-ε) 1).toMatrix = 1 := by
        rw [Mat.toMatrix_mk22]; ext i j; fin_cases i <;> fin_cases j <;> simp [Skew.sym] <;> norm_num
      rw [e]; exact .one)
    (by rw [hs]; exact hε)
  refine ⟨n, fun ds hd => ?_⟩
  obtain ⟨k', hr, -, hk⟩ := h ds hd
  refine ⟨k', hr, ?_⟩
  rw [e1, e4, Matrix.det_smul, Matrix.det_one] at hk
  simp only [Fintype.card_fin, Skew.skew] at hk
  show 2 < |k'.P.toMatrix 0 1 - k'.P.toMatrix 1 0|
  refine lt_abs.2 ?_
  by_contra hc
  push Not at hc
  nlinarith

end Verif
