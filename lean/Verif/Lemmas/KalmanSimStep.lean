import Verif.Lemmas.KalmanSimError

/- One pass of the simulation of kalman-sim.e.cpp in terms of single operations. -/

namespace Verif
open KalmanSim Ieee

namespace ErrorRun

section
variable {f : Format}

theorem mulVec_trans {a b s : Flt f} (h : CNum.add a b = .ok s) :
    (Mat.mk22 CNum.one CNum.one CNum.zero CNum.one : Mat (Flt f) 2 2).mulVec (⟨#v[a, b]⟩ : Mat (Flt f) 2 1) =
      .ok ⟨#v[s, b]⟩ := by
  simp [Mat.mulVec, forRange, Mat.setIdx, Mat.set2, Mat.set1, Mat.at2, Mat.at1, Mat.idx, bind, Except.bind,
    Flt.one_mul', Flt.zero_mul', Flt.zero_add', h, Mat.rows, Mat.columns, Mat.mk22, Mat.fill]
  rfl

theorem mulM11_one (a b : Flt f) : (⟨#v[a, b]⟩ : Mat (Flt f) 2 1).mulM11 (⟨#v[CNum.one]⟩ : Mat (Flt f) 1 1) =
    .ok ⟨#v[a, b]⟩ := by
  simp [Mat.mulM11, Mat.mulS, Mat.size, forRange, Mat.setIdx, Mat.set2, Mat.set1, Mat.at2, Mat.at1, Mat.idx, bind,
    Except.bind, Flt.mul_one', Mat.rows, Mat.columns, Mat.fill]
  rfl

theorem add_vec {a b c d s t : Flt f} (h : CNum.add a c = .ok s) (h' : CNum.add b d = .ok t) :
    Mat.add (⟨#v[a, b]⟩ : Mat (Flt f) 2 1) ⟨#v[c, d]⟩ = .ok ⟨#v[s, t]⟩ := by
  simp [Mat.add, Mat.size, forRange, Mat.setIdx, Mat.set2, Mat.set1, Mat.at2, Mat.at1, Mat.idx, bind,
    Except.bind, h, h', Mat.rows, Mat.columns, Mat.fill]
  rfl

theorem mulS_vec {a b c s t : Flt f} (h : CNum.mul a c = .ok s) (h' : CNum.mul b c = .ok t) :
    Mat.mulS (⟨#v[a, b]⟩ : Mat (Flt f) 2 1) c = .ok ⟨#v[s, t]⟩ := by
  simp [Mat.mulS, Mat.size, forRange, Mat.setIdx, Mat.set2, Mat.set1, Mat.at2, Mat.at1, Mat.idx, bind,
    Except.bind, h, h', Mat.rows, Mat.columns, Mat.fill]
  rfl

theorem dot_pos (a b : Flt f) : (hPos : Mat (Flt f) 1 2).dot (⟨#v[a, b]⟩ : Mat (Flt f) 2 1) = .ok a := by
  simp [Mat.dot, hPos, Mat.size, forRange, Mat.at2, Mat.at1, Mat.idx, bind, Except.bind,
    Flt.one_mul', Flt.zero_mul', Flt.add_zero', Flt.zero_add', Mat.rows, Mat.columns]

theorem sub11s_one {z a i : Flt f} (h : CNum.sub z a = .ok i) : (⟨#v[z]⟩ : Mat (Flt f) 1 1).sub11s a = .ok i := by
  rw [← h]; rfl

/-- The constants and matrices of the program. -/
structure Sys (p : Params (Flt f)) (half : Flt f) : Prop where
  dt : p.dt = CNum.one
  lit1 : (CLit.lit 1 : Res (Flt f)) = .ok CNum.one
  half : (do CNum.div CNum.one (← CLit.lit 2)) = .ok half

theorem step_float {p : Params (Flt f)} {half : Flt f} (hp : Sys p half) {k : Kalman (Flt f) .one .one}
    (hA : k.A = Mat.mk22 CNum.one CNum.one CNum.zero CNum.one) (hB : k.B = ⟨#v[half, CNum.one]⟩) (hH : k.H = hPos)
    {x0 x1 y0 y1 g1 g2 g3 k0 k1 τ : Flt f} {Pm P' : Mat (Flt f) 2 2} (hx : k.xhat = ⟨#v[y0, y1]⟩)
    (hPm : Kalman.predictCov k.A k.P k.Q = .ok Pm) (hK : Kalman.gain .one Pm k.H k.R = .ok ⟨#v[k0, k1]⟩)
    (hP : Kalman.correctCov .one ⟨#v[k0, k1]⟩ k.H Pm = .ok P') (ht : CNum.add k.t k.dt = .ok τ)
    {s s' v w w0 w1 n0 n1 m z t t' e i d0 d1 e0 e1 : Flt f}
    (h : CNum.add x0 x1 = .ok s ∧ CNum.add s half = .ok s' ∧ CNum.add x1 CNum.one = .ok v ∧
      CNum.mul half g1 = .ok w ∧ CNum.mul w p.accelnoise = .ok w0 ∧ CNum.mul g2 p.accelnoise = .ok w1 ∧
      CNum.add s' w0 = .ok n0 ∧ CNum.add v w1 = .ok n1 ∧ CNum.mul p.measnoise g3 = .ok m ∧ CNum.add n0 m = .ok z)
    (h' : CNum.add y0 y1 = .ok t ∧ CNum.add t half = .ok t' ∧ CNum.add y1 CNum.one = .ok e ∧
      CNum.sub z t' = .ok i ∧ CNum.mul k0 i = .ok d0 ∧ CNum.mul k1 i = .ok d1 ∧
      CNum.add t' d0 = .ok e0 ∧ CNum.add e d1 = .ok e1) :
    step p k.A k.B k.H k ⟨#v[x0, x1]⟩ (g1, g2, g3) = .ok
      ({ k with K := some ⟨#v[k0, k1]⟩, P := P', xhat := ⟨#v[e0, e1]⟩, t := τ }, ⟨#v[n0, n1]⟩,
        ⟨n0, z, e0, k0, P'.get 0 0, n1, e1, k1, P'.get 0 1⟩) := by
  obtain ⟨es, es', ev, ew, ew0, ew1, en0, en1, em, ez⟩ := h
  obtain ⟨et, et', ee, ei, ed0, ed1, ee0, ee1⟩ := h'
  have q1 : Mat.ofList 1 1 [(CNum.one : Flt f)] = .ok ⟨#v[CNum.one]⟩ := rfl
  have q2 : process_noise p g1 g2 = .ok ⟨#v[w0, w1]⟩ := by
    unfold process_noise
    rw [hp.dt, Flt.one_mul', bind_ok]
    have e0 := hp.half
    obtain ⟨two, h2, h3⟩ := bind_eq_ok.1 e0
    rw [h2, bind_ok, h3, bind_ok, ew, bind_ok, Flt.one_mul', bind_ok]
    have : Mat.ofList 2 1 [w, g2] = .ok ⟨#v[w, g2]⟩ := rfl
    rw [this, bind_ok, mulS_vec ew0 ew1]
  have q3 : k.update (⟨#v[CNum.one]⟩ : Mat (Flt f) 1 1) (Mat.fill 1 1 z) =
      .ok { k with K := some ⟨#v[k0, k1]⟩, P := P', xhat := ⟨#v[e0, e1]⟩, t := τ } := by
    unfold Kalman.update Kalman.predictState Kalman.control
    rw [ht, bind_ok, hA, hx, mulVec_trans et, bind_ok, hB]
    simp only
    rw [mulM11_one, bind_ok, add_vec et' ee, bind_ok, ← hA, hPm, bind_ok, hK, bind_ok]
    unfold Kalman.correctState
    simp only
    rw [hH, dot_pos, bind_ok, show (Mat.fill 1 1 z : Mat (Flt f) 1 1) = ⟨#v[z]⟩ from rfl, sub11s_one ei, bind_ok,
      mulS_vec ed0 ed1, bind_ok, add_vec ee0 ee1, bind_ok, ← hH, hP, bind_ok]
  have q4 : meas_noise p g3 = .ok m := em
  unfold step
  rw [hp.lit1, bind_ok, q1, bind_ok, hA, mulVec_trans es, bind_ok, hB, mulM11_one, bind_ok, add_vec es' ev,
    bind_ok, q2, bind_ok, add_vec en0 en1, bind_ok, hH, dot_pos, bind_ok, q4, bind_ok, ez, bind_ok, q3, bind_ok]
  have h0 (x : ColVec (Flt f) 2) : x.idx 0 = .ok (x.get 0 0) := x.idx_ok (by decide)
  have h1 (x : ColVec (Flt f) 2) : x.idx 1 = .ok (x.get 1 0) := x.idx_ok (by decide)
  simp only [Kalman.kalman_gain, Kalman.system_state, Kalman.estimation_error_covariance, bind_ok]
  rw [h0, bind_ok, h0, bind_ok, h0, bind_ok, (Mat.idx22 _).1, bind_ok, h1, bind_ok, h1, bind_ok,
    h1, bind_ok, (Mat.idx22 _).2.1, bind_ok, hA, hB, hH]
  rfl

/-- What a successful pass says about gain, covariance and time. -/
theorem step_inv {T : Type} [CNum T] [CLit T] {p : Params T} {A B H} {k : Kalman T .one .one} {x g s}
    (h : step p A B H k x g = .ok s) : ∃ Pm K, Kalman.predictCov k.A k.P k.Q = .ok Pm ∧
      Kalman.gain .one Pm k.H k.R = .ok K ∧ Kalman.correctCov .one K k.H Pm = .ok s.1.P ∧
      CNum.add k.t k.dt = .ok s.1.t ∧ s.1.K = some K := by
  unfold step at h
  obtain ⟨a, -, h⟩ := bind_eq_ok.1 h
  obtain ⟨a, -, h⟩ := bind_eq_ok.1 h
  obtain ⟨a, -, h⟩ := bind_eq_ok.1 h
  obtain ⟨a, -, h⟩ := bind_eq_ok.1 h
  obtain ⟨a, -, h⟩ := bind_eq_ok.1 h
  obtain ⟨a, -, h⟩ := bind_eq_ok.1 h
  obtain ⟨a, -, h⟩ := bind_eq_ok.1 h
  obtain ⟨a, -, h⟩ := bind_eq_ok.1 h
  obtain ⟨a, -, h⟩ := bind_eq_ok.1 h
  obtain ⟨a, -, h⟩ := bind_eq_ok.1 h
  obtain ⟨k', hk, h⟩ := bind_eq_ok.1 h
  have e : s.1 = k' := by
    obtain ⟨a, -, h⟩ := bind_eq_ok.1 h
    obtain ⟨a, -, h⟩ := bind_eq_ok.1 h
    obtain ⟨a, -, h⟩ := bind_eq_ok.1 h
    obtain ⟨a, -, h⟩ := bind_eq_ok.1 h
    obtain ⟨a, -, h⟩ := bind_eq_ok.1 h
    obtain ⟨a, -, h⟩ := bind_eq_ok.1 h
    obtain ⟨a, -, h⟩ := bind_eq_ok.1 h
    obtain ⟨a, -, h⟩ := bind_eq_ok.1 h
    obtain ⟨a, -, h⟩ := bind_eq_ok.1 h
    cases h
    rfl
  unfold Kalman.update at hk
  obtain ⟨t, ht, hk⟩ := bind_eq_ok.1 hk
  obtain ⟨a, -, hk⟩ := bind_eq_ok.1 hk
  obtain ⟨Pm, hPm, hk⟩ := bind_eq_ok.1 hk
  obtain ⟨K, hK, hk⟩ := bind_eq_ok.1 hk
  obtain ⟨a, -, hk⟩ := bind_eq_ok.1 hk
  obtain ⟨P, hP, hk⟩ := bind_eq_ok.1 hk
  cases hk
  rw [e]
  exact ⟨Pm, K, hPm, hK, hP, ht, rfl⟩

end

end ErrorRun
end Verif
