import Verif.Lemmas.KalmanSimTrackingAny
import Verif.Lemmas.KalmanSimTrackingDouble
import Verif.Props.KalmanStable

/-
Properties C158 and C159: how far the estimate of the simulation of example/desktop/kalman-sim.e.cpp is from the true state,
exactly and in `double`.
-/

namespace Verif
open KalmanSim Ieee StillRun ErrorRun SettledRun EternalRun TrackingRun

/-! ## C158 While the noise is bounded, so is the error of the estimate -/

/-- C158: in exact arithmetic with the constants of the example, if no draw of the noise generator is larger than `G`, then
in every row of a run of any length the estimated position is within `75 * G` of the true one and the estimated velocity
within `12 * G`. -/
theorem C158_tracking (avr : Bool) (G : ℝ) (gs : List (ℝ × ℝ × ℝ))
    (hg : ∀ g ∈ gs, |g.1| ≤ G ∧ |g.2.1| ≤ G ∧ |g.2.2| ≤ G) :
    ∃ rows, main avr (⟨1, 10, 1 / 5⟩ : Params ℝ) gs = .ok rows ∧ rows.length = gs.length ∧
      ∀ r ∈ rows, |r.pos - r.poshat| ≤ 75 * G ∧ |r.vel - r.velhat| ≤ 12 * G := by
  by_cases hG : 0 ≤ G
  · obtain ⟨k, -, hk, hP, hx, e⟩ := main_eq avr exact gs
    have hx' : k.xhat.toMatrix = !![(0 : ℝ); 0] := by
      rw [hx]
      ext i j
      fin_cases i <;> fin_cases j <;> rfl
    obtain ⟨rows, h, hl, hr⟩ := track_loop hG gs hg 0 k hk (first_eq hP) (a := 0) (b := 0) hx' (by
      rw [sub_zero, size_zero, bound, Rat.cast_zero, mul_zero])
    exact ⟨rows, e.trans h, hl, hr⟩
  · cases gs with
    | nil =>
      obtain ⟨k, -, -, -, -, e⟩ := main_eq avr exact []
      exact ⟨[], e, rfl, fun r h => absurd h (by simp)⟩
    | cons g gs => exact absurd ((abs_nonneg _).trans (hg g (List.mem_cons_self ..)).1) hG

/-- A thousand passes with large noise of the measurement and noise of the state in the other direction. -/
example : ∃ rows, main false (⟨1, 10, 1 / 5⟩ : Params ℝ) (List.replicate 1000 (-1, -1, 3)) = .ok rows ∧
    rows.length = 1000 ∧ ∀ r ∈ rows, |r.pos - r.poshat| ≤ 225 ∧ |r.vel - r.velhat| ≤ 36 := by
  obtain ⟨rows, h, hl, hr⟩ := C158_tracking false 3 (List.replicate 1000 (-1, -1, 3)) (by
    intro g hg
    rw [List.eq_of_mem_replicate hg]
    norm_num)
  rw [List.length_replicate] at hl
  exact ⟨rows, h, hl, fun r hm => ⟨(hr r hm).1.trans (by norm_num), (hr r hm).2.trans (by norm_num)⟩⟩

/-- C158: without noise the estimate is the true state. -/
theorem C158_noiseless (avr : Bool) (n : ℕ) :
    ∃ rows, main avr (⟨1, 10, 1 / 5⟩ : Params ℝ) (List.replicate n (0, 0, 0)) = .ok rows ∧ rows.length = n ∧
      ∀ r ∈ rows, r.poshat = r.pos ∧ r.velhat = r.vel := by
  obtain ⟨rows, h, hl, hr⟩ := C158_tracking avr 0 (List.replicate n (0, 0, 0)) (by
    intro g hg
    rw [List.eq_of_mem_replicate hg]
    norm_num)
  rw [List.length_replicate] at hl
  refine ⟨rows, h, hl, fun r hm => ?_⟩
  obtain ⟨h0, h1⟩ := hr r hm
  rw [mul_zero] at h0 h1
  exact ⟨(sub_eq_zero.1 (abs_nonpos_iff.1 h0)).symm, (sub_eq_zero.1 (abs_nonpos_iff.1 h1)).symm⟩

/-- The true position and velocity of the first pass without noise are 1/2 and 1, not zero. -/
example : ∃ r : Row ℝ, main false (⟨1, 10, 1 / 5⟩ : Params ℝ) (List.replicate 1 (0, 0, 0)) = .ok [r] ∧ r.pos = 1 / 2 ∧
    r.vel = 1 ∧ r.poshat = 1 / 2 ∧ r.velhat = 1 := by
  obtain ⟨rows, h, hl, hr⟩ := C158_noiseless false 1
  obtain ⟨k, -, hk, -, -, e⟩ := main_eq false exact (List.replicate 1 (0, 0, 0))
  obtain ⟨k', row, hs, -, -, ep, ev, -⟩ := step_ok exact (by unfold exact; norm_num) k hk 0 0 (0, 0, 0)
  have hm : main false (⟨1, 10, 1 / 5⟩ : Params ℝ) (List.replicate 1 (0, 0, 0)) = .ok [row] := by
    refine e.trans ?_
    rw [List.replicate_one, loop, hs, bind_ok]
    rfl
  cases hm.symm.trans h
  obtain ⟨h0, h1⟩ := hr row (List.mem_singleton.2 rfl)
  have p : row.pos = 1 / 2 := by rw [ep]; unfold next0 exact; norm_num
  have v : row.vel = 1 := by rw [ev]; unfold next1 exact; norm_num
  exact ⟨row, hm, p, v, h0.trans p, h1.trans v⟩

/-- C158: for all positive time steps and standard deviations, too, there is a factor `C`, the same for all runs, such that
the errors of estimated position and velocity never exceed `C` times the largest draw. -/
theorem C158_parameters (p : Params ℝ) (hd : 0 < p.dt) (hs : 0 < p.measnoise) (ha : 0 < p.accelnoise) :
    ∃ C : ℝ, 0 ≤ C ∧ ∀ (avr : Bool) (G : ℝ) (gs : List (ℝ × ℝ × ℝ)),
      (∀ g ∈ gs, |g.1| ≤ G ∧ |g.2.1| ≤ G ∧ |g.2.2| ≤ G) →
      ∃ rows, main avr p gs = .ok rows ∧ rows.length = gs.length ∧
        ∀ r ∈ rows, |r.pos - r.poshat| ≤ C * G ∧ |r.vel - r.velhat| ≤ C * G := by
  obtain ⟨L, hL⟩ := settles_sim p hd hs ha
  obtain ⟨C, γ, hC, -, -, h⟩ := Kalman.run_stable (m := .one) (u := .one) (hL (mQ p) (mQ_psd p))
  have hc : 0 ≤ p.dt * p.dt / 2 * p.accelnoise + p.dt * p.accelnoise + p.measnoise := by positivity
  refine ⟨C * (p.dt * p.dt / 2 * p.accelnoise + p.dt * p.accelnoise + p.measnoise), mul_nonneg hC hc, fun avr G gs hg => ?_⟩
  obtain ⟨k, -, hk, hP, hx, e⟩ := main_eq avr p gs
  by_cases hG : 0 ≤ G
  · have x0 (i : Fin 2) : k.xhat.toMatrix i 0 = 0 := by
      rw [hx]
      fin_cases i <;> rfl
    have i1 := mul_nonneg (mul_nonneg (div_nonneg (mul_self_nonneg p.dt) two_pos.le) ha.le) hG
    have i2 := mul_nonneg (mul_nonneg hd.le ha.le) hG
    have i3 := mul_nonneg hs.le hG
    obtain ⟨rows, h1, h2, h3⟩ := loop_any (C := C)
      (D := (p.dt * p.dt / 2 * p.accelnoise + p.dt * p.accelnoise + p.measnoise) * G) hs.ne' (k₀ := k) (fun ds x' hd' => by
        have hd'' := hk.B ▸ hd'
        obtain ⟨k', hr, hb⟩ := h k hk.A hk.H hk.Q hk.R hP 0 0 _ le_rfl (mul_nonneg hc hG)
          (fun i => by rw [x0]; simp) ds x' hd''
        exact ⟨k', hr, fun i => (hb i).trans (by rw [mul_zero, zero_add])⟩) gs (fun g hm => by
        obtain ⟨q1, q2, q3⟩ := hg g hm
        refine ⟨?_, ?_, ?_⟩
        · rw [mul_right_comm, abs_mul, abs_of_nonneg (by positivity)]
          refine (mul_le_mul_of_nonneg_left q1 (by positivity)).trans ?_
          linarith
        · rw [mul_right_comm, abs_mul, abs_of_nonneg (by positivity)]
          refine (mul_le_mul_of_nonneg_left q2 (by positivity)).trans ?_
          linarith
        · rw [abs_mul, abs_of_pos hs]
          refine (mul_le_mul_of_nonneg_left q3 hs.le).trans ?_
          linarith) k 0 0 [] hk rfl (by
        have : (!![(0 : ℝ); 0] : Matrix (Fin 2) (Fin 1) ℝ) = 0 := by
          ext i j
          fin_cases i <;> fin_cases j <;> rfl
        rw [this]
        exact .nil)
    refine ⟨rows, e.trans h1, h2, fun r hr => ?_⟩
    rw [mul_assoc]
    exact h3 r hr
  · cases gs with
    | nil => exact ⟨[], e, rfl, fun r h => absurd h (by simp)⟩
    | cons g gs => exact absurd ((abs_nonneg _).trans (hg g (List.mem_cons_self ..)).1) hG

/-- A ten times shorter time step: a thousand passes with the largest draws in one direction. -/
example : ∃ C : ℝ, ∃ rows, main true (⟨1 / 10, 10, 1 / 5⟩ : Params ℝ) (List.replicate 1000 (1, 1, 1)) = .ok rows ∧
    rows.length = 1000 ∧ ∀ r ∈ rows, |r.pos - r.poshat| ≤ C * 1 ∧ |r.vel - r.velhat| ≤ C * 1 := by
  obtain ⟨C, -, h⟩ := C158_parameters ⟨1 / 10, 10, 1 / 5⟩ (by norm_num) (by norm_num) (by norm_num)
  obtain ⟨rows, h1, h2, h3⟩ := h true 1 (List.replicate 1000 (1, 1, 1)) (fun g hg => by
    rw [List.eq_of_mem_replicate hg]
    norm_num)
  rw [List.length_replicate] at h2
  exact ⟨C, rows, h1, h2, h3⟩

/-! ## C159 The same in `double` -/

/-- C159: the simulation in `double` with the program's constants, up to 4096 passes and draws of at most `G`, itself at
most 16, in magnitude: no operation overflows, and in every row the estimated position is within `75 * G + 0.02` of the
simulated one and the estimated velocity within `12 * G + 0.004`. -/
theorem C159_tracking (avr : Bool) (p : Params (Flt binary64)) (hp : constants binary64 = .ok p) (G : ℝ) (hG : G ≤ 16)
    (gs : List (Flt binary64 × Flt binary64 × Flt binary64)) (hl : gs.length ≤ 4096)
    (hg : ∀ g ∈ gs, |(g.1.val : ℝ)| ≤ G ∧ |(g.2.1.val : ℝ)| ≤ G ∧ |(g.2.2.val : ℝ)| ≤ G) :
    ∃ rows, main avr p gs = .ok rows ∧ rows.length = gs.length ∧
      ∀ r ∈ rows, |(r.pos.val : ℝ) - r.poshat.val| ≤ 75 * G + 1 / 50 ∧ |(r.vel.val : ℝ) - r.velhat.val| ≤ 12 * G + 1 / 250 := by
  by_cases h0 : 0 ≤ G
  · exact main_tracks avr hp h0 hG gs (hl.trans (by norm_num)) hg
  · cases gs with
    | nil =>
      obtain ⟨rows, h, hl, -⟩ := main_tracks avr hp (le_refl 0) (by norm_num) [] (by simp) (by simp)
      exact ⟨rows, h, hl, fun r hr => by rw [List.length_eq_zero_iff.1 hl] at hr; simp at hr⟩
    | cons g gs => exact absurd ((abs_nonneg _).trans (hg g (List.mem_cons_self ..)).1) h0

/-- Two thousand passes with all draws 1. -/
example : ∃ p rows, constants binary64 = .ok p ∧ main false p (List.replicate 2000 (CNum.one, CNum.one, CNum.one)) = .ok rows ∧
    rows.length = 2000 ∧ ∀ r ∈ rows, |(r.pos.val : ℝ) - r.poshat.val| ≤ 76 ∧ |(r.vel.val : ℝ) - r.velhat.val| ≤ 13 := by
  obtain ⟨p, _, _, _, _, _, _, hp, -⟩ := parts
  have e1 : (CNum.one : Flt binary64).val = 1 := rfl
  obtain ⟨rows, h, hl, hr⟩ := C159_tracking false p hp 1 (by norm_num) (List.replicate 2000 (CNum.one, CNum.one, CNum.one))
    (by rw [List.length_replicate]; norm_num) (by
      intro g hg
      rw [List.eq_of_mem_replicate hg, e1]
      norm_num)
  rw [List.length_replicate] at hl
  exact ⟨p, rows, hp, h, hl, fun r hm => ⟨(hr r hm).1.trans (by norm_num), (hr r hm).2.trans (by norm_num)⟩⟩

end Verif
