import Verif.Lemmas.KalmanSimEternal

/-
The difference between the true state and the estimate in the simulation of example/desktop/kalman-sim.e.cpp in exact
arithmetic, for runs of every length (for C158).
-/

namespace Verif
open KalmanSim StillRun ErrorRun SettledRun EternalRun

namespace TrackingRun

/-- The difference after a pass: `d0`, `d1` before it, the noise `w0`, `w1` of the state and `ν` of the measurement, the
exact gains `G0`, `G1` and the gains `g0`, `g1` close to them. -/
theorem track_step {ρ g0 g1 : ℚ} (h : Contracts ρ g0 g1) (hg0 : 0 ≤ g0 ∧ g0 ≤ 19 / 100) (hg1 : 0 ≤ g1 ∧ g1 ≤ 1 / 50)
    {G b d0 d1 G0 G1 w0 w1 ν : ℝ} (hG : 0 ≤ G) (hb : b ≤ 93) (hd : size d0 d1 ≤ 13 / 20 * G * b)
    (hG0 : |(g0 : ℝ) - G0| ≤ 1 / 2 ^ 52) (hG1 : |(g1 : ℝ) - G1| ≤ 1 / 2 ^ 56)
    (hw0 : |w0| ≤ G / 10) (hw1 : |w1| ≤ G / 5) (hν : |ν| ≤ 10 * G) :
    size ((1 - G0) * (d0 + d1 + w0) - G0 * ν) (d1 + w1 - G1 * (d0 + d1 + w0 + ν)) ≤
      13 / 20 * G * (ρ * b + 71 / 10) := by
  have hρ : (0 : ℝ) ≤ ρ := by exact_mod_cast h.1
  have a0 : (0 : ℝ) ≤ g0 ∧ (g0 : ℝ) ≤ 19 / 100 := by
    have := (Rat.cast_le (K := ℝ)).2 hg0.2; push_cast at this; exact ⟨by exact_mod_cast hg0.1, this⟩
  have a1 : (0 : ℝ) ≤ g1 ∧ (g1 : ℝ) ≤ 1 / 50 := by
    have := (Rat.cast_le (K := ℝ)).2 hg1.2; push_cast at this; exact ⟨by exact_mod_cast hg1.1, this⟩
  have hbG : 13 / 20 * G * b ≤ 13 / 20 * G * 93 := mul_le_mul_of_nonneg_left hb (by positivity)
  have hs' : |d0 + d1| ≤ 91 * G := by
    have p := pos_le d0 d1
    have v := vel_le d0 d1
    exact (abs_add_le _ _).trans (by linarith)
  have hm := size_map h d0 d1
  set E0 := (1 - G0) * (d0 + d1 + w0) - G0 * ν with hE0
  set E1 := d1 + w1 - G1 * (d0 + d1 + w0 + ν) with hE1
  set F0 := (1 - (g0 : ℝ)) * (d0 + d1) with hF0
  set F1 := d1 - (g1 : ℝ) * (d0 + d1) with hF1
  have hs := size_add F0 F1 (E0 - F0) (E1 - F1)
  rw [add_sub_cancel, add_sub_cancel] at hs
  have hr := size_le (E0 - F0) (E1 - F1)
  have hI : |d0 + d1 + w0 + ν| ≤ 102 * G := by
    have := abs_add_le (d0 + d1 + w0) ν
    have := abs_add_le (d0 + d1) w0
    linarith
  have p0 : |((g0 : ℝ) - G0) * (d0 + d1 + w0 + ν)| ≤ 1 / 2 ^ 52 * (102 * G) := by
    rw [abs_mul]; exact mul_le_mul hG0 hI (abs_nonneg _) (by positivity)
  have p1 : |((g1 : ℝ) - G1) * (d0 + d1 + w0 + ν)| ≤ 1 / 2 ^ 56 * (102 * G) := by
    rw [abs_mul]; exact mul_le_mul hG1 hI (abs_nonneg _) (by positivity)
  have q0 : |E0 - F0| ≤ 199 / 100 * G := by
    have e : E0 - F0 = (1 - (g0 : ℝ)) * w0 + -((g0 : ℝ) * ν) + ((g0 : ℝ) - G0) * (d0 + d1 + w0 + ν) := by
      rw [hE0, hF0]; ring
    have m1 := scale (show 0 ≤ 1 - (g0 : ℝ) by linarith) hw0
    have m2 := scale a0.1 hν
    have m3 : (g0 : ℝ) * G ≤ 19 / 100 * G := mul_le_mul_of_nonneg_right a0.2 hG
    rw [← abs_neg] at m2
    rw [e]
    refine (abs_add_le _ _).trans ((add_le_add (abs_add_le _ _) le_rfl).trans ?_)
    linarith
  have q1 : |E1 - F1| ≤ 403 / 1000 * G := by
    have e : E1 - F1 = w1 + -((g1 : ℝ) * (w0 + ν)) + ((g1 : ℝ) - G1) * (d0 + d1 + w0 + ν) := by
      rw [hE1, hF1]; ring
    have m2 := scale a1.1 (show |w0 + ν| ≤ 101 / 10 * G from (abs_add_le _ _).trans (by linarith))
    have m3 : (g1 : ℝ) * G ≤ 1 / 50 * G := mul_le_mul_of_nonneg_right a1.2 hG
    rw [← abs_neg] at m2
    rw [e]
    refine (abs_add_le _ _).trans ((add_le_add (abs_add_le _ _) le_rfl).trans ?_)
    linarith
  have m := mul_le_mul_of_nonneg_left hd hρ
  linarith

/-- The rows of a run. -/
theorem track_loop {G : ℝ} (hG : 0 ≤ G) (gs : List (ℝ × ℝ × ℝ))
    (hg : ∀ g ∈ gs, |g.1| ≤ G ∧ |g.2.1| ≤ G ∧ |g.2.2| ≤ G) (n : ℕ) (k : Kalman ℝ .one .one) (hk : Good exact k)
    (hP : k.P.toMatrix = covSeq exact first n) {a b Y0 Y1 : ℝ} (hx : k.xhat.toMatrix = !![Y0; Y1])
    (hd : size (a - Y0) (b - Y1) ≤ 13 / 20 * G * bound n) :
    ∃ rows, loop exact (mA exact) (mB exact) mH k (vec a b) gs = .ok rows ∧ rows.length = gs.length ∧
      ∀ r ∈ rows, |r.pos - r.poshat| ≤ 75 * G ∧ |r.vel - r.velhat| ≤ 12 * G := by
  induction gs generalizing n k a b Y0 Y1 with
  | nil => exact ⟨[], rfl, rfl, fun r h => absurd h (by simp)⟩
  | cons g gs ih =>
    have hR : exact.measnoise ≠ 0 := by unfold exact; norm_num
    obtain ⟨k', row, h, hk', eP, ep, ev, em, eh, ew, ec, ed, eg, ei, ex⟩ := step_ok exact hR k hk a b g
    have eP' : k'.P.toMatrix = covSeq exact first (n + 1) := by rw [eP, hP]; rfl
    have e2 (z : ℝ) : (⟨#v[z]⟩ : Mat ℝ 1 1).toMatrix = !![z] := by
      ext i j; fin_cases i; fin_cases j; rfl
    have hxm : k.xm one1 = !![Y0 + Y1 + 1 / 2; Y1 + 1] := by
      rw [Kalman.xm, hk.A, hk.B, hx, mA_mat, mB_mat, one1, e2]
      unfold exact
      ext i j
      fin_cases j
      fin_cases i <;> simp
    have n0 : next0 exact a b g.1 = a + b + 1 / 2 + g.1 / 10 := by
      unfold next0 exact
      ring
    have n1 : next1 exact a b g.2.1 = b + 1 + g.2.1 / 5 := by
      unfold next1 exact
      ring
    have hm : row.posmeas = a + b + 1 / 2 + g.1 / 10 + 10 * g.2.2 := by
      rw [em, ep, n0]
      unfold exact
      ring
    have hY : k'.xhat.toMatrix = !![Y0 + Y1 + 1 / 2 + row.posgain * (row.posmeas - (Y0 + Y1 + 1 / 2));
        Y1 + 1 + row.velgain * (row.posmeas - (Y0 + Y1 + 1 / 2))] := by
      rw [ex, hxm]
      ext i j
      fin_cases i <;> fin_cases j <;> simp
    have hs0 : row.posgain = covSeq exact first (n + 1) 0 0 / 100 := by
      rw [eg, ec, eP']
      unfold exact
      norm_num
    have hs1 : row.velgain = covSeq exact first (n + 1) 1 0 / 100 := by
      rw [ei, ed, ← KF.symm2 hk'.P, eP']
      unfold exact
      norm_num
    obtain ⟨hc, b0, b1⟩ := fine n
    have near := near_all n
    obtain ⟨g1, g2, g3⟩ := hg g (List.mem_cons_self ..)
    have key := track_step hc b0 b1 hG (bound_real n).2 hd (G0 := row.posgain) (G1 := row.velgain)
      (by rw [hs0]; exact near.g0) (by rw [hs1]; exact near.g1)
      (w0 := g.1 / 10) (w1 := g.2.1 / 5) (ν := 10 * g.2.2)
      (by rw [abs_div, abs_of_pos (by norm_num : (0 : ℝ) < 10)]; linarith)
      (by rw [abs_div, abs_of_pos (by norm_num : (0 : ℝ) < 5)]; linarith)
      (by rw [abs_mul, abs_of_pos (by norm_num : (0 : ℝ) < 10)]; linarith)
    rw [← bound_succ] at key
    have f0 : (1 - row.posgain) * (a - Y0 + (b - Y1) + g.1 / 10) - row.posgain * (10 * g.2.2) = next0 exact a b g.1 -
        (Y0 + Y1 + 1 / 2 + row.posgain * (row.posmeas - (Y0 + Y1 + 1 / 2))) := by rw [n0, hm]; ring
    have f1 : b - Y1 + g.2.1 / 5 - row.velgain * (a - Y0 + (b - Y1) + g.1 / 10 + 10 * g.2.2) = next1 exact a b g.2.1 -
        (Y1 + 1 + row.velgain * (row.posmeas - (Y0 + Y1 + 1 / 2))) := by rw [n1, hm]; ring
    rw [f0, f1] at key
    obtain ⟨rows, h2, hl, hr⟩ := ih (fun g h => hg g (List.mem_cons_of_mem _ h)) (n + 1) k' hk' eP' hY key
    refine ⟨row :: rows, ?_, by rw [List.length_cons, List.length_cons, hl], fun r hm => ?_⟩
    · rw [loop, h, bind_ok]
      show (loop _ _ _ _ k' (vec _ _) gs >>= _) = _
      rw [h2]; rfl
    · rcases List.mem_cons.1 hm with rfl | hm
      · have p := pos_le _ _ |>.trans (mul_le_mul_of_nonneg_left key (by norm_num))
        have v := vel_le _ _ |>.trans (mul_le_mul_of_nonneg_left key (by norm_num))
        have hbG : 13 / 20 * G * bound (n + 1) ≤ 13 / 20 * G * 93 :=
          mul_le_mul_of_nonneg_left (bound_real (n + 1)).2 (by positivity)
        rw [eh, ew, ep, ev, hY]
        exact ⟨p.trans (by linarith), v.trans (by linarith)⟩
      · exact hr r hm

theorem first_eq {k : Kalman ℝ .one .one} (h : k.P = mQ exact) : k.P.toMatrix = first := by
  rw [h, mQ_mat, first, covMat]
  unfold exact
  ext i j
  fin_cases i <;> fin_cases j <;> simp <;> norm_num

end TrackingRun

end Verif
