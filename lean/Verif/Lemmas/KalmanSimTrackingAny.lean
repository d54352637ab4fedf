import Verif.Lemmas.KalmanSimTracking
import Verif.Lemmas.KalmanStable

/-
The difference between the true state and the estimate in the simulation of example/desktop/kalman-sim.e.cpp in exact
arithmetic with arbitrary constants (for C158).
-/

namespace Verif
open KalmanSim Kalman Matrix

namespace TrackingRun

/-- A run of the estimator on the data of the simulation so far, for arbitrary constants. -/
theorem loop_any {p : Params ℝ} (hR : p.measnoise ≠ 0) {k₀ : Kalman ℝ .one .one} {C D : ℝ}
    (hst : ∀ ds x', Disturbed (m := .one) (u := .one) (mA p).toMatrix (mB p).toMatrix mH.toMatrix D 0 ds x' →
      ∃ k', k₀.run ds = .ok k' ∧ ∀ i, |x' i 0 - k'.xhat.toMatrix i 0| ≤ C * D) (gs : List (ℝ × ℝ × ℝ))
    (hg : ∀ g ∈ gs, |p.dt * p.dt / 2 * g.1 * p.accelnoise| ≤ D ∧ |p.dt * g.2.1 * p.accelnoise| ≤ D ∧ |p.measnoise * g.2.2| ≤ D) :
    ∀ (k : Kalman ℝ .one .one) (a b : ℝ) ds, Good p k → k₀.run ds = .ok k →
      Disturbed (m := .one) (u := .one) (mA p).toMatrix (mB p).toMatrix mH.toMatrix D 0 ds !![a; b] →
      ∃ rows, loop p (mA p) (mB p) mH k (vec a b) gs = .ok rows ∧ rows.length = gs.length ∧
        ∀ r ∈ rows, |r.pos - r.poshat| ≤ C * D ∧ |r.vel - r.velhat| ≤ C * D := by
  induction gs with
  | nil => exact fun k a b ds _ _ _ => ⟨[], rfl, rfl, fun r h => absurd h (by simp)⟩
  | cons g gs ih =>
    intro k a b ds hk hrun hdist
    obtain ⟨k', row, h, hk', -, ep, ev, -, eh, ew, -⟩ := step_ok p hR k hk a b g
    obtain ⟨g1, g2, g3⟩ := hg g List.mem_cons_self
    have hup : k.update one1 (⟨#v[0 + 1 * next0 p a b g.1 + 0 * next1 p a b g.2.1 + p.measnoise * g.2.2]⟩ : Mat ℝ 1 1) = .ok k' := by
      have h' := h
      rw [step_eq] at h'
      obtain ⟨k1, e1, h'⟩ := bind_eq_ok.1 h'
      obtain ⟨K, -, h'⟩ := bind_eq_ok.1 h'
      cases h'
      exact e1
    have hrun' := run_snoc hrun hup
    have hdist' := Disturbed.snoc (m := .one) (u := .one) ds !![a; b] one1
      (⟨#v[0 + 1 * next0 p a b g.1 + 0 * next1 p a b g.2.1 + p.measnoise * g.2.2]⟩ : Mat ℝ 1 1)
      !![p.dt * p.dt / 2 * g.1 * p.accelnoise; p.dt * g.2.1 * p.accelnoise] !![p.measnoise * g.2.2] hdist
      (by intro i; fin_cases i <;> assumption) (by intro i; fin_cases i; exact g3)
    have e2 (z : ℝ) : (⟨#v[z]⟩ : Mat ℝ 1 1).toMatrix = !![z] := by
      ext i j; fin_cases i; fin_cases j; rfl
    have ex : (mA p).toMatrix * !![a; b] + (mB p).toMatrix * one1.toMatrix +
        !![p.dt * p.dt / 2 * g.1 * p.accelnoise; p.dt * g.2.1 * p.accelnoise] =
          !![next0 p a b g.1; next1 p a b g.2.1] := by
      rw [mA_mat, mB_mat, one1, e2]
      unfold next0 next1
      ext i j
      fin_cases j
      fin_cases i <;> simp
    have hz := hdist' (by
      refine (e2 _).trans ?_
      refine Eq.trans ?_ (congrArg (fun x => mH.toMatrix * x + !![p.measnoise * g.2.2]) ex).symm
      rw [mH_mat]
      ext i j
      fin_cases i
      fin_cases j
      simp)
    have hz' : Disturbed (m := .one) (u := .one) (mA p).toMatrix (mB p).toMatrix mH.toMatrix D 0 _
        !![next0 p a b g.1; next1 p a b g.2.1] := ex ▸ hz
    obtain ⟨rows, h2, hl, hr⟩ := ih (fun g h => hg g (List.mem_cons_of_mem _ h)) k' _ _ _ hk' hrun' hz'
    refine ⟨row :: rows, ?_, by rw [List.length_cons, List.length_cons, hl], fun r hm => ?_⟩
    · rw [loop, h, bind_ok]
      show (loop _ _ _ _ k' (KalmanSim.vec _ _) gs >>= _) = _
      rw [h2]; rfl
    · rcases List.mem_cons.1 hm with rfl | hm
      · obtain ⟨k'', hr'', hb⟩ := hst _ _ hz'
        cases hr''.symm.trans hrun'
        rw [eh, ew, ep, ev]
        exact ⟨hb 0, hb 1⟩
      · exact hr r hm

end TrackingRun
end Verif
