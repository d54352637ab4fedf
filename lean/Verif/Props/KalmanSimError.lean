import Verif.Lemmas.KalmanSimClose
import Verif.Props.KalmanSimOutput

/-
Property C126: the simulation kalman-sim in `double` against exact arithmetic, for all draws of the noise.
-/

namespace Verif
open KalmanSim Ieee StillRun ErrorRun

/-! ## C126 Rounding error of the simulation -/

/-- Draws of the noise that are at most 16 in magnitude, that is at most sixteen standard deviations. -/
def SmallDraws (gs : List (Flt binary64 × Flt binary64 × Flt binary64)) : Prop :=
  ∀ g ∈ gs, |g.1.val| ≤ 16 ∧ |g.2.1.val| ≤ 16 ∧ |g.2.2.val| ≤ 16

/-- A pass in `double` against a pass in exact arithmetic: positions and velocities agree to `1e-7`, gains to
`2 ^ (-50)` and covariances to `2 ^ (-45)`. -/
def Agree (x : Row (Flt binary64)) (y : Row ℝ) : Prop :=
  |(x.pos.val : ℝ) - y.pos| ≤ 1 / 10 ^ 7 ∧ |(x.posmeas.val : ℝ) - y.posmeas| ≤ 1 / 10 ^ 7 ∧
  |(x.poshat.val : ℝ) - y.poshat| ≤ 1 / 10 ^ 7 ∧ |(x.vel.val : ℝ) - y.vel| ≤ 1 / 10 ^ 7 ∧
  |(x.velhat.val : ℝ) - y.velhat| ≤ 1 / 10 ^ 7 ∧
  |(x.posgain.val : ℝ) - y.posgain| ≤ 1 / 2 ^ 50 ∧ |(x.velgain.val : ℝ) - y.velgain| ≤ 1 / 2 ^ 50 ∧
  |(x.posecov.val : ℝ) - y.posecov| ≤ 1 / 2 ^ 45 ∧ |(x.velecov.val : ℝ) - y.velecov| ≤ 1 / 2 ^ 45

/-- C126: in `double`, with the program's constants, for up to 50 passes and all draws of at most 16 in magnitude,
the simulation completes, and each of its readings is within the stated distance of the reading of the same
simulation in exact arithmetic with `dt = 1`, `measnoise = 10`, `accelnoise = 1 / 5` and the same draws. -/
theorem C126_close (p : Params (Flt binary64)) (hp : constants binary64 = .ok p)
    (gs : List (Flt binary64 × Flt binary64 × Flt binary64)) (hl : gs.length ≤ 50) (hg : SmallDraws gs) :
    ∃ rs ss, main false p gs = .ok rs ∧
      main (T := ℝ) false ⟨1, 10, 1 / 5⟩ (gs.map fun g => ((g.1.val : ℝ), (g.2.1.val : ℝ), (g.2.2.val : ℝ))) = .ok ss ∧
      rs.length = gs.length ∧ List.Forall₂ Agree rs ss := by
  obtain ⟨rs, ss, h1, h2, h3⟩ := run_close hp gs hl fun g hm => by
    obtain ⟨a, b, c⟩ := hg g hm
    exact ⟨by unfold r; exact_mod_cast a, by unfold r; exact_mod_cast b, by unfold r; exact_mod_cast c⟩
  refine ⟨rs, ss, h1, h2, main_length h1, h3.imp fun x y h => ⟨h.pos, h.posmeas, h.poshat, h.vel, h.velhat, h.posgain,
    h.velgain, h.posecov, h.velecov⟩⟩

/-- C126: for all such draws the program prints the recorded description of the system and the recorded gains
and covariances; unlike in C123, that it completes is part of the conclusion. -/
theorem C126_completes (p : Params (Flt binary64)) (hp : constants binary64 = .ok p)
    (gs : List (Flt binary64 × Flt binary64 × Flt binary64)) (hl : gs.length = 50) (hg : SmallDraws gs) :
    ∃ pos posmeas poshat vel velhat, program Output.float p gs = .ok (recordedSystem.toList ++
      "pos = ".toList ++ pos ++ "\nposmeas = ".toList ++ posmeas ++ "\nposhat = ".toList ++ poshat ++
      "\nposgain = ".toList ++ recordedPosgain.toList ++ "\nposecov = ".toList ++ recordedPosecov.toList ++
      "\nvel = ".toList ++ vel ++ "\nvelhat = ".toList ++ velhat ++
      "\nvelgain = ".toList ++ recordedVelgain.toList ++ "\nvelecov = ".toList ++ recordedVelecov.toList) := by
  obtain ⟨rs, -, h1, -⟩ := C126_close p hp gs hl.le hg
  obtain ⟨s, hs, -⟩ := Res.of_yields system_ok
  rw [hp, bind_ok] at hs
  have h : program Output.float p gs = .ok (s ++ printReadings Output.float rs) := by
    unfold program
    rw [hs, bind_ok, h1, bind_ok]
  obtain ⟨a, b, c, d, e, ht⟩ := C123_recorded p hp gs hl _ h
  exact ⟨a, b, c, d, e, h.trans (congrArg _ ht)⟩

/-- There are such draws: in each pass one standard deviation for position and velocity and two for the measurement. -/
example : ∃ p d, constants binary64 = .ok p ∧ d.val = 2 ∧
    SmallDraws (List.replicate 50 (CNum.one, CNum.one, d)) := by
  obtain ⟨p, hp, -⟩ := Res.of_yields (show Res.yields (constants binary64) (fun _ => true) = true by decide +kernel)
  obtain ⟨d, -, hd⟩ := Res.of_yields (show Res.yields (CLit.lit 2 : Res (Flt binary64)) (fun d => decide (d.val = 2)) = true by
    decide +kernel)
  have hd := of_decide_eq_true hd
  refine ⟨p, d, hp, hd, fun g hg => ?_⟩
  rw [List.eq_of_mem_replicate hg, hd]
  have h : (CNum.one : Flt binary64).val = 1 := rfl
  simp only [h]
  norm_num [abs_le]

end Verif
