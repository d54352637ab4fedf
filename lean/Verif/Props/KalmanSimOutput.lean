import Verif.Lemmas.KalmanSimRun
import Verif.Model.KalmanSimOutput
import Verif.Props.Kalman

/-
Property C123: what example/desktop/kalman-sim.e.cpp prints, against the recorded run
example/desktop/kalman-sim.out.txt.
-/

namespace Verif
open KalmanSim Ieee StillRun

/-! ## C123 The recorded gains and covariances are what the program prints -/

/-- kalman-sim.out.txt:1-18 -/
def recordedSystem : String :=
    "\n" ++
    "A = % System dynamics matrix (state-k-1 => state-k)\n" ++
    " 1 1\n" ++
    " 0 1\n" ++
    "\n" ++
    "B = % Control input matrix (control => state)\n" ++
    " 0.5\n" ++
    " 1\n" ++
    "\n" ++
    "H = % Measurement output matrix (state => measurement estimation)\n" ++
    " 1 0\n" ++
    "\n" ++
    "R = 100 % Measurement noise covariance\n" ++
    "\n" ++
    "Q = % Process noise covariance\n" ++
    " 0.01 0.02\n" ++
    " 0.02 0.04\n" ++
    "\n"

/-- kalman-sim.out.txt:25 -/
def recordedPosgain : String :=
  "[ 0.000999001 0.00348458 0.00829591 0.0160443 0.0270893 0.0413959 0.0584332 0.0771904 0.0963497 0.114574 \
    0.130789 0.144358 0.155093 0.163155 0.168917 0.172834 0.175354 0.176873 0.177713 0.178122 0.178283 \
    0.178322 0.178323 0.178336 0.178387 0.178487 0.178635 0.178822 0.179039 0.179272 0.179512 0.179748 \
    0.179972 0.180179 0.180366 0.18053 0.18067 0.180789 0.180887 0.180965 0.181028 0.181076 0.181113 0.18114 \
    0.18116 0.181173 0.181182 0.181188 0.181192 0.181194]"

/-- kalman-sim.out.txt:27 -/
def recordedPosecov : String :=
  "[ 0.0999001 0.348458 0.829591 1.60443 2.70893 4.13959 5.84332 7.71904 9.63497 11.4574 13.0789 14.4358 \
    15.5093 16.3155 16.8917 17.2834 17.5354 17.6873 17.7713 17.8122 17.8283 17.8322 17.8323 17.8336 17.8387 \
    17.8487 17.8635 17.8822 17.9039 17.9272 17.9512 17.9748 17.9972 18.0179 18.0366 18.053 18.067 18.0789 \
    18.0887 18.0965 18.1028 18.1076 18.1113 18.114 18.116 18.1173 18.1182 18.1188 18.1192 18.1194]"

/-- kalman-sim.out.txt:33 -/
def recordedVelgain : String :=
  "[ 0.000799201 0.00179229 0.00316198 0.00486865 0.00684016 0.00896681 0.0111075 0.0131099 0.0148403 \
    0.0162115 0.0171962 0.0178215 0.0181505 0.0182611 0.0182286 0.0181159 0.0179704 0.0178245 0.0176979 \
    0.0176007 0.0175363 0.0175038 0.0174993 0.0175178 0.0175537 0.0176016 0.0176565 0.0177144 0.0177719 \
    0.0178265 0.0178767 0.0179213 0.01796 0.0179925 0.0180193 0.0180408 0.0180577 0.0180705 0.01808 \
    0.0180868 0.0180915 0.0180946 0.0180964 0.0180974 0.0180978 0.0180978 0.0180976 0.0180974 0.0180971 \
    0.0180968]"

/-- kalman-sim.out.txt:35 -/
def recordedVelecov : String :=
  "[ 0.0799201 0.179229 0.316198 0.486865 0.684016 0.896681 1.11075 1.31099 1.48403 1.62115 1.71962 1.78215 \
    1.81505 1.82611 1.82286 1.81159 1.79704 1.78245 1.76979 1.76007 1.75363 1.75038 1.74993 1.75178 1.75537 \
    1.76016 1.76565 1.77144 1.77719 1.78265 1.78767 1.79213 1.796 1.79925 1.80193 1.80408 1.80577 1.80705 \
    1.808 1.80868 1.80915 1.80946 1.80964 1.80974 1.80978 1.80978 1.80976 1.80974 1.80971 1.80968]"

section
variable {T : Type} [CNum T] [CLit T]

private def columns (r : Row T) : T × T × T × T := (r.posgain, r.posecov, r.velgain, r.velecov)

private theorem step_columns {p : Params T} {A B H} {k₁ k₂ k₁' k₂' : Kalman T .one .one} {x y x' y' g h}
    {r s : Row T} (hA : k₁.A = k₂.A) (hH : k₁.H = k₂.H) (hQ : k₁.Q = k₂.Q) (hR : k₁.R = k₂.R) (hP : k₁.P = k₂.P)
    (h₁ : step p A B H k₁ x g = .ok (k₁', x', r)) (h₂ : step p A B H k₂ y h = .ok (k₂', y', s)) :
    k₁'.A = k₂'.A ∧ k₁'.H = k₂'.H ∧ k₁'.Q = k₂'.Q ∧ k₁'.R = k₂'.R ∧ k₁'.P = k₂'.P ∧ columns r = columns s := by
  unfold step at h₁ h₂
  obtain ⟨_, -, h₁⟩ := bind_eq_ok.1 h₁
  obtain ⟨u₁, -, h₁⟩ := bind_eq_ok.1 h₁
  obtain ⟨_, -, h₁⟩ := bind_eq_ok.1 h₁
  obtain ⟨_, -, h₁⟩ := bind_eq_ok.1 h₁
  obtain ⟨_, -, h₁⟩ := bind_eq_ok.1 h₁
  obtain ⟨_, -, h₁⟩ := bind_eq_ok.1 h₁
  obtain ⟨_, -, h₁⟩ := bind_eq_ok.1 h₁
  obtain ⟨_, -, h₁⟩ := bind_eq_ok.1 h₁
  obtain ⟨_, -, h₁⟩ := bind_eq_ok.1 h₁
  obtain ⟨_, -, h₁⟩ := bind_eq_ok.1 h₁
  obtain ⟨j₁, hj₁, h₁⟩ := bind_eq_ok.1 h₁
  obtain ⟨_, -, h₂⟩ := bind_eq_ok.1 h₂
  obtain ⟨u₂, -, h₂⟩ := bind_eq_ok.1 h₂
  obtain ⟨_, -, h₂⟩ := bind_eq_ok.1 h₂
  obtain ⟨_, -, h₂⟩ := bind_eq_ok.1 h₂
  obtain ⟨_, -, h₂⟩ := bind_eq_ok.1 h₂
  obtain ⟨_, -, h₂⟩ := bind_eq_ok.1 h₂
  obtain ⟨_, -, h₂⟩ := bind_eq_ok.1 h₂
  obtain ⟨_, -, h₂⟩ := bind_eq_ok.1 h₂
  obtain ⟨_, -, h₂⟩ := bind_eq_ok.1 h₂
  obtain ⟨_, -, h₂⟩ := bind_eq_ok.1 h₂
  obtain ⟨j₂, hj₂, h₂⟩ := bind_eq_ok.1 h₂
  obtain ⟨t, z, P, K, z', P', -, -, a2, a3, -, a4, rfl⟩ := Kalman.update_inv hj₁
  obtain ⟨t', w, S, L, w', S', -, -, b2, b3, -, b4, rfl⟩ := Kalman.update_inv hj₂
  rw [hA, hP, hQ, b2] at a2
  cases a2
  rw [hH, hR, b3] at a3
  cases a3
  rw [hH, b4] at a4
  cases a4
  obtain ⟨K₁, hK₁, h₁⟩ := bind_eq_ok.1 h₁
  obtain ⟨K₂, hK₂, h₂⟩ := bind_eq_ok.1 h₂
  cases hK₁
  cases hK₂
  obtain ⟨_, -, h₁⟩ := bind_eq_ok.1 h₁
  obtain ⟨_, -, h₁⟩ := bind_eq_ok.1 h₁
  obtain ⟨c1, hc1, h₁⟩ := bind_eq_ok.1 h₁
  obtain ⟨c2, hc2, h₁⟩ := bind_eq_ok.1 h₁
  obtain ⟨_, -, h₁⟩ := bind_eq_ok.1 h₁
  obtain ⟨_, -, h₁⟩ := bind_eq_ok.1 h₁
  obtain ⟨c3, hc3, h₁⟩ := bind_eq_ok.1 h₁
  obtain ⟨c4, hc4, h₁⟩ := bind_eq_ok.1 h₁
  obtain ⟨_, -, h₂⟩ := bind_eq_ok.1 h₂
  obtain ⟨_, -, h₂⟩ := bind_eq_ok.1 h₂
  obtain ⟨d1, hd1, h₂⟩ := bind_eq_ok.1 h₂
  obtain ⟨d2, hd2, h₂⟩ := bind_eq_ok.1 h₂
  obtain ⟨_, -, h₂⟩ := bind_eq_ok.1 h₂
  obtain ⟨_, -, h₂⟩ := bind_eq_ok.1 h₂
  obtain ⟨d3, hd3, h₂⟩ := bind_eq_ok.1 h₂
  obtain ⟨d4, hd4, h₂⟩ := bind_eq_ok.1 h₂
  cases h₁
  cases h₂
  rw [hc1] at hd1; cases hd1
  rw [hc3] at hd3; cases hd3
  simp only [Kalman.estimation_error_covariance] at hc2 hc4 hd2 hd4
  rw [hc2] at hd2; cases hd2
  rw [hc4] at hd4; cases hd4
  exact ⟨hA, hH, hQ, hR, rfl, rfl⟩

private theorem loop_columns {p : Params T} {A B H} (k₁ k₂ : Kalman T .one .one) (x y) (gs hs : List (T × T × T))
    (rs ss) (hA : k₁.A = k₂.A) (hH : k₁.H = k₂.H) (hQ : k₁.Q = k₂.Q) (hR : k₁.R = k₂.R) (hP : k₁.P = k₂.P)
    (hl : gs.length = hs.length) (h₁ : loop p A B H k₁ x gs = .ok rs) (h₂ : loop p A B H k₂ y hs = .ok ss) :
    rs.map columns = ss.map columns := by
  induction gs generalizing k₁ k₂ x y hs rs ss with
  | nil =>
    obtain rfl : hs = [] := List.length_eq_zero_iff.1 hl.symm
    cases h₁; cases h₂; rfl
  | cons g gs ih =>
    cases hs with
    | nil => simp at hl
    | cons h hs =>
      obtain ⟨⟨k₁', x', r⟩, e₁, h₁⟩ := bind_eq_ok.1 h₁
      obtain ⟨⟨k₂', y', s⟩, e₂, h₂⟩ := bind_eq_ok.1 h₂
      obtain ⟨rs', f₁, h₁⟩ := bind_eq_ok.1 h₁
      obtain ⟨ss', f₂, h₂⟩ := bind_eq_ok.1 h₂
      cases h₁; cases h₂
      obtain ⟨hA', hH', hQ', hR', hP', hc⟩ := step_columns hA hH hQ hR hP e₁ e₂
      rw [List.map_cons, List.map_cons, hc,
        ih k₁' k₂' x' y' hs rs' ss' hA' hH' hQ' hR' hP' (by simpa using hl) f₁ f₂]

/-- C123: for every numeric type, two runs of equal length print the same gains and covariances, whatever
the noise drawn. -/
theorem C123_noise_independent (avr : Bool) (p : Params T) (gs hs : List (T × T × T)) (rs ss : List (Row T))
    (hl : gs.length = hs.length) (h₁ : main avr p gs = .ok rs) (h₂ : main avr p hs = .ok ss) :
    rs.map Row.posgain = ss.map Row.posgain ∧ rs.map Row.posecov = ss.map Row.posecov ∧
      rs.map Row.velgain = ss.map Row.velgain ∧ rs.map Row.velecov = ss.map Row.velecov := by
  have key : rs.map columns = ss.map columns := by
    unfold main at h₁ h₂
    obtain ⟨A, hA, h₁⟩ := bind_eq_ok.1 h₁
    obtain ⟨B, hB, h₁⟩ := bind_eq_ok.1 h₁
    obtain ⟨H, hH, h₁⟩ := bind_eq_ok.1 h₁
    obtain ⟨k, hk, h₁⟩ := bind_eq_ok.1 h₁
    obtain ⟨x, hx, h₁⟩ := bind_eq_ok.1 h₁
    rw [hA, bind_ok, hB, bind_ok, hH, bind_ok, hk, bind_ok, hx, bind_ok] at h₂
    exact loop_columns k k x x gs hs rs ss rfl rfl rfl rfl rfl hl h₁ h₂
  have h (f : T × T × T × T → T) : rs.map (fun r => f (columns r)) = ss.map (fun r => f (columns r)) := by
    have := congrArg (List.map f) key
    rwa [List.map_map, List.map_map] at this
  exact ⟨h (·.1), h (·.2.1), h (·.2.2.1), h (·.2.2.2)⟩

end

theorem system_ok : Res.yields (do printSystem Output.float (← constants binary64))
    (fun s => decide (s ++ ['\n'] = recordedSystem.toList)) = true := by
  decide +kernel

private theorem posgain_ok : Res.yields (states.mapM fun s => unit s.2.2.2.2.1)
    (fun l => decide (Output.vector Output.float l = recordedPosgain.toList)) = true := by
  decide +kernel

private theorem posecov_ok : Res.yields (states.mapM fun s => unit s.1)
    (fun l => decide (Output.vector Output.float l = recordedPosecov.toList)) = true := by
  decide +kernel

private theorem velgain_ok : Res.yields (states.mapM fun s => unit s.2.2.2.2.2)
    (fun l => decide (Output.vector Output.float l = recordedVelgain.toList)) = true := by
  decide +kernel

private theorem velecov_ok : Res.yields (states.mapM fun s => unit s.2.1)
    (fun l => decide (Output.vector Output.float l = recordedVelecov.toList)) = true := by
  decide +kernel

private theorem after_inv {k i s r} (h : after k i s = .ok r) :
    unit s.2.2.2.2.1 = .ok r.2.2.posgain ∧ unit s.1 = .ok r.2.2.posecov ∧
      unit s.2.2.2.2.2 = .ok r.2.2.velgain ∧ unit s.2.1 = .ok r.2.2.velecov := by
  unfold after at h
  obtain ⟨_, -, h⟩ := bind_eq_ok.1 h
  obtain ⟨_, -, h⟩ := bind_eq_ok.1 h
  obtain ⟨_, -, h⟩ := bind_eq_ok.1 h
  obtain ⟨_, h1, h⟩ := bind_eq_ok.1 h
  obtain ⟨_, h2, h⟩ := bind_eq_ok.1 h
  obtain ⟨_, -, h⟩ := bind_eq_ok.1 h
  obtain ⟨_, -, h⟩ := bind_eq_ok.1 h
  obtain ⟨_, h3, h⟩ := bind_eq_ok.1 h
  obtain ⟨_, h4, h⟩ := bind_eq_ok.1 h
  obtain ⟨_, -, h⟩ := bind_eq_ok.1 h
  obtain ⟨_, -, h⟩ := bind_eq_ok.1 h
  cases h
  exact ⟨h3, h1, h4, h2⟩

private theorem printed {r : Res (List (Flt binary64))} {l t}
    (h : Res.yields r (fun l => decide (Output.vector Output.float l = t)) = true) (hr : r = .ok l) :
    Output.vector Output.float l = t := by
  rw [hr] at h
  exact of_decide_eq_true h

/-- C123: in `double`, with the program's constants and 50 passes, every run prints the recorded description of
the system and, to the last digit, the recorded gains and covariances; only positions and velocities depend
on the noise. -/
theorem C123_recorded (p : Params (Flt binary64)) (hp : constants binary64 = .ok p)
    (gs : List (Flt binary64 × Flt binary64 × Flt binary64)) (hl : gs.length = 50) (t : Text)
    (h : program Output.float p gs = .ok t) :
    ∃ pos posmeas poshat vel velhat, t = recordedSystem.toList ++
      "pos = ".toList ++ pos ++ "\nposmeas = ".toList ++ posmeas ++ "\nposhat = ".toList ++ poshat ++
      "\nposgain = ".toList ++ recordedPosgain.toList ++ "\nposecov = ".toList ++ recordedPosecov.toList ++
      "\nvel = ".toList ++ vel ++ "\nvelhat = ".toList ++ velhat ++
      "\nvelgain = ".toList ++ recordedVelgain.toList ++ "\nvelecov = ".toList ++ recordedVelecov.toList := by
  obtain ⟨s, hs, q1⟩ := Res.of_yields system_ok
  rw [hp, bind_ok] at hs
  have q1 := of_decide_eq_true q1
  obtain ⟨p', A, B, H, k, x, ss, hset, hss, hn, hr⟩ := run
  obtain rfl : p' = p := by
    unfold setup at hset
    rw [hp, bind_ok] at hset
    obtain ⟨A', hA, hset⟩ := bind_eq_ok.1 hset
    obtain ⟨B', hB, hset⟩ := bind_eq_ok.1 hset
    obtain ⟨H', hH, hset⟩ := bind_eq_ok.1 hset
    obtain ⟨k', hk, hset⟩ := bind_eq_ok.1 hset
    obtain ⟨x', hx, hset⟩ := bind_eq_ok.1 hset
    cases hset
    rfl
  have q2 := printed posgain_ok (column Row.posgain (fun s => s.2.2.2.2.1) (fun _ _ _ _ h => (after_inv h).1) hn hr)
  have q3 := printed posecov_ok (column Row.posecov (fun s => s.1) (fun _ _ _ _ h => (after_inv h).2.1) hn hr)
  have q4 := printed velgain_ok (column Row.velgain (fun s => s.2.2.2.2.2) (fun _ _ _ _ h => (after_inv h).2.2.1) hn hr)
  have q5 := printed velecov_ok (column Row.velecov (fun s => s.2.1) (fun _ _ _ _ h => (after_inv h).2.2.2) hn hr)
  unfold program at h
  rw [hs, bind_ok] at h
  obtain ⟨rs, hrs, h⟩ := bind_eq_ok.1 h
  cases h
  obtain ⟨c1, c2, c3, c4⟩ := C123_noise_independent false p' gs (List.replicate 50 still) rs ss
    (by rw [hl, List.length_replicate]) hrs hss
  refine ⟨Output.vector Output.float (rs.map Row.pos), Output.vector Output.float (rs.map Row.posmeas),
    Output.vector Output.float (rs.map Row.poshat), Output.vector Output.float (rs.map Row.vel),
    Output.vector Output.float (rs.map Row.velhat), ?_⟩
  unfold printReadings
  rw [c1, c2, c3, c4, q2, q3, q4, q5, ← q1]
  generalize recordedPosgain.toList = a1, recordedPosecov.toList = a2, recordedVelgain.toList = a3,
    recordedVelecov.toList = a4
  rw [show "\npos = ".toList = '\n' :: "pos = ".toList from by decide]
  simp only [List.append_assoc, List.cons_append, List.nil_append]

/-- There are such runs. -/
example : ∃ p t, constants binary64 = .ok p ∧ program Output.float p (List.replicate 50 still) = .ok t := by
  obtain ⟨s, hs, -⟩ := Res.of_yields system_ok
  obtain ⟨p, A, B, H, k, x, ss, hset, hss, -, -⟩ := run
  obtain ⟨p', hp, hset⟩ := bind_eq_ok.1 hset
  obtain ⟨A', hA, hset⟩ := bind_eq_ok.1 hset
  obtain ⟨B', hB, hset⟩ := bind_eq_ok.1 hset
  obtain ⟨H', hH, hset⟩ := bind_eq_ok.1 hset
  obtain ⟨k', hk, hset⟩ := bind_eq_ok.1 hset
  obtain ⟨x', hx, hset⟩ := bind_eq_ok.1 hset
  cases hset
  rw [hp, bind_ok] at hs
  exact ⟨p, _, hp, by unfold program; rw [hs, bind_ok, hss, bind_ok]⟩

end Verif
