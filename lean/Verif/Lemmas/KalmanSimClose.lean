import Verif.Lemmas.KalmanSimStep

/-
The simulation kalman-sim in `double` beside the same simulation in exact arithmetic, pass by pass (for C126).
-/

namespace Verif
open KalmanSim Ieee StillRun ErrorRun

namespace ErrorRun

/-- The exact covariance after one more pass: `P11`, `P12`, `P22`. -/
def covNext (P : ℚ × ℚ × ℚ) : ℚ × ℚ × ℚ :=
  let a := P.1 + 2 * P.2.1 + P.2.2 + 1 / 100
  let b := P.2.1 + P.2.2 + 1 / 50
  let c := P.2.2 + 1 / 25
  (a * 100 / (a + 100), b * 100 / (a + 100), c - b ^ 2 / (a + 100))

/-- A number in the units of `states`. -/
def inUnits (n : Int) : ℚ := n / 9223372036854775808

/-- The covariances and gains of `states` against the exact ones, and the bounds, for all passes. -/
def check : List (Int × Int × Int × Int × Int × Int) → ℚ × ℚ × ℚ → Bnd → Bool
  | [], _, _ => true
  | s :: l, P₀, b =>
    let P := covNext P₀
    let q0 := inUnits s.2.2.2.2.1
    let q1 := inUnits s.2.2.2.2.2
    let b' := b.next q0 q1
    decide (0 < P₀.1 + 2 * P₀.2.1 + P₀.2.2 + 1 / 100 + 100 ∧ b.Small ∧
      (0 ≤ q0 ∧ q0 ≤ 1) ∧ (0 ≤ q1 ∧ q1 ≤ 1) ∧ |q0 - P.1 / 100| ≤ κ ∧ |q1 - P.2.1 / 100| ≤ κ ∧
      |inUnits s.1 - P.1| ≤ 1 / 2 ^ 45 ∧ |inUnits s.2.1 - P.2.1| ≤ 1 / 2 ^ 45 ∧
      b'.a0 + 2 * u ≤ 1 / 10 ^ 7 ∧ b'.a1 ≤ 1 / 10 ^ 7 ∧ b'.b0 ≤ 1 / 10 ^ 7 ∧ b'.b1 ≤ 1 / 10 ^ 7) && check l P b'

theorem check_ok : check states (1 / 100, 1 / 50, 1 / 25) ⟨0, 0, 0, 0, 0, 0, 0, 0⟩ = true := by decide +kernel

/-- The numbers of `states` are numbers of the format. -/
theorem states_exact : (states.all fun s => Res.yields (unit s.1) (fun x => decide (x.val = inUnits s.1)) &&
    Res.yields (unit s.2.1) (fun x => decide (x.val = inUnits s.2.1)) &&
    Res.yields (unit s.2.2.2.2.1) (fun x => decide (x.val = inUnits s.2.2.2.2.1)) &&
    Res.yields (unit s.2.2.2.2.2) (fun x => decide (x.val = inUnits s.2.2.2.2.2))) = true := by decide +kernel

theorem setup_ok : Res.yields setup (fun (p, A, B, H, k, x) => Res.yields (Flt.ofRat binary64 (1 / 2)) fun half =>
    decide (half.val = 1 / 2 ∧ p.dt = CNum.one ∧ p.measnoise.val = 10 ∧ |p.accelnoise.val - 1 / 5| ≤ 1 / 2 ^ 54 ∧
      (do CNum.div CNum.one (← CLit.lit 2)) = Except.ok (ε := Err) half ∧
      A = Mat.mk22 CNum.one CNum.one CNum.zero CNum.one ∧ B = ⟨#v[half, CNum.one]⟩ ∧ H = hPos ∧
      k.A = A ∧ k.B = B ∧ k.H = H ∧ x = ⟨#v[CNum.zero, CNum.zero]⟩ ∧ k.xhat = x)) = true := by decide +kernel

/-- The values of a list of draws. -/
noncomputable def values (g : D × D × D) : ℝ × ℝ × ℝ := (r g.1, r g.2.1, r g.2.2)

/-- The constants of the program, exactly. -/
noncomputable def exact : Params ℝ := ⟨1, 10, 1 / 5⟩

/-- The estimator before pass `i` of the run without noise. -/
def before (k : Kalman D .one .one) : ℕ → Kalman D .one .one
  | 0 => k
  | i + 1 => match after k i (states.getD i 0) with
    | .ok s => s.1
    | .error _ => k

/-- Equal up to estimate and gain. -/
structure Alike (k k' : Kalman D .one .one) : Prop where
  A : k.A = k'.A
  B : k.B = k'.B
  H : k.H = k'.H
  Q : k.Q = k'.Q
  R : k.R = k'.R
  P : k.P = k'.P
  t : k.t = k'.t
  dt : k.dt = k'.dt

theorem after_expl {k : Kalman D .one .one} {i : ℕ} {s r} (h : after k i s = .ok r) :
    ∃ g0 g1 p0 p1 p2 p3, unit s.1 = .ok p0 ∧ unit s.2.1 = .ok p1 ∧ unit s.2.2.2.2.1 = .ok g0 ∧
      unit s.2.2.2.2.2 = .ok g1 ∧ r.1.K = some ⟨#v[g0, g1]⟩ ∧ r.1.P = Mat.mk22 p0 p1 p2 p3 ∧ r.1.A = k.A ∧
      r.1.B = k.B ∧ r.1.H = k.H ∧ r.1.Q = k.Q ∧ r.1.R = k.R ∧ r.1.dt = k.dt := by
  unfold after at h
  obtain ⟨pos, -, h⟩ := bind_eq_ok.1 h
  obtain ⟨vel, -, h⟩ := bind_eq_ok.1 h
  obtain ⟨x, -, h⟩ := bind_eq_ok.1 h
  obtain ⟨p0, h0, h⟩ := bind_eq_ok.1 h
  obtain ⟨p1, h1, h⟩ := bind_eq_ok.1 h
  obtain ⟨p2, h2, h⟩ := bind_eq_ok.1 h
  obtain ⟨p3, h3, h⟩ := bind_eq_ok.1 h
  obtain ⟨g0, h4, h⟩ := bind_eq_ok.1 h
  obtain ⟨g1, h5, h⟩ := bind_eq_ok.1 h
  have e1 : Mat.ofList 2 1 [g0, g1] = .ok ⟨#v[g0, g1]⟩ := rfl
  have e2 : Mat.ofList 2 2 [p0, p1, p2, p3] = .ok (Mat.mk22 p0 p1 p2 p3) := rfl
  rw [e1, bind_ok, e2, bind_ok] at h
  cases h
  exact ⟨g0, g1, p0, p1, p2, p3, h0, h1, h4, h5, rfl, rfl, rfl, rfl, rfl, rfl, rfl, rfl⟩

/-- Gain, covariance and time of pass `i`. -/
theorem pass_cov {p A B H k x} (hs : setup = .ok (p, A, B, H, k, x)) {i : ℕ} (hi : i < 50) {kf : Kalman D .one .one}
    (hk : Alike kf (before k i)) : ∃ Pm k0 k1 P' τ, Kalman.predictCov kf.A kf.P kf.Q = .ok Pm ∧
      Kalman.gain .one Pm kf.H kf.R = .ok ⟨#v[k0, k1]⟩ ∧
      Kalman.correctCov .one (⟨#v[k0, k1]⟩ : Mat D 2 1) kf.H Pm = .ok P' ∧ CNum.add kf.t kf.dt = .ok τ ∧
      unit (states.getD i 0).1 = .ok (P'.get 0 0) ∧ unit (states.getD i 0).2.1 = .ok (P'.get 0 1) ∧
      unit (states.getD i 0).2.2.2.2.1 = .ok k0 ∧ unit (states.getD i 0).2.2.2.2.2 = .ok k1 ∧
      ∀ K y, Alike { kf with K := K, P := P', xhat := y, t := τ } (before k (i + 1)) := by
  have key : ∃ x' s, step p A B H (before k i) x' still = .ok s ∧ after k i (states.getD i 0) = .ok s := by
    cases i with
    | zero =>
      have h := first_ok
      unfold firstOk at h
      rw [hs] at h
      simp only [Res.yields] at h
      split at h
      · rename_i s ha
        exact ⟨x, s, of_decide_eq_true h, ha⟩
      · cases h
    | succ i =>
      have h := next_ok i (by omega)
      unfold nextOk at h
      rw [hs] at h
      simp only [Res.yields] at h
      split at h
      · rename_i s ha
        split at h
        · rename_i s' ha'
          refine ⟨s.2.1, s', ?_, ha'⟩
          simp only [before, ha]
          exact of_decide_eq_true h
        · cases h
      · cases h
  obtain ⟨x', s, hstep, ha⟩ := key
  obtain ⟨Pm, K, hPm, hK, hP, ht, hK'⟩ := step_inv hstep
  obtain ⟨g0, g1, p0, p1, p2, p3, u0, u1, u4, u5, eK, eP, eA, eB, eH, eQ, eR, edt⟩ := after_expl ha
  rw [eK] at hK'
  cases hK'
  have hb : before k (i + 1) = s.1 := by simp only [before, ha]
  have hk0 : (before k i).A = k.A ∧ (before k i).B = k.B ∧ (before k i).H = k.H ∧ (before k i).Q = k.Q ∧
      (before k i).R = k.R ∧ (before k i).dt = k.dt := by
    cases i with
    | zero => exact ⟨rfl, rfl, rfl, rfl, rfl, rfl⟩
    | succ i =>
      simp only [before]
      split
      · rename_i s' ha'
        obtain ⟨_, _, _, _, _, _, -, -, -, -, -, -, eA, eB, eH, eQ, eR, edt⟩ := after_expl ha'
        exact ⟨eA, eB, eH, eQ, eR, edt⟩
      · exact ⟨rfl, rfl, rfl, rfl, rfl, rfl⟩
  refine ⟨Pm, g0, g1, s.1.P, s.1.t, by rw [hk.A, hk.P, hk.Q, hPm], by rw [hk.H, hk.R, hK], by rw [hk.H, hP],
    by rw [hk.t, hk.dt, ht], by rw [eP, u0]; rfl, by rw [eP, u1]; rfl, u4, u5, fun K y => ?_⟩
  rw [hb]
  exact ⟨by rw [eA, ← hk0.1]; exact hk.A, by rw [eB, ← hk0.2.1]; exact hk.B, by rw [eH, ← hk0.2.2.1]; exact hk.H,
    by rw [eQ, ← hk0.2.2.2.1]; exact hk.Q, by rw [eR, ← hk0.2.2.2.2.1]; exact hk.R, rfl, rfl,
    by rw [edt, ← hk0.2.2.2.2.2]; exact hk.dt⟩

/-- The covariance of the exact simulation. -/
noncomputable def covMat (P : ℚ × ℚ × ℚ) : Matrix (Fin 2) (Fin 2) ℝ :=
  !![(P.1 : ℝ), P.2.1; P.2.1, P.2.2]

theorem cov_next (P : ℚ × ℚ × ℚ) (h : 0 < P.1 + 2 * P.2.1 + P.2.2 + 1 / 100 + 100) :
    covSeq exact (covMat P) 1 = covMat (covNext P) := by
  have h' : ((0 : ℚ) : ℝ) < ((P.1 + 2 * P.2.1 + P.2.2 + 1 / 100 + 100 : ℚ) : ℝ) := by exact_mod_cast h
  push_cast at h'
  have e : covSeq exact (covMat P) 1 = KF.ricc (mA exact).toMatrix mH.toMatrix (mQ exact).toMatrix
      (mR exact).toMatrix (covMat P) := rfl
  rw [e, KF.ricc, covMat, pred_expl, post_expl, covMat, covNext]
  · unfold exact
    ext i j
    fin_cases i <;> fin_cases j <;> simp <;> norm_num
  · unfold exact
    simp only
    norm_num
    norm_num at h'
    exact h'.ne'

/-- How close the readings of a pass are. -/
structure Close (x : Row D) (y : Row ℝ) : Prop where
  pos : |r x.pos - y.pos| ≤ 1 / 10 ^ 7
  posmeas : |r x.posmeas - y.posmeas| ≤ 1 / 10 ^ 7
  poshat : |r x.poshat - y.poshat| ≤ 1 / 10 ^ 7
  posgain : |r x.posgain - y.posgain| ≤ 1 / 2 ^ 50
  posecov : |r x.posecov - y.posecov| ≤ 1 / 2 ^ 45
  vel : |r x.vel - y.vel| ≤ 1 / 10 ^ 7
  velhat : |r x.velhat - y.velhat| ≤ 1 / 10 ^ 7
  velgain : |r x.velgain - y.velgain| ≤ 1 / 2 ^ 50
  velecov : |r x.velecov - y.velecov| ≤ 1 / 2 ^ 45

theorem exact_val {n : Int} {x : D} (h : Res.yields (unit n) (fun x => decide (x.val = inUnits n)) = true)
    (hx : unit n = .ok x) : r x = (inUnits n : ℝ) := by
  rw [hx] at h
  have := of_decide_eq_true h
  unfold r
  rw [this]

theorem loop_close {p A B H k x half} (hs : setup = .ok (p, A, B, H, k, x)) (hp : Sys p half) (hh : r half = 1 / 2)
    (hm : r p.measnoise = 10) (hacc : |r p.accelnoise - 1 / 5| ≤ 1 / 2 ^ 54)
    (eA : A = Mat.mk22 CNum.one CNum.one CNum.zero CNum.one) (eB : B = ⟨#v[half, CNum.one]⟩) (eH : H = hPos)
    (gs : List (D × D × D)) : ∀ (i : ℕ) (kf : Kalman D .one .one) (x0 x1 y0 y1 : D) (kr : Kalman ℝ .one .one)
    (X0 X1 Y0 Y1 : ℝ) (P : ℚ × ℚ × ℚ) (b : Bnd), i + gs.length ≤ 50 → (∀ g ∈ gs, |r g.1| ≤ 16 ∧ |r g.2.1| ≤ 16 ∧ |r g.2.2| ≤ 16) →
    Alike kf (before k i) → kf.A = A → kf.B = B → kf.H = H → kf.xhat = ⟨#v[y0, y1]⟩ →
    Good exact kr → kr.P.toMatrix = covMat P → kr.xhat.toMatrix = !![Y0; Y1] →
    b.Holds (r x0) (r x1) (r y0) (r y1) X0 X1 Y0 Y1 → check (states.drop i) P b = true →
    ∃ rs ss, loop p A B H kf ⟨#v[x0, x1]⟩ gs = .ok rs ∧
      loop exact (mA exact) (mB exact) mH kr (vec X0 X1) (gs.map values) = .ok ss ∧ List.Forall₂ Close rs ss := by
  induction gs with
  | nil =>
    intros
    exact ⟨[], [], rfl, rfl, .nil⟩
  | cons g gs ih =>
    intro i kf x0 x1 y0 y1 kr X0 X1 Y0 Y1 P b hi hg hk hA hB hH hx hr hrP hrx hb hc
    rw [List.length_cons] at hi
    have hlen : states.length = 50 := rfl
    have hi' : i < states.length := by omega
    have hd : states.drop i = states.getD i 0 :: states.drop (i + 1) := by
      rw [List.drop_eq_getElem_cons hi', List.getD_eq_getElem?_getD, List.getElem?_eq_getElem hi', Option.getD_some]
    have hmem : states.getD i 0 ∈ states := by
      rw [List.getD_eq_getElem?_getD, List.getElem?_eq_getElem hi', Option.getD_some]
      exact List.getElem_mem hi'
    rw [hd] at hc
    obtain ⟨Pm, k0, k1, P', τ, hPm, hK, hP, ht, u0, u1, u4, u5, hnext⟩ := pass_cov hs (by omega) hk
    have hex := List.all_eq_true.1 states_exact _ hmem
    simp only [Bool.and_eq_true] at hex
    have v0 := exact_val hex.1.1.1 u0
    have v1 := exact_val hex.1.1.2 u1
    have v4 := exact_val hex.1.2 u4
    have v5 := exact_val hex.2 u5
    generalize states.getD i 0 = s at *
    simp only [check, Bool.and_eq_true, decide_eq_true_eq] at hc
    obtain ⟨⟨c0, c1, c2, c3, c4, c5, c6, c7, c8, c9, c10, c11⟩, hc⟩ := hc
    obtain ⟨hg1, hg2, hg3⟩ := hg g List.mem_cons_self
    obtain ⟨g1, g2, g3⟩ := g
    obtain ⟨kr', row, hstep, hr', hPr, hpos, hvel, hmeas, hph, hvh, hpc, hvc, hpg, hvg, hxr⟩ :=
      step_ok exact (by unfold exact; norm_num) kr hr X0 X1 (values (g1, g2, g3))
    rw [hrP, cov_next P c0] at hPr
    have hpc' : row.posecov = ((covNext P).1 : ℝ) := by rw [hpc, hPr]; rfl
    have hvc' : row.velecov = ((covNext P).2.1 : ℝ) := by rw [hvc, hPr]; rfl
    have e100 : exact.measnoise ^ 2 = 100 := by unfold exact; norm_num
    have hpg' : row.posgain = (((covNext P).1 / 100 : ℚ) : ℝ) := by rw [hpg, hpc', e100]; push_cast; rfl
    have hvg' : row.velgain = (((covNext P).2.1 / 100 : ℚ) : ℝ) := by rw [hvg, hvc', e100]; push_cast; rfl
    have n4 : |((inUnits s.2.2.2.2.1 : ℚ) : ℝ) - row.posgain| ≤ (κ : ℚ) := by rw [hpg']; exact_mod_cast c4
    have n5 : |((inUnits s.2.2.2.2.2 : ℚ) : ℝ) - row.velgain| ≤ (κ : ℚ) := by rw [hvg']; exact_mod_cast c5
    obtain ⟨s1, s', v, w, w0, w1, n0, n1, m, z, t, t', f, j, d0, d1, e0, e1, ops, ops', Hz, Hb⟩ :=
      pass_ops c1 hb hh (show r CNum.one = 1 by unfold r; exact Rat.cast_one) hm hacc v4 v5 c2 c3 n4 n5 hg1 hg2 hg3
    have hfl := step_float hp (by rw [hA, eA]) (by rw [hB, eB]) (by rw [hH, eH]) hx hPm hK hP ht ops ops'
    rw [hA, hB, hH] at hfl
    have hX0 : next0 exact X0 X1 (values (g1, g2, g3)).1 = X0 + X1 + 1 / 2 + 1 / 2 * r g1 * (1 / 5) := by
      unfold next0 exact values; ring
    have hX1 : next1 exact X0 X1 (values (g1, g2, g3)).2.1 = X1 + 1 + r g2 * (1 / 5) := by
      unfold next1 exact values; ring
    have hZ : row.posmeas = X0 + X1 + 1 / 2 + 1 / 2 * r g1 * (1 / 5) + 10 * r g3 := by
      rw [hmeas, hpos, hX0]; unfold exact values; ring
    have hxm : kr.xm one1 = !![Y0 + Y1 + 1 / 2; Y1 + 1] := by
      rw [Kalman.xm, hr.A, hr.B, hrx, mA_mat, mB_mat]
      have : one1.toMatrix = !![1] := by ext i j; fin_cases i; fin_cases j; rfl
      rw [this]
      unfold exact
      ext i j
      fin_cases i <;> fin_cases j <;> simp
    have hY : kr'.xhat.toMatrix = !![Y0 + Y1 + 1 / 2 + row.posgain * (row.posmeas - (Y0 + Y1 + 1 / 2));
        Y1 + 1 + row.velgain * (row.posmeas - (Y0 + Y1 + 1 / 2))] := by
      rw [hxr, hxm]
      ext i j
      fin_cases i <;> fin_cases j <;> simp
    rw [hZ] at hY
    obtain ⟨rs, ss, h1, h2, h3⟩ := ih (i + 1) _ n0 n1 e0 e1 kr' _ _ _ _ (covNext P) _ (by omega)
      (fun g hg' => hg g (List.mem_cons_of_mem _ hg')) (hnext (some ⟨#v[k0, k1]⟩) ⟨#v[e0, e1]⟩) hA hB hH rfl hr' hPr hY Hb hc
    refine ⟨⟨n0, z, e0, k0, P'.get 0 0, n1, e1, k1, P'.get 0 1⟩ :: rs, row :: ss, ?_, ?_, ?_⟩
    · rw [loop, hfl, bind_ok]
      simp only
      rw [hA, hB, hH] at h1
      rw [h1, bind_ok]
    · rw [List.map_cons, loop, hstep, bind_ok]
      simp only
      rw [hX0, hX1, h2, bind_ok]
    · have q8 : ((b.next (inUnits s.2.2.2.2.1) (inUnits s.2.2.2.2.2)).a0 : ℝ) + 2 * μ ≤ 1 / 10 ^ 7 := by
        have : (((b.next (inUnits s.2.2.2.2.1) (inUnits s.2.2.2.2.2)).a0 + 2 * u : ℚ) : ℝ) ≤ ((1 / 10 ^ 7 : ℚ) : ℝ) := by
          exact_mod_cast c8
        unfold u at this
        unfold μ
        push_cast at this
        exact this
      have q9 : ((b.next (inUnits s.2.2.2.2.1) (inUnits s.2.2.2.2.2)).a1 : ℝ) ≤ 1 / 10 ^ 7 := by
        have := (Rat.cast_le (K := ℝ)).2 c9; push_cast at this; exact this
      have q10 : ((b.next (inUnits s.2.2.2.2.1) (inUnits s.2.2.2.2.2)).b0 : ℝ) ≤ 1 / 10 ^ 7 := by
        have := (Rat.cast_le (K := ℝ)).2 c10; push_cast at this; exact this
      have q11 : ((b.next (inUnits s.2.2.2.2.1) (inUnits s.2.2.2.2.2)).b1 : ℝ) ≤ 1 / 10 ^ 7 := by
        have := (Rat.cast_le (K := ℝ)).2 c11; push_cast at this; exact this
      have q6 : |((inUnits s.1 : ℚ) : ℝ) - ((covNext P).1 : ℝ)| ≤ 1 / 2 ^ 45 := by
        have := (Rat.cast_le (K := ℝ)).2 c6; push_cast at this; exact this
      have q7 : |((inUnits s.2.1 : ℚ) : ℝ) - ((covNext P).2.1 : ℝ)| ≤ 1 / 2 ^ 45 := by
        have := (Rat.cast_le (K := ℝ)).2 c7; push_cast at this; exact this
      have k' : ((κ : ℚ) : ℝ) = 1 / 2 ^ 50 := by unfold κ; push_cast; rfl
      have μ0 := μ_small.1
      refine .cons ⟨?_, ?_, ?_, ?_, ?_, ?_, ?_, ?_, ?_⟩ h3
      · rw [hpos, hX0]
        exact Hb.a0.trans (by linarith)
      · rw [hZ]
        exact Hz.trans q8
      · rw [hph, hY]
        exact Hb.b0.trans q10
      · rw [v4, ← k']
        exact n4
      · rw [v0, hpc']
        exact q6
      · rw [hvel, hX1]
        exact Hb.a1.trans q9
      · rw [hvh, hY]
        exact Hb.b1.trans q11
      · rw [v5, ← k']
        exact n5
      · rw [v1, hvc']
        exact q7

theorem loop_length {T : Type} [CNum T] [CLit T] (p : Params T) (A B H) (gs : List (T × T × T)) : ∀ k x rs,
    loop p A B H k x gs = .ok rs → rs.length = gs.length := by
  induction gs with
  | nil => intro k x rs h; cases h; rfl
  | cons g gs ih =>
    intro k x rs h
    rw [loop] at h
    obtain ⟨s, -, h⟩ := bind_eq_ok.1 h
    obtain ⟨rs', h', h⟩ := bind_eq_ok.1 h
    cases h
    rw [List.length_cons, List.length_cons, ih _ _ _ h']

theorem main_length {T : Type} [CNum T] [CLit T] {avr} {p : Params T} {gs : List (T × T × T)} {rs}
    (h : main avr p gs = .ok rs) : rs.length = gs.length := by
  unfold main at h
  obtain ⟨A, -, h⟩ := bind_eq_ok.1 h
  obtain ⟨B, -, h⟩ := bind_eq_ok.1 h
  obtain ⟨H, -, h⟩ := bind_eq_ok.1 h
  obtain ⟨k, -, h⟩ := bind_eq_ok.1 h
  obtain ⟨x, -, h⟩ := bind_eq_ok.1 h
  exact loop_length p A B H gs k x rs h

theorem run_close {p : Params D} (hp : constants binary64 = .ok p) (gs : List (D × D × D)) (hl : gs.length ≤ 50)
    (hg : ∀ g ∈ gs, |r g.1| ≤ 16 ∧ |r g.2.1| ≤ 16 ∧ |r g.2.2| ≤ 16) :
    ∃ rs ss, main false p gs = .ok rs ∧ main false exact (gs.map values) = .ok ss ∧ List.Forall₂ Close rs ss := by
  obtain ⟨⟨p', A, B, H, k, x⟩, hs, h⟩ := Res.of_yields setup_ok
  obtain ⟨half, -, h⟩ := Res.of_yields h
  obtain ⟨h1, h2, h3, h4, h5, h6, h7, h8, h9, h10, h11, h12, h13⟩ := of_decide_eq_true h
  have hs' := hs
  unfold setup at hs'
  rw [hp, bind_ok] at hs'
  obtain ⟨A', hA, hs'⟩ := bind_eq_ok.1 hs'
  obtain ⟨B', hB, hs'⟩ := bind_eq_ok.1 hs'
  obtain ⟨H', hH, hs'⟩ := bind_eq_ok.1 hs'
  obtain ⟨k', hk, hs'⟩ := bind_eq_ok.1 hs'
  obtain ⟨x', hx, hs'⟩ := bind_eq_ok.1 hs'
  cases hs'
  obtain ⟨kr, -, hgood, hkP, hkx, hmain⟩ := main_eq false exact (gs.map values)
  have hz : r (CNum.zero : D) = 0 := by unfold r; exact Rat.cast_zero
  have hx0 : kr.xhat.toMatrix = !![(0 : ℝ); 0] := by
    rw [hkx]
    ext i j
    fin_cases i <;> fin_cases j <;> rfl
  have hP0 : kr.P.toMatrix = covMat (1 / 100, 1 / 50, 1 / 25) := by
    rw [hkP, mQ_mat, covMat]
    unfold exact
    ext i j
    fin_cases i <;> fin_cases j <;> simp <;> norm_num
  obtain ⟨rs, ss, e1, e2, e3⟩ := loop_close hs
    ⟨h2, by decide +kernel, h5⟩
    (by unfold r; rw [h1]; norm_num) (by unfold r; rw [h3]; norm_num)
    (by
      have := (Rat.cast_le (K := ℝ)).2 h4
      push_cast at this
      exact this) h6 h7 h8 gs 0 k CNum.zero CNum.zero CNum.zero CNum.zero kr 0 0 0 0 (1 / 100, 1 / 50, 1 / 25)
      ⟨0, 0, 0, 0, 0, 0, 0, 0⟩ (by omega) hg ⟨rfl, rfl, rfl, rfl, rfl, rfl, rfl, rfl⟩ h9 h10 h11 (by rw [h13, h12]) hgood hP0 hx0
      (by constructor <;> simp [hz]) check_ok
  refine ⟨rs, ss, ?_, ?_, e3⟩
  · unfold main
    rw [hA, bind_ok, hB, bind_ok, hH, bind_ok, hk, bind_ok, hx, bind_ok, h12]
    exact e1
  · rw [hmain]
    exact e2

end ErrorRun
end Verif
