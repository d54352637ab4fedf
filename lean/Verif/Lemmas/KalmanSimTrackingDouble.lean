import Verif.Lemmas.KalmanSimTracking

/-
The difference between the true state and the estimate in the simulation of example/desktop/kalman-sim.e.cpp in `double`
(for C159): the rounding errors of the simulated system act as additional noise, those of the estimator are bounded by C152.
-/

namespace Verif
open KalmanSim Ieee StillRun ErrorRun SettledRun EternalRun

namespace TrackingRun

theorem add_near {X : ℝ} (hX : Mid X) {a b c : D} (h : |r a + r b| ≤ X) (e : CNum.add a b = .ok c) :
    |r c - (r a + r b)| ≤ X / 2 ^ 52 := by
  obtain ⟨c', e', h'⟩ := add_within hX h
  cases e'.symm.trans e
  exact h'

theorem mul_near {X : ℝ} (hX : Mid X) {a b c : D} (h : |r a * r b| ≤ X) (e : CNum.mul a b = .ok c) :
    |r c - r a * r b| ≤ X / 2 ^ 52 := by
  obtain ⟨c', e', h'⟩ := mul_within hX h
  cases e'.symm.trans e
  exact h'

theorem chain {a b c e f : ℝ} (h : |a - b| ≤ e) (h' : |b - c| ≤ f) : |a - c| ≤ e + f :=
  (abs_sub_le a b c).trans (add_le_add h h')

/-- The rounding errors of the simulated system in one of the first 4096 passes. -/
theorem draw_near {N : ℝ} (hN : 0 ≤ N) (hN' : N ≤ 2 ^ 12) {half acc meas x0 x1 g1 g2 g3 : D} (hh : r half = 1 / 2)
    (hm : r meas = 10) (ha : |r acc - 1 / 5| ≤ 1 / 2 ^ 54) (hx0 : |r x0| ≤ 16 * N ^ 2) (hx1 : |r x1| ≤ 16 * N)
    (h1 : |r g1| ≤ 16) (h2 : |r g2| ≤ 16) (h3 : |r g3| ≤ 16) {s s' v w w0 w1 n0 n1 m z : D}
    (ops : CNum.add x0 x1 = .ok s ∧ CNum.add s half = .ok s' ∧ CNum.add x1 CNum.one = .ok v ∧
      CNum.mul half g1 = .ok w ∧ CNum.mul w acc = .ok w0 ∧ CNum.mul g2 acc = .ok w1 ∧
      CNum.add s' w0 = .ok n0 ∧ CNum.add v w1 = .ok n1 ∧ CNum.mul meas g3 = .ok m ∧ CNum.add n0 m = .ok z)
    (bn0 : |r n0| ≤ 16 * (N + 1) ^ 2) :
    |r n0 - (r x0 + r x1 + 1 / 2) - r g1 / 10| ≤ 1 / 10 ^ 5 ∧ |r n1 - (r x1 + 1) - r g2 / 5| ≤ 1 / 10 ^ 5 ∧
      |r z - r n0 - 10 * r g3| ≤ 1 / 10 ^ 5 ∧ |r z| ≤ 2 ^ 29 := by
  obtain ⟨es, es', ev, ew, ew0, ew1, en0, en1, em, ez⟩ := ops
  have q : (N + 1) ^ 2 ≤ 4097 ^ 2 := pow_le_pow_left₀ (by linarith) (by linarith) 2
  have qN : (N + 1) ^ 2 = N ^ 2 + 2 * N + 1 := by ring
  have q2 : (1 : ℝ) ≤ (N + 1) ^ 2 := by linarith [sq_nonneg N]
  have m0 : Mid (256 * (N + 1) ^ 2) := mid_of (by linarith) (by linarith)
  have m1 : Mid (256 * (N + 1)) := mid_of (by linarith) (by linarith)
  have r1 : r (CNum.one : D) = 1 := by
    have : (CNum.one : D).val = 1 := rfl
    rw [r, this, Rat.cast_one]
  have r1' : |r (CNum.one : D)| = 1 := by rw [r1, abs_one]
  have hh' : |r half| = 1 / 2 := by rw [hh]; norm_num
  have hm'' : |r meas| = 10 := by rw [hm]; norm_num
  have ha' : |r acc| ≤ 21 / 100 := (near_le ha (le_of_eq (abs_of_pos (by norm_num)))).trans (by norm_num)
  have e0 : 256 * (N + 1) ^ 2 / 2 ^ 52 ≤ 1 / 10 ^ 6 := by
    rw [div_le_div_iff₀ (by norm_num) (by norm_num)]
    linarith
  have e1 : 256 * (N + 1) / 2 ^ 52 ≤ 1 / 10 ^ 9 := by
    rw [div_le_div_iff₀ (by norm_num) (by norm_num)]
    linarith
  have hs := add_near m0 (sum_le hx0 hx1 (by linarith)) es
  have bs := near_le hs (sum_le hx0 hx1 le_rfl)
  have hs' := add_near m0 (sum_le bs hh'.le (by linarith)) es'
  have bs' := near_le hs' (sum_le bs hh'.le le_rfl)
  have hv := add_near m1 (sum_le hx1 r1'.le (by linarith)) ev
  have bv := near_le hv (sum_le hx1 r1'.le le_rfl)
  have hw := mul_near m1 ((prod_le hh'.le h1).trans (by linarith)) ew
  have bw : |r w| ≤ 9 := (near_le hw (prod_le hh'.le h1)).trans (by linarith)
  have hw0 := mul_near m1 ((prod_le bw ha').trans (by linarith)) ew0
  have bw0 : |r w0| ≤ 3 := (near_le hw0 (prod_le bw ha')).trans (by linarith)
  have hw1 := mul_near m1 ((prod_le h2 ha').trans (by linarith)) ew1
  have bw1 : |r w1| ≤ 4 := (near_le hw1 (prod_le h2 ha')).trans (by linarith)
  have hn0 := add_near m0 (sum_le bs' bw0 (by linarith)) en0
  have hn1 := add_near m1 (sum_le bv bw1 (by linarith)) en1
  have hm' := mul_near m1 ((prod_le hm''.le h3).trans (by linarith)) em
  have bm : |r m| ≤ 161 := (near_le hm' (prod_le hm''.le h3)).trans (by linarith)
  have hz := add_near m0 (sum_le bn0 bm (by linarith)) ez
  have bz := near_le hz (sum_le bn0 bm le_rfl)
  have d0 := prod_le bw ha
  have d1 := prod_le h2 ha
  rw [hh] at hs' hw
  rw [r1] at hv
  rw [hm] at hm'
  clear bs bs' bv bw bw0 bw1 hx0 hx1 h1 h2 h3 bn0 bm ha ha' es es' ev ew ew0 ew1 en0 en1 em ez m0 m1
  generalize 256 * (N + 1) ^ 2 / 2 ^ 52 = ε at *
  generalize 256 * (N + 1) / 2 ^ 52 = δ at *
  rw [mul_sub] at d0 d1
  refine ⟨?_, ?_, ?_, bz.trans (by linarith)⟩
  · rw [abs_le] at hs hs' hn0 hw0 hw d0 ⊢
    constructor <;> linarith [hs.1, hs.2, hs'.1, hs'.2, hn0.1, hn0.2, hw0.1, hw0.2, hw.1, hw.2, d0.1, d0.2]
  · rw [abs_le] at hv hn1 hw1 d1 ⊢
    constructor <;> linarith [hv.1, hv.2, hn1.1, hn1.2, hw1.1, hw1.2, d1.1, d1.2]
  · rw [abs_le] at hz hm' ⊢
    constructor <;> linarith [hz.1, hz.2, hm'.1, hm'.2]

/-- The row of a pass. -/
def Tracks (G : ℝ) (row : Row D) : Prop :=
  |r row.pos - r row.poshat| ≤ 75 * G + 1 / 50 ∧ |r row.vel - r row.velhat| ≤ 12 * G + 1 / 250

/-- The passes of the simulation. -/
theorem loop_tracks {half : D} (hh : half.val = 1 / 2) {p A B H k₀ x} (hs : setup = .ok (p, A, B, H, k₀, x)) (hp : Sys p half)
    (hm : r p.measnoise = 10) (ha : |r p.accelnoise - 1 / 5| ≤ 1 / 2 ^ 54)
    (hA : k₀.A = Mat.mk22 CNum.one CNum.one CNum.zero CNum.one) (hB : k₀.B = ⟨#v[half, CNum.one]⟩) (hH : k₀.H = hPos)
    (hdt : k₀.dt = CNum.one) {G : ℝ} (hG : 0 ≤ G) (hG' : G ≤ 16) (gs : List (D × D × D)) :
    ∀ {k l n} {x0 x1 : D} {Y0 Y1 : ℝ}, n + gs.length ≤ 2 ^ 12 →
    Track half (2 ^ 29) k₀ k l n → |r x0| ≤ 16 * (n : ℝ) ^ 2 → |r x1| ≤ 16 * (n : ℝ) → l.xhat.toMatrix = !![Y0; Y1] →
    size (r x0 - Y0) (r x1 - Y1) ≤ 13 / 20 * (G + 1 / 10 ^ 4) * bound n →
    (∀ g ∈ gs, |r g.1| ≤ G ∧ |r g.2.1| ≤ G ∧ |r g.2.2| ≤ G) →
      ∃ rs, loop p k₀.A k₀.B k₀.H k ⟨#v[x0, x1]⟩ gs = .ok rs ∧ rs.length = gs.length ∧ ∀ row ∈ rs, Tracks G row := by
  have rh : r half = 1 / 2 := by rw [r, hh]; norm_num
  have ro : r (CNum.one : D) = 1 := by
    have : (CNum.one : D).val = 1 := rfl
    rw [r, this, Rat.cast_one]
  have r1 : |r (CNum.one : D)| ≤ 2 ^ 29 := by rw [ro]; norm_num
  have ha' : |r p.accelnoise| ≤ 21 / 100 := (near_le ha (le_of_eq (abs_of_pos (by norm_num)))).trans (by norm_num)
  induction gs with
  | nil => exact fun _ _ _ _ _ _ _ => ⟨[], rfl, rfl, fun r h => absurd h (by simp)⟩
  | cons g gs ih =>
    intro k l n x0 x1 Y0 Y1 hn h hx0 hx1 hY hd hg
    rw [List.length_cons] at hn
    obtain ⟨g1, g2, g3⟩ := g
    obtain ⟨q1, q2, q3⟩ := hg _ List.mem_cons_self
    have hN : (n : ℝ) ≤ 2 ^ 12 := by exact_mod_cast (by omega : n ≤ 2 ^ 12)
    obtain ⟨s, s', v, w, w0, w1, n0, n1, m, z, ops, b0, b1, -⟩ := draw_ops n.cast_nonneg (hN.trans (by norm_num)) rh hm ha' hx0 hx1
      (q1.trans hG') (q2.trans hG') (q3.trans hG')
    obtain ⟨c0, c1, c2, bz⟩ := draw_near n.cast_nonneg hN rh hm ha hx0 hx1 (q1.trans hG') (q2.trans hG') (q3.trans hG') ops b0
    have hM : Mid (136 * 2 ^ 29) := mid_of (by norm_num) (by norm_num)
    obtain ⟨k', l', u1, u2, h'⟩ := h.step hh hM hs hA hB hH hdt r1 bz
    obtain ⟨l'', G0, G1, ul, -, -, eG0, eG1, ex⟩ := update_real h.good h.P hY (r (CNum.one : D)) (r z)
    cases ul.symm.trans u2
    rw [ro] at ex
    obtain ⟨hc, i0, i1⟩ := fine n
    have near := near_all n
    have key := track_step hc i0 i1 (show 0 ≤ G + 1 / 10 ^ 4 by positivity) (bound_real n).2 hd (G0 := G0) (G1 := G1)
      (by rw [eG0]; exact near.g0) (by rw [eG1]; exact near.g1)
      (w0 := r n0 - (r x0 + r x1 + 1 / 2)) (w1 := r n1 - (r x1 + 1)) (ν := r z - r n0)
      ((near_le c0 (by rw [abs_div, abs_of_pos (by norm_num : (0 : ℝ) < 10)])).trans
        (by linarith))
      ((near_le c1 (by rw [abs_div, abs_of_pos (by norm_num : (0 : ℝ) < 5)])).trans
        (by linarith))
      ((near_le c2 (by rw [abs_mul, abs_of_pos (by norm_num : (0 : ℝ) < 10)])).trans
        (by linarith))
    rw [← bound_succ] at key
    have f0 : (1 - G0) * (r x0 - Y0 + (r x1 - Y1) + (r n0 - (r x0 + r x1 + 1 / 2))) - G0 * (r z - r n0) = r n0 -
        (Y0 + Y1 + 1 / 2 + G0 * (r z - (Y0 + Y1 + 1 / 2))) := by ring
    have f1 : r x1 - Y1 + (r n1 - (r x1 + 1)) - G1 * (r x0 - Y0 + (r x1 - Y1) + (r n0 - (r x0 + r x1 + 1 / 2)) + (r z - r n0)) =
        r n1 - (Y1 + 1 + G1 * (r z - (Y0 + Y1 + 1 / 2))) := by ring
    rw [f0, f1] at key
    generalize Y0 + Y1 + 1 / 2 + G0 * (r z - (Y0 + Y1 + 1 / 2)) = Z0 at key ex
    generalize Y1 + 1 + G1 * (r z - (Y0 + Y1 + 1 / 2)) = Z1 at key ex
    have hst : ∃ row, step p k₀.A k₀.B k₀.H k ⟨#v[x0, x1]⟩ (g1, g2, g3) = .ok (k', ⟨#v[n0, n1]⟩, row) ∧ row.pos = n0 ∧
        row.vel = n1 ∧ row.poshat = k'.xhat.get 0 0 ∧ row.velhat = k'.xhat.get 1 0 := by
      obtain ⟨es, es', ev, ew, ew0, ew1, en0, en1, em, ez⟩ := ops
      have o1 : Mat.ofList 1 1 [(CNum.one : D)] = .ok ⟨#v[CNum.one]⟩ := rfl
      have o2 : process_noise p g1 g2 = .ok ⟨#v[w0, w1]⟩ := by
        unfold process_noise
        rw [hp.dt, Flt.one_mul', bind_ok]
        obtain ⟨two, t2, t3⟩ := bind_eq_ok.1 hp.half
        rw [t2, bind_ok, t3, bind_ok, ew, bind_ok, Flt.one_mul', bind_ok]
        have : Mat.ofList 2 1 [w, g2] = .ok ⟨#v[w, g2]⟩ := rfl
        rw [this, bind_ok, mulS_vec ew0 ew1]
      have o4 : meas_noise p g3 = .ok m := em
      have o5 : (Mat.fill 1 1 z : Mat D 1 1) = ⟨#v[z]⟩ := rfl
      obtain ⟨-, K, hK, -⟩ := h.at_.update hs u1
      unfold step
      rw [hp.lit1, bind_ok, o1, bind_ok, hA, mulVec_trans es, bind_ok, hB, mulM11_one, bind_ok, add_vec es' ev,
        bind_ok, o2, bind_ok, add_vec en0 en1, bind_ok, hH, dot_pos, bind_ok, o4, bind_ok, ez, bind_ok, o5]
      rw [show k.update (⟨#v[CNum.one]⟩ : Mat D 1 1) (⟨#v[z]⟩ : Mat D 1 1) = .ok k' from u1, bind_ok]
      have i0 (x : ColVec D 2) : x.idx 0 = .ok (x.get 0 0) := x.idx_ok (by decide)
      have i1 (x : ColVec D 2) : x.idx 1 = .ok (x.get 1 0) := x.idx_ok (by decide)
      simp only [Kalman.kalman_gain, Kalman.system_state, Kalman.estimation_error_covariance, hK, bind_ok]
      rw [i0, bind_ok, i0, bind_ok, i0, bind_ok, (Mat.idx22 _).1, bind_ok, i1, bind_ok, i1, bind_ok, i1, bind_ok,
        (Mat.idx22 _).2.1, bind_ok]
      exact ⟨_, rfl, rfl, rfl, rfl, rfl⟩
    obtain ⟨row, hst, ep, ev, eh, ew⟩ := hst
    obtain ⟨rs, hrs, hl, hr⟩ := ih (by omega) h' (by push_cast; exact b0) (by push_cast; exact b1) ex key
      (fun g hg' => hg g (List.mem_cons_of_mem _ hg'))
    refine ⟨row :: rs, ?_, by rw [List.length_cons, List.length_cons, hl], fun row' hm' => ?_⟩
    · rw [loop, hst, bind_ok]
      simp only
      rw [hrs, bind_ok]
    · rcases List.mem_cons.1 hm' with rfl | hm'
      · obtain ⟨y0, y1, V0, V1, ey, eV, -, he⟩ := h'.x
        have eV0 : V0 = Z0 := by
          have := congrFun (congrFun (eV.symm.trans ex) 0) 0
          simpa using this
        have eV1 : V1 = Z1 := by
          have := congrFun (congrFun (eV.symm.trans ex) 1) 0
          simpa using this
        rw [eV0, eV1] at he
        have hb := bound_real (n + 1)
        have he' : size (r y0 - Z0) (r y1 - Z1) ≤ 5 / 2 ^ 45 * 93 * 2 ^ 29 := he.trans (by
          have := hb.2
          linarith)
        have key' : size (r n0 - Z0) (r n1 - Z1) ≤ 13 / 20 * (G + 1 / 10 ^ 4) * 93 :=
          key.trans (mul_le_mul_of_nonneg_left hb.2 (by positivity))
        have p0 := pos_le (r n0 - Z0) (r n1 - Z1)
        have p1 := pos_le (r y0 - Z0) (r y1 - Z1)
        have v0 := vel_le (r n0 - Z0) (r n1 - Z1)
        have v1 := vel_le (r y0 - Z0) (r y1 - Z1)
        rw [abs_sub_comm] at p1 v1
        have ey0 : k'.xhat.get 0 0 = y0 := by rw [ey]; rfl
        have ey1 : k'.xhat.get 1 0 = y1 := by rw [ey]; rfl
        unfold Tracks
        rw [eh, ew, ep, ev, ey0, ey1]
        exact ⟨(chain p0 p1).trans (by linarith), (chain v0 v1).trans (by linarith)⟩
      · exact hr row' hm'

theorem main_tracks (avr : Bool) {p : Params D} (hp : constants binary64 = .ok p) {G : ℝ} (hG : 0 ≤ G) (hG' : G ≤ 16)
    (gs : List (D × D × D)) (hl : gs.length ≤ 2 ^ 12) (hg : ∀ g ∈ gs, |r g.1| ≤ G ∧ |r g.2.1| ≤ G ∧ |r g.2.2| ≤ G) :
    ∃ rs, main avr p gs = .ok rs ∧ rs.length = gs.length ∧ ∀ row ∈ rs, Tracks G row := by
  obtain ⟨⟨p', A, B, H, k₀, x⟩, hs, h⟩ := Res.of_yields setup_ok
  obtain ⟨half, -, h⟩ := Res.of_yields h
  obtain ⟨h1, h2, hm, ha, hd, h3, h4, h5, h6, h7, h8, h9, -⟩ := of_decide_eq_true h
  subst h9
  have hs' := hs
  unfold setup at hs'
  rw [hp, bind_ok] at hs'
  obtain ⟨A', hA, hs'⟩ := bind_eq_ok.1 hs'
  obtain ⟨B', hB, hs'⟩ := bind_eq_ok.1 hs'
  obtain ⟨H', hH, hs'⟩ := bind_eq_ok.1 hs'
  obtain ⟨k', hk', hs'⟩ := bind_eq_ok.1 hs'
  obtain ⟨x', hx, hs'⟩ := bind_eq_ok.1 hs'
  injection hs' with e
  injection e with e1 e
  injection e with e2 e
  injection e with e3 e
  injection e with e4 e
  injection e with e5 e6
  subst e1 e2 e3 e4 e5 e6
  obtain ⟨pp, _, _, _, kk, hf, ss, pc, -, -, -, -, dtt, hk⟩ := parts
  cases pc.symm.trans hp
  cases ss.symm.trans hs
  obtain ⟨k, hk⟩ := hk avr
  obtain ⟨l, hl', -, -, lx⟩ := estim_eq avr exact
  have tr := Track.start (half := half) (M := 2 ^ 29) hs hk hl'
  have rz : r (CNum.zero : D) = 0 := by
    have z0 : (CNum.zero : D).val = 0 := rfl
    rw [r, z0]; norm_num
  have ha' : |r p.accelnoise - 1 / 5| ≤ 1 / 2 ^ 54 := by
    have := (Rat.cast_le (K := ℝ)).2 ha; push_cast at this; exact this
  have hm' : r p.measnoise = 10 := by rw [r, hm]; norm_num
  have lit1 : (CLit.lit 1 : Res D) = .ok CNum.one := by decide +kernel
  have hx' : l.xhat.toMatrix = !![(0 : ℝ); 0] := by
    rw [lx]
    ext i j
    fin_cases i <;> fin_cases j <;> rfl
  obtain ⟨rs, hrs, hrl, hr⟩ := loop_tracks h1 hs ⟨h2, lit1, hd⟩ hm' ha' (h6.trans h3) (h7.trans h4) (h8.trans h5) dtt hG hG' gs
    (n := 0) (x0 := CNum.zero) (x1 := CNum.zero) (by omega) tr (by rw [rz]; simp) (by rw [rz]; simp) hx'
    (by rw [rz, sub_zero, size_zero, bound, Rat.cast_zero, mul_zero]) hg
  refine ⟨rs, ?_, hrl, hr⟩
  unfold main
  rw [hA, bind_ok, hB, bind_ok, hH, bind_ok, hk, bind_ok, hx, bind_ok, ← h6, ← h7, ← h8]
  exact hrs

end TrackingRun
end Verif
