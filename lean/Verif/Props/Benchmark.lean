import Verif.Model.Benchmark
import Verif.Lemmas.Benchmark
import Verif.Lemmas.Atmega
import Verif.Props.Kalman
import Verif.Props.KalmanStable

/- C134: the benchmark program time/avr-kalman-time.cpp. -/

namespace Verif
open Matrix Mcu KalmanSim Benchmark

/-! ### Lemmas -/

namespace Benchmark

theorem init_led_ram (s : Chip) : init_led ram s =
    .ok ((), upd (upd s Demo.PORTB 0xff) Demo.DDRB (s.mem Demo.DDRB ||| 0x20#8)) := by
  rw [init_led, M_bind, wr_ram, bind_okM]
  show wr ram Demo.DDRB ((upd s Demo.PORTB 0xff).mem Demo.DDRB ||| 0x20#8) (upd s Demo.PORTB 0xff) = _
  rw [wr_ram, upd_other _ _ (by decide)]

theorem blink_led_ram (s : Chip) : blink_led ram s =
    .ok ((), upd s Demo.PORTB (s.mem Demo.PORTB ^^^ 0x20#8)) := wr_ram _ _ _

section
variable {T : Type} [CNum T]

theorem pureRes_eq {α : Type} (r : Res α) (s : Chip) : (pureRes r : M Chip α) s = r.map fun v => (v, s) := rfl

/-- The loop drives the LED and the estimator independently of each other. -/
theorem passes_eq (compute : Bool) (u z : ColVec T 1) (n : Nat) (k : Kalman T .one .one) (s : Chip) :
    ∃ s', (passes ram compute u z n k s = (k.runVariant compute (List.replicate n (u, z))).map fun k' => (k', s')) ∧
      s'.mem Demo.PORTB = (if n % 2 = 0 then s.mem Demo.PORTB else s.mem Demo.PORTB ^^^ 0x20#8) ∧
      (∀ a, a ≠ Demo.PORTB → s'.mem a = s.mem a) ∧
      s'.log = s.log ++ (List.range n).map fun i =>
        (Demo.PORTB, if i % 2 = 0 then s.mem Demo.PORTB ^^^ 0x20#8 else s.mem Demo.PORTB) := by
  induction n generalizing k s with
  | zero => exact ⟨s, rfl, rfl, fun _ _ => rfl, by simp⟩
  | succ n ih =>
    have e : passes ram compute u z (n + 1) k s =
        ((k.updateVariant compute u z).map fun v => (v, upd s Demo.PORTB (s.mem Demo.PORTB ^^^ 0x20#8))).bind
          fun r => passes ram compute u z n r.1 r.2 := by
      rw [passes, M_bind, blink_led_ram, bind_okM, M_bind, pureRes_eq]
    have hm (s1 : Chip) (h1 : s1.mem Demo.PORTB = (if n % 2 = 0 then s.mem Demo.PORTB ^^^ 0x20#8 else
        s.mem Demo.PORTB ^^^ 0x20#8 ^^^ 0x20#8)) :
        s1.mem Demo.PORTB = (if (n + 1) % 2 = 0 then s.mem Demo.PORTB else s.mem Demo.PORTB ^^^ 0x20#8) := by
      rw [h1, BitVec.xor_assoc, BitVec.xor_self, BitVec.xor_zero]
      by_cases hn : n % 2 = 0
      · rw [if_pos hn, if_neg (by omega)]
      · rw [if_neg hn, if_pos (by omega)]
    have hr : k.runVariant compute (List.replicate (n + 1) (u, z)) =
      k.updateVariant compute u z >>= fun k1 => k1.runVariant compute (List.replicate n (u, z)) := rfl
    have hl (s1 : Chip) (h1 : s1.log = (upd s Demo.PORTB (s.mem Demo.PORTB ^^^ 0x20#8)).log ++
        (List.range n).map fun i => (Demo.PORTB, if i % 2 = 0 then s.mem Demo.PORTB ^^^ 0x20#8 ^^^ 0x20#8 else
          s.mem Demo.PORTB ^^^ 0x20#8)) : s1.log = s.log ++ (List.range (n + 1)).map fun i =>
        (Demo.PORTB, if i % 2 = 0 then s.mem Demo.PORTB ^^^ 0x20#8 else s.mem Demo.PORTB) := by
      rw [h1, List.range_succ_eq_map, List.map_cons, List.map_map]
      show s.log ++ [(Demo.PORTB, s.mem Demo.PORTB ^^^ 0x20#8)] ++ _ = _
      rw [List.append_assoc, List.singleton_append]
      congr 2
      refine List.map_congr_left fun i _ => ?_
      show _ = (Demo.PORTB, if (i + 1) % 2 = 0 then _ else _)
      rw [BitVec.xor_assoc, BitVec.xor_self, BitVec.xor_zero]
      by_cases hn : i % 2 = 0
      · rw [if_pos hn, if_neg (by omega)]
      · rw [if_neg hn, if_pos (by omega)]
    rw [e, hr]
    cases h : k.updateVariant compute u z with
    | error e =>
      obtain ⟨s1, -, h1, h2, h3⟩ := ih k (upd s Demo.PORTB (s.mem Demo.PORTB ^^^ 0x20#8))
      rw [upd_same] at h1 h3
      exact ⟨s1, rfl, hm s1 h1, fun a ha => by rw [h2 a ha, upd_other _ _ ha], hl s1 h3⟩
    | ok k1 =>
      obtain ⟨s1, e1, h1, h2, h3⟩ := ih k1 (upd s Demo.PORTB (s.mem Demo.PORTB ^^^ 0x20#8))
      rw [upd_same] at h1 h3
      exact ⟨s1, e1, hm s1 h1, fun a ha => by rw [h2 a ha, upd_other _ _ ha], hl s1 h3⟩

variable [CLit T]

theorem main_led (avr compute : Bool) (p : Params T) (n : Nat) (s : Chip) :
    ∃ s', (main ram avr compute p n s = (prepare avr p >>= fun r =>
        r.1.runVariant compute (List.replicate n (r.2.1, r.2.2))).map fun k' => (k', s')) ∧
      s'.mem Demo.PORTB = (if n % 2 = 0 then 0xff else 0xdf) ∧
      s'.mem Demo.DDRB = s.mem Demo.DDRB ||| 0x20#8 ∧
      (∀ a, a ≠ Demo.PORTB → a ≠ Demo.DDRB → s'.mem a = s.mem a) ∧
      s'.log = s.log ++ [(Demo.PORTB, 0xff), (Demo.DDRB, s.mem Demo.DDRB ||| 0x20#8)] ++
        (List.range n).map fun i => (Demo.PORTB, if i % 2 = 0 then 0xdf else 0xff) := by
  have key (k : Kalman T .one .one) (u z : ColVec T 1) : ∃ s',
      (passes ram compute u z n k (upd (upd s Demo.PORTB 0xff) Demo.DDRB (s.mem Demo.DDRB ||| 0x20#8)) =
        (k.runVariant compute (List.replicate n (u, z))).map fun k' => (k', s')) ∧
      s'.mem Demo.PORTB = (if n % 2 = 0 then 0xff else 0xdf) ∧
      s'.mem Demo.DDRB = s.mem Demo.DDRB ||| 0x20#8 ∧
      (∀ a, a ≠ Demo.PORTB → a ≠ Demo.DDRB → s'.mem a = s.mem a) ∧
      s'.log = s.log ++ [(Demo.PORTB, 0xff), (Demo.DDRB, s.mem Demo.DDRB ||| 0x20#8)] ++
        (List.range n).map fun i => (Demo.PORTB, if i % 2 = 0 then 0xdf else 0xff) := by
    obtain ⟨s', e, h1, h2, h5⟩ := passes_eq compute u z n k
      (upd (upd s Demo.PORTB 0xff) Demo.DDRB (s.mem Demo.DDRB ||| 0x20#8))
    refine ⟨s', e, ?_, ?_, fun a h3 h4 => by rw [h2 a h3, upd_other _ _ h4, upd_other _ _ h3], ?_⟩
    · rw [h1, upd_other _ _ (by decide), upd_same]; rfl
    · rw [h2 _ (by decide), upd_same]
    · rw [h5, upd_other _ _ (by decide), upd_same]
      show s.log ++ [_] ++ [_] ++ _ = _
      rw [List.append_assoc s.log]
      rfl
  have e : main ram avr compute p n s = ((prepare avr p).map fun v =>
      (v, upd (upd s Demo.PORTB 0xff) Demo.DDRB (s.mem Demo.DDRB ||| 0x20#8))).bind
        fun r => passes ram compute r.1.2.1 r.1.2.2 n r.1.1 r.2 := by
    rw [main, M_bind, init_led_ram, bind_okM, M_bind, pureRes_eq]
  rw [e]
  cases h : prepare avr p with
  | error e =>
    obtain ⟨s', -, h⟩ := key (Kalman.init avr CNum.zero (Mat.fill _ _ CNum.zero) (Mat.fill _ _ CNum.zero)
      (Mat.fill _ _ CNum.zero) (Mat.fill _ _ CNum.zero) (Mat.fill _ _ CNum.zero) (Mat.fill _ _ CNum.zero)
      (Mat.fill _ _ CNum.zero)) (Mat.fill _ _ CNum.zero) (Mat.fill _ _ CNum.zero)
    exact ⟨s', rfl, h⟩
  | ok r => exact key r.1 r.2.1 r.2.2

omit [CLit T] in
theorem runVariant_t (c : Bool) {k k' : Kalman T .one .one} {ds} (h : k.runVariant c ds = .ok k') :
    k'.t = k.t := by
  induction ds generalizing k with
  | nil => cases h; rfl
  | cons d ds ih =>
    obtain ⟨k1, h1, h2⟩ := bind_eq_ok.1 (show (k.updateVariant c d.1 d.2 >>=
      fun k1 => k1.runVariant c ds) = _ from h)
    rw [ih h2]
    cases c with
    | false => obtain ⟨x, K, x', -, -, -, rfl⟩ := Kalman.updateVariant_false_inv h1; rfl
    | true => obtain ⟨x, P, K, x', P', -, -, -, -, -, rfl⟩ := Kalman.updateVariant_true_inv h1; rfl

theorem prepare_t {avr : Bool} {p : Params T} {r} (h : prepare avr p = .ok r) : r.1.t = CNum.zero := by
  obtain ⟨_, -, h⟩ := bind_eq_ok.1 h
  obtain ⟨_, -, h⟩ := bind_eq_ok.1 h
  obtain ⟨_, -, h⟩ := bind_eq_ok.1 h
  obtain ⟨_, -, h⟩ := bind_eq_ok.1 h
  obtain ⟨k, hk, h⟩ := bind_eq_ok.1 h
  obtain ⟨_, -, h⟩ := bind_eq_ok.1 h
  obtain ⟨_, -, h⟩ := bind_eq_ok.1 h
  obtain ⟨_, -, h⟩ := bind_eq_ok.1 h
  obtain ⟨_, -, h⟩ := bind_eq_ok.1 h
  obtain ⟨_, -, h⟩ := bind_eq_ok.1 h
  cases h
  obtain ⟨_, -, h⟩ := bind_eq_ok.1 hk
  obtain ⟨_, -, h⟩ := bind_eq_ok.1 h
  obtain ⟨_, -, h⟩ := bind_eq_ok.1 h
  obtain ⟨_, -, h⟩ := bind_eq_ok.1 h
  obtain ⟨_, -, h⟩ := bind_eq_ok.1 h
  obtain ⟨_, -, h⟩ := bind_eq_ok.1 h
  obtain ⟨_, -, h⟩ := bind_eq_ok.1 h
  cases h
  rfl

end

def cst (a : ℝ) : ColVec ℝ 1 := ⟨#v[a]⟩

theorem prepare_eq (avr : Bool) (p : Params ℝ) : prepare avr p =
    .ok (Kalman.init avr p.dt (mA p) (mB p) mH (mQ p) (mR p) (mQ p) (KalmanSim.vec 0 0), cst 1,
      cst (p.dt ^ 2 / 2)) := by
  obtain ⟨k, hk, -⟩ := estim_eq avr p
  have hk' : estim avr p = .ok (Kalman.init avr p.dt (mA p) (mB p) mH (mQ p) (mR p) (mQ p) (KalmanSim.vec 0 0)) := by
    unfold estim
    rw [start_eq, bind_ok, sysA_eq, bind_ok, sysB_eq, bind_ok, sysH_eq, bind_ok, sysQ_eq, bind_ok,
      sysR_eq, bind_ok, bind_ok]
    rfl
  unfold prepare
  rw [sysA_eq, bind_ok, sysB_eq, bind_ok, sysH_eq, bind_ok, start_eq, bind_ok, hk', bind_ok]
  show (do
    let x ← Mat.add (← (mA p).mulVec (KalmanSim.vec 0 0)) (← (mB p).mulM11 (cst ((1 : Int) : ℝ)))
    let z ← mH.dot x
    Except.ok (_, cst ((1 : Int) : ℝ), cst z)) = _
  rw [Int.cast_one, mulVec_eq, bind_ok]
  show (do
    let x ← Mat.add (KalmanSim.vec _ _) (KalmanSim.vec (p.dt * p.dt / 2 * 1) (p.dt * 1))
    let z ← mH.dot x
    Except.ok (_, cst 1, cst z)) = _
  rw [add_eq, bind_ok, dot_eq, bind_ok]
  congr 4
  ring

end Benchmark

namespace Benchmark

theorem main_variant {compute : Bool} {avr : Bool} {p : Params ℝ} {n : Nat} (s : Chip) {k : Kalman ℝ .one .one}
    (h : (Kalman.init avr p.dt (mA p) (mB p) mH (mQ p) (mR p) (mQ p) (KalmanSim.vec 0 0) :
      Kalman ℝ .one .one).runVariant compute (List.replicate n (cst 1, cst (p.dt ^ 2 / 2))) = .ok k) :
    ∃ s', main ram avr compute p n s = .ok (k, s') := by
  obtain ⟨s1, e, -⟩ := main_led avr compute p n s
  refine ⟨s1, ?_⟩
  rw [e, prepare_eq, bind_ok]
  show Except.map _ ((Kalman.init avr p.dt (mA p) (mB p) mH (mQ p) (mR p) (mQ p) (KalmanSim.vec 0 0) :
      Kalman ℝ .one .one).runVariant compute (List.replicate n (cst 1, cst (p.dt ^ 2 / 2)))) = _
  rw [h]
  rfl

theorem main_run {avr : Bool} {p : Params ℝ} {n : Nat} (s : Chip) {k : Kalman ℝ .one .one}
    (h : (Kalman.init avr p.dt (mA p) (mB p) mH (mQ p) (mR p) (mQ p) (KalmanSim.vec 0 0) :
      Kalman ℝ .one .one).run (List.replicate n (cst 1, cst (p.dt ^ 2 / 2))) = .ok k) :
    ∃ s', main ram avr true p n s = .ok ({ k with t := 0 }, s') :=
  main_variant s (C21_library_to_variant _ _ _ h)

theorem settles_steady (p : Params ℝ) (hd : 0 < p.dt) (hs : 0 < p.measnoise) (ha : 0 < p.accelnoise) :
    KF.Settles (mA p).toMatrix mH.toMatrix (mQ p).toMatrix (mR p).toMatrix (mQ p).toMatrix
      (steady p (AlphaBeta.damping (AlphaBeta.index p.dt p.measnoise p.accelnoise))) := by
  obtain ⟨h0, h1, h2⟩ := damping_index hd hs ha
  exact ⟨mQ_psd p, steady_posDef hd hs h0 h1, mQ_psd p, mR_posDef p hs.ne', steady_fix hd hs h0 h2,
    KF.spread_of_fresh (steady_fresh hd hs h0 h1 h2), covSeq_tendsto hd hs ha (mQ_psd p)⟩

theorem rest_eq (p : Params ℝ) (hd : 0 < p.dt) (hs : 0 < p.measnoise) (ha : 0 < p.accelnoise)
    (y : Matrix (Fin 2) (Fin 1) ℝ)
    (h0 : y 0 0 = p.dt ^ 2 / 2 + (1 - AlphaBeta.alpha (AlphaBeta.index p.dt p.measnoise p.accelnoise)) /
      AlphaBeta.beta (AlphaBeta.index p.dt p.measnoise p.accelnoise) * p.dt ^ 2)
    (h1 : y 1 0 = (AlphaBeta.alpha (AlphaBeta.index p.dt p.measnoise p.accelnoise) /
      AlphaBeta.beta (AlphaBeta.index p.dt p.measnoise p.accelnoise) - 1 / 2) * p.dt) :
    y = (mA p).toMatrix * y + (mB p).toMatrix * (cst 1).toMatrix +
      steady p (AlphaBeta.damping (AlphaBeta.index p.dt p.measnoise p.accelnoise)) * mH.toMatrixᵀ *
        (mR p).toMatrix⁻¹ * ((cst (p.dt ^ 2 / 2)).toMatrix - mH.toMatrix *
          ((mA p).toMatrix * y + (mB p).toMatrix * (cst 1).toMatrix)) := by
  have hl : 0 < AlphaBeta.index p.dt p.measnoise p.accelnoise := by unfold AlphaBeta.index; positivity
  obtain ⟨d0, d1, -⟩ := damping_index hd hs ha
  rw [AlphaBeta.beta_eq hl, AlphaBeta.alpha] at h0 h1
  generalize AlphaBeta.damping (AlphaBeta.index p.dt p.measnoise p.accelnoise) = r at *
  have d2 : 1 - r ≠ 0 := by linarith
  have hc (a : ℝ) : (cst a).toMatrix = !![a] := by ext i j; fin_cases i; fin_cases j; rfl
  have hG : steady p r * mH.toMatrixᵀ * (mR p).toMatrix⁻¹ = !![1 - r ^ 2; 2 * (1 - r) ^ 2 / p.dt] := by
    ext i j
    obtain rfl : j = 0 := Subsingleton.elim _ _
    rw [gain_elem]
    fin_cases i <;> (simp [steady]; field_simp)
  have hy : y = !![y 0 0; y 1 0] := by ext i j; fin_cases i <;> fin_cases j <;> rfl
  rw [hG, hy, hc, hc, mA_mat, mB_mat, mH_mat, h0, h1]
  ext i j
  fin_cases i <;> fin_cases j <;>
    (simp [Matrix.vecHead, Matrix.vecTail]; field_simp; ring)

end Benchmark

/-! ### C134: what the LED shows -/

section
variable {T : Type} [CNum T] [CLit T]

/-- **C134** For every numeric type, after `n` passes of the loop the LED is on exactly if `n` is even, the other
pins of port B are pulled up, the direction of the other pins is untouched and nothing else is written, whatever
the estimator computes: each pass writes port B once.  The time of the estimator is still 0. -/
theorem C134_led (avr compute : Bool) (p : Params T) (n : Nat) (s s' : Chip) (k' : Kalman T .one .one)
    (h : main ram avr compute p n s = .ok (k', s')) :
    (s'.mem Demo.PORTB = if n % 2 = 0 then 0b11111111 else 0b11011111) ∧
      s'.mem Demo.DDRB = s.mem Demo.DDRB ||| 0b00100000 ∧
      (∀ a, a ≠ Demo.PORTB → a ≠ Demo.DDRB → s'.mem a = s.mem a) ∧
      (s'.log = s.log ++ [(Demo.PORTB, 0b11111111), (Demo.DDRB, s.mem Demo.DDRB ||| 0b00100000)] ++
        (List.range n).map fun i => (Demo.PORTB, if i % 2 = 0 then 0b11011111 else 0b11111111)) ∧
      k'.time = CNum.zero := by
  obtain ⟨s1, e, h1, h2, h3, h4⟩ := main_led avr compute p n s
  rw [e] at h
  cases hk : (prepare avr p >>= fun r => r.1.runVariant compute (List.replicate n (r.2.1, r.2.2))) with
  | error e => rw [hk] at h; cases h
  | ok k1 =>
    rw [hk] at h
    cases h
    refine ⟨h1, h2, h3, h4, ?_⟩
    obtain ⟨r, hr, hk⟩ := bind_eq_ok.1 hk
    rw [Kalman.time, runVariant_t compute hk, prepare_t hr]

/-- Three passes with the constants of the program, in rational arithmetic. -/
example : (main ram true true (⟨1, 10, 1 / 5⟩ : Params ℚ) 3 ⟨fun _ => 0, []⟩).map (fun r =>
    (r.1.system_state.get 0 0, r.1.system_state.get 1 0, r.2.mem Demo.PORTB, r.2.mem Demo.DDRB)) =
    .ok (155741438449 / 34927696898, 1511600365005 / 506451605021, 0xdf, 0x20) := by
  decide +kernel

end

/-! ### C134: the estimator of the benchmark, exactly -/

/-- **C134** In exact arithmetic the benchmark never fails, and the gain and the covariance after `n + 1` passes are
those that kalman-sim records in row `n`, whatever the noise there: the benchmark runs the computation of the
simulation. -/
theorem C134_gains (avr : Bool) (p : Params ℝ) (hR : p.measnoise ≠ 0) (n : Nat) (s : Chip) (gs)
    (hgs : gs.length = n + 1) :
    ∃ k' s' G rows, main ram avr true p (n + 1) s = .ok (k', s') ∧ k'.kalman_gain = .ok G ∧
      KalmanSim.main avr p gs = .ok rows ∧ ∃ h : n < rows.length,
      G.get 0 0 = rows[n].posgain ∧ G.get 1 0 = rows[n].velgain ∧
      k'.estimation_error_covariance.get 0 0 = rows[n].posecov ∧
      k'.estimation_error_covariance.get 0 1 = rows[n].velecov := by
  obtain ⟨k, hr, -, eP, hK⟩ := Kalman.run_ricc
    (Kalman.init avr p.dt (mA p) (mB p) mH (mQ p) (mR p) (mQ p) (KalmanSim.vec 0 0) : Kalman ℝ .one .one)
    (List.replicate (n + 1) (cst 1, cst (p.dt ^ 2 / 2))) (mQ_psd p) (mQ_psd p) (mR_posDef p hR)
  obtain ⟨s', hm⟩ := main_run s hr
  obtain ⟨k0, -, hk, hP, -, e⟩ := main_eq avr p gs
  obtain ⟨rows, h, hl, hrow⟩ := loop_rows p hR gs k0 hk 0 0
  have hn : n < rows.length := by omega
  obtain ⟨h1, h2, h3, h4⟩ := hrow n hn
  rw [hP] at h1 h2
  rw [List.length_replicate] at eP
  change k.P.toMatrix = covSeq p (mQ p).toMatrix (n + 1) at eP
  have hsym := KF.symm2 (show (covSeq p (mQ p).toMatrix (n + 1)).PosSemidef from
    KF.riccSeq_psd (mQ_psd p) (mQ_psd p) (mR_posDef p hR) _)
  obtain ⟨G, hG, eG⟩ := hK (by rw [List.replicate_succ]; exact List.cons_ne_nil _ _)
  have e1 (i : Fin 2) : G.get i 0 = covSeq p (mQ p).toMatrix (n + 1) i 0 / p.measnoise ^ 2 := by
    show G.toMatrix i 0 = _
    rw [eG, ← eP]
    exact gain_elem p _ i
  have e2 (i : Fin 2) : k.P.get 0 i = covSeq p (mQ p).toMatrix (n + 1) 0 i := by
    rw [← eP]; rfl
  refine ⟨_, s', G, rows, hm, ?_, by rw [e, h], hn, ?_, ?_, ?_, ?_⟩
  · rw [Kalman.kalman_gain, hG]
  · rw [e1, h3, h1]
  · rw [e1, h4, h2, hsym]
  · rw [h1]; exact e2 0
  · rw [h2]; exact e2 1

/-- **C134** The measurement never changes although the control input says that the system accelerates.  The
estimate tends to a compromise: it stands still, `(1 - alpha) / beta` in units of `dt²` away from the measured
position `dt² / 2`, and with the velocity `alpha / beta - 1 / 2` in units of `dt`. -/
theorem C134_rest (p : Params ℝ) (hd : 0 < p.dt) (hs : 0 < p.measnoise) (ha : 0 < p.accelnoise)
    (ε : ℝ) (hε : 0 < ε) : ∃ N : Nat, ∀ avr n s, N ≤ n → ∃ k' s', main ram avr true p n s = .ok (k', s') ∧
      let l := AlphaBeta.index p.dt p.measnoise p.accelnoise
      |k'.system_state.get 0 0 - (p.dt ^ 2 / 2 + (1 - AlphaBeta.alpha l) / AlphaBeta.beta l * p.dt ^ 2)| < ε ∧
      |k'.system_state.get 1 0 - (AlphaBeta.alpha l / AlphaBeta.beta l - 1 / 2) * p.dt| < ε := by
  obtain ⟨N, hN⟩ := Kalman.run_rest (m := .one) (u := .one) (xhat := KalmanSim.vec 0 0) (settles_steady p hd hs ha) (cst 1) (cst (p.dt ^ 2 / 2))
    !![p.dt ^ 2 / 2 + (1 - AlphaBeta.alpha (AlphaBeta.index p.dt p.measnoise p.accelnoise)) /
      AlphaBeta.beta (AlphaBeta.index p.dt p.measnoise p.accelnoise) * p.dt ^ 2;
      (AlphaBeta.alpha (AlphaBeta.index p.dt p.measnoise p.accelnoise) /
      AlphaBeta.beta (AlphaBeta.index p.dt p.measnoise p.accelnoise) - 1 / 2) * p.dt]
    (rest_eq p hd hs ha _ rfl rfl) ε hε
  refine ⟨N, fun avr n s hn => ?_⟩
  obtain ⟨k, hr, h⟩ := hN (Kalman.init avr p.dt (mA p) (mB p) mH (mQ p) (mR p) (mQ p) (KalmanSim.vec 0 0))
    rfl rfl rfl rfl rfl rfl rfl n hn
  obtain ⟨s', hm⟩ := main_run s hr
  exact ⟨_, s', hm, h 0, h 1⟩

/-- The constants of the program. -/
example : 0 < (⟨1, 10, 1 / 5⟩ : Params ℝ).dt ∧ 0 < (⟨1, 10, 1 / 5⟩ : Params ℝ).measnoise ∧
    0 < (⟨1, 10, 1 / 5⟩ : Params ℝ).accelnoise := by norm_num

/-- **C134** With the constants of the program the estimate ends up about 45 m from the measured position. -/
theorem C134_rest_far : ∃ N : Nat, ∀ avr n s, N ≤ n → ∃ k' s',
    main ram avr true (⟨1, 10, 1 / 5⟩ : Params ℝ) n s = .ok (k', s') ∧
      45 < k'.system_state.get 0 0 - 1 / 2 ∧ k'.system_state.get 0 0 - 1 / 2 < 46 := by
  obtain ⟨N, h⟩ := C134_rest ⟨1, 10, 1 / 5⟩ one_pos (by norm_num) (by norm_num) (1 / 100) (by norm_num)
  refine ⟨N, fun avr n s hn => ?_⟩
  obtain ⟨k', s', hm, h0, -⟩ := h avr n s hn
  refine ⟨k', s', hm, ?_⟩
  have e : AlphaBeta.index 1 10 (1 / 5) = 1 / 50 := by unfold AlphaBeta.index; norm_num
  have hs1 : (0.4004 : ℝ) < √0.1604 := Real.lt_sqrt_of_sq_lt (by norm_num)
  have hs2 : √0.1604 < (0.4005 : ℝ) := (Real.sqrt_lt' (by norm_num)).2 (by norm_num)
  have hd : AlphaBeta.damping (1 / 50) = (4.02 - √0.1604) / 4 := by unfold AlphaBeta.damping; norm_num
  have hr1 : 0.904875 < AlphaBeta.damping (1 / 50) := by rw [hd]; linarith
  have hr2 : AlphaBeta.damping (1 / 50) < 0.9049 := by rw [hd]; linarith
  have hb := AlphaBeta.beta_eq (l := 1 / 50) (by norm_num)
  dsimp only at h0
  rw [e, hb, AlphaBeta.alpha] at h0
  generalize AlphaBeta.damping (1 / 50) = r at *
  have hq : 0 < 2 * (1 - r) ^ 2 := by nlinarith
  have hl : 45.1 < (1 - (1 - r ^ 2)) / (2 * (1 - r) ^ 2) := by rw [lt_div_iff₀ hq]; nlinarith
  have hu : (1 - (1 - r ^ 2)) / (2 * (1 - r) ^ 2) < 45.9 := by rw [div_lt_iff₀ hq]; nlinarith
  obtain ⟨g1, g2⟩ := abs_lt.1 h0
  norm_num at g1 g2 hl hu
  constructor <;> linarith

namespace Benchmark

theorem off_step (p : Params ℝ) (x : ColVec ℝ 2) (z : ColVec ℝ 1) : ∃ w : ColVec ℝ 2,
    (Kalman.init true p.dt (mA p) (mB p) mH (mQ p) (mR p) (mQ p) x : Kalman ℝ .one .one).updateVariant false
      (cst 1) z = .ok (Kalman.init true p.dt (mA p) (mB p) mH (mQ p) (mR p) (mQ p) w) ∧
      w.get 0 0 = x.get 0 0 + p.dt * x.get 1 0 + p.dt * p.dt / 2 ∧ w.get 1 0 = x.get 1 0 + p.dt := by
  obtain ⟨y, hy, ey⟩ := Kalman.predictState_mat (u := .one) (mA p) (mB p) x (cst 1)
  obtain ⟨w, hw, ew⟩ := Kalman.correctState_mat .one y (Mat.fill 2 1 CNum.zero) mH z
  have h0 : (Mat.fill 2 1 (CNum.zero : ℝ)).toMatrix = 0 := by
    ext i j
    exact Mat.get_fill _ _ _
  have hc : (cst 1).toMatrix = !![1] := by ext i j; fin_cases i; fin_cases j; rfl
  have hx : x.toMatrix = !![x.get 0 0; x.get 1 0] := by ext i j; fin_cases i <;> fin_cases j <;> rfl
  rw [h0] at ew
  change w.toMatrix = y.toMatrix + (0 : Matrix (Fin 2) (Fin 1) ℝ) * _ at ew
  rw [Matrix.zero_mul, add_zero, ey, mA_mat, mB_mat, hc, hx] at ew
  refine ⟨w, Kalman.updateVariant_false_intro (k := (Kalman.init true p.dt (mA p) (mB p) mH (mQ p) (mR p) (mQ p)
    x : Kalman ℝ .one .one)) hy rfl hw, ?_, ?_⟩
  · have := congrFun (congrFun ew 0) 0
    simp [Matrix.vecHead, Matrix.vecTail] at this
    exact this
  · have := congrFun (congrFun ew 1) 0
    simp [Matrix.vecHead, Matrix.vecTail] at this
    exact this

theorem off_run (p : Params ℝ) (z : ColVec ℝ 1) (n : Nat) (x : ColVec ℝ 2) : ∃ w : ColVec ℝ 2,
    (Kalman.init true p.dt (mA p) (mB p) mH (mQ p) (mR p) (mQ p) x : Kalman ℝ .one .one).runVariant false
      (List.replicate n (cst 1, z)) = .ok (Kalman.init true p.dt (mA p) (mB p) mH (mQ p) (mR p) (mQ p) w) ∧
      w.get 0 0 = x.get 0 0 + n * p.dt * x.get 1 0 + (n * p.dt) ^ 2 / 2 ∧ w.get 1 0 = x.get 1 0 + n * p.dt := by
  induction n generalizing x with
  | zero => exact ⟨x, rfl, by simp, by simp⟩
  | succ n ih =>
    obtain ⟨w, h, e0, e1⟩ := off_step p x z
    obtain ⟨w', h', e0', e1'⟩ := ih w
    refine ⟨w', by rw [List.replicate_succ, Kalman.runVariant, h, bind_ok, h'], ?_, ?_⟩
    · rw [e0', e0, e1]
      push_cast
      ring
    · rw [e1', e1]
      push_cast
      ring

end Benchmark

/-- **C134** Without the computation of gains (`KE_UPDATE_KALMAN_GAIN` is 0) on AVR the measurement is ignored: the
estimate is the motion with constant acceleration 1 from rest. -/
theorem C134_gain_off (p : Params ℝ) (n : Nat) (s : Chip) : ∃ k' s', main ram true false p n s = .ok (k', s') ∧
    k'.system_state.get 0 0 = (n * p.dt) ^ 2 / 2 ∧ k'.system_state.get 1 0 = n * p.dt := by
  obtain ⟨w, hk, e0, e1⟩ := off_run p (cst (p.dt ^ 2 / 2)) n (KalmanSim.vec 0 0)
  obtain ⟨s', hm⟩ := main_variant s hk
  refine ⟨_, s', hm, e0.trans ?_, e1.trans ?_⟩
  · show (0 : ℝ) + _ * 0 + _ = _
    ring
  · show (0 : ℝ) + _ = _
    ring

/-- **C134** On desktop the gain is then never given a value, and the first pass reads it. -/
theorem C134_gain_off_desktop (p : Params ℝ) (n : Nat) (s : Chip) :
    main ram false false p (n + 1) s = .error .indeterminate := by
  obtain ⟨s1, e, -⟩ := main_led false false p (n + 1) s
  rw [e, prepare_eq, bind_ok]
  have h := (C21_gain_off_fresh (m := .one) (u := .one) p.dt (mA p) (mB p) mH (mQ p) (mR p) (mQ p)
    (KalmanSim.vec 0 0) (cst 1) (cst (p.dt ^ 2 / 2))).1
  have h2 : (Kalman.init false p.dt (mA p) (mB p) mH (mQ p) (mR p) (mQ p) (KalmanSim.vec 0 0) :
      Kalman ℝ .one .one).runVariant false (List.replicate (n + 1) (cst 1, cst (p.dt ^ 2 / 2))) =
      .error .indeterminate := by
    rw [List.replicate_succ, Kalman.runVariant, h]
    rfl
  exact congrArg (Except.map _) h2

/-! ### C135: constant data -/

section
variable {m u : Dim}

/-- **C135** Let the process noise act on every state, and let some fixed gain keep the error bounded.  If the
control input and the measurement stay the same, the estimate converges.  The limit depends on neither the initial
estimate nor the initial covariance. -/
theorem C135_converges (A : Mat ℝ 2 2) (B : Mat ℝ 2 u.val) (H : Mat ℝ m.val 2) (Q : Mat ℝ 2 2)
    (R : Mat ℝ m.val m.val) (hQ : Q.toMatrix.PosDef) (hR : R.toMatrix.PosDef)
    (hb : Steady.Bounded A.toMatrix H.toMatrix Q.toMatrix R.toMatrix) (v : ColVec ℝ u.val)
    (z : ColVec ℝ m.val) : ∃ y : Matrix (Fin 2) (Fin 1) ℝ, ∀ P : Mat ℝ 2 2, P.toMatrix.PosSemidef →
      ∀ (xhat : ColVec ℝ 2) (ε : ℝ), 0 < ε → ∃ N : Nat, ∀ avr dt n, N ≤ n →
        ∃ k', (Kalman.init avr dt A B H Q R P xhat : Kalman ℝ m u).run (List.replicate n (v, z)) = .ok k' ∧
          ∀ i, |k'.system_state.toMatrix i 0 - y i 0| < ε := by
  obtain ⟨L, hL⟩ := settles hQ.posSemidef (KF.reach_of_posDef hQ) hR hb
  obtain ⟨y, hy⟩ := Kalman.exists_rest (hL Q hQ.posSemidef) (B.toMatrix * v.toMatrix) z.toMatrix
  refine ⟨y, fun P hP xhat ε hε => ?_⟩
  obtain ⟨N, hN⟩ := Kalman.run_rest (B := B) (xhat := xhat) (hL P hP) v z y hy ε hε
  exact ⟨N, fun avr dt n hn => hN (Kalman.init avr dt A B H Q R P xhat) rfl rfl rfl rfl rfl rfl rfl n hn⟩

/-- The example estimator meets the hypotheses. -/
example : ∃ (A Q P : Mat ℝ 2 2) (H : Mat ℝ 1 2) (R : Mat ℝ 1 1), Q.toMatrix.PosDef ∧ R.toMatrix.PosDef ∧
    P.toMatrix.PosSemidef ∧ Steady.Bounded A.toMatrix H.toMatrix Q.toMatrix R.toMatrix :=
  ⟨exK.A, exK.Q, exK.P, exK.H, exK.R, exK_steady.1, exK_steady.2.1, exK_psd.1,
    C96_bounded_of_observable _ _ _ _ exK_psd.2.1 exK_psd.2.2.posSemidef exK_steady.2.2⟩

/-- **C135** If the data are consistent, that is, if a state `x` stays where it is under the control input and is
measured as `z`, the estimate converges to `x`. -/
theorem C135_consistent (A : Mat ℝ 2 2) (B : Mat ℝ 2 u.val) (H : Mat ℝ m.val 2) (Q : Mat ℝ 2 2)
    (R : Mat ℝ m.val m.val) (hQ : Q.toMatrix.PosDef) (hR : R.toMatrix.PosDef)
    (hb : Steady.Bounded A.toMatrix H.toMatrix Q.toMatrix R.toMatrix) (v : ColVec ℝ u.val)
    (z : ColVec ℝ m.val) (x : Matrix (Fin 2) (Fin 1) ℝ) (hx : A.toMatrix * x + B.toMatrix * v.toMatrix = x)
    (hz : H.toMatrix * x = z.toMatrix) (P : Mat ℝ 2 2) (hP : P.toMatrix.PosSemidef) (xhat : ColVec ℝ 2)
    (ε : ℝ) (hε : 0 < ε) : ∃ N : Nat, ∀ avr dt n, N ≤ n →
      ∃ k', (Kalman.init avr dt A B H Q R P xhat : Kalman ℝ m u).run (List.replicate n (v, z)) = .ok k' ∧
        ∀ i, |k'.system_state.toMatrix i 0 - x i 0| < ε := by
  obtain ⟨L, hL⟩ := settles hQ.posSemidef (KF.reach_of_posDef hQ) hR hb
  obtain ⟨N, hN⟩ := Kalman.run_rest (B := B) (xhat := xhat) (hL P hP) v z x
    (by rw [hx, hz, sub_self, Matrix.mul_zero, add_zero]) ε hε
  exact ⟨N, fun avr dt n hn => hN (Kalman.init avr dt A B H Q R P xhat) rfl rfl rfl rfl rfl rfl rfl n hn⟩

/-- An object at rest in position 5. -/
example : exK.A.toMatrix * (!![5; 0] : Matrix (Fin 2) (Fin 1) ℝ) + exK.B.toMatrix * (⟨#v[0]⟩ : ColVec ℝ 1).toMatrix = !![5; 0] ∧
    exK.H.toMatrix * (!![5; 0] : Matrix (Fin 2) (Fin 1) ℝ) = (⟨#v[5]⟩ : ColVec ℝ 1).toMatrix := by
  have hA : exK.A.toMatrix = !![1, 1; 0, 1] := Mat.toMatrix_mk22 _ _ _ _
  have hH : exK.H.toMatrix = !![1, 0] := by ext i j; fin_cases i; fin_cases j <;> rfl
  have hv (a : ℝ) : (⟨#v[a]⟩ : ColVec ℝ 1).toMatrix = !![a] := by ext i j; fin_cases i; fin_cases j; rfl
  have h0 : (!![0] : Matrix (Fin 1) (Fin 1) ℝ) = 0 := by ext i j; fin_cases i; fin_cases j; rfl
  constructor
  · rw [hA, hv, h0]
    ext i j
    fin_cases i <;> fin_cases j <;> simp
  · rw [hH, hv]
    ext i j
    fin_cases i; fin_cases j; simp

end

end Verif
