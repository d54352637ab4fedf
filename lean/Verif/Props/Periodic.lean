import Verif.Lemmas.Ieee
import Verif.Lemmas.Periodic
import Verif.Spec.Periodic

/-
Property C141: computed with finitely many numbers, everything repeats itself.
-/

namespace Verif
open Kalman Sig

/-! ## C141 Computed with finitely many numbers, filters and estimator end in a cycle -/

/-- C141: there are finitely many fixed-point numbers and floating-point numbers, with or without infinities and NaN. -/
theorem C141_finite (w : Width) (F : ℕ) (f : Ieee.Format) :
    Nat.card (Fx w F) = 2 ^ w.bits ∧ Finite (Flt f) ∧ Finite (XFlt f) := by
  refine ⟨?_, inferInstance, inferInstance⟩
  rw [Nat.card_congr (β := Fin (2 ^ w.bits)) ⟨fun x => x.storage.toFin, fun n => ⟨⟨n⟩⟩, fun _ => rfl, fun _ => rfl⟩,
    Nat.card_eq_fintype_card, Fintype.card_fin]

section
variable {T : Type} [CNum T] [Finite T]

/-- C141: a second-order section that is fed a signal of period `p` (constant, if `p = 1`) from some time on delivers in
the end a signal whose period is a multiple of `p`, in either form; that is the case at the latest after each of the
`|T|²` states has been met.  An output may also be that the calculation has failed; then it has for ever. -/
theorem C141_biquad (q : Biquad T) (x : ℕ → T) {N p : ℕ} (hp : 0 < p) (hx : RepeatsFrom N p x) :
    (∃ N' p', 0 < p' ∧ p ∣ p' ∧ N' + p' ≤ N + p * (Nat.card T ^ 2 + 1) ∧
      RepeatsFrom N' p' (out Biquad.step q x)) ∧
    ∃ N' p', 0 < p' ∧ p ∣ p' ∧ N' + p' ≤ N + p * (Nat.card T ^ 2 + 1) ∧
      RepeatsFrom N' p' (out Biquad.step_df2_transposed q x) := by
  have hc : Nat.card (T × T) = Nat.card T ^ 2 := by rw [Nat.card_prod, sq]
  have hv : ∀ s s' : Biquad T, (s.a = q.a ∧ s.b = q.b) → (s'.a = q.a ∧ s'.b = q.b) →
      (s.w.v1, s.w.v2) = (s'.w.v1, s'.w.v2) → s = s' := by
    rintro ⟨a, b, v, w⟩ ⟨a', b', v', w'⟩ ⟨rfl, rfl⟩ ⟨h1, h2⟩ h
    simp_all
  rw [← hc]
  exact ⟨Periodic.out_repeats hp hx (I := fun s => s.a = q.a ∧ s.b = q.b) (fun s => (s.w.v1, s.w.v2)) ⟨rfl, rfl⟩
      (fun s x y s' h e => by obtain ⟨h1, h2⟩ := Periodic.biquad_coeff e; exact ⟨h1.trans h.1, h2.trans h.2⟩) hv,
    Periodic.out_repeats hp hx (I := fun s => s.a = q.a ∧ s.b = q.b) (fun s => (s.w.v1, s.w.v2)) ⟨rfl, rfl⟩
      (fun s x y s' h e => by obtain ⟨h1, h2⟩ := Periodic.transposed_coeff e; exact ⟨h1.trans h.1, h2.trans h.2⟩) hv⟩

/-- C141: so does a one-pole filter, with `|T|` states. -/
theorem C141_onepole (q : OnePole T) (x : ℕ → T) {N p : ℕ} (hp : 0 < p) (hx : RepeatsFrom N p x) :
    ∃ N' p', 0 < p' ∧ p ∣ p' ∧ N' + p' ≤ N + p * (Nat.card T + 1) ∧ RepeatsFrom N' p' (out OnePole.step q x) := by
  refine Periodic.out_repeats hp hx (I := fun s => s.a1 = q.a1 ∧ s.b0 = q.b0) (fun s => s.v1) ⟨rfl, rfl⟩ ?_ ?_
  · intro s x y s' h e
    unfold OnePole.step at e
    obtain ⟨_, -, e⟩ := bind_eq_ok.1 e
    obtain ⟨_, -, e⟩ := bind_eq_ok.1 e
    obtain ⟨_, -, e⟩ := bind_eq_ok.1 e
    cases e
    exact h
  · rintro ⟨a, b, v⟩ ⟨a', b', v'⟩ ⟨rfl, rfl⟩ ⟨h1, h2⟩ h
    simp_all

/-- C141: so does a cascade, in either form. -/
theorem C141_cascade {K : ℕ} (c : Cascade T K) (x : ℕ → T) {N p : ℕ} (hp : 0 < p) (hx : RepeatsFrom N p x) :
    (∃ N' p', 0 < p' ∧ p ∣ p' ∧ RepeatsFrom N' p' (out Cascade.step c x)) ∧
    ∃ N' p', 0 < p' ∧ p ∣ p' ∧ RepeatsFrom N' p' (out Cascade.step_df2_transposed c x) := by
  have hv : ∀ s s' : Cascade T K, s.next = c.next → s'.next = c.next → s.biquad = s'.biquad → s = s' := by
    rintro ⟨b, n⟩ ⟨b', n'⟩ rfl h1 h2
    simp_all
  obtain ⟨N1, p1, h1, h2, -, h3⟩ := Periodic.out_repeats (step := Cascade.step) (s := c) hp hx
    (I := fun s => s.next = c.next) (fun s => s.biquad) rfl
    (fun s x y s' h e => (Periodic.cascade_next e).trans h) hv
  obtain ⟨N2, p2, g1, g2, -, g3⟩ := Periodic.out_repeats (step := Cascade.step_df2_transposed) (s := c) hp hx
    (I := fun s => s.next = c.next) (fun s => s.biquad) rfl
    (fun s x y s' h e => (Periodic.cascade_next e).trans h) hv
  exact ⟨⟨N1, p1, h1, h2, h3⟩, N2, p2, g1, g2, g3⟩

variable {m u : Dim}

/-- C141: an estimator that is given periodic controls and measurements ends in a cycle, with everything it consists of:
the estimate, the gain, the covariance and even the time. -/
theorem C141_kalman (k : Kalman T m u) (d : ℕ → ColVec T u.val × ColVec T m.val) {N p : ℕ} (hp : 0 < p)
    (hd : RepeatsFrom N p d) :
    ∃ N' p', 0 < p' ∧ p ∣ p' ∧ RepeatsFrom N' p' fun n => k.run ((List.range n).map d) := by
  obtain ⟨N', p', -, h1, h2, -, h3⟩ := Periodic.repeats (c := fun n => k.run ((List.range n).map d))
    (F := fun n k => k.update (d n).1 (d n).2) hp (fun n => Periodic.run_range k d n) (fun n hn => by rw [hd n hn])
    (I := SameModel k) (fun s => (s.K, s.P, s.xhat, s.t)) (fun n s h => run_same h) (by
      rintro ⟨A, B, H, Q, R, K, P, x, t, dt⟩ ⟨A', B', H', Q', R', K', P', x', t', dt'⟩ h h' e
      obtain ⟨rfl, rfl, rfl, rfl, rfl, rfl⟩ := h
      obtain ⟨e1, e2, e3, e4, e5, e6⟩ := h'
      simp_all)
  exact ⟨N', p', h1, h2, h3⟩

/-- C141: covariance and gain do so whatever the data, after at most `|T|⁴` updates: as soon as the runs are long
enough, two whose lengths differ by a certain number end with the same covariance and the same gain. -/
theorem C141_covariance (k : Kalman T m u) :
    ∃ N p, 0 < p ∧ N + p ≤ Nat.card T ^ 4 + 1 ∧ ∀ ds es k₁ k₂, N < ds.length → es.length = ds.length + p →
      k.run ds = .ok k₁ → k.run es = .ok k₂ →
      k₁.estimation_error_covariance = k₂.estimation_error_covariance ∧ k₁.kalman_gain = k₂.kalman_gain := by
  have hc : Nat.card (T × T × T × T) = Nat.card T ^ 4 := by simp only [Nat.card_prod]; ring
  obtain ⟨N, p, -, h1, -, h2, h3⟩ := Periodic.repeats (c := Periodic.cov k) (N := 0) (p := 1)
    (F := fun _ P => do .ok (← Periodic.next k P).2) Nat.one_pos (fun n => rfl) (fun n _ => rfl)
    (I := fun _ => True) (fun P => (P.get 0 0, P.get 0 1, P.get 1 0, P.get 1 1)) (fun _ _ _ => trivial) (by
      intro A B _ _ e
      simp only [Prod.mk.injEq] at e
      obtain ⟨e1, e2, e3, e4⟩ := e
      apply Mat.ext_get
      intro i j
      fin_cases i <;> fin_cases j <;> assumption)
  refine ⟨N, p, h1, by rw [hc] at h2; omega, fun ds es k₁ k₂ hl hle e₁ e₂ => ?_⟩
  obtain ⟨c1, g1⟩ := Periodic.cov_of_run e₁
  obtain ⟨c2, g2⟩ := Periodic.cov_of_run e₂
  obtain ⟨P1, K1, a1, b1, n1⟩ := g1 (by rintro rfl; simp at hl)
  obtain ⟨P2, K2, a2, b2, n2⟩ := g2 (by rintro rfl; simp at hle; omega)
  have hP : P1 = P2 := by
    have := h3 (ds.length - 1) (by omega)
    rw [show ds.length - 1 + p = es.length - 1 by omega, a1, a2] at this
    exact (Except.ok.inj this).symm
  subst hP
  have hn := n1.symm.trans n2
  have hKP : (K1, k₁.P) = (K2, k₂.P) := Except.ok.inj hn
  refine ⟨(Prod.mk.inj hKP).2, ?_⟩
  unfold kalman_gain
  rw [b1, b2, (Prod.mk.inj hKP).1]

end

/-- An 8-bit section without input: the state may not come to rest, but it repeats itself within 2¹⁶ + 1 samples. -/
example (q : Biquad (Fx .w8 4)) (P : Platform) : letI := Fx.cnum P .w8 4
    ∃ N p, 0 < p ∧ N + p ≤ 2 ^ 16 + 1 ∧ RepeatsFrom N p (out Biquad.step q fun _ => ⟨0⟩) := by
  let := Fx.cnum P .w8 4
  obtain ⟨⟨N, p, h1, -, h2, h3⟩, -⟩ := C141_biquad q (fun _ => ⟨0⟩) (N := 0) Nat.one_pos (fun n _ => rfl)
  rw [(C141_finite .w8 4 Ieee.binary32).1] at h2
  exact ⟨N, p, h1, by norm_num [Width.bits] at h2 ⊢; omega, h3⟩

end Verif
