import Mathlib.Data.Fintype.Pigeonhole
import Mathlib.SetTheory.Cardinal.Finite
import Mathlib.Data.Set.Finite.Lattice
import Mathlib.Order.Interval.Finset.Basic
import Verif.Lemmas.KalmanRun
import Verif.Lemmas.Matrix
import Verif.Model.Cascade
import Verif.Model.FixedPoint
import Verif.Model.IeeeSpecial
import Verif.Model.OnePole
import Verif.Spec.Filter

/- Lemmas for C141: sequences of states of a finite type. -/

namespace Verif
namespace Periodic

/-- A state that is computed from the one before, by a rule with period `p` from `N` on, and takes finitely many
values, repeats itself. -/
theorem repeats {σ V : Type} [Finite V] {c : ℕ → Res σ} {F : ℕ → σ → Res σ} {N p : ℕ} (hp : 0 < p)
    (hc : ∀ n, c (n + 1) = (c n >>= F n)) (hF : ∀ n, N ≤ n → F (n + p) = F n) {I : σ → Prop} (v : σ → V)
    (hI : ∀ n s, c n = .ok s → I s) (hv : ∀ s s', I s → I s' → v s = v s' → s = s') :
    ∃ N' p', N ≤ N' ∧ 0 < p' ∧ p ∣ p' ∧ N' + p' ≤ N + p * (Nat.card V + 1) ∧ ∀ n, N' ≤ n → c (n + p') = c n := by
  classical
  have := Fintype.ofFinite V
  -- a failure persists
  have herr : ∀ n m e, c n = .error e → c (n + m) = .error e := by
    intro n m e h
    induction m with
    | zero => exact h
    | succ m ih => rw [← Nat.add_assoc, hc, ih]; rfl
  let g : Fin (Nat.card V + 2) → Option V := fun i => match c (N + i * p) with
    | .ok s => some (v s)
    | .error _ => none
  have hcard : Fintype.card (Option V) < Fintype.card (Fin (Nat.card V + 2)) := by
    rw [Fintype.card_option, Fintype.card_fin, Nat.card_eq_fintype_card]; omega
  have key : ∃ i j : ℕ, i < j ∧ j ≤ Nat.card V + 1 ∧ c (N + i * p) = c (N + j * p) := by
    have aux : ∀ a b : Fin (Nat.card V + 2), a < b → g a = g b → c (N + a * p) = c (N + b * p) := by
      intro a b hab hg
      have hab' : (a : ℕ) < b := hab
      simp only [g] at hg
      cases ha : c (N + a * p) with
      | error e =>
        obtain ⟨m, hm⟩ := Nat.exists_eq_add_of_lt hab'
        have := herr _ ((m + 1) * p) e ha
        rw [← this]
        congr 1
        rw [hm]; ring
      | ok s =>
        rw [ha] at hg
        cases hb : c (N + b * p) with
        | error e => rw [hb] at hg; cases hg
        | ok s' =>
          rw [hb] at hg
          rw [hv s s' (hI _ _ ha) (hI _ _ hb) (Option.some.inj hg)]
    obtain ⟨a, b, hne, hg⟩ := Fintype.exists_ne_map_eq_of_card_lt g hcard
    rcases lt_or_gt_of_ne hne with h | h
    · exact ⟨a, b, h, by have := b.2; omega, aux a b h hg⟩
    · exact ⟨b, a, h, by have := a.2; omega, aux b a h hg.symm⟩
  obtain ⟨i, j, hij, hj, hcij⟩ := key
  refine ⟨N + i * p, (j - i) * p, by omega, Nat.mul_pos (by omega) hp, Dvd.intro_left _ rfl, ?_, ?_⟩
  · have h1 : N + i * p + (j - i) * p = N + j * p := by
      rw [Nat.add_assoc, ← Nat.add_mul]; congr 2; omega
    rw [h1, Nat.mul_comm p]
    exact Nat.add_le_add_left (Nat.mul_le_mul_right _ hj) _
  · have hFm : ∀ r n, N ≤ n → F (n + r * p) = F n := by
      intro r n hn
      induction r with
      | zero => simp
      | succ r ih =>
        rw [Nat.add_mul, Nat.one_mul, ← Nat.add_assoc, hF _ (by omega), ih]
    intro n hn
    obtain ⟨m, rfl⟩ := Nat.exists_eq_add_of_le hn
    induction m with
    | zero =>
      show c (N + i * p + (j - i) * p) = c (N + i * p)
      rw [hcij]; congr 1
      rw [Nat.add_assoc, ← Nat.add_mul]; congr 2; omega
    | succ m ih =>
      have e : N + i * p + (m + 1) + (j - i) * p = (N + i * p + m + (j - i) * p) + 1 := by omega
      rw [e, hc, ih (by omega), hFm _ _ (by omega), ← hc]
      rfl

/-! ### The types of numbers are finite -/

instance {w : Width} {F : ℕ} : Finite (Fx w F) :=
  Finite.of_injective (fun x : Fx w F => x.storage.toFin) fun _ _ h => Fx.ext (BitVec.toFin_inj.1 h)

instance {f : Ieee.Format} : Finite (Flt f) := by
  -- every number is a multiple of the least one
  have hm : ∀ x : Flt f, ∃ m : ℤ, x.val = m * 2 ^ f.q ∧ |m| ≤ ⌊f.max / 2 ^ f.q⌋ := by
    intro x
    obtain ⟨⟨n, e, -, he, hx⟩, hmax⟩ := x.rep
    obtain ⟨d, rfl⟩ := Int.le.dest he
    have h2 : (0 : ℚ) < 2 ^ f.q := zpow_pos (by norm_num) _
    have hval : x.val = ((n * 2 ^ d : ℤ) : ℚ) * 2 ^ f.q := by
      rw [hx, zpow_add₀ (by norm_num)]; push_cast; rw [zpow_natCast]; ring
    refine ⟨n * 2 ^ d, hval, ?_⟩
    rw [Int.le_floor, le_div_iff₀ h2]
    rw [hval, abs_mul, abs_of_pos h2] at hmax
    push_cast at hmax ⊢
    exact hmax
  choose m hm1 hm2 using hm
  refine Finite.of_injective (β := Set.Icc (-⌊f.max / 2 ^ f.q⌋) ⌊f.max / 2 ^ f.q⌋)
    (fun x => ⟨m x, abs_le.1 (hm2 x)⟩) fun x y h => ?_
  have : m x = m y := congrArg Subtype.val h
  have hv : x.val = y.val := by rw [hm1 x, hm1 y, this]
  cases x; cases y; cases hv; rfl

instance {f : Ieee.Format} : Finite (XFlt f) := by
  refine Finite.of_injective (β := Option (Bool ⊕ Bool ⊕ Flt f)) (fun x => match x with
    | .nan => none
    | .inf s => some (.inl s)
    | .zero s => some (.inr (.inl s))
    | .num x _ => some (.inr (.inr x))) ?_
  rintro (_ | _ | _ | _) (_ | _ | _ | _) h <;> simp_all

instance {T : Type} [Finite T] {N M : ℕ} : Finite (Mat T N M) :=
  Finite.of_injective (β := Fin N → Fin M → T) (fun A i j => A.get i j)
    fun _ _ h => Mat.ext_get fun i j => congrFun (congrFun h i) j

instance {T : Type} [Finite T] : Finite (Biquad T) :=
  Finite.of_injective (fun q : Biquad T => (q.a.a1, q.a.a2, q.b.b0, q.b.b1, q.b.b2, q.w.v1, q.w.v2)) <| by
    rintro ⟨⟨_, _⟩, ⟨_, _, _⟩, ⟨_, _⟩⟩ ⟨⟨_, _⟩, ⟨_, _, _⟩, ⟨_, _⟩⟩ h
    simp_all

instance {α : Type} [Finite α] {N : ℕ} : Finite (Vector α N) :=
  Finite.of_injective (β := Fin N → α) (fun v i => v[i]) fun v w h =>
    Vector.ext fun i hi => congrFun h ⟨i, hi⟩

/-! ### Filters -/

/-- The output of a filter with finitely many states repeats itself. -/
theorem out_repeats {σ T V : Type} [Finite V] {step : σ → T → Res (T × σ)} {s : σ} {x : ℕ → T} {N p : ℕ} (hp : 0 < p)
    (hx : ∀ n, N ≤ n → x (n + p) = x n) {I : σ → Prop} (v : σ → V) (h0 : I s)
    (hI : ∀ s x y s', I s → step s x = .ok (y, s') → I s') (hv : ∀ s s', I s → I s' → v s = v s' → s = s') :
    ∃ N' p', 0 < p' ∧ p ∣ p' ∧ N' + p' ≤ N + p * (Nat.card V + 1) ∧
      ∀ n, N' ≤ n → Sig.out step s x (n + p') = Sig.out step s x n := by
  obtain ⟨N', p', h1, h2, ⟨r, rfl⟩, h4, h5⟩ := repeats (c := Sig.after step s x)
    (F := fun n s => do let (_, s'') ← step s (x n); .ok s'') hp (fun n => rfl)
    (fun n hn => by rw [hx n hn]) v (I := I) (fun n => by
      induction n with
      | zero => intro s' h; cases h; exact h0
      | succ n ih =>
        intro s' h
        obtain ⟨s1, e1, h⟩ := bind_eq_ok.1 h
        obtain ⟨⟨y, s2⟩, e2, h⟩ := bind_eq_ok.1 h
        cases h
        exact hI _ _ _ _ (ih _ e1) e2) hv
  refine ⟨N', _, h2, Dvd.intro _ rfl, h4, fun n hn => ?_⟩
  have hxr : x (n + p * r) = x n := by
    clear h2 h4 h5
    induction r with
    | zero => rfl
    | succ r ih => rw [Nat.mul_succ, ← Nat.add_assoc, hx _ (by omega), ih]
  unfold Sig.out
  rw [h5 n hn, hxr]

variable {T : Type} [CNum T]

/-- What `step` leaves as it is. -/
theorem biquad_coeff {q q' : Biquad T} {x y : T} (h : q.step x = .ok (y, q')) : q'.a = q.a ∧ q'.b = q.b := by
  unfold Biquad.step Biquad.step_df2 at h
  obtain ⟨_, -, h⟩ := bind_eq_ok.1 h
  obtain ⟨_, -, h⟩ := bind_eq_ok.1 h
  obtain ⟨_, -, h⟩ := bind_eq_ok.1 h
  obtain ⟨_, -, h⟩ := bind_eq_ok.1 h
  obtain ⟨_, -, h⟩ := bind_eq_ok.1 h
  obtain ⟨_, -, h⟩ := bind_eq_ok.1 h
  obtain ⟨_, -, h⟩ := bind_eq_ok.1 h
  obtain ⟨_, -, h⟩ := bind_eq_ok.1 h
  obtain ⟨_, -, h⟩ := bind_eq_ok.1 h
  cases h
  exact ⟨rfl, rfl⟩

theorem transposed_coeff {q q' : Biquad T} {x y : T} (h : q.step_df2_transposed x = .ok (y, q')) :
    q'.a = q.a ∧ q'.b = q.b := by
  unfold Biquad.step_df2_transposed at h
  obtain ⟨_, -, h⟩ := bind_eq_ok.1 h
  obtain ⟨_, -, h⟩ := bind_eq_ok.1 h
  obtain ⟨_, -, h⟩ := bind_eq_ok.1 h
  obtain ⟨_, -, h⟩ := bind_eq_ok.1 h
  obtain ⟨_, -, h⟩ := bind_eq_ok.1 h
  obtain ⟨_, -, h⟩ := bind_eq_ok.1 h
  obtain ⟨_, -, h⟩ := bind_eq_ok.1 h
  obtain ⟨_, -, h⟩ := bind_eq_ok.1 h
  obtain ⟨_, -, h⟩ := bind_eq_ok.1 h
  cases h
  exact ⟨rfl, rfl⟩

omit [CNum T] in
/-- A step of a cascade does not change the number of sections. -/
theorem cascade_next {N : ℕ} {f : Biquad T → T → Res (T × Biquad T)} {c c' : Cascade T N} {x y : T}
    (h : c.stepWith f x = .ok (y, c')) : c'.next = c.next := by
  have : ∀ n s, forRange n (fun k (s : T × Cascade T N) => do
      let (v, bq) ← f (← s.2.get k) s.1
      .ok (v, ← s.2.set k bq)) (x, c) = .ok s → s.2.next = c.next := by
    intro n
    induction n with
    | zero => intro s h; cases h; rfl
    | succ n ih =>
      intro s h
      rw [forRange_succ] at h
      obtain ⟨s1, h1, h⟩ := bind_eq_ok.1 h
      obtain ⟨_, -, h⟩ := bind_eq_ok.1 h
      obtain ⟨_, -, h⟩ := bind_eq_ok.1 h
      obtain ⟨c2, h2, h⟩ := bind_eq_ok.1 h
      cases h
      rw [← ih _ h1]
      unfold Cascade.set at h2
      split at h2 <;> cases h2
      rfl
  exact this c.next (y, c') h

/-! ### The estimator -/

variable {m u : Dim}

theorem run_range (k : Kalman T m u) (d : ℕ → ColVec T u.val × ColVec T m.val) (n : ℕ) :
    k.run ((List.range (n + 1)).map d) = (k.run ((List.range n).map d) >>= fun k => k.update (d n).1 (d n).2) := by
  rw [List.range_succ, List.map_append, Kalman.run_append]
  congr 1
  funext k1
  show (k1.update (d n).1 (d n).2 >>= fun k => .ok k) = _
  cases k1.update (d n).1 (d n).2 <;> rfl

/-- Gain and covariance after the next update. -/
def next (k : Kalman T m u) (P : Mat T 2 2) : Res (Mat T 2 m.val × Mat T 2 2) := do
  let P ← Kalman.predictCov k.A P k.Q
  let K ← Kalman.gain m P k.H k.R
  .ok (K, ← Kalman.correctCov m K k.H P)

/-- The covariance after `n` updates. -/
def cov (k : Kalman T m u) : ℕ → Res (Mat T 2 2)
  | 0 => .ok k.P
  | n + 1 => do .ok (← next k (← cov k n)).2

theorem next_of_update {k0 k k' : Kalman T m u} {v z} (hs : Kalman.SameModel k0 k) (h : k.update v z = .ok k') :
    ∃ K, k'.K = some K ∧ next k0 k.P = .ok (K, k'.P) := by
  obtain ⟨t, x, P, K, x', P', -, -, hP, hK, -, hP', rfl⟩ := Kalman.update_inv h
  refine ⟨K, rfl, ?_⟩
  unfold next
  rw [← hs.A, ← hs.Q, ← hs.H, ← hs.R, hP, bind_ok, hK, bind_ok, hP', bind_ok]

theorem cov_of_run {k k' : Kalman T m u} {ds : List (ColVec T u.val × ColVec T m.val)} (h : k.run ds = .ok k') :
    cov k ds.length = .ok k'.P ∧ (ds ≠ [] → ∃ P K, cov k (ds.length - 1) = .ok P ∧ k'.K = some K ∧ next k P = .ok (K, k'.P)) := by
  induction ds using List.reverseRecOn generalizing k' with
  | nil => cases h; exact ⟨rfl, fun h => absurd rfl h⟩
  | append_singleton ds d ih =>
    rw [Kalman.run_append] at h
    obtain ⟨k1, h1, h⟩ := bind_eq_ok.1 h
    obtain ⟨k2, h2, h⟩ := Kalman.run_cons.1 h
    cases h
    obtain ⟨K, hK, hn⟩ := next_of_update (Kalman.run_same h1) h2
    have hl : (ds ++ [d]).length = ds.length + 1 := by simp
    rw [hl]
    refine ⟨?_, fun _ => ⟨k1.P, K, by simpa using (ih h1).1, hK, hn⟩⟩
    show (cov k ds.length >>= fun P => next k P >>= fun r => .ok r.2) = _
    rw [(ih h1).1, bind_ok, hn, bind_ok]

end Periodic
end Verif
