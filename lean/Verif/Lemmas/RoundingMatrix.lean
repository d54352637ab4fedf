import Mathlib.Algebra.BigOperators.Fin
import Verif.Lemmas.Rounding
import Verif.Lemmas.Matrix

/- Products of vectors and matrices computed with rounding. -/

namespace Verif
namespace Mat
variable {T : Type} [CNum T] {N : ℕ}

/-- If `acc k` describes the accumulator after `k` additions, the dot product ends in `acc N`. -/
theorem dot_acc (a : RowVec T N) (b : ColVec T N) (acc : ℕ → T → Prop) (h0 : acc 0 CNum.zero)
    (h : ∀ k (hk : k < N) v, acc k v → ∃ p s, CNum.mul (a.rget ⟨k, hk⟩) (b.vget ⟨k, hk⟩) = .ok p ∧
      CNum.add v p = .ok s ∧ acc (k + 1) s) :
    ∃ c, a.dot b = .ok c ∧ acc N c := by
  have hsz : a.size = N := by simp [size, rows, columns]
  unfold dot
  rw [hsz]
  refine forRange_inv acc h0 fun k hk v hv => ?_
  obtain ⟨p, s, h1, h2, h3⟩ := h k hk v hv
  refine ⟨s, ?_, h3⟩
  rw [idx_rget a hk, idx_vget b hk]
  simp only [bind_ok, h1, h2]

/-- Likewise for every element of the product of two square matrices. -/
theorem mul_acc (A B : Mat T N N) (acc : Fin N → Fin N → ℕ → T → Prop)
    (h0 : ∀ i j, acc i j 0 CNum.zero)
    (h : ∀ i j k (hk : k < N) v, acc i j k v → ∃ p s,
      CNum.mul (A.get i ⟨k, hk⟩) (B.get ⟨k, hk⟩ j) = .ok p ∧
      CNum.add v p = .ok s ∧ acc i j (k + 1) s) :
    ∃ C, A.mul B = .ok C ∧ ∀ i j, acc i j N (C.get i j) := by
  have inner : ∀ (i j : Fin N) (R : Mat T N N), acc i j 0 (R.get i j) →
      ∃ v, forRange N (fun k result => do
        result.set2 i j (← CNum.add (← result.at2 i j)
          (← CNum.mul (← A.at2 i k) (← B.at2 k j)))) R = .ok (R.upd i j v) ∧ acc i j N v := by
    intro i j R hR
    obtain ⟨C, hC, v, hv, e⟩ := forRange_inv (n := N) (s := R)
      (body := fun k result => do
        result.set2 i j (← CNum.add (← result.at2 i j)
          (← CNum.mul (← A.at2 i k) (← B.at2 k j))))
      (P := fun k C => ∃ v, acc i j k v ∧ C = R.upd i j v)
      ⟨_, hR, ext_get fun i' j' => by
        rw [get_upd]
        split
        · next h => rw [h.1, h.2]
        · rfl⟩ (by
        rintro k hk C ⟨v, hv, rfl⟩
        obtain ⟨p, s, h1, h2, h3⟩ := h i j k hk v hv
        refine ⟨_, ?_, s, h3, rfl⟩
        rw [at2_ok _ i.2 j.2, at2_ok A i.2 hk, at2_ok B hk j.2]
        have : (R.upd i j v).get i j = v := by rw [get_upd, if_pos ⟨rfl, rfl⟩]
        simp only [bind_ok, h1, Fin.eta, this, h2]
        rw [set2_ok _ i.2 j.2]
        congr 1
        apply ext_get
        intro i' j'
        simp only [get_upd, Fin.eta]
        split <;> rfl)
    exact ⟨v, by rw [hC, e], hv⟩
  have mid : ∀ (i : Fin N) (R : Mat T N N), (∀ j, acc i j 0 (R.get i j)) →
      ∃ C, forRange N (fun col result =>
        forRange N (fun k result => do
          result.set2 i col (← CNum.add (← result.at2 i col)
            (← CNum.mul (← A.at2 i k) (← B.at2 k col)))) result) R = .ok C ∧
        (∀ j, acc i j N (C.get i j)) ∧ ∀ i' j, i' ≠ i → C.get i' j = R.get i' j := by
    intro i R hR
    obtain ⟨C, hC, g1, g2, -⟩ := forRange_inv (n := N) (s := R)
      (body := fun col result =>
        forRange N (fun k result => do
          result.set2 i col (← CNum.add (← result.at2 i col)
            (← CNum.mul (← A.at2 i k) (← B.at2 k col)))) result)
      (P := fun n C => (∀ j : Fin N, j.val < n → acc i j N (C.get i j)) ∧
        (∀ i' j, i' ≠ i → C.get i' j = R.get i' j) ∧ ∀ j : Fin N, n ≤ j.val → C.get i j = R.get i j)
      ⟨fun j hj => absurd hj (by omega), fun _ _ _ => rfl, fun _ _ => rfl⟩ (by
        rintro n hn C ⟨q1, q2, q3⟩
        obtain ⟨v, e, hv⟩ := inner i ⟨n, hn⟩ C (by rw [q3 _ le_rfl]; exact hR _)
        refine ⟨_, e, fun j hj => ?_, fun i' j hi => ?_, fun j hj => ?_⟩
        · rw [get_upd]
          split
          · next hh => rw [hh.2]; exact hv
          · next hh =>
            apply q1
            have : j.val ≠ n := fun e => hh ⟨rfl, Fin.ext e⟩
            omega
        · rw [get_upd, if_neg (fun hh => hi hh.1), q2 i' j hi]
        · rw [get_upd, if_neg (fun hh => by have := congrArg Fin.val hh.2; simp at this; omega),
            q3 j (by omega)])
    exact ⟨C, hC, fun j => g1 j j.2, g2⟩
  obtain ⟨C, hC, g1, -⟩ := forRange_inv (n := N) (s := fill N N CNum.zero)
    (body := fun row result =>
      forRange N (fun col result =>
        forRange N (fun k result => do
          result.set2 row col (← CNum.add (← result.at2 row col)
            (← CNum.mul (← A.at2 row k) (← B.at2 k col)))) result) result)
    (P := fun n (C : Mat T N N) => (∀ i j : Fin N, i.val < n → acc i j N (C.get i j)) ∧
      ∀ i j : Fin N, n ≤ i.val → C.get i j = CNum.zero)
    ⟨fun i j hi => absurd hi (by omega), fun i j _ => get_fill _ i j⟩ (by
      rintro n hn C ⟨q1, q2⟩
      obtain ⟨C', e, m1, m2⟩ := mid ⟨n, hn⟩ C (fun j => by rw [q2 _ j le_rfl]; exact h0 _ _)
      refine ⟨C', e, fun i j hi => ?_, fun i j hi => ?_⟩
      · by_cases hh : i = ⟨n, hn⟩
        · rw [hh]; exact m1 j
        · rw [m2 i j hh]
          apply q1
          have : i.val ≠ n := fun e => hh (Fin.ext e)
          omega
      · rw [m2 i j (fun e => by have := congrArg Fin.val e; simp at this; omega), q2 i j (by omega)])
  exact ⟨C, hC, fun i j => g1 i j i.2⟩

end Mat

namespace Rounding
variable {T : Type} [CNum T] {val : T → ℝ} {u η M : ℝ}

/-- One more product added to a sum of products. -/
theorem near_sum (R : Rounding T val u η M) {N k : ℕ} (f g : Fin N → T) (hk : k < N)
    (hM : (1 + u) ^ (N + 1) * (∑ i, |val (f i)| * |val (g i)|) + N * (1 + u) ^ (N + 1) * η ≤ M) (v : T)
    (hv : Near u η (val v) (∑ i : Fin k, val (f ⟨i, by omega⟩) * val (g ⟨i, by omega⟩))
      (∑ i : Fin k, |val (f ⟨i, by omega⟩)| * |val (g ⟨i, by omega⟩)|) (k + 1) k) :
    ∃ p s, CNum.mul (f ⟨k, hk⟩) (g ⟨k, hk⟩) = .ok p ∧ CNum.add v p = .ok s ∧
      Near u η (val s) (∑ i : Fin (k + 1), val (f ⟨i, by omega⟩) * val (g ⟨i, by omega⟩))
        (∑ i : Fin (k + 1), |val (f ⟨i, by omega⟩)| * |val (g ⟨i, by omega⟩)|) (k + 1 + 1) (k + 1) := by
  have hu := R.u_nonneg
  have hη := R.η_nonneg
  have k1 : 1 ≤ (1 + u) ^ (N + 1) := one_le_pow₀ (by linarith)
  have hpow : (1 + u) ^ (k + 1) ≤ (1 + u) ^ (N + 1) := pow_le_pow_right₀ (by linarith) (by omega)
  -- partial sums are smaller
  have hpart : (∑ i : Fin k, |val (f ⟨i, by omega⟩)| * |val (g ⟨i, by omega⟩)|) +
      |val (f ⟨k, hk⟩)| * |val (g ⟨k, hk⟩)| ≤ ∑ i, |val (f i)| * |val (g i)| := by
    have e : (∑ i : Fin k, |val (f ⟨i, by omega⟩)| * |val (g ⟨i, by omega⟩)|) +
        |val (f ⟨k, hk⟩)| * |val (g ⟨k, hk⟩)| =
        ∑ i : Fin (k + 1), |val (f (Fin.castLE hk i))| * |val (g (Fin.castLE hk i))| := by
      rw [Fin.sum_univ_castSucc]; rfl
    have m := Finset.sum_map Finset.univ (Fin.castLEEmb hk) (fun i => |val (f i)| * |val (g i)|)
    rw [e]
    refine le_trans (le_of_eq m.symm) ?_
    exact Finset.sum_le_sum_of_subset_of_nonneg (Finset.subset_univ _) fun i _ _ => by positivity
  have hs0 : 0 ≤ ∑ i : Fin k, |val (f ⟨i, by omega⟩)| * |val (g ⟨i, by omega⟩)| :=
    Finset.sum_nonneg fun i _ => by positivity
  have hS : 0 ≤ ∑ i, |val (f i)| * |val (g i)| := Finset.sum_nonneg fun i _ => by positivity
  have hNη : 0 ≤ N * (1 + u) ^ (N + 1) * η := by positivity
  obtain ⟨p, e1, r1⟩ := R.near_mul (f ⟨k, hk⟩) (g ⟨k, hk⟩) le_rfl (by nlinarith)
  obtain ⟨s, e2, r2⟩ := R.near_add hv (r1.mono hu hη (k' := k + 1) (by omega) le_rfl le_rfl) (by
    refine le_trans (add_le_add (mul_le_mul hpow hpart (by positivity) (by positivity)) ?_) hM
    apply mul_le_mul_of_nonneg_right _ hη
    refine mul_le_mul (by exact_mod_cast hk) hpow (by positivity) (by positivity))
  refine ⟨p, s, e1, e2, ?_⟩
  rw [Fin.sum_univ_castSucc, Fin.sum_univ_castSucc]
  exact r2

end Rounding
end Verif
