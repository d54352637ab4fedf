import Mathlib.Data.Matrix.Mul
import Mathlib.Algebra.BigOperators.Fin
import Mathlib.Tactic.Ring
import Verif.Spec.Matrix
import Verif.Spec.Num
import Verif.Lemmas.Loop

/- Lemmas on the matrix model. -/

namespace Verif
namespace Mat
variable {T : Type} {N M : Nat}

theorem pos_inj {i j i' j' : Nat} (hj : j < M) (hj' : j' < M)
    (h : i * M + j = i' * M + j') : i = i' ∧ j = j' := by
  have hM : 0 < M := by omega
  have h1 : (i * M + j) / M = i := by
    rw [Nat.mul_comm, Nat.mul_add_div hM, Nat.div_eq_of_lt hj]; omega
  have h2 : (i' * M + j') / M = i' := by
    rw [Nat.mul_comm, Nat.mul_add_div hM, Nat.div_eq_of_lt hj']; omega
  have : i = i' := by rw [← h1, ← h2, h]
  subst this
  exact ⟨rfl, by omega⟩

theorem ext_get {A B : Mat T N M} (h : ∀ i j, A.get i j = B.get i j) : A = B := by
  rcases A with ⟨a⟩
  rcases B with ⟨b⟩
  congr 1
  ext k hk
  have hM : 0 < M := Nat.pos_of_ne_zero (by rintro rfl; simp at hk)
  have hi : k / M < N := (Nat.div_lt_iff_lt_mul hM).2 hk
  have hj : k % M < M := Nat.mod_lt _ hM
  have := h ⟨k / M, hi⟩ ⟨k % M, hj⟩
  have hk' : k / M * M + k % M = k := by
    rw [Nat.mul_comm]; exact Nat.div_add_mod k M
  simpa [get, hk'] using this

theorem toMatrix_inj {A B : Mat T N M} (h : A.toMatrix = B.toMatrix) : A = B :=
  ext_get fun i j => congrFun (congrFun h i) j

theorem at1_ok (A : Mat T N M) {k : Nat} (h : k < N * M) :
    A.at1 (k : Int) = .ok (A.storage[k]) := by
  simp [at1, h]

theorem at1_oob (A : Mat T N M) {k : Int} (h : k < 0 ∨ (N * M : Nat) ≤ k) :
    A.at1 k = .error .outOfBounds := by
  unfold at1
  rw [dif_neg]
  omega

theorem at2_ok (A : Mat T N M) {i j : Nat} (hi : i < N) (hj : j < M) :
    A.at2 i j = .ok (A.get ⟨i, hi⟩ ⟨j, hj⟩) := by
  have : ((i : Int) * (M : Int) + (j : Int)) = ((i * M + j : Nat) : Int) := by push_cast; rfl
  rw [at2, this, at1_ok A (pos_lt hi hj)]
  rfl

theorem idx_ok (A : Mat T N M) {k : Nat} (h : k < N * M) :
    A.idx k = .ok (A.storage[k]) := by
  simp [idx, at2, at1_ok A h]

/-- Specification of an element update. -/
def upd (A : Mat T N M) (i : Fin N) (j : Fin M) (v : T) : Mat T N M :=
  ⟨A.storage.set (i.val * M + j.val) v (pos_lt i.2 j.2)⟩

theorem set1_ok (A : Mat T N M) {k : Nat} (h : k < N * M) (v : T) :
    A.set1 (k : Int) v = .ok ⟨A.storage.set k v⟩ := by
  simp [set1, h]

theorem set1_oob (A : Mat T N M) {k : Int} (h : k < 0 ∨ (N * M : Nat) ≤ k) (v : T) :
    A.set1 k v = .error .outOfBounds := by
  unfold set1
  rw [dif_neg]
  omega

theorem set2_ok (A : Mat T N M) {i j : Nat} (hi : i < N) (hj : j < M) (v : T) :
    A.set2 i j v = .ok (A.upd ⟨i, hi⟩ ⟨j, hj⟩ v) := by
  have : ((i : Int) * (M : Int) + (j : Int)) = ((i * M + j : Nat) : Int) := by push_cast; rfl
  rw [set2, this, set1_ok A (pos_lt hi hj)]
  rfl

theorem setIdx_ok (A : Mat T N M) {k : Nat} (h : k < N * M) (v : T) :
    A.setIdx k v = .ok ⟨A.storage.set k v⟩ := by
  simp [setIdx, set2, set1_ok A h]

theorem get_upd (A : Mat T N M) (i i' : Fin N) (j j' : Fin M) (v : T) :
    (A.upd i j v).get i' j' = if i' = i ∧ j' = j then v else A.get i' j' := by
  unfold get upd
  simp only [Vector.getElem_set]
  by_cases h : i' = i ∧ j' = j
  · simp [h]
  · rw [if_neg h, if_neg]
    intro h'
    have := pos_inj j.2 j'.2 h'
    exact h ⟨Fin.ext this.1.symm, Fin.ext this.2.symm⟩

@[simp] theorem get_fill (v : T) (i : Fin N) (j : Fin M) : (fill N M v).get i j = v := by
  simp [get, fill]

theorem vget_upd {N : Nat} (x : ColVec T N) (i k : Fin N) (v : T) (h : i.val < N * 1) :
    vget ⟨x.storage.set i v h⟩ k = if k = i then v else x.vget k := by
  simp only [vget, get, Vector.getElem_set, Fin.val_zero, Nat.mul_one, Nat.add_zero]
  by_cases hk : k = i
  · subst hk; simp
  · rw [if_neg hk, if_neg (fun h' => hk (Fin.ext h'.symm))]

theorem rget_upd {N : Nat} (x : RowVec T N) (i k : Fin N) (v : T) (h : i.val < 1 * N) :
    rget ⟨x.storage.set i v h⟩ k = if k = i then v else x.rget k := by
  simp only [rget, get, Vector.getElem_set, Fin.val_zero, Nat.zero_mul, Nat.zero_add]
  by_cases hk : k = i
  · subst hk; simp
  · rw [if_neg hk, if_neg (fun h' => hk (Fin.ext h'.symm))]

theorem idx_vget {N : Nat} (x : ColVec T N) {k : Nat} (h : k < N) :
    x.idx k = .ok (x.vget ⟨k, h⟩) := by
  rw [idx_ok x (by omega)]; simp [vget, get]

theorem idx_rget {N : Nat} (x : RowVec T N) {k : Nat} (h : k < N) :
    x.idx k = .ok (x.rget ⟨k, h⟩) := by
  rw [idx_ok x (by omega)]; simp [rget, get]

/-! ### element-wise loops -/

/-- The element-wise loop: writes `g i` to every position; fails with the first failing `g i`. -/
theorem mapLoop_spec (g : Nat → Res T) (init : Mat T N M) (n : Nat) (hn : n ≤ N * M) :
    (∃ C : Mat T N M,
        forRange n (fun i result => do result.setIdx i (← g i)) init = .ok C ∧
        (∀ i (h : i < N * M), i < n → g i = .ok (C.storage[i])) ∧
        (∀ i (h : i < N * M), n ≤ i → C.storage[i] = init.storage[i])) ∨
    (∃ e i, i < n ∧ g i = .error e ∧ (∀ j, j < i → ∃ v, g j = .ok v) ∧
        forRange n (fun i result => do result.setIdx i (← g i)) init = .error e) := by
  induction n with
  | zero => exact .inl ⟨init, rfl, fun _ _ h => absurd h (by omega), fun _ _ _ => rfl⟩
  | succ n ih =>
    rcases ih (by omega) with ⟨C, hC, h1, h2⟩ | ⟨e, i, hi, hgi, hb, hE⟩
    · cases hg : g n with
      | error e =>
        refine .inr ⟨e, n, by omega, hg, fun j hj => ⟨_, h1 j (by omega) hj⟩, ?_⟩
        rw [forRange_succ, hC, bind_ok, hg, bind_error]
      | ok v =>
        refine .inl ⟨⟨C.storage.set n v (by omega)⟩, ?_, ?_, ?_⟩
        · rw [forRange_succ, hC, bind_ok, hg, bind_ok, setIdx_ok C (by omega)]
        · intro i h hin
          by_cases h' : i = n
          · subst h'; simp [hg]
          · rw [h1 i h (by omega)]
            simp [Ne.symm h']
        · intro i h hin
          have h' : ¬ n = i := by omega
          simp [h', h2 i h (by omega)]
    · refine .inr ⟨e, i, by omega, hgi, hb, ?_⟩
      rw [forRange_succ, hE, bind_error]

/-- The element-wise loop succeeds with `C` iff every position of `C` is the value computed there;
if it fails, it fails with the failure of the first position whose computation fails. -/
theorem mapLoop_iff (g : Nat → Res T) (init C : Mat T N M) :
    forRange (N * M) (fun i result => do result.setIdx i (← g i)) init = .ok C ↔
      ∀ i (h : i < N * M), g i = .ok (C.storage[i]) := by
  constructor
  · intro hC
    rcases mapLoop_spec g init (N * M) le_rfl with ⟨C', hC', h1, _⟩ | ⟨e, i, _, _, _, hE⟩
    · rw [hC] at hC'
      cases hC'
      exact fun i h => h1 i h h
    · rw [hC] at hE; cases hE
  · intro h
    rcases mapLoop_spec g init (N * M) le_rfl with ⟨C', hC', h1, _⟩ | ⟨e, i, hi, hgi, _, _⟩
    · rw [hC']
      congr 1
      rcases C with ⟨c⟩
      rcases C' with ⟨c'⟩
      congr 1
      ext i hi
      have a := h1 i hi hi
      rw [h i hi] at a
      exact (Except.ok.inj a).symm
    · rw [h i hi] at hgi; cases hgi

theorem mapLoop_error (g : Nat → Res T) (init : Mat T N M) {e : Err}
    (h : forRange (N * M) (fun i result => do result.setIdx i (← g i)) init = .error e) :
    ∃ i, i < N * M ∧ g i = .error e ∧ ∀ j, j < i → ∃ v, g j = .ok v := by
  rcases mapLoop_spec g init (N * M) le_rfl with ⟨C', hC', _, _⟩ | ⟨e', i, hi, hgi, hb, hE⟩
  · rw [h] at hC'; cases hC'
  · rw [h] at hE
    cases hE
    exact ⟨i, hi, hgi, hb⟩

/-! ### products over a ring -/

section ring
variable [Ring T] [CNum T] [ExactRing T]

/-- Inner loop of `A * B`: adds up `n` products at one position. -/
theorem mul_inner (A B R : Mat T N M) (hMN : M ≤ N) (i : Fin N) (j : Fin M) (n : Nat) (hn : n ≤ M) :
    forRange n (fun k result => do
        result.set2 i j (← CNum.add (← result.at2 i j)
          (← CNum.mul (← A.at2 i k) (← B.at2 k j)))) R
      = .ok (R.upd i j (R.get i j +
          ∑ k : Fin n, A.get i ⟨k, by omega⟩ * B.get ⟨k, by omega⟩ j)) := by
  induction n with
  | zero =>
    rw [forRange_zero]
    congr 1
    apply ext_get
    intro i' j'
    rw [get_upd]
    split
    · next h => simp [h.1, h.2]
    · rfl
  | succ n ih =>
    rw [forRange_succ, ih (by omega), bind_ok, at2_ok _ i.2 j.2, at2_ok A i.2 (by omega : n < M),
      at2_ok B (by omega : n < N) j.2]
    simp only [bind_ok, ExactRing.mul_eq, ExactRing.add_eq]
    rw [set2_ok _ i.2 j.2]
    congr 1
    apply ext_get
    intro i' j'
    simp only [get_upd, Fin.eta]
    split
    · simp [Fin.sum_univ_castSucc, add_assoc]
    · rfl

theorem mul_mid (A B R : Mat T N M) (hMN : M ≤ N) (i : Fin N) (n : Nat) (hn : n ≤ M) :
    ∃ C : Mat T N M,
    forRange n (fun col result =>
      forRange M (fun k result => do
        result.set2 i col (← CNum.add (← result.at2 i col)
          (← CNum.mul (← A.at2 i k) (← B.at2 k col)))) result) R = .ok C ∧
    ∀ i' j', C.get i' j' = if i' = i ∧ j'.val < n then
        R.get i' j' + ∑ k : Fin M, A.get i' k * B.get ⟨k, by omega⟩ j' else R.get i' j' := by
  induction n with
  | zero => exact ⟨R, rfl, by simp⟩
  | succ n ih =>
    obtain ⟨C, hC, h⟩ := ih (by omega)
    have hm := mul_inner A B C hMN i ⟨n, by omega⟩ M le_rfl
    simp only at hm
    refine ⟨_, by rw [forRange_succ, hC, bind_ok]; exact hm, ?_⟩
    intro i' j'
    rw [get_upd]
    by_cases h1 : i' = i ∧ j' = (⟨n, by omega⟩ : Fin M)
    · rw [if_pos h1, h1.1, h1.2, h]
      simp
    · rw [if_neg h1, h]
      by_cases h2 : i' = i ∧ j'.val < n
      · rw [if_pos h2, if_pos ⟨h2.1, by omega⟩]
      · rw [if_neg h2, if_neg]
        rintro ⟨h3, h4⟩
        rcases Nat.lt_succ_iff_lt_or_eq.1 h4 with h5 | h5
        · exact h2 ⟨h3, h5⟩
        · exact h1 ⟨h3, Fin.ext h5⟩

theorem mul_spec (A B : Mat T N M) (hMN : M ≤ N) :
    ∃ C : Mat T N M, A.mul B = .ok C ∧
      ∀ i j, C.get i j = ∑ k : Fin M, A.get i k * B.get ⟨k, by omega⟩ j := by
  have := forRange_inv (n := N)
    (P := fun n (C : Mat T N M) => ∀ i j, C.get i j = if i.val < n then
        ∑ k : Fin M, A.get i k * B.get ⟨k, by omega⟩ j else 0)
    (body := fun row result =>
      forRange M (fun col result =>
        forRange M (fun k result => do
          result.set2 row col (← CNum.add (← result.at2 row col)
            (← CNum.mul (← A.at2 row k) (← B.at2 k col)))) result) result)
    (s := fill N M CNum.zero)
    (by intro i j; simp [ExactRing.zero_eq])
    (by
      intro r hr R hR
      obtain ⟨C, hC, h⟩ := mul_mid A B R hMN ⟨r, hr⟩ M le_rfl
      refine ⟨C, hC, ?_⟩
      intro i j
      rw [h, hR]
      by_cases h1 : i = ⟨r, hr⟩
      · subst h1; simp
      · have h3 : ¬ i.val = r := fun h' => h1 (Fin.ext h')
        by_cases h2 : i.val < r
        · simp [h1, h2, Nat.lt_succ_of_lt h2]
        · have : ¬ i.val < r + 1 := by omega
          simp [h1, h2, this])
  obtain ⟨C, hC, h⟩ := this
  exact ⟨C, hC, fun i j => by rw [h, if_pos i.2]⟩

/-- Square product: the matrix product. -/
theorem mul_square (A B : Mat T N N) :
    ∃ C : Mat T N N, A.mul B = .ok C ∧ C.toMatrix = A.toMatrix * B.toMatrix := by
  obtain ⟨C, hC, h⟩ := mul_spec A B le_rfl
  exact ⟨C, hC, by ext i j; rw [Matrix.mul_apply]; exact h i j⟩


/-! ### dot, outer, matrix-vector -/

theorem dot_spec {N : Nat} (a : RowVec T N) (b : ColVec T N) :
    a.dot b = .ok (∑ k : Fin N, a.rget k * b.vget k) := by
  have hsz : a.size = N := by simp [size, rows, columns]
  unfold dot
  rw [hsz]
  have key : ∀ n (hn : n ≤ N), forRange n (fun i result => do
      CNum.add result (← CNum.mul (← a.idx i) (← b.idx i))) (CNum.zero : T)
      = .ok (∑ k : Fin n, a.rget ⟨k, by omega⟩ * b.vget ⟨k, by omega⟩) := by
    intro n hn
    induction n with
    | zero => simp [ExactRing.zero_eq]
    | succ n ih =>
      rw [forRange_succ, ih (by omega), bind_ok, idx_ok a (by omega), idx_ok b (by omega)]
      simp only [bind_ok, ExactRing.mul_eq, ExactRing.add_eq]
      rw [Fin.sum_univ_castSucc]
      simp [rget, vget, get]
  exact key N le_rfl

theorem outer_inner {N : Nat} (a : ColVec T N) (b : RowVec T N) (R : Mat T N N) (i : Fin N)
    (n : Nat) (hn : n ≤ N) :
    ∃ C : Mat T N N, forRange n (fun col result => do
      result.set2 i col (← CNum.mul (← a.idx i) (← b.idx col))) R = .ok C ∧
      ∀ i' j', C.get i' j' = if i' = i ∧ j'.val < n then a.vget i * b.rget j' else R.get i' j' := by
  induction n with
  | zero => exact ⟨R, rfl, by simp⟩
  | succ n ih =>
    obtain ⟨C, hC, h⟩ := ih (by omega)
    refine ⟨C.upd i ⟨n, by omega⟩ (a.vget i * b.rget ⟨n, by omega⟩), ?_, ?_⟩
    · rw [forRange_succ, hC, bind_ok, idx_vget a i.2, idx_rget b (by omega : n < N)]
      simp only [bind_ok, ExactRing.mul_eq]
      exact set2_ok C i.2 (by omega : n < N) _
    · intro i' j'
      rw [get_upd, h]
      by_cases h1 : i' = i ∧ j' = (⟨n, by omega⟩ : Fin N)
      · rw [if_pos h1, h1.1, h1.2, if_pos ⟨rfl, Nat.lt_succ_self n⟩]
      · rw [if_neg h1]
        by_cases h2 : i' = i ∧ j'.val < n
        · rw [if_pos h2, if_pos ⟨h2.1, by omega⟩]
        · rw [if_neg h2, if_neg]
          rintro ⟨h3, h4⟩
          rcases Nat.lt_succ_iff_lt_or_eq.1 h4 with h5 | h5
          · exact h2 ⟨h3, h5⟩
          · exact h1 ⟨h3, Fin.ext h5⟩

theorem outer_spec {N : Nat} (a : ColVec T N) (b : RowVec T N) :
    ∃ C : Mat T N N, a.outer b = .ok C ∧ ∀ i j, C.get i j = a.vget i * b.rget j := by
  obtain ⟨C, hC, h⟩ := forRange_inv (n := N)
    (P := fun n (C : Mat T N N) => ∀ i j, C.get i j = if i.val < n then
        a.vget i * b.rget j else 0)
    (body := fun row result =>
      forRange N (fun col result => do
        result.set2 row col (← CNum.mul (← a.idx row) (← b.idx col))) result)
    (s := fill N N CNum.zero)
    (by intro i j; simp [ExactRing.zero_eq])
    (by
      intro r hr R hR
      obtain ⟨C, hC, h⟩ := outer_inner a b R ⟨r, hr⟩ N le_rfl
      refine ⟨C, hC, ?_⟩
      intro i j
      rw [h, hR]
      by_cases h1 : i = ⟨r, hr⟩
      · subst h1; simp
      · have h3 : ¬ i.val = r := fun h' => h1 (Fin.ext h')
        by_cases h2 : i.val < r
        · simp [h1, h2, Nat.lt_succ_of_lt h2]
        · have : ¬ i.val < r + 1 := by omega
          simp [h1, h2, this])
  exact ⟨C, hC, fun i j => by rw [h, if_pos i.2]⟩

theorem mulVec_inner (A : Mat T N M) (x R : ColVec T N) (hMN : M ≤ N) (i : Fin N)
    (n : Nat) (hn : n ≤ M) :
    ∃ C : ColVec T N, forRange n (fun col result => do
      result.setIdx i (← CNum.add (← result.idx i)
        (← CNum.mul (← A.at2 i col) (← x.idx col)))) R = .ok C ∧
      ∀ k, C.vget k = if k = i then R.vget i +
        ∑ j : Fin n, A.get i ⟨j, by omega⟩ * x.vget ⟨j, by omega⟩ else R.vget k := by
  induction n with
  | zero => exact ⟨R, rfl, fun k => by split <;> simp_all⟩
  | succ n ih =>
    obtain ⟨C, hC, h⟩ := ih (by omega)
    refine ⟨⟨C.storage.set i (C.vget i + A.get i ⟨n, by omega⟩ * x.vget ⟨n, by omega⟩) (by omega)⟩,
      ?_, ?_⟩
    · rw [forRange_succ, hC, bind_ok, at2_ok A i.2 (by omega : n < M),
        idx_vget x (by omega : n < N), idx_vget C i.2]
      simp only [bind_ok, ExactRing.mul_eq, ExactRing.add_eq]
      exact setIdx_ok C _ _
    · intro k
      rw [vget_upd]
      by_cases hk : k = i
      · rw [if_pos hk, if_pos hk, h, if_pos rfl, Fin.sum_univ_castSucc]
        simp [add_assoc]
      · rw [if_neg hk, if_neg hk, h, if_neg hk]

theorem mulVec_spec (A : Mat T N M) (x : ColVec T N) (hMN : M ≤ N) :
    ∃ y : ColVec T N, A.mulVec x = .ok y ∧
      ∀ i, y.vget i = ∑ j : Fin M, A.get i j * x.vget ⟨j, by omega⟩ := by
  obtain ⟨C, hC, h⟩ := forRange_inv (n := N)
    (P := fun n (C : ColVec T N) => ∀ i, C.vget i = if i.val < n then
        ∑ j : Fin M, A.get i j * x.vget ⟨j, by omega⟩ else 0)
    (body := fun row result =>
      forRange M (fun col result => do
        result.setIdx row (← CNum.add (← result.idx row)
          (← CNum.mul (← A.at2 row col) (← x.idx col)))) result)
    (s := fill N 1 CNum.zero)
    (by intro i; simp [ExactRing.zero_eq, vget])
    (by
      intro r hr R hR
      obtain ⟨C, hC, h⟩ := mulVec_inner A x R hMN ⟨r, hr⟩ M le_rfl
      refine ⟨C, hC, ?_⟩
      intro i
      rw [h, hR, hR]
      by_cases h1 : i = ⟨r, hr⟩
      · subst h1; simp
      · have h3 : ¬ i.val = r := fun h' => h1 (Fin.ext h')
        by_cases h2 : i.val < r
        · simp [h1, h2, Nat.lt_succ_of_lt h2]
        · have : ¬ i.val < r + 1 := by omega
          simp [h1, h2, this])
  exact ⟨C, hC, fun i => by rw [h, if_pos i.2]⟩

theorem vecMul_inner (x R : RowVec T N) (A : Mat T N M) (hMN : M ≤ N) (i : Fin N)
    (n : Nat) (hn : n ≤ M) :
    ∃ C : RowVec T N, forRange n (fun col result => do
      result.setIdx col (← CNum.add (← result.idx col)
        (← CNum.mul (← A.at2 i col) (← x.idx i)))) R = .ok C ∧
      ∀ k, C.rget k = if h : k.val < n then R.rget k + A.get i ⟨k, by omega⟩ * x.rget i
        else R.rget k := by
  induction n with
  | zero => exact ⟨R, rfl, fun k => by simp⟩
  | succ n ih =>
    obtain ⟨C, hC, h⟩ := ih (by omega)
    refine ⟨⟨C.storage.set (⟨n, by omega⟩ : Fin N)
      (C.rget ⟨n, by omega⟩ + A.get i ⟨n, by omega⟩ * x.rget i) (by simp only [Nat.one_mul]; omega)⟩,
      ?_, ?_⟩
    · rw [forRange_succ, hC, bind_ok, at2_ok A i.2 (by omega : n < M),
        idx_rget x i.2, idx_rget C (by omega : n < N)]
      simp only [bind_ok, ExactRing.mul_eq, ExactRing.add_eq]
      exact setIdx_ok C _ _
    · intro k
      rw [rget_upd]
      by_cases hk : k = ⟨n, by omega⟩
      · rw [if_pos hk, h, dif_neg (by simp)]
        subst hk
        simp
      · have h3 : ¬ k.val = n := fun h' => hk (Fin.ext h')
        rw [if_neg hk, h]
        by_cases h2 : k.val < n
        · rw [dif_pos h2, dif_pos (by omega)]
        · rw [dif_neg h2, dif_neg (by omega)]

/-- `x * A` for `M ≤ N`: the first `M` entries are the vector-matrix product, the rest are zero. -/
theorem vecMul_spec (x : RowVec T N) (A : Mat T N M) (hMN : M ≤ N) :
    ∃ y : RowVec T N, x.vecMul A = .ok y ∧
      ∀ j : Fin N, y.rget j =
        if h : j.val < M then ∑ i : Fin N, A.get i ⟨j, h⟩ * x.rget i else 0 := by
  obtain ⟨C, hC, h⟩ := forRange_inv (n := N)
    (P := fun n (C : RowVec T N) => ∃ hn : n ≤ N, ∀ j : Fin N, C.rget j =
        if h : j.val < M then ∑ i : Fin n, A.get ⟨i, by omega⟩ ⟨j, h⟩ * x.rget ⟨i, by omega⟩ else 0)
    (body := fun row result =>
      forRange M (fun col result => do
        result.setIdx col (← CNum.add (← result.idx col)
          (← CNum.mul (← A.at2 row col) (← x.idx row)))) result)
    (s := fill 1 N CNum.zero)
    (by refine ⟨by omega, ?_⟩; intro i; simp [ExactRing.zero_eq, rget])
    (by
      intro r hr R hR
      obtain ⟨hn, hR⟩ := hR
      obtain ⟨C, hC, h⟩ := vecMul_inner x R A hMN ⟨r, hr⟩ M le_rfl
      refine ⟨C, hC, by omega, ?_⟩
      intro j
      rw [h]
      by_cases h1 : j.val < M
      · rw [dif_pos h1, dif_pos h1, hR, dif_pos h1, Fin.sum_univ_castSucc]
        simp
      · rw [dif_neg h1, dif_neg h1, hR, dif_neg h1])
  obtain ⟨_, h⟩ := h
  exact ⟨C, hC, h⟩

theorem eye_spec (N : Nat) :
    ∃ I : Mat T N N, eye T N = .ok I ∧ ∀ i j, I.get i j = if i = j then 1 else 0 := by
  obtain ⟨C, hC, h⟩ := forRange_inv (n := N)
    (P := fun n (C : Mat T N N) => ∀ i j, C.get i j = if i = j ∧ i.val < n then 1 else 0)
    (body := fun i result => result.set2 i i CNum.one)
    (s := fill N N (CNum.zero : T))
    (by intro i j; simp [ExactRing.zero_eq])
    (by
      intro r hr R hR
      refine ⟨_, set2_ok R hr hr _, ?_⟩
      intro i j
      rw [get_upd, hR, ExactRing.one_eq]
      by_cases h1 : i = ⟨r, hr⟩ ∧ j = ⟨r, hr⟩
      · rw [if_pos h1, h1.1, h1.2]; simp
      · rw [if_neg h1]
        by_cases h2 : i = j
        · subst h2
          have h3 : ¬ i.val = r := fun h' => h1 ⟨Fin.ext h', Fin.ext h'⟩
          have h4 : i.val < r ↔ i.val < r + 1 := by omega
          simp [h4]
        · simp [h2])
  exact ⟨C, hC, fun i j => by rw [h]; simp⟩

end ring

/-! ### lists and copies -/

theorem copyFrom_ok (A : Mat T N M) (k : Nat) (l : List T) (h : k + l.length ≤ N * M) :
    ∃ C : Mat T N M, A.copyFrom k l = .ok C ∧
      ∀ i (hi : i < N * M), C.storage[i] =
        if h : k ≤ i ∧ i < k + l.length then l[i - k] else A.storage[i] := by
  induction l generalizing A k with
  | nil =>
    refine ⟨A, rfl, fun i hi => ?_⟩
    rw [dif_neg (by simp)]
  | cons x xs ih =>
    simp only [List.length_cons] at h
    obtain ⟨C, hC, hg⟩ := ih ⟨A.storage.set k x (by omega)⟩ (k + 1) (by omega)
    refine ⟨C, by rw [copyFrom, set1_ok A (by omega), bind_ok, hC], fun i hi => ?_⟩
    rw [hg i hi]
    by_cases h1 : k + 1 ≤ i ∧ i < k + 1 + xs.length
    · rw [dif_pos h1, dif_pos (by simp only [List.length_cons]; omega)]
      obtain ⟨d, rfl⟩ : ∃ d, i = k + 1 + d := ⟨i - (k + 1), by omega⟩
      have e1 : k + 1 + d - (k + 1) = d := by omega
      have e2 : k + 1 + d - k = d + 1 := by omega
      simp [e1, e2]
    · rw [dif_neg h1]
      by_cases h2 : i = k
      · subst h2
        rw [dif_pos (by simp only [List.length_cons]; omega)]
        simp
      · rw [dif_neg (by simp only [List.length_cons]; omega)]
        have : ¬ k = i := fun h => h2 h.symm
        simp [this]

theorem copyFrom_oob (A : Mat T N M) (k : Nat) (l : List T) (h : N * M < k + l.length)
    (hk : k ≤ N * M) : A.copyFrom k l = .error .outOfBounds := by
  induction l generalizing A k with
  | nil => simp at h; omega
  | cons x xs ih =>
    simp only [List.length_cons] at h
    rw [copyFrom]
    by_cases h1 : k < N * M
    · rw [set1_ok A h1, bind_ok, ih _ (k + 1) (by omega) (by omega)]
    · rw [set1_oob A (by omega), bind_error]

end Mat
end Verif
