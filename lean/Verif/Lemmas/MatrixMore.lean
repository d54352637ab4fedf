import Mathlib.LinearAlgebra.Matrix.Determinant.Basic
import Mathlib.LinearAlgebra.Matrix.NonsingularInverse
import Mathlib.Tactic.FieldSimp
import Mathlib.Tactic.LinearCombination
import Mathlib.LinearAlgebra.Matrix.Notation
import Verif.Lemmas.Matrix

/- Further matrix lemmas: element-wise operators, memory safety, 2x2 transposition and inversion. -/

namespace Verif
namespace Mat
variable {T : Type} {N M : Nat}

/-- A statement about all flat positions is one about all (row, column) positions. -/
theorem forall_flat {P : (k : Nat) → k < N * M → Prop} :
    (∀ k (h : k < N * M), P k h) ↔
      ∀ (i : Fin N) (j : Fin M), P (i.val * M + j.val) (pos_lt i.2 j.2) := by
  constructor
  · intro h i j
    exact h _ _
  · intro h k hk
    have hM : 0 < M := Nat.pos_of_ne_zero (by rintro rfl; simp at hk)
    have hi : k / M < N := (Nat.div_lt_iff_lt_mul hM).2 hk
    have hj : k % M < M := Nat.mod_lt _ hM
    have := h ⟨k / M, hi⟩ ⟨k % M, hj⟩
    have hk' : k / M * M + k % M = k := by
      rw [Nat.mul_comm]; exact Nat.div_add_mod k M
    simpa [hk'] using this

theorem exists_flat {P : (k : Nat) → k < N * M → Prop} :
    (∃ k, ∃ h : k < N * M, P k h) ↔
      ∃ (i : Fin N) (j : Fin M), P (i.val * M + j.val) (pos_lt i.2 j.2) := by
  have := @forall_flat N M (fun k h => ¬ P k h)
  constructor
  · rintro ⟨k, h, hp⟩
    by_contra hc
    push Not at hc
    exact this.2 hc k h hp
  · rintro ⟨i, j, hp⟩
    exact ⟨_, _, hp⟩

/-- Element-wise loop in terms of (row, column) positions. -/
theorem elementwise (g : Nat → Res T) (G : Fin N → Fin M → Res T) (init : Mat T N M)
    (hg : ∀ i j, g (i.val * M + j.val) = G i j) :
    (∀ C, forRange (N * M) (fun i result => do result.setIdx i (← g i)) init = .ok C ↔
      ∀ i j, G i j = .ok (C.get i j)) ∧
    (∀ e, forRange (N * M) (fun i result => do result.setIdx i (← g i)) init = .error e →
      ∃ i j, G i j = .error e) := by
  constructor
  · intro C
    rw [mapLoop_iff, forall_flat (P := fun k h => g k = .ok (C.storage[k]))]
    simp only [hg]
    rfl
  · intro e he
    obtain ⟨k, hk, hge, _⟩ := mapLoop_error g init he
    obtain ⟨i, j, h⟩ := (exists_flat (P := fun k _ => g k = .error e)).1 ⟨k, hk, hge⟩
    exact ⟨i, j, by rw [← hg]; exact h⟩

theorem idx_get (A : Mat T N M) (i : Fin N) (j : Fin M) :
    A.idx ((i.val * M + j.val : Nat) : Int) = .ok (A.get i j) := idx_ok A (pos_lt i.2 j.2)

/-! ### memory safety of the products, any total numeric type -/

section total
variable [CNum T] [TotalNum T]

theorem mul_safe (A B : Mat T N M) (h : M ≤ N) : ∃ C, A.mul B = .ok C := by
  obtain ⟨C, hC, _⟩ := forRange_inv (n := A.rows) (P := fun _ (_ : Mat T N M) => True)
    (body := fun row result =>
      forRange A.columns (fun col result =>
        forRange A.columns (fun k result => do
          result.set2 row col (← CNum.add (← result.at2 row col)
            (← CNum.mul (← A.at2 row k) (← B.at2 k col)))) result) result)
    (s := fill N M CNum.zero) trivial
    (by
      intro i hi s _
      have hi : i < N := hi
      obtain ⟨s', hs', _⟩ := forRange_inv (n := A.columns) (P := fun _ (_ : Mat T N M) => True)
        (body := fun col result =>
          forRange A.columns (fun k result => do
            result.set2 i col (← CNum.add (← result.at2 i col)
              (← CNum.mul (← A.at2 i k) (← B.at2 k col)))) result) (s := s) trivial
        (by
          intro j hj s _
          have hj : j < M := hj
          obtain ⟨s', hs', _⟩ := forRange_inv (n := A.columns) (P := fun _ (_ : Mat T N M) => True)
            (body := fun k result => do
              result.set2 i j (← CNum.add (← result.at2 i j)
                (← CNum.mul (← A.at2 i k) (← B.at2 k j)))) (s := s) trivial
            (by
              intro k hk s _
              have hk : k < M := hk
              obtain ⟨p, hp⟩ := TotalNum.mul_ok (A.get ⟨i, hi⟩ ⟨k, hk⟩) (B.get ⟨k, by omega⟩ ⟨j, hj⟩)
              obtain ⟨q, hq⟩ := TotalNum.add_ok (s.get ⟨i, hi⟩ ⟨j, hj⟩) p
              refine ⟨s.upd ⟨i, hi⟩ ⟨j, hj⟩ q, ?_, trivial⟩
              rw [at2_ok s hi hj, at2_ok A hi hk, at2_ok B (by omega : k < N) hj]
              simp only [bind_ok, hp, hq, set2_ok s hi hj])
          exact ⟨s', hs', trivial⟩)
      exact ⟨s', hs', trivial⟩)
  exact ⟨C, hC⟩

theorem mul_oob (A B : Mat T N M) (hN : 0 < N) (h : N < M) : A.mul B = .error .outOfBounds := by
  unfold mul
  have hM : 0 < M := by omega
  refine forRange_error (fun _ _ => True) (k := 0) hN trivial (by omega) ?_
  intro s _
  refine forRange_error (fun _ _ => True) (k := 0) (show 0 < M by omega) trivial (by omega) ?_
  intro s _
  refine forRange_error (fun _ _ => True) (k := N) (show N < M from h) trivial ?_ ?_
  · intro k hk s _
    obtain ⟨p, hp⟩ := TotalNum.mul_ok (A.get ⟨0, hN⟩ ⟨k, by omega⟩) (B.get ⟨k, by omega⟩ ⟨0, hM⟩)
    obtain ⟨q, hq⟩ := TotalNum.add_ok (s.get ⟨0, hN⟩ ⟨0, hM⟩) p
    refine ⟨s.upd ⟨0, hN⟩ ⟨0, hM⟩ q, ?_, trivial⟩
    rw [at2_ok s hN hM, at2_ok A hN (by omega : k < M), at2_ok B (by omega : k < N) hM]
    simp only [bind_ok, hp, hq, set2_ok s hN hM]
  · intro s _
    have hB : B.at2 N (0 : Nat) = .error .outOfBounds := by
      refine at1_oob B (.inr ?_)
      push_cast
      omega
    rw [at2_ok s hN hM, at2_ok A hN h, hB]
    simp

theorem vecMul_safe (x : RowVec T N) (A : Mat T N M) (h : M ≤ N) : ∃ y, x.vecMul A = .ok y := by
  obtain ⟨C, hC, _⟩ := forRange_inv (n := A.rows) (P := fun _ (_ : RowVec T N) => True)
    (body := fun row result =>
      forRange A.columns (fun col result => do
        result.setIdx col (← CNum.add (← result.idx col)
          (← CNum.mul (← A.at2 row col) (← x.idx row)))) result)
    (s := fill 1 N CNum.zero) trivial
    (by
      intro i hi s _
      have hi : i < N := hi
      obtain ⟨s', hs', _⟩ := forRange_inv (n := A.columns) (P := fun _ (_ : RowVec T N) => True)
        (body := fun col result => do
          result.setIdx col (← CNum.add (← result.idx col)
            (← CNum.mul (← A.at2 i col) (← x.idx i)))) (s := s) trivial
        (by
          intro j hj s _
          have hj : j < M := hj
          have hj' : j < N := by omega
          obtain ⟨p, hp⟩ := TotalNum.mul_ok (A.get ⟨i, hi⟩ ⟨j, hj⟩) (x.rget ⟨i, hi⟩)
          obtain ⟨q, hq⟩ := TotalNum.add_ok (s.rget ⟨j, hj'⟩) p
          refine ⟨⟨s.storage.set j q (by omega)⟩, ?_, trivial⟩
          · rw [idx_rget s hj', at2_ok A hi hj, idx_rget x hi]
            simp only [bind_ok, hp, hq]
            exact setIdx_ok s (by omega) q)
      exact ⟨s', hs', trivial⟩)
  exact ⟨C, hC⟩

theorem vecMul_oob (x : RowVec T N) (A : Mat T N M) (hN : 0 < N) (h : N < M) :
    x.vecMul A = .error .outOfBounds := by
  unfold vecMul
  refine forRange_error (fun _ _ => True) (k := 0) hN trivial (by omega) ?_
  intro s _
  refine forRange_error (fun _ _ => True) (k := N) (show N < M from h) trivial ?_ ?_
  · intro j hj s _
    obtain ⟨p, hp⟩ := TotalNum.mul_ok (A.get ⟨0, hN⟩ ⟨j, by omega⟩) (x.rget ⟨0, hN⟩)
    obtain ⟨q, hq⟩ := TotalNum.add_ok (s.rget ⟨j, hj⟩) p
    refine ⟨⟨s.storage.set j q (by omega)⟩, ?_, trivial⟩
    rw [idx_rget s hj, at2_ok A hN (by omega : j < M), idx_rget x hN]
    simp only [bind_ok, hp, hq]
    exact setIdx_ok s (by omega) q
  · intro s _
    have hs : s.idx N = .error .outOfBounds := at1_oob s (.inr (by push_cast; omega))
    rw [hs]
    simp

theorem mulVec_safe (A : Mat T N M) (x : ColVec T N) (h : M ≤ N) : ∃ y, A.mulVec x = .ok y := by
  obtain ⟨C, hC, _⟩ := forRange_inv (n := A.rows) (P := fun _ (_ : ColVec T N) => True)
    (body := fun row result =>
      forRange A.columns (fun col result => do
        result.setIdx row (← CNum.add (← result.idx row)
          (← CNum.mul (← A.at2 row col) (← x.idx col)))) result)
    (s := fill N 1 CNum.zero) trivial
    (by
      intro i hi s _
      have hi : i < N := hi
      obtain ⟨s', hs', _⟩ := forRange_inv (n := A.columns) (P := fun _ (_ : ColVec T N) => True)
        (body := fun col result => do
          result.setIdx i (← CNum.add (← result.idx i)
            (← CNum.mul (← A.at2 i col) (← x.idx col)))) (s := s) trivial
        (by
          intro j hj s _
          have hj : j < M := hj
          have hj' : j < N := by omega
          obtain ⟨p, hp⟩ := TotalNum.mul_ok (A.get ⟨i, hi⟩ ⟨j, hj⟩) (x.vget ⟨j, hj'⟩)
          obtain ⟨q, hq⟩ := TotalNum.add_ok (s.vget ⟨i, hi⟩) p
          refine ⟨⟨s.storage.set i q (by omega)⟩, ?_, trivial⟩
          · rw [idx_vget s hi, at2_ok A hi hj, idx_vget x hj']
            simp only [bind_ok, hp, hq]
            exact setIdx_ok s (by omega) q)
      exact ⟨s', hs', trivial⟩)
  exact ⟨C, hC⟩

theorem mulVec_oob (A : Mat T N M) (x : ColVec T N) (hN : 0 < N) (h : N < M) :
    A.mulVec x = .error .outOfBounds := by
  unfold mulVec
  refine forRange_error (fun _ _ => True) (k := 0) hN trivial (by omega) ?_
  intro s _
  refine forRange_error (fun _ _ => True) (k := N) (show N < M from h) trivial ?_ ?_
  · intro j hj s _
    obtain ⟨p, hp⟩ := TotalNum.mul_ok (A.get ⟨0, hN⟩ ⟨j, by omega⟩) (x.vget ⟨j, hj⟩)
    obtain ⟨q, hq⟩ := TotalNum.add_ok (s.vget ⟨0, hN⟩) p
    refine ⟨⟨s.storage.set 0 q (by omega)⟩, ?_, trivial⟩
    rw [idx_vget s hN, at2_ok A hN (by omega : j < M), idx_vget x hj]
    simp only [bind_ok, hp, hq]
    exact setIdx_ok s (by omega) q
  · intro s _
    have hx : x.idx N = .error .outOfBounds := at1_oob x (.inr (by push_cast; omega))
    rw [idx_vget s hN, at2_ok A hN h, hx]
    simp

end total

/-! ### transposition -/

section tr
variable [CNum T]

theorem transposedCol_spec {N : Nat} (x : ColVec T N) :
    ∃ y : RowVec T N, x.transposedCol = .ok y ∧ ∀ k, y.rget k = x.vget k := by
  obtain ⟨C, hC, h⟩ := copyFrom_ok (fill 1 N (CNum.zero : T)) 0 x.storage.toList (by simp)
  refine ⟨C, hC, fun k => ?_⟩
  have := h k.val (by omega)
  rw [dif_pos (by simp)] at this
  simpa [rget, vget, get] using this

theorem transposedRow_spec {N : Nat} (x : RowVec T N) :
    ∃ y : ColVec T N, x.transposedRow = .ok y ∧ ∀ k, y.vget k = x.rget k := by
  obtain ⟨C, hC, h⟩ := copyFrom_ok (fill N 1 (CNum.zero : T)) 0 x.storage.toList (by simp)
  refine ⟨C, hC, fun k => ?_⟩
  have := h k.val (by omega)
  rw [dif_pos (by simp)] at this
  simpa [rget, vget, get] using this

omit [CNum T] in
theorem transposed22_spec (A : Mat T 2 2) :
    ∃ C : Mat T 2 2, A.transposed22 = .ok C ∧ ∀ i j, C.get i j = A.get j i := by
  refine ⟨(A.upd 0 1 (A.get 1 0)).upd 1 0 (A.get 0 1), ?_, ?_⟩
  · have h01 := at2_ok A (i := 0) (j := 1) (by omega) (by omega)
    have h10 := at2_ok A (i := 1) (j := 0) (by omega) (by omega)
    have hs := set2_ok A (i := 0) (j := 1) (by omega) (by omega) (A.get 1 0)
    have hs' := set2_ok (A.upd 0 1 (A.get 1 0)) (i := 1) (j := 0) (by omega) (by omega) (A.get 0 1)
    simp only [Nat.cast_zero, Nat.cast_one] at h01 h10 hs hs'
    unfold transposed22
    rw [h01, bind_ok, h10, bind_ok]
    erw [hs]
    exact hs'
  · intro i j
    rw [get_upd, get_upd]
    fin_cases i <;> fin_cases j <;> rfl

end tr

/-! ### 2x2 matrices: flat access and inversion -/

theorem idx22 (A : Mat T 2 2) : A.idx 0 = .ok (A.get 0 0) ∧ A.idx 1 = .ok (A.get 0 1) ∧
    A.idx 2 = .ok (A.get 1 0) ∧ A.idx 3 = .ok (A.get 1 1) :=
  ⟨idx_get A 0 0, idx_get A 0 1, idx_get A 1 0, idx_get A 1 1⟩

/-- The 2x2 matrix with the given entries. -/
def mk22 (a b c d : T) : Mat T 2 2 := ⟨#v[a, b, c, d]⟩

@[simp] theorem mk22_get (a b c d : T) : (mk22 a b c d).get 0 0 = a ∧ (mk22 a b c d).get 0 1 = b ∧
    (mk22 a b c d).get 1 0 = c ∧ (mk22 a b c d).get 1 1 = d := ⟨rfl, rfl, rfl, rfl⟩

theorem eq_mk22 (A : Mat T 2 2) : A = mk22 (A.get 0 0) (A.get 0 1) (A.get 1 0) (A.get 1 1) := by
  apply ext_get
  intro i j
  fin_cases i <;> fin_cases j <;> rfl

theorem toMatrix_mk22 (a b c d : T) : (mk22 a b c d).toMatrix = !![a, b; c, d] := by
  ext i j
  fin_cases i <;> fin_cases j <;> rfl

theorem transpose22 (a b c d : T) : (!![a, b; c, d]).transpose = !![a, c; b, d] := by
  ext i j
  fin_cases i <;> fin_cases j <;> rfl

theorem toMatrix22 (A : Mat T 2 2) :
    A.toMatrix = !![A.get 0 0, A.get 0 1; A.get 1 0, A.get 1 1] := by
  ext i j
  fin_cases i <;> fin_cases j <;> rfl

section field
variable [Field T] [CNum T] [ExactField T]

/-- The determinant of a 2x2 matrix. -/
def det22 (A : Mat T 2 2) : T := A.get 0 0 * A.get 1 1 - A.get 0 1 * A.get 1 0

theorem inverted22_ok (A : Mat T 2 2) (h : A.det22 ≠ 0) :
    A.inverted22 = .ok (mk22 (A.get 1 1 / A.det22) (-A.get 1 0 / A.det22)
      (-A.get 0 1 / A.det22) (A.get 0 0 / A.det22)) := by
  unfold inverted22
  obtain ⟨h0, h1, h2, h3⟩ := idx22 A
  simp only [h0, h1, h2, h3, bind_ok, ExactRing.mul_eq, ExactRing.sub_eq, ExactRing.neg_eq]
  have hdiv : (CNum.div (CNum.one : T) (A.get 0 0 * A.get 1 1 - A.get 0 1 * A.get 1 0))
      = .ok (1 / A.det22) := by
    rw [ExactRing.one_eq]; exact ExactField.div_eq _ _ h
  rw [hdiv]
  simp only [bind_ok]
  rw [show (0 : Int) = ((0 : Nat) : Int) from rfl, show (1 : Int) = ((1 : Nat) : Int) from rfl,
    show (2 : Int) = ((2 : Nat) : Int) from rfl, show (3 : Int) = ((3 : Nat) : Int) from rfl,
    setIdx_ok _ (by omega), bind_ok, setIdx_ok _ (by omega), bind_ok, setIdx_ok _ (by omega),
    bind_ok, setIdx_ok _ (by omega)]
  congr 1
  apply ext_get
  intro i j
  fin_cases i <;> fin_cases j <;> simp [get, mk22, fill] <;> ring

theorem inverted22_div0 (A : Mat T 2 2) (h : A.det22 = 0) :
    A.inverted22 = .error .divByZero := by
  unfold inverted22
  obtain ⟨h0, h1, h2, h3⟩ := idx22 A
  simp only [h0, h1, h2, h3, bind_ok, ExactRing.mul_eq, ExactRing.sub_eq]
  have hdiv : (CNum.div (CNum.one : T) (A.get 0 0 * A.get 1 1 - A.get 0 1 * A.get 1 0))
      = .error .divByZero := by
    have h' : A.get 0 0 * A.get 1 1 - A.get 0 1 * A.get 1 0 = 0 := h
    rw [h']; exact ExactField.div_zero _
  rw [hdiv]
  rfl

end field
end Mat
end Verif
