import Mathlib.Tactic.NormNum
import Verif.Lemmas.MatrixMore

/-
Properties C01-C09: include/num/matrix.hpp.
-/

namespace Verif
open Mat
variable {T : Type} {N M : Nat}

/-! ## C01 Row-major construction and access -/

/-- C01: a list of at most `N*M` values fills the matrix row by row; the rest is zero. -/
theorem C01_list_row_major [CNum T] (il : List T) (h : il.length ≤ N * M) :
    ∃ A : Mat T N M, ofList N M il = .ok A ∧
      ∀ (r : Fin N) (c : Fin M),
        (∀ hk : r.val * M + c.val < il.length,
          A.at2 r.val c.val = .ok il[r.val * M + c.val]) ∧
        (il.length ≤ r.val * M + c.val → A.at2 r.val c.val = .ok CNum.zero) ∧
        A.idx ((r.val * M + c.val : Nat) : Int) = A.at2 r.val c.val ∧
        A.at1 ((r.val * M + c.val : Nat) : Int) = A.at2 r.val c.val := by
  obtain ⟨A, hA, hg⟩ := copyFrom_ok (fill N M (CNum.zero : T)) 0 il (by omega)
  refine ⟨A, hA, fun r c => ?_⟩
  have hpos : r.val * M + c.val < N * M := pos_lt r.2 c.2
  have := hg (r.val * M + c.val) hpos
  rw [at2_ok A r.2 c.2, idx_ok A hpos, at1_ok A hpos]
  refine ⟨fun hk => ?_, fun hk => ?_, rfl, rfl⟩
  · rw [dif_pos ⟨Nat.zero_le _, by omega⟩] at this
    exact congrArg Except.ok this
  · rw [dif_neg (by omega)] at this
    refine congrArg Except.ok (this.trans ?_)
    simp [fill]

/-- C01: a longer list makes the constructor write outside the object. -/
theorem C01_list_too_long [CNum T] (il : List T) (h : N * M < il.length) :
    (ofList N M il : Res (Mat T N M)) = .error .outOfBounds :=
  copyFrom_oob _ 0 il (by omega) (by omega)

/-- C01: the fill constructor. -/
theorem C01_fill (v : T) (r : Fin N) (c : Fin M) :
    (fill N M v).at2 r.val c.val = .ok v := by
  rw [at2_ok _ r.2 c.2]; simp

/-- C01: an access is defined exactly if its flat index is inside the storage.  (In particular a
column index `≥ M` silently addresses a later row.) -/
theorem C01_access_defined (A : Mat T N M) (r c : Int) :
    (∃ v, A.at2 r c = .ok v) ↔ 0 ≤ r * M + c ∧ r * M + c < (N * M : Nat) := by
  constructor
  · rintro ⟨v, hv⟩
    by_contra hc
    have : A.at2 r c = .error .outOfBounds := at1_oob A (by omega)
    rw [this] at hv; cases hv
  · rintro ⟨h0, h1⟩
    obtain ⟨k, hk⟩ := Int.eq_ofNat_of_zero_le h0
    have hk' : k < N * M := by omega
    exact ⟨A.storage[k], by rw [at2, hk]; exact at1_ok A hk'⟩

example : ∃ A : Mat ℚ 2 3, ofList 2 3 [1, 2, 3, 4] = .ok A ∧ A.at2 1 0 = .ok 4 ∧ A.at2 1 2 = .ok 0 := by
  obtain ⟨A, hA, h⟩ := C01_list_row_major (N := 2) (M := 3) [(1 : ℚ), 2, 3, 4] (by decide)
  exact ⟨A, hA, (h 1 0).1 (by decide), (h 1 2).2.1 (by decide)⟩
example : (ofList 1 2 [1, 2, 3] : Res (Mat ℚ 1 2)) = .error .outOfBounds :=
  C01_list_too_long _ (by decide)

/-! ## C02 Element write has a frame -/

/-- C02: writing through `(r,c)` changes exactly that element. -/
theorem C02_write_frame (A : Mat T N M) (r : Fin N) (c : Fin M) (v : T) :
    ∃ B : Mat T N M, A.set2 r.val c.val v = .ok B ∧
      B.at2 r.val c.val = .ok v ∧
      ∀ (r' : Fin N) (c' : Fin M), (r', c') ≠ (r, c) →
        B.at2 r'.val c'.val = A.at2 r'.val c'.val := by
  refine ⟨A.upd r c v, set2_ok A r.2 c.2 v, ?_, ?_⟩
  · rw [at2_ok _ r.2 c.2, get_upd, if_pos ⟨rfl, rfl⟩]
  · intro r' c' h
    rw [at2_ok _ r'.2 c'.2, at2_ok _ r'.2 c'.2, get_upd, if_neg]
    rintro ⟨h1, h2⟩
    exact h (by rw [Prod.mk.injEq]; exact ⟨h1, h2⟩)

/-- C02: writing through the flat index `r*M+c` is the same write. -/
theorem C02_flat_write (A : Mat T N M) (r : Fin N) (c : Fin M) (v : T) :
    A.setIdx ((r.val * M + c.val : Nat) : Int) v = A.set2 r.val c.val v := by
  rw [setIdx_ok A (pos_lt r.2 c.2), set2_ok A r.2 c.2]; rfl

example : ((0 : Fin 2), (1 : Fin 3)) ≠ (1, 0) := by decide

/-! ## C03 Element-wise operators -/

/-- What "the element-wise operation `f`" means for a possibly undefined scalar operation. -/
def Elementwise (f : Fin N → Fin M → Res T) (r : Res (Mat T N M)) : Prop :=
  (∀ C, r = .ok C ↔ ∀ i j, f i j = .ok (C.get i j)) ∧
  (∀ e, r = .error e → ∃ i j, f i j = .error e)

section C03
variable [CNum T]

theorem C03_add (A B : Mat T N M) :
    Elementwise (fun i j => CNum.add (A.get i j) (B.get i j)) (A.add B) := by
  have h := elementwise (N := N) (M := M) (fun k => do CNum.add (← A.idx k) (← B.idx k)) _ (fill N M CNum.zero)
    (fun i j => by rw [idx_get, idx_get, bind_ok, bind_ok])
  simp only [bind_assoc] at h
  exact h

theorem C03_sub (A B : Mat T N M) :
    Elementwise (fun i j => CNum.sub (A.get i j) (B.get i j)) (A.sub B) := by
  have h := elementwise (N := N) (M := M) (fun k => do CNum.sub (← A.idx k) (← B.idx k)) _ (fill N M CNum.zero)
    (fun i j => by rw [idx_get, idx_get, bind_ok, bind_ok])
  simp only [bind_assoc] at h
  exact h

theorem C03_add_scalar (A : Mat T N M) (v : T) :
    Elementwise (fun i j => CNum.add (A.get i j) v) (A.addS v) := by
  have h := elementwise (N := N) (M := M) (fun k => do CNum.add (← A.idx k) v) _ (fill N M CNum.zero)
    (fun i j => by rw [idx_get, bind_ok])
  simp only [bind_assoc] at h
  exact h

theorem C03_mul_scalar (A : Mat T N M) (v : T) :
    Elementwise (fun i j => CNum.mul (A.get i j) v) (A.mulS v) := by
  have h := elementwise (N := N) (M := M) (fun k => do CNum.mul (← A.idx k) v) _ (fill N M CNum.zero)
    (fun i j => by rw [idx_get, bind_ok])
  simp only [bind_assoc] at h
  exact h

/-- `A - v` adds the negated scalar. -/
theorem C03_sub_scalar (A : Mat T N M) (v w : T) (h : CNum.neg v = .ok w) :
    Elementwise (fun i j => CNum.add (A.get i j) w) (A.subS v) := by
  unfold subS
  rw [h]
  exact C03_add_scalar A w

/-- … and is undefined if the scalar cannot be negated. -/
theorem C03_sub_scalar_undefined (A : Mat T N M) (v : T) (e : Err) (h : CNum.neg v = .error e) :
    A.subS v = .error e := by
  unfold subS
  rw [h]
  rfl

/-- The scalar on the left: `v + A` and `v * A` are computed as `A + v` and `A * v`. -/
theorem C03_scalar_left (v : T) (A : Mat T N M) :
    Elementwise (fun i j => CNum.add (A.get i j) v) (sAdd v A) ∧
    Elementwise (fun i j => CNum.mul (A.get i j) v) (sMul v A) :=
  ⟨C03_add_scalar A v, C03_mul_scalar A v⟩

/-- Matrix with 1x1 matrix: the scalar operators with its single element. -/
theorem C03_1x1_operand (A : Mat T N M) (v : Mat T 1 1) :
    Elementwise (fun i j => CNum.mul (A.get i j) (v.get 0 0)) (A.mulM11 v) ∧
    Elementwise (fun i j => CNum.add (A.get i j) (v.get 0 0)) (A.addM11 v) := by
  have h : v.idx 0 = .ok (v.get 0 0) := idx_get v 0 0
  unfold mulM11 addM11
  rw [h]
  exact ⟨C03_mul_scalar A _, C03_add_scalar A _⟩

/-- The 1x1 matrix on the left. -/
theorem C03_1x1_operand_left (v : Mat T 1 1) (A : Mat T N M) :
    Elementwise (fun i j => CNum.mul (A.get i j) (v.get 0 0)) (m11Mul v A) ∧
    Elementwise (fun i j => CNum.add (A.get i j) (v.get 0 0)) (m11Add v A) := by
  have h : v.idx 0 = .ok (v.get 0 0) := idx_get v 0 0
  unfold m11Mul m11Add
  rw [h]
  exact ⟨C03_mul_scalar A _, C03_add_scalar A _⟩

/-- The 1x1/scalar operators; `v + A` and `v * A` exchange their operands. -/
theorem C03_1x1_scalar (A B : Mat T 1 1) (v : T) :
    A.add11s v = CNum.add (A.get 0 0) v ∧
    adds11 v A = CNum.add (A.get 0 0) v ∧
    A.sub11s v = CNum.sub (A.get 0 0) v ∧
    subs11 v A = CNum.sub v (A.get 0 0) ∧
    A.mul11s v = CNum.mul (A.get 0 0) v ∧
    muls11 v A = CNum.mul (A.get 0 0) v ∧
    Elementwise (fun _ _ => CNum.mul (A.get 0 0) (B.get 0 0)) (A.mul11 B) := by
  have hA : A.idx 0 = .ok (A.get 0 0) := idx_get A 0 0
  have hB : B.idx 0 = .ok (B.get 0 0) := idx_get B 0 0
  refine ⟨by rw [add11s, hA]; rfl, by rw [adds11, hA]; rfl, by rw [sub11s, hA]; rfl,
    by rw [subs11, hA]; rfl, by rw [mul11s, hA]; rfl, by rw [muls11, mul11s, hA]; rfl, ?_⟩
  unfold mul11
  rw [hA, hB, bind_ok, bind_ok]
  cases hm : CNum.mul (A.get 0 0) (B.get 0 0) with
  | error e => exact ⟨fun C => by simp, fun e' he => ⟨0, 0, by simpa using he⟩⟩
  | ok p =>
    obtain ⟨C', hC', hg⟩ := C01_list_row_major (N := 1) (M := 1) [p] (by simp)
    have h00 : C'.get 0 0 = p := by
      have := (hg 0 0).1 (by simp)
      rw [at2_ok C' (by simp) (by simp)] at this
      simpa using this
    rw [bind_ok, hC']
    refine ⟨fun C => ⟨fun h => ?_, fun h => ?_⟩, fun e he => by cases he⟩
    · cases h
      intro i j
      fin_cases i; fin_cases j
      exact congrArg Except.ok h00.symm
    · congr 1
      apply ext_get
      intro i j
      have := h i j
      fin_cases i; fin_cases j
      exact h00.trans (Except.ok.inj this)

end C03

example : ∃ C : Mat ℚ 1 2, (⟨#v[1, 2]⟩ : Mat ℚ 1 2).sub ⟨#v[5, 7]⟩ = .ok C ∧
    C.get 0 0 = -4 ∧ C.get 0 1 = -5 :=
  ⟨⟨#v[-4, -5]⟩, ((C03_sub _ _).1 _).2 (by
    intro i j
    fin_cases i
    fin_cases j
    · exact congrArg Except.ok (show (1 : ℚ) - 5 = -4 by norm_num)
    · exact congrArg Except.ok (show (2 : ℚ) - 7 = -5 by norm_num)), rfl, rfl⟩

/-- Concrete, the operators with a 1x1 matrix and with a scalar on the left. -/
example : ∃ C D : Mat ℚ 1 2, sAdd 7 (⟨#v[1, 2]⟩ : Mat ℚ 1 2) = .ok C ∧ C.get 0 1 = 9 ∧
    m11Mul ⟨#v[3]⟩ (⟨#v[1, 2]⟩ : Mat ℚ 1 2) = .ok D ∧ D.get 0 1 = 6 :=
  ⟨⟨#v[8, 9]⟩, ⟨#v[3, 6]⟩, ((C03_scalar_left _ _).1.1 _).2 (by
    intro i j
    fin_cases i
    fin_cases j
    · exact congrArg Except.ok (show (1 : ℚ) + 7 = 8 by norm_num)
    · exact congrArg Except.ok (show (2 : ℚ) + 7 = 9 by norm_num)), rfl,
   ((C03_1x1_operand_left _ _).1.1 _).2 (by
    intro i j
    fin_cases i
    fin_cases j
    · exact congrArg Except.ok (show (1 : ℚ) * 3 = 3 by norm_num)
    · exact congrArg Except.ok (show (2 : ℚ) * 3 = 6 by norm_num)), rfl⟩

/-! ## C04 Square product is the matrix product -/

section ring
variable [Ring T] [CNum T] [ExactRing T]

/-- C04: entry `(i,j)` of `A*B` is the sum over `k` of `A(i,k)*B(k,j)`. -/
theorem C04_square_product (A B : Mat T N N) :
    ∃ C : Mat T N N, A.mul B = .ok C ∧ C.toMatrix = A.toMatrix * B.toMatrix :=
  mul_square A B

/-- C04: associativity of the computed product. -/
theorem C04_assoc (A B C : Mat T N N) :
    (do let AB ← A.mul B; AB.mul C) = (do let BC ← B.mul C; A.mul BC) := by
  obtain ⟨X, hX, eX⟩ := mul_square A B
  obtain ⟨Y, hY, eY⟩ := mul_square B C
  obtain ⟨Z, hZ, eZ⟩ := mul_square X C
  obtain ⟨W, hW, eW⟩ := mul_square A Y
  rw [hX, hY, bind_ok, bind_ok, hZ, hW]
  congr 1
  exact toMatrix_inj (by rw [eZ, eW, eX, eY, Matrix.mul_assoc])

theorem add_ring (A B : Mat T N M) :
    ∃ C : Mat T N M, A.add B = .ok C ∧ C.toMatrix = A.toMatrix + B.toMatrix := by
  have h := C03_add A B
  cases hr : A.add B with
  | error e =>
    obtain ⟨i, j, hij⟩ := h.2 e hr
    simp only [ExactRing.add_eq] at hij
    cases hij
  | ok C =>
    refine ⟨C, rfl, ?_⟩
    ext i j
    have := (h.1 C).1 hr i j
    simp only [ExactRing.add_eq] at this
    exact (Except.ok.inj this).symm

/-- C04: distributivity of the computed product over the computed sum. -/
theorem C04_distrib (A B C : Mat T N N) :
    (do let S ← B.add C; A.mul S) = (do let P ← A.mul B; let Q ← A.mul C; P.add Q) ∧
    (do let S ← A.add B; S.mul C) = (do let P ← A.mul C; let Q ← B.mul C; P.add Q) := by
  constructor
  · obtain ⟨S, hS, eS⟩ := add_ring B C
    obtain ⟨X, hX, eX⟩ := mul_square A S
    obtain ⟨P, hP, eP⟩ := mul_square A B
    obtain ⟨Q, hQ, eQ⟩ := mul_square A C
    obtain ⟨Z, hZ, eZ⟩ := add_ring P Q
    rw [hS, bind_ok, hX, hP, bind_ok, hQ, bind_ok, hZ]
    congr 1
    exact toMatrix_inj (by rw [eX, eS, eZ, eP, eQ, Matrix.mul_add])
  · obtain ⟨S, hS, eS⟩ := add_ring A B
    obtain ⟨X, hX, eX⟩ := mul_square S C
    obtain ⟨P, hP, eP⟩ := mul_square A C
    obtain ⟨Q, hQ, eQ⟩ := mul_square B C
    obtain ⟨Z, hZ, eZ⟩ := add_ring P Q
    rw [hS, bind_ok, hX, hP, bind_ok, hQ, bind_ok, hZ]
    congr 1
    exact toMatrix_inj (by rw [eX, eS, eZ, eP, eQ, Matrix.add_mul])

/-- C04: `eye` is the identity matrix and neutral on both sides. -/
theorem C04_eye (A : Mat T N N) :
    ∃ I : Mat T N N, eye T N = .ok I ∧ I.toMatrix = 1 ∧ I.mul A = .ok A ∧ A.mul I = .ok A := by
  obtain ⟨I, hI, h⟩ := eye_spec (T := T) N
  have e : I.toMatrix = 1 := by
    ext i j
    rw [Matrix.one_apply]
    exact h i j
  obtain ⟨X, hX, eX⟩ := mul_square I A
  obtain ⟨Y, hY, eY⟩ := mul_square A I
  refine ⟨I, hI, e, ?_, ?_⟩
  · rw [hX]; congr 1; exact toMatrix_inj (by rw [eX, e, Matrix.one_mul])
  · rw [hY]; congr 1; exact toMatrix_inj (by rw [eY, e, Matrix.mul_one])

end ring

example : (mk22 (1 : ℚ) 2 3 4).mul (mk22 5 6 7 8) = .ok (mk22 19 22 43 50) := by
  obtain ⟨C, hC, h⟩ := C04_square_product (mk22 (1 : ℚ) 2 3 4) (mk22 5 6 7 8)
  rw [hC]; congr 1
  apply toMatrix_inj
  rw [h, toMatrix_mk22, toMatrix_mk22, toMatrix_mk22, Matrix.mul_fin_two]
  norm_num

/-! ## C05 Vector products -/

section ring
variable [CommRing T] [CNum T] [ExactRing T]

/-- C05: dot product. -/
theorem C05_dot (a : RowVec T N) (b : ColVec T N) :
    a.dot b = .ok (∑ k, a.rget k * b.vget k) := dot_spec a b

/-- C05: outer product. -/
theorem C05_outer (a : ColVec T N) (b : RowVec T N) :
    ∃ C : Mat T N N, a.outer b = .ok C ∧ ∀ i j, C.get i j = a.vget i * b.rget j := outer_spec a b

/-- C05: matrix times column vector. -/
theorem C05_mulVec (A : Mat T N N) (x : ColVec T N) :
    ∃ y : ColVec T N, A.mulVec x = .ok y ∧ y.vget = A.toMatrix.mulVec x.vget := by
  obtain ⟨y, hy, h⟩ := mulVec_spec A x le_rfl
  exact ⟨y, hy, funext fun i => h i⟩

/-- C05: row vector times matrix. -/
theorem C05_vecMul (x : RowVec T N) (A : Mat T N N) :
    ∃ y : RowVec T N, x.vecMul A = .ok y ∧ y.rget = Matrix.vecMul x.rget A.toMatrix := by
  obtain ⟨y, hy, h⟩ := vecMul_spec x A le_rfl
  refine ⟨y, hy, funext fun j => ?_⟩
  rw [h, dif_pos j.2]
  simp only [Matrix.vecMul, dotProduct, toMatrix]
  exact Finset.sum_congr rfl fun i _ => mul_comm _ _

/-- C05: `x*A` agrees with transposing, multiplying from the other side, transposing back. -/
theorem C05_vecMul_transposed (x : RowVec T 2) (A : Mat T 2 2) :
    x.vecMul A = (do
      let xt ← x.transposedRow
      let At ← A.transposed22
      let y ← At.mulVec xt
      y.transposedCol) := by
  obtain ⟨y, hy, h⟩ := C05_vecMul x A
  obtain ⟨xt, hxt, ext⟩ := transposedRow_spec x
  obtain ⟨At, hAt, eAt⟩ := transposed22_spec A
  obtain ⟨z, hz, ez⟩ := C05_mulVec At xt
  obtain ⟨w, hw, ew⟩ := transposedCol_spec z
  rw [hy, hxt, bind_ok, hAt, bind_ok, hz, bind_ok, hw]
  congr 1
  apply ext_get
  intro i j
  have hi : i = 0 := Subsingleton.elim _ _
  subst hi
  have h1 : y.rget j = w.rget j := by
    rw [ew, ez, h]
    simp only [Matrix.vecMul, Matrix.mulVec, dotProduct, toMatrix]
    exact Finset.sum_congr rfl fun k _ => by rw [eAt, ext, mul_comm]
  exact h1

end ring

example : (⟨#v[1, 2, 3]⟩ : RowVec ℚ 3).dot ⟨#v[4, 5, 6]⟩ = .ok 32 := by
  rw [C05_dot]
  congr 1
  rw [Fin.sum_univ_three]
  exact (show (1 : ℚ) * 4 + 2 * 5 + 3 * 6 = 32 by norm_num)

/-! ## C06 Memory safety of products depends on shape -/

section safety
variable [CNum T] [TotalNum T]

/-- C06: `A*B` on shape NxM stays inside its operands iff `M ≤ N`; else it reads out of bounds. -/
theorem C06_mul (hN : 0 < N) (A B : Mat T N M) :
    ((∃ C, A.mul B = .ok C) ↔ M ≤ N) ∧ (N < M → A.mul B = .error .outOfBounds) := by
  refine ⟨⟨fun ⟨C, hC⟩ => ?_, mul_safe A B⟩, mul_oob A B hN⟩
  by_contra h
  rw [mul_oob A B hN (by omega)] at hC; cases hC

/-- C06: `x*A`. -/
theorem C06_vecMul (hN : 0 < N) (x : RowVec T N) (A : Mat T N M) :
    ((∃ y, x.vecMul A = .ok y) ↔ M ≤ N) ∧ (N < M → x.vecMul A = .error .outOfBounds) := by
  refine ⟨⟨fun ⟨C, hC⟩ => ?_, vecMul_safe x A⟩, vecMul_oob x A hN⟩
  by_contra h
  rw [vecMul_oob x A hN (by omega)] at hC; cases hC

/-- C06: `A*x`. -/
theorem C06_mulVec (hN : 0 < N) (A : Mat T N M) (x : ColVec T N) :
    ((∃ y, A.mulVec x = .ok y) ↔ M ≤ N) ∧ (N < M → A.mulVec x = .error .outOfBounds) := by
  refine ⟨⟨fun ⟨C, hC⟩ => ?_, mulVec_safe A x⟩, mulVec_oob A x hN⟩
  by_contra h
  rw [mulVec_oob A x hN (by omega)] at hC; cases hC

end safety

example : (⟨#v[1, 2, 3, 4, 5, 6]⟩ : Mat ℚ 2 3).mul ⟨#v[1, 2, 3, 4, 5, 6]⟩ = .error .outOfBounds :=
  (C06_mul (by decide) _ _).2 (by decide)
example : ∃ C, (⟨#v[1, 2, 3, 4, 5, 6]⟩ : Mat ℚ 3 2).mul ⟨#v[1, 2, 3, 4, 5, 6]⟩ = .ok C :=
  (C06_mul (by decide) _ _).1.2 (by decide)

/-! ## C07 Transposition -/

/-- C07: entries are exchanged; twice is the identity (2x2). -/
theorem C07_transposed22 (A : Mat T 2 2) :
    ∃ B : Mat T 2 2, A.transposed22 = .ok B ∧ B.toMatrix = A.toMatrix.transpose ∧
      B.transposed22 = .ok A := by
  obtain ⟨B, hB, h⟩ := transposed22_spec A
  obtain ⟨C, hC, h'⟩ := transposed22_spec B
  refine ⟨B, hB, by ext i j; exact h i j, ?_⟩
  rw [hC]; congr 1
  exact ext_get fun i j => by rw [h', h]

/-- C07: row and column vectors of any length: the entries in order, and back again. -/
theorem C07_transposed_vectors [CNum T] (x : ColVec T N) :
    ∃ y : RowVec T N, x.transposedCol = .ok y ∧ y.rget = x.vget ∧ y.transposedRow = .ok x := by
  obtain ⟨y, hy, h⟩ := transposedCol_spec x
  obtain ⟨z, hz, h'⟩ := transposedRow_spec y
  refine ⟨y, hy, funext h, ?_⟩
  rw [hz]; congr 1
  apply ext_get
  intro i j
  have : j = 0 := Subsingleton.elim _ _
  subst this
  exact (h' i).trans (h i)

/-- C07: the transpose of a product is the product of the transposes in reverse order. -/
theorem C07_product [CommRing T] [CNum T] [ExactRing T] (A B : Mat T 2 2) :
    (do let P ← A.mul B; P.transposed22) =
    (do let Bt ← B.transposed22; let At ← A.transposed22; Bt.mul At) := by
  obtain ⟨P, hP, eP⟩ := mul_square A B
  obtain ⟨Pt, hPt, ePt, _⟩ := C07_transposed22 P
  obtain ⟨At, hAt, eAt, _⟩ := C07_transposed22 A
  obtain ⟨Bt, hBt, eBt, _⟩ := C07_transposed22 B
  obtain ⟨Q, hQ, eQ⟩ := mul_square Bt At
  rw [hP, bind_ok, hPt, hBt, bind_ok, hAt, bind_ok, hQ]
  congr 1
  exact toMatrix_inj (by rw [ePt, eP, eQ, eBt, eAt, Matrix.transpose_mul])

example : (mk22 (1 : ℚ) 2 3 4).transposed22 = .ok (mk22 1 3 2 4) := rfl

/-! ## C08 2x2 inversion

The claim "A*inverted(A) = inverted(A)*A = identity for every A with non-zero determinant" is FALSE
for the code (elements 1 and 2 are exchanged, matrix.hpp:500-501). -/

/-- C08, negation: an invertible matrix whose computed "inverse" is not its inverse. -/
theorem C08_inverse_fails : ∃ A C : Mat ℚ 2 2, A.toMatrix.det ≠ 0 ∧ A.inverted22 = .ok C ∧
    A.toMatrix * C.toMatrix ≠ 1 ∧ C.toMatrix * A.toMatrix ≠ 1 := by
  have hd : (mk22 (1 : ℚ) 2 3 4).det22 = -2 := by
    show (1 : ℚ) * 4 - 2 * 3 = -2
    norm_num
  refine ⟨mk22 1 2 3 4, _, ?_, inverted22_ok _ (by rw [hd]; norm_num), ?_, ?_⟩
  · rw [Matrix.det_fin_two]
    show (1 : ℚ) * 4 - 2 * 3 ≠ 0
    norm_num
  · intro h
    have := congrFun (congrFun h 0) 1
    rw [Matrix.mul_apply, Fin.sum_univ_two] at this
    simp only [hd] at this
    revert this
    show ¬ ((1 : ℚ) * (-3 / -2) + 2 * (1 / -2) = 0)
    norm_num
  · intro h
    have := congrFun (congrFun h 0) 0
    rw [Matrix.mul_apply, Fin.sum_univ_two] at this
    simp only [hd] at this
    revert this
    show ¬ ((4 / -2 : ℚ) * 1 + (-3 / -2) * 3 = 1)
    norm_num

section field
variable [Field T] [CNum T] [ExactField T]

/-- C08: what `inverted` computes: the transpose of the inverse; and it divides by zero exactly
for singular matrices. -/
theorem C08_is_transpose_of_inverse (A : Mat T 2 2) :
    (A.toMatrix.det ≠ 0 → ∃ C : Mat T 2 2, A.inverted22 = .ok C ∧
      C.toMatrix.transpose * A.toMatrix = 1 ∧ A.toMatrix * C.toMatrix.transpose = 1) ∧
    (A.toMatrix.det = 0 → A.inverted22 = .error .divByZero) := by
  have hd : A.toMatrix.det = A.det22 := by rw [Matrix.det_fin_two]; rfl
  rw [hd]
  refine ⟨fun h => ⟨_, inverted22_ok A h, ?_, ?_⟩, inverted22_div0 A⟩
  · rw [toMatrix_mk22, toMatrix22 A, transpose22, Matrix.mul_fin_two,
      Matrix.one_fin_two]
    congr! <;> field_simp <;> unfold det22 <;> ring
  · rw [toMatrix_mk22, toMatrix22 A, transpose22, Matrix.mul_fin_two,
      Matrix.one_fin_two]
    congr! <;> field_simp <;> unfold det22 <;> ring

/-- C08 (partial: symmetric matrices only; missing: all invertible matrices, for which the claim is
false): the result is a two-sided inverse, and *only* for symmetric matrices. -/
theorem C08_inverse_partial (A : Mat T 2 2) (h : A.toMatrix.det ≠ 0) :
    ∃ C : Mat T 2 2, A.inverted22 = .ok C ∧
      ((A.toMatrix * C.toMatrix = 1 ∧ C.toMatrix * A.toMatrix = 1) ↔
        A.toMatrix.transpose = A.toMatrix) := by
  obtain ⟨C, hC, h1, h2⟩ := (C08_is_transpose_of_inverse A).1 h
  refine ⟨C, hC, ?_⟩
  have hCt : C.toMatrix.transpose = A.toMatrix⁻¹ := (Matrix.inv_eq_left_inv h1).symm
  constructor
  · rintro ⟨h3, -⟩
    have hC' : C.toMatrix = A.toMatrix⁻¹ := (Matrix.inv_eq_right_inv h3).symm
    have hsym : (A.toMatrix⁻¹).transpose = A.toMatrix⁻¹ := by rw [← hC', hCt, hC']
    have := congrArg (fun X => X⁻¹) hsym
    simp only [Matrix.transpose_nonsing_inv] at this
    rwa [Matrix.nonsing_inv_nonsing_inv _ (by rw [Matrix.det_transpose]; exact isUnit_iff_ne_zero.2 h),
      Matrix.nonsing_inv_nonsing_inv _ (isUnit_iff_ne_zero.2 h)] at this
  · intro hs
    have hC' : C.toMatrix = A.toMatrix⁻¹ := by
      have := congrArg Matrix.transpose hCt
      rwa [Matrix.transpose_transpose, Matrix.transpose_nonsing_inv, hs] at this
    rw [hC']
    exact ⟨Matrix.mul_nonsing_inv _ (isUnit_iff_ne_zero.2 h),
      Matrix.nonsing_inv_mul _ (isUnit_iff_ne_zero.2 h)⟩

/-! ## C09 Scalar inversion is guarded -/

/-- C09: reciprocal, or zero for zero; never a division by zero. -/
theorem C09_inverted_scalar (v : T) :
    ∃ w, invertedS v = .ok w ∧ (v ≠ 0 → v * w = 1) ∧ (v = 0 → w = 0) := by
  unfold invertedS
  by_cases h : v = 0
  · have : ¬ CNum.isNonZero v = true := by rw [ExactField.isNonZero_iff]; simpa using h
    rw [if_neg this]
    exact ⟨0, by rw [ExactRing.zero_eq], fun h' => absurd h h', fun _ => rfl⟩
  · rw [if_pos ((ExactField.isNonZero_iff v).2 h)]
    exact ⟨1 / v, by rw [ExactRing.one_eq, ExactField.div_eq _ _ h],
      fun _ => by field_simp, fun h' => absurd h' h⟩

end field

example : (mk22 (2 : ℚ) 1 1 3).toMatrix.det ≠ 0 ∧
    (mk22 (2 : ℚ) 1 1 3).toMatrix.transpose = (mk22 (2 : ℚ) 1 1 3).toMatrix := by
  constructor
  · rw [Matrix.det_fin_two]
    show (2 : ℚ) * 3 - 1 * 1 ≠ 0
    norm_num
  · ext i j
    fin_cases i <;> fin_cases j <;> rfl
example : invertedS (4 : ℚ) = .ok (1 / 4) := rfl

end Verif
