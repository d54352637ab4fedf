import Verif.Lemmas.Ieee
import Verif.Lemmas.Kalman
import Verif.Model.DesktopExamples
import Verif.Props.OutputText
import Verif.Spec.KalmanSim

/- Property C139: what example/desktop/matrix.e.cpp writes. -/

namespace Verif
open DesktopExamples Output Ieee Matrix
open scoped Matrix

/-- A matrix as text: the rows, a space before each element, a newline after each row. -/
def grid {T : Type} {n m : ℕ} (elem : T → Text) (M : Matrix (Fin n) (Fin m) T) : Text :=
  (List.ofFn fun i => (List.ofFn fun j => ' ' :: elem (M i j)).flatten ++ ['\n']).flatten

/-- What precedes the inverse. -/
def matrixHead (elem : ℝ → Text) (X : Matrix (Fin 2) (Fin 1) ℝ) (Y : Matrix (Fin 1) (Fin 2) ℝ) (A : Matrix (Fin 2) (Fin 2) ℝ) :
    Text :=
  ["\nx =\n".toList, grid elem X, "\nx + x =\n".toList, grid elem (X + X), "\nx * 2 =\n".toList, grid elem ((2 : ℝ) • X),
    "\n2 * x =\n".toList, grid elem ((2 : ℝ) • X), "\ntransposed(x) =\n".toList, grid elem Xᵀ,
    "\ny =\n".toList, grid elem Y, "\nx * y =\n".toList, grid elem (X * Y), "\ny * x =\n".toList, grid elem (Y * X),
    "\nA =\n".toList, grid elem A, "\nA + A =\n".toList, grid elem (A + A), "\nA * 2 =\n".toList, grid elem ((2 : ℝ) • A),
    "\n2 * A =\n".toList, grid elem ((2 : ℝ) • A), "\nA * x =\n ".toList, grid elem (A * X), "\ny * A =\n ".toList,
    grid elem (Y * A), "\ntransposed(A) =\n".toList, grid elem Aᵀ].flatten

/-- What matrix.e.cpp is to write, for matrices `X`, `Y` and `A`, with `B` as the inverse of `A`. -/
def matrixText (elem : ℝ → Text) (X : Matrix (Fin 2) (Fin 1) ℝ) (Y : Matrix (Fin 1) (Fin 2) ℝ) (A B : Matrix (Fin 2) (Fin 2) ℝ) :
    Text :=
  matrixHead elem X Y A ++ "\ninverted(A) =\n".toList ++ grid elem B ++
    ("\nr =\n".toList ++ grid elem (A * X) ++ "\neye<3,int>() =\n 1 0 0\n 0 1 0\n 0 0 1\n".toList)

namespace DesktopExamples

theorem matrix_grid {T : Type} {n m : ℕ} (elem : T → Text) (A : Mat T n m) : matrix elem A = .ok (grid elem A.toMatrix) :=
  matrix_text elem A

theorem grid_one (elem : ℝ → Text) (M : Matrix (Fin 1) (Fin 1) ℝ) : grid elem M = [' '] ++ elem (M 0 0) ++ ['\n'] := by
  simp [grid]

theorem eye_16 : (do matrix (fun i : CInt 16 => integer i.val) (← Mat.eye (CInt 16) 3)) =
    .ok " 1 0 0\n 0 1 0\n 0 0 1\n".toList := by
  decide +kernel

theorem eye_32 : (do matrix (fun i : CInt 32 => integer i.val) (← Mat.eye (CInt 32) 3)) =
    .ok " 1 0 0\n 0 1 0\n 0 0 1\n".toList := by
  decide +kernel

theorem eye_int (p : Platform) : ∃ I, Mat.eye (CInt p.intBits) 3 = .ok I ∧
    matrix (fun i : CInt p.intBits => integer i.val) I = .ok " 1 0 0\n 0 1 0\n 0 0 1\n".toList := by
  rw [← bind_eq_ok]
  obtain ⟨b, n, rfl | rfl⟩ := p
  · exact eye_16
  · exact eye_32

end DesktopExamples

/-- **C139** In exact arithmetic, for all `x`, `y` and invertible `A`, matrix.e.cpp writes the matrices its labels denote, except
that it writes the transpose of the inverse for the inverse. -/
theorem C139_text (elem : ℝ → Text) (p : Platform) (x : ColVec ℝ 2) (y : RowVec ℝ 2) (A : Mat ℝ 2 2) (h : A.toMatrix.det ≠ 0) :
    matrixMain elem p x y A = .ok (matrixText elem x.toMatrix y.toMatrix A.toMatrix (A.toMatrix⁻¹)ᵀ) := by
  have h2 : (CLit.lit 2 : Res ℝ) = .ok 2 := congrArg Except.ok (Int.cast_ofNat 2)
  obtain ⟨a1, h1, e1⟩ := Mat.add_mat x x
  obtain ⟨a3, h3, e3⟩ := Mat.mulS_mat x (2 : ℝ)
  obtain ⟨a4, h4, e4⟩ := Mat.transposedCol_spec x
  have e4 : a4.toMatrix = x.toMatrixᵀ := by
    ext i j
    have : i = 0 := Subsingleton.elim _ _
    subst this
    exact e4 j
  obtain ⟨a5, h5, e5⟩ := Mat.outer_mat x y
  have h6 := Mat.dot_mat y x
  obtain ⟨a7, h7, e7⟩ := Mat.add_mat A A
  obtain ⟨a8, h8, e8⟩ := Mat.mulS_mat A (2 : ℝ)
  obtain ⟨a9, h9, e9⟩ := Mat.mulVec_mat A x
  obtain ⟨b1, g1, f1⟩ := Mat.vecMul_mat y A
  obtain ⟨b2, g2, f2⟩ := Mat.transposed22_mat A
  obtain ⟨b3, g3, f3⟩ := Mat.inverted22_mat A h
  obtain ⟨I, g4, f4⟩ := eye_int p
  unfold matrixMain Mat.sMul
  rw [h2, bind_ok, matrix_grid, bind_ok, h1, bind_ok, matrix_grid, bind_ok,
    h3, bind_ok, matrix_grid, bind_ok, bind_ok, matrix_grid, bind_ok,
    h4, bind_ok, matrix_grid, bind_ok, matrix_grid, bind_ok, h5, bind_ok, matrix_grid, bind_ok, h6, bind_ok, matrix_grid, bind_ok,
    h7, bind_ok, matrix_grid, bind_ok, h8, bind_ok, matrix_grid, bind_ok, bind_ok, matrix_grid, bind_ok,
    h9, bind_ok, matrix_grid, bind_ok,
    g1, bind_ok, matrix_grid, bind_ok, g2, bind_ok, matrix_grid, bind_ok, g3, bind_ok, matrix_grid,
    bind_ok, bind_ok, matrix_grid, bind_ok,
    g4, bind_ok, f4, bind_ok]
  rw [e1, e3, e4, e5, e7, e8, e9, f1, f2, f3]
  unfold matrixText matrixHead
  rw [grid_one]
  simp only [List.flatten_cons, List.flatten_nil, List.append_assoc, List.append_nil]
  rfl

/-- **C139** Thus the text is as it should be if `A` is symmetric.  (That it is for every `A` is what is missing: it is not, see
`C139_text_iff` and `C139_program_wrong`.) -/
theorem C139_text_partial (elem : ℝ → Text) (p : Platform) (x : ColVec ℝ 2) (y : RowVec ℝ 2) (A : Mat ℝ 2 2)
    (h : A.toMatrix.det ≠ 0) (hs : A.toMatrix.IsSymm) :
    matrixMain elem p x y A = .ok (matrixText elem x.toMatrix y.toMatrix A.toMatrix A.toMatrix⁻¹) := by
  rw [C139_text elem p x y A h, Matrix.transpose_nonsing_inv, hs]

/-- **C139** ... and, if different elements are written as different words, only then. -/
theorem C139_text_iff (elem : ℝ → Text) (he : ∀ v, Word (elem v)) (hi : Function.Injective elem) (p : Platform) (x : ColVec ℝ 2)
    (y : RowVec ℝ 2) (A : Mat ℝ 2 2) (h : A.toMatrix.det ≠ 0) :
    matrixMain elem p x y A = .ok (matrixText elem x.toMatrix y.toMatrix A.toMatrix A.toMatrix⁻¹) ↔ A.toMatrix.IsSymm := by
  refine ⟨fun e => ?_, C139_text_partial elem p x y A h⟩
  rw [C139_text elem p x y A h] at e
  have e := Except.ok.inj e
  unfold matrixText at e
  have e := List.append_cancel_left (List.append_cancel_right e)
  obtain ⟨b3, -, f3⟩ := Mat.inverted22_mat A h
  obtain ⟨b4, -, f4⟩ := Mat.transposed22_mat b3
  have f5 : b4.toMatrix = A.toMatrix⁻¹ := by rw [f4, f3, Matrix.transpose_transpose]
  rw [← f3, ← f5, ← Except.ok.injEq (ε := Err), ← matrix_grid, ← matrix_grid] at e
  obtain ⟨-, -, k⟩ := C121_matrix_determined elem he b3 b4 e
  have k : b3.toMatrix = b4.toMatrix := by
    ext i j
    exact hi (k i j i.2 i.2 j.2 j.2)
  rw [f3, f5] at k
  have hu : IsUnit A.toMatrix.det := isUnit_iff_ne_zero.2 h
  have k2 : (A.toMatrix⁻¹)⁻¹ᵀ = (A.toMatrix⁻¹)⁻¹ := by rw [Matrix.transpose_nonsing_inv, k]
  rwa [Matrix.nonsing_inv_nonsing_inv _ hu] at k2

/-- **C139** If `A` has no inverse, the program divides by zero (in floating point it would write infinities and NaNs). -/
theorem C139_singular (elem : ℝ → Text) (p : Platform) (x : ColVec ℝ 2) (y : RowVec ℝ 2) (A : Mat ℝ 2 2)
    (h : A.toMatrix.det = 0) : matrixMain elem p x y A = .error .divByZero := by
  have h2 : (CLit.lit 2 : Res ℝ) = .ok 2 := congrArg Except.ok (Int.cast_ofNat 2)
  obtain ⟨a1, h1, -⟩ := Mat.add_mat x x
  obtain ⟨a3, h3, -⟩ := Mat.mulS_mat x (2 : ℝ)
  obtain ⟨a4, h4, -⟩ := Mat.transposedCol_spec x
  obtain ⟨a5, h5, -⟩ := Mat.outer_mat x y
  have h6 := Mat.dot_mat y x
  obtain ⟨a7, h7, -⟩ := Mat.add_mat A A
  obtain ⟨a8, h8, -⟩ := Mat.mulS_mat A (2 : ℝ)
  obtain ⟨a9, h9, -⟩ := Mat.mulVec_mat A x
  obtain ⟨b1, g1, -⟩ := Mat.vecMul_mat y A
  obtain ⟨b2, g2, -⟩ := Mat.transposed22_mat A
  unfold matrixMain Mat.sMul
  rw [h2, bind_ok, matrix_grid, bind_ok, h1, bind_ok, matrix_grid, bind_ok,
    h3, bind_ok, matrix_grid, bind_ok, bind_ok, matrix_grid, bind_ok,
    h4, bind_ok, matrix_grid, bind_ok, matrix_grid, bind_ok, h5, bind_ok, matrix_grid, bind_ok, h6, bind_ok, matrix_grid, bind_ok,
    h7, bind_ok, matrix_grid, bind_ok, h8, bind_ok, matrix_grid, bind_ok, bind_ok, matrix_grid, bind_ok,
    h9, bind_ok, matrix_grid, bind_ok,
    g1, bind_ok, matrix_grid, bind_ok, g2, bind_ok, matrix_grid, bind_ok, Mat.inverted22_err A h]
  rfl

/-- Matrices that meet the hypotheses: that of the program, which is not symmetric, a symmetric one, and a singular one. -/
example : (Mat.mk22 1 2 3 4 : Mat ℝ 2 2).toMatrix.det ≠ 0 ∧ ¬ (Mat.mk22 1 2 3 4 : Mat ℝ 2 2).toMatrix.IsSymm ∧
    (Mat.mk22 1 2 2 5 : Mat ℝ 2 2).toMatrix.det ≠ 0 ∧ (Mat.mk22 1 2 2 5 : Mat ℝ 2 2).toMatrix.IsSymm ∧
    (Mat.mk22 1 2 2 4 : Mat ℝ 2 2).toMatrix.det = 0 := by
  simp only [Mat.toMatrix_mk22, Matrix.det_fin_two_of]
  refine ⟨by norm_num, fun h => ?_, by norm_num, ?_, by norm_num⟩
  · have := congrFun (congrFun h 0) 1
    norm_num at this
  · ext i j
    fin_cases i <;> fin_cases j <;> rfl

/-- What the program should write with `b` for the inverse. -/
def programText (b : String) : Text :=
  "\nx =\n".toList ++ " 1\n 2\n".toList ++ "\nx + x =\n".toList ++ " 2\n 4\n".toList ++ "\nx * 2 =\n".toList ++
    " 2\n 4\n".toList ++ "\n2 * x =\n".toList ++ " 2\n 4\n".toList ++ "\ntransposed(x) =\n".toList ++ " 1 2\n".toList ++
    "\ny =\n".toList ++ " 1 2\n".toList ++ "\nx * y =\n".toList ++ " 1 2\n 2 4\n".toList ++ "\ny * x =\n ".toList ++
    "5".toList ++ "\n".toList ++ "\nA =\n".toList ++ " 1 2\n 3 4\n".toList ++ "\nA + A =\n".toList ++
    " 2 4\n 6 8\n".toList ++ "\nA * 2 =\n".toList ++ " 2 4\n 6 8\n".toList ++ "\n2 * A =\n".toList ++
    " 2 4\n 6 8\n".toList ++ "\nA * x =\n ".toList ++ " 5\n 11\n".toList ++ "\ny * A =\n ".toList ++ " 7 10\n".toList ++
    "\ntransposed(A) =\n".toList ++ " 1 3\n 2 4\n".toList ++ "\ninverted(A) =\n".toList ++ b.toList ++
    "\nr =\n".toList ++ " 5\n 11\n".toList ++ "\neye<3,int>() =\n".toList ++ " 1 0 0\n 0 1 0\n 0 0 1\n".toList

namespace DesktopExamples

theorem matrixMain_of {T : Type} [CNum T] [CLit T] {elem : T → Text} {p : Platform} {x : ColVec T 2} {y : RowVec T 2}
    {A : Mat T 2 2} {two : T} {a1 a3 : ColVec T 2} {a4 : RowVec T 2} {a5 : Mat T 2 2} {a6 : T} {a7 a8 : Mat T 2 2}
    {a9 : ColVec T 2} {b1 : RowVec T 2} {b2 b3 : Mat T 2 2} {t0 t1 t3 t4 t5 t6 t7 t8 t9 t10 u1 u2 u3 : Text}
    (h2 : (CLit.lit 2 : Res T) = .ok two) (h1 : Mat.add x x = .ok a1) (h3 : Mat.mulS x two = .ok a3)
    (h4 : x.transposedCol = .ok a4) (h5 : x.outer y = .ok a5) (h6 : y.dot x = .ok a6) (h7 : A.add A = .ok a7)
    (h8 : A.mulS two = .ok a8) (h9 : A.mulVec x = .ok a9) (g1 : y.vecMul A = .ok b1) (g2 : A.transposed22 = .ok b2)
    (g3 : A.inverted22 = .ok b3) (k0 : matrix elem x = .ok t0) (k1 : matrix elem a1 = .ok t1) (k3 : matrix elem a3 = .ok t3)
    (k4 : matrix elem a4 = .ok t4) (k5 : matrix elem y = .ok t5) (k6 : matrix elem a5 = .ok t6) (k7 : matrix elem A = .ok t7)
    (k8 : matrix elem a7 = .ok t8) (k9 : matrix elem a8 = .ok t9) (k10 : matrix elem a9 = .ok t10)
    (l1 : matrix elem b1 = .ok u1) (l2 : matrix elem b2 = .ok u2) (l3 : matrix elem b3 = .ok u3) :
    matrixMain elem p x y A = .ok ("\nx =\n".toList ++ t0 ++ "\nx + x =\n".toList ++ t1 ++ "\nx * 2 =\n".toList ++ t3 ++
      "\n2 * x =\n".toList ++ t3 ++ "\ntransposed(x) =\n".toList ++ t4 ++ "\ny =\n".toList ++ t5 ++ "\nx * y =\n".toList ++ t6 ++
      "\ny * x =\n ".toList ++ elem a6 ++ "\n".toList ++ "\nA =\n".toList ++ t7 ++ "\nA + A =\n".toList ++ t8 ++
      "\nA * 2 =\n".toList ++ t9 ++ "\n2 * A =\n".toList ++ t9 ++ "\nA * x =\n ".toList ++ t10 ++ "\ny * A =\n ".toList ++ u1 ++
      "\ntransposed(A) =\n".toList ++ u2 ++ "\ninverted(A) =\n".toList ++ u3 ++ "\nr =\n".toList ++ t10 ++
      "\neye<3,int>() =\n".toList ++ " 1 0 0\n 0 1 0\n 0 0 1\n".toList) := by
  obtain ⟨I, g4, f4⟩ := eye_int p
  unfold matrixMain Mat.sMul
  rw [h2, bind_ok, k0, bind_ok, h1, bind_ok, k1, bind_ok, h3, bind_ok, k3, bind_ok, bind_ok, k3, bind_ok, h4, bind_ok, k4, bind_ok,
    k5, bind_ok, h5, bind_ok, k6, bind_ok, h6, bind_ok, k7, bind_ok, h7, bind_ok, k8, bind_ok, h8, bind_ok, k9, bind_ok, bind_ok, k9,
    bind_ok, h9, bind_ok, k10, bind_ok, g1, bind_ok, l1, bind_ok, g2, bind_ok, l2, bind_ok, g3, bind_ok, l3, bind_ok, bind_ok, k10,
    bind_ok, g4, bind_ok, f4, bind_ok]

instance {T : Type} [DecidableEq T] {n m : ℕ} : DecidableEq (Mat T n m) := fun a b =>
  decidable_of_iff (a.storage = b.storage) ⟨fun h => by cases a; cases b; cases h; rfl, fun h => by rw [h]⟩

/-- Numbers of the program. -/
def F (n e : ℤ) (h : |n| < 2 ^ binary64.p ∧ binary64.q ≤ e ∧ |(n : ℚ) * 2 ^ e| ≤ binary64.max := by decide +kernel) :
    Flt binary64 := .lit binary64 n e h

def progX : ColVec (Flt binary64) 2 := ⟨#v[F 1 0, F 2 0]⟩
def progY : RowVec (Flt binary64) 2 := ⟨#v[F 1 0, F 2 0]⟩
def progA : Mat (Flt binary64) 2 2 := ⟨#v[F 1 0, F 2 0, F 3 0, F 4 0]⟩

theorem program_eq (p : Platform) : matrixProgram p = matrixMain float p progX progY progA := by
  have h1 : Flt.ofRat binary64 1 = .ok (F 1 0) := by decide +kernel
  have h2 : Flt.ofRat binary64 2 = .ok (F 2 0) := by decide +kernel
  have h3 : Flt.ofRat binary64 3 = .ok (F 3 0) := by decide +kernel
  have h4 : Flt.ofRat binary64 4 = .ok (F 4 0) := by decide +kernel
  unfold matrixProgram
  rw [h1, bind_ok, h2, bind_ok, h3, bind_ok, h4, bind_ok]
  rfl

theorem prog_lit : (CLit.lit 2 : Res (Flt binary64)) = .ok (F 2 0) := by decide +kernel
theorem prog_xx : Mat.add progX progX = .ok ⟨#v[F 2 0, F 4 0]⟩ := by decide +kernel
theorem prog_x2 : Mat.mulS progX (F 2 0) = .ok ⟨#v[F 2 0, F 4 0]⟩ := by decide +kernel
theorem prog_xt : progX.transposedCol = .ok progY := by decide +kernel
theorem prog_xy : progX.outer progY = .ok ⟨#v[F 1 0, F 2 0, F 2 0, F 4 0]⟩ := by decide +kernel
theorem prog_yx : progY.dot progX = .ok (F 5 0) := by decide +kernel
theorem prog_aa : progA.add progA = .ok ⟨#v[F 2 0, F 4 0, F 6 0, F 8 0]⟩ := by decide +kernel
theorem prog_a2 : progA.mulS (F 2 0) = .ok ⟨#v[F 2 0, F 4 0, F 6 0, F 8 0]⟩ := by decide +kernel
theorem prog_ax : progA.mulVec progX = .ok ⟨#v[F 5 0, F 11 0]⟩ := by decide +kernel
theorem prog_ya : progY.vecMul progA = .ok ⟨#v[F 7 0, F 10 0]⟩ := by decide +kernel
theorem prog_at : progA.transposed22 = .ok ⟨#v[F 1 0, F 3 0, F 2 0, F 4 0]⟩ := by decide +kernel
theorem prog_ai : progA.inverted22 = .ok ⟨#v[F (-2) 0, F 3 (-1), F 1 0, F (-1) (-1)]⟩ := by decide +kernel

theorem text_x : matrix float progX = .ok " 1\n 2\n".toList := by decide +kernel
theorem text_xx : matrix float (⟨#v[F 2 0, F 4 0]⟩ : Mat _ 2 1) = .ok " 2\n 4\n".toList := by decide +kernel
theorem text_y : matrix float progY = .ok " 1 2\n".toList := by decide +kernel
theorem text_xy : matrix float (⟨#v[F 1 0, F 2 0, F 2 0, F 4 0]⟩ : Mat _ 2 2) = .ok " 1 2\n 2 4\n".toList := by decide +kernel
theorem text_yx : float (F 5 0) = "5".toList := by decide +kernel
theorem text_a : matrix float progA = .ok " 1 2\n 3 4\n".toList := by decide +kernel
theorem text_aa : matrix float (⟨#v[F 2 0, F 4 0, F 6 0, F 8 0]⟩ : Mat _ 2 2) = .ok " 2 4\n 6 8\n".toList := by decide +kernel
theorem text_ax : matrix float (⟨#v[F 5 0, F 11 0]⟩ : Mat _ 2 1) = .ok " 5\n 11\n".toList := by decide +kernel
theorem text_ya : matrix float (⟨#v[F 7 0, F 10 0]⟩ : Mat _ 1 2) = .ok " 7 10\n".toList := by decide +kernel
theorem text_at : matrix float (⟨#v[F 1 0, F 3 0, F 2 0, F 4 0]⟩ : Mat _ 2 2) = .ok " 1 3\n 2 4\n".toList := by decide +kernel
theorem text_ai : matrix float (⟨#v[F (-2) 0, F 3 (-1), F 1 0, F (-1) (-1)]⟩ : Mat _ 2 2) = .ok " -2 1.5\n 1 -0.5\n".toList := by
  decide +kernel

end DesktopExamples

/-- **C139** What the program writes, in binary64 and whatever the width of `int`. -/
theorem C139_program (p : Platform) : matrixProgram p = .ok (programText " -2 1.5\n 1 -0.5\n") := by
  rw [program_eq, matrixMain_of prog_lit prog_xx prog_x2 prog_xt prog_xy prog_yx prog_aa prog_a2 prog_ax prog_ya prog_at prog_ai
    text_x text_xx text_xx text_y text_y text_xy text_a text_aa text_aa text_ax text_ya text_at text_ai, text_yx]
  rfl

/-- **C139** This is not the text with the inverse of the matrix. -/
theorem C139_program_wrong (p : Platform) :
    (!![1, 2; 3, 4] : Matrix (Fin 2) (Fin 2) ℝ)⁻¹ = !![-2, 1; 1.5, -0.5] ∧
      matrixProgram p ≠ .ok (programText " -2 1\n 1.5 -0.5\n") := by
  constructor
  · apply Matrix.inv_eq_left_inv
    rw [Matrix.mul_fin_two, Matrix.one_fin_two]
    norm_num
  · rw [C139_program]
    intro h
    have := List.append_cancel_left (List.append_cancel_right (List.append_cancel_right
      (List.append_cancel_right (List.append_cancel_right (Except.ok.inj h)))))
    revert this
    decide +kernel

end Verif
