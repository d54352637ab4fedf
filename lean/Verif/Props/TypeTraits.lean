import Mathlib.Analysis.Complex.Basic
import Verif.Model.TypeTraits

/-
Property C145: the type traits and complex numbers of the AVR replacement of the standard library.
-/

namespace Verif
open TypeTraits

/-! ## C145 Type traits and complex numbers on AVR -/

/-- The object type that a type is or refers to. -/
def TypeTraits.Ty.target : Ty → ObjTy
  | .obj o => o
  | .lref o => o
  | .rref o => o

/-- C145: `remove_reference` yields the type referred to, `remove_const`, `remove_volatile` and `remove_cv` drop the
qualifications they are named for and keep everything else; of a reference they drop nothing, so that the bare type is
found by removing the reference first and never by removing it last. -/
theorem C145_removes (t : Ty) (o : ObjTy) :
    remove_reference t = .obj t.target ∧
    remove_const (.obj o) = .obj { o with isConst := false } ∧
    remove_volatile (.obj o) = .obj { o with isVolatile := false } ∧
    remove_cv (.obj o) = .obj ⟨false, false, o.base⟩ ∧
    (remove_cv (.lref o) = .lref o ∧ remove_cv (.rref o) = .rref o) ∧
    remove_cv (remove_reference t) = .obj ⟨false, false, t.target.base⟩ ∧
    (remove_reference (remove_cv t) = remove_cv (remove_reference t) ↔
      (∃ o, t = .obj o) ∨ (t.target.isConst = false ∧ t.target.isVolatile = false)) := by
  obtain ⟨c, v, b⟩ := o
  refine ⟨by cases t <;> rfl, by cases c <;> rfl, by cases v <;> rfl, by cases c <;> cases v <;> rfl, ⟨rfl, rfl⟩, ?_, ?_⟩
  · obtain ⟨c, v, b⟩ | ⟨c, v, b⟩ | ⟨c, v, b⟩ := t <;> cases c <;> cases v <;> rfl
  · obtain ⟨c, v, b⟩ | ⟨c, v, b⟩ | ⟨c, v, b⟩ := t <;> cases c <;> cases v <;>
      simp [remove_reference, remove_cv, remove_const, remove_volatile, Ty.target]

/-- C145: `is_same_v` decides equality, `enable_if` has a type iff its condition holds, and an `integral_constant` is its
value however it is read. -/
theorem C145_selects (t u : Ty) (b : Bool) {α : Type} (v : α) (c : IntegralConstant α v) :
    (is_same_v t u = true ↔ t = u) ∧ (enable_if b t = some u ↔ b = true ∧ t = u) ∧
    c.value = v ∧ c.convert = v ∧ c.call = v := by
  refine ⟨?_, ?_, rfl, rfl, rfl⟩
  · unfold is_same_v
    split <;> simp_all
  · cases b <;> simp [enable_if]

/-- A number of the replacement as a complex number. -/
def TypeTraits.Complex.toC (z : TypeTraits.Complex ℝ) : ℂ := ⟨z.real, z.imag⟩

/-- An operand as a complex number. -/
def TypeTraits.Complex.Operand.toC : TypeTraits.Complex.Operand ℝ → ℂ
  | .scalar x => (x : ℂ)
  | .cplx z => z.toC

/-- The operators as those of the complex numbers. -/
noncomputable def TypeTraits.Complex.Op.onC : TypeTraits.Complex.Op → ℂ → ℂ → ℂ
  | .add => (· + ·)
  | .sub => (· - ·)
  | .mul => (· * ·)
  | .div => (· / ·)

/-- The compound assignments somebody supplies are right. -/
structure TypeTraits.Complex.Compound.Right (c : TypeTraits.Complex.Compound ℝ) : Prop where
  addS z x : (c.addS z x).toC = z.toC + x
  subS z x : (c.subS z x).toC = z.toC - x
  mulS z x : (c.mulS z x).toC = z.toC * x
  divS z x : (c.divS z x).toC = z.toC / x
  add z w : (c.add z w).toC = z.toC + w.toC
  sub z w : (c.sub z w).toC = z.toC - w.toC
  mul z w : (c.mul z w).toC = z.toC * w.toC
  div z w : (c.div z w).toC = z.toC / w.toC

open TypeTraits.Complex in
/-- C145: parts are read as they were given, in construction, conversion and setting; over the reals a number is
determined by the complex number it stands for. -/
theorem C145_complex {T X : Type} (zero re im : T) (conv : X → T) (w : TypeTraits.Complex X) (z : TypeTraits.Complex T)
    (a b : TypeTraits.Complex ℝ) :
    ((make re im).real = re ∧ (make re im).imag = im) ∧
    ((ofReal zero re).real = re ∧ (ofReal zero re).imag = zero) ∧
    ((convert conv w).real = conv w.real ∧ (convert conv w).imag = conv w.imag) ∧
    ((z.setReal re).real = re ∧ (z.setReal re).imag = z.imag) ∧
    ((z.setImag im).real = z.real ∧ (z.setImag im).imag = im) ∧
    (a.toC = b.toC ↔ a = b) := by
  refine ⟨⟨rfl, rfl⟩, ⟨rfl, rfl⟩, ⟨rfl, rfl⟩, ⟨rfl, rfl⟩, ⟨rfl, rfl⟩, ?_⟩
  obtain ⟨a1, a2⟩ := a
  obtain ⟨b1, b2⟩ := b
  simp [toC, real, imag, _root_.Complex.ext_iff]

open TypeTraits.Complex in
/-- C145: with right compound assignments, whoever supplies them, every binary operator is that of the complex numbers,
for each combination of scalar and complex operands that it accepts. -/
theorem C145_binary {c : Compound ℝ} (hc : c.Right) (op : Op) (lhs rhs : Operand ℝ) :
    (binary c 0 op lhs rhs = none ↔ ∃ x y, lhs = .scalar x ∧ rhs = .scalar y) ∧
    ∀ z, binary c 0 op lhs rhs = some z → z.toC = op.onC lhs.toC rhs.toC := by
  have h0 : ∀ x : ℝ, (ofReal 0 x).toC = (x : ℂ) := fun x => rfl
  constructor
  · cases lhs <;> cases rhs <;> cases op <;> simp [binary]
  · intro z hz
    cases lhs <;> cases rhs <;> cases op <;> simp only [binary, reduceCtorEq, Option.some.injEq] at hz <;> subst hz <;>
      simp only [hc.addS, hc.subS, hc.mulS, hc.divS, hc.add, hc.sub, hc.mul, hc.div, ofOperand, h0, Op.onC, Operand.toC]

open TypeTraits.Complex in
/-- C145: **but** an assignment cannot be executed: although it has stored both parts correctly, it ends without its
`return`, which is undefined behaviour. -/
theorem C145_assignment_wrong {T X : Type} (zero x : T) (conv : X → T) (z : TypeTraits.Complex T)
    (w : TypeTraits.Complex X) :
    (z.assignScalar zero x).1 = ofReal zero x ∧ (assign conv z w).1 = convert conv w ∧
    (∀ r, (z.assignScalar zero x).2 ≠ .returns r) ∧ ∀ r, (assign conv z w).2 ≠ .returns r := by
  refine ⟨rfl, rfl, ?_, ?_⟩ <;> intro r h
  · unfold assignScalar at h
    cases h
  · unfold assign at h
    cases h

/-- `const volatile T &`: removing in the wrong order leaves the qualification. -/
example : remove_reference (remove_cv (.lref ⟨true, true, 0⟩)) ≠ remove_cv (remove_reference (.lref ⟨true, true, 0⟩)) := by
  decide

open TypeTraits.Complex in
/-- Right compound assignments exist. -/
example : ∃ c : Compound ℝ, c.Right := by
  let f (g : ℂ) : TypeTraits.Complex ℝ := ⟨g.re, g.im⟩
  exact ⟨⟨fun z x => f (z.toC + x), fun z x => f (z.toC - x), fun z x => f (z.toC * x), fun z x => f (z.toC / x),
    fun z w => f (z.toC + w.toC), fun z w => f (z.toC - w.toC), fun z w => f (z.toC * w.toC),
    fun z w => f (z.toC / w.toC)⟩, by constructor <;> intros <;> rfl⟩

end Verif
