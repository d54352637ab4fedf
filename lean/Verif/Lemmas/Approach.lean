import Mathlib.Topology.Algebra.Order.Field
import Mathlib.Topology.Order.Basic
import Mathlib.Topology.Instances.Real.Lemmas
import Mathlib.Analysis.Normed.Field.Lemmas
import Verif.Spec.Accurate
import Verif.Spec.Num
import Verif.Lemmas.Loop
import Verif.Model.Kalman

/-
Arithmetics whose accuracy increases without bound: where the program in exact arithmetic has a result, those in the arithmetics have one
eventually, and their results tend to it.
-/

namespace Verif
open Filter Topology

variable {ι : Type*} {l : Filter ι}

/-- The results of `x` exist eventually, and are related to that of `y`. -/
def Appr (l : Filter ι) {α : ι → Type} {β : Type} (R : (∀ i, α i) → β → Prop) (x : ∀ i, Res (α i)) (y : Res β) : Prop :=
  ∀ b, y = .ok b → ∃ a, (∀ᶠ i in l, x i = .ok (a i)) ∧ R a b

namespace Appr
variable {α γ : ι → Type} {β δ : Type} {R : (∀ i, α i) → β → Prop} {S : (∀ i, γ i) → δ → Prop}

theorem ok {a : ∀ i, α i} {b} (h : R a b) : Appr l R (fun i => .ok (a i)) (.ok b) := fun c hc => by
  cases hc; exact ⟨a, .of_forall fun _ => rfl, h⟩

theorem error {x : ∀ i, Res (α i)} {e} : Appr l R x (.error e) := fun c hc => by cases hc

theorem bind {x : ∀ i, Res (α i)} {y : Res β} {f : ∀ i, α i → Res (γ i)} {g : β → Res δ} (h : Appr l R x y)
    (hf : ∀ a b, R a b → Appr l S (fun i => f i (a i)) (g b)) : Appr l S (fun i => x i >>= f i) (y >>= g) := by
  intro d hd
  obtain ⟨b, hy, hg⟩ := bind_eq_ok.1 hd
  obtain ⟨a, hx, hab⟩ := h b hy
  obtain ⟨c, hc, hcd⟩ := hf a b hab d hg
  refine ⟨c, ?_, hcd⟩
  filter_upwards [hx, hc] with i h1 h2
  rw [h1, bind_ok]
  exact h2

/-- `bind` with the knowledge that the exact computation had the result. -/
theorem bind' {x : ∀ i, Res (α i)} {y : Res β} {f : ∀ i, α i → Res (γ i)} {g : β → Res δ} (h : Appr l R x y)
    (hf : ∀ a b, y = .ok b → R a b → Appr l S (fun i => f i (a i)) (g b)) :
    Appr l S (fun i => x i >>= f i) (y >>= g) := by
  intro d hd
  obtain ⟨b, hy, hg⟩ := bind_eq_ok.1 hd
  obtain ⟨a, hx, hab⟩ := h b hy
  obtain ⟨c, hc, hcd⟩ := hf a b hy hab d hg
  refine ⟨c, ?_, hcd⟩
  filter_upwards [hx, hc] with i h1 h2
  rw [h1, bind_ok]
  exact h2

theorem loop {n : Nat} {f : ∀ i, Nat → α i → Res (α i)} {g : Nat → β → Res β} {s t} (hs : R s t)
    (h : ∀ j s t, R s t → Appr l R (fun i => f i j (s i)) (g j t)) :
    Appr l R (fun i => forRange n (f i) (s i)) (forRange n g t) := by
  induction n with
  | zero => exact ok hs
  | succ n ih => exact bind ih (h n)

end Appr

variable {T : ι → Type} (val : ∀ i, T i → ℝ)

/-- The numbers tend to `r`. -/
def Nums (l : Filter ι) (a : ∀ i, T i) (r : ℝ) : Prop := Tendsto (fun i => val i (a i)) l (𝓝 r)

/-- The matrices tend to `B`. -/
def TMats (l : Filter ι) {N M : Nat} (A : ∀ i, Mat (T i) N M) (B : Mat ℝ N M) : Prop :=
  ∀ (j : Nat) (hj : j < N * M), Nums val l (fun i => (A i).storage[j]) B.storage[j]

/-- The operations tend to the exact ones. -/
structure Tends [∀ i, CNum (T i)] (l : Filter ι) : Prop where
  zero : Nums val l (fun _ => CNum.zero) CNum.zero
  one : Nums val l (fun _ => CNum.one) CNum.one
  add : ∀ {a b a' b'}, Nums val l a a' → Nums val l b b' →
    Appr l (Nums val l) (fun i => CNum.add (a i) (b i)) (CNum.add a' b')
  sub : ∀ {a b a' b'}, Nums val l a a' → Nums val l b b' →
    Appr l (Nums val l) (fun i => CNum.sub (a i) (b i)) (CNum.sub a' b')
  mul : ∀ {a b a' b'}, Nums val l a a' → Nums val l b b' →
    Appr l (Nums val l) (fun i => CNum.mul (a i) (b i)) (CNum.mul a' b')
  div : ∀ {a b a' b'}, Nums val l a a' → Nums val l b b' →
    Appr l (Nums val l) (fun i => CNum.div (a i) (b i)) (CNum.div a' b')
  neg : ∀ {a a'}, Nums val l a a' → Appr l (Nums val l) (fun i => CNum.neg (a i)) (CNum.neg a')
  nonZero : ∀ {a a'}, Nums val l a a' → a' ≠ 0 → ∀ᶠ i in l, CNum.isNonZero (a i) = true

section accurate
variable [∀ i, CNum (T i)] {val} {ω : ι → ℝ}

/-- An operation whose error tends to zero. -/
private theorem approx (hω : Tendsto ω l (𝓝[>] 0)) {x : ι → ℝ} {r : ℝ} (hx : Tendsto x l (𝓝 r)) {op : ∀ i, Res (T i)}
    (p : ι → Prop) (hp : ∀ᶠ i in l, p i)
    (h : ∀ i, p i → |x i| ≤ 1 / ω i → ∃ c, op i = .ok c ∧ |val i c - x i| ≤ ω i * (|x i| + 1)) :
    Appr l (Nums val l) op (.ok r) := by
  intro b hb
  cases hb
  have h0 : Tendsto ω l (𝓝 0) := hω.mono_right nhdsWithin_le_nhds
  have hinv : Tendsto (fun i => 1 / ω i) l atTop := by
    simp only [one_div]
    exact tendsto_inv_nhdsGT_zero.comp hω
  have hbig : ∀ᶠ i in l, |x i| ≤ 1 / ω i := by
    filter_upwards [hx.abs.eventually_le_const (lt_add_one |r|), hinv.eventually_ge_atTop (|r| + 1)] with i h1 h2
    exact h1.trans h2
  have : ∀ i, ∃ c, (p i ∧ |x i| ≤ 1 / ω i) → op i = .ok c ∧ |val i c - x i| ≤ ω i * (|x i| + 1) := by
    intro i
    by_cases hi : p i ∧ |x i| ≤ 1 / ω i
    · obtain ⟨c, hc⟩ := h i hi.1 hi.2
      exact ⟨c, fun _ => hc⟩
    · exact ⟨CNum.zero, fun h => absurd h hi⟩
  choose c hc using this
  have hall : ∀ᶠ i in l, op i = .ok (c i) ∧ |val i (c i) - x i| ≤ ω i * (|x i| + 1) := by
    filter_upwards [hp, hbig] with i h1 h2
    exact hc i ⟨h1, h2⟩
  refine ⟨c, hall.mono fun i h => h.1, ?_⟩
  have hz : Tendsto (fun i => ω i * (|x i| + 1)) l (𝓝 0) := by
    have := h0.mul (hx.abs.add_const 1)
    rwa [zero_mul] at this
  have hd : Tendsto (fun i => val i (c i) - x i) l (𝓝 0) :=
    squeeze_zero_norm' (hall.mono fun i h => h.2) hz
  have := hd.add hx
  rw [zero_add] at this
  exact this.congr fun i => by ring

theorem Tends.of_accurate (h : ∀ i, Accurate (T i) (val i) (ω i)) (hω : Tendsto ω l (𝓝[>] 0)) : Tends val l where
  zero := by
    show Tendsto _ _ _
    simp only [(h _).zero]
    exact tendsto_const_nhds
  one := by
    show Tendsto _ _ _
    simp only [(h _).one]
    exact tendsto_const_nhds
  add ha hb := approx hω (ha.add hb) (fun _ => True) (.of_forall fun _ => trivial) fun i _ hi => (h i).add _ _ hi
  sub ha hb := approx hω (ha.sub hb) (fun _ => True) (.of_forall fun _ => trivial) fun i _ hi => (h i).sub _ _ hi
  mul ha hb := approx hω (ha.mul hb) (fun _ => True) (.of_forall fun _ => trivial) fun i _ hi => (h i).mul _ _ hi
  div {a b a' b'} ha hb := by
    by_cases hb0 : b' = 0
    · intro c hc
      have : (CNum.div a' b' : Res ℝ) = .error .divByZero := if_pos hb0
      rw [this] at hc
      cases hc
    · have : (CNum.div a' b' : Res ℝ) = .ok (a' / b') := if_neg hb0
      rw [this]
      exact approx hω (ha.div hb hb0) (fun i => val i (b i) ≠ 0) (hb.eventually_ne hb0) fun i h0 hi => (h i).div _ _ h0 hi
  neg ha := approx hω (Tendsto.neg ha) (fun _ => True) (.of_forall fun _ => trivial) fun i _ hi => by
    rw [abs_neg] at hi ⊢
    exact (h i).neg _ hi
  nonZero {a a'} ha h0 := (ha.eventually_ne h0).mono fun i hi => (h i).nonZero _ hi

end accurate

/-! ### Matrices -/

namespace TMats
variable {val} {N M : Nat}

theorem at1 {A : ∀ i, Mat (T i) N M} {B : Mat ℝ N M} (h : TMats val l A B) (j : Int) :
    Appr l (Nums val l) (fun i => (A i).at1 j) (B.at1 j) := by
  unfold Mat.at1
  split
  · exact .ok (h _ _)
  · exact .error

theorem at2 {A : ∀ i, Mat (T i) N M} {B : Mat ℝ N M} (h : TMats val l A B) (j k : Int) :
    Appr l (Nums val l) (fun i => (A i).at2 j k) (B.at2 j k) := at1 h _
theorem idx {A : ∀ i, Mat (T i) N M} {B : Mat ℝ N M} (h : TMats val l A B) (j : Int) :
    Appr l (Nums val l) (fun i => (A i).idx j) (B.idx j) := at1 h _

theorem set1 {A : ∀ i, Mat (T i) N M} {B : Mat ℝ N M} {a b} (h : TMats val l A B) (hab : Nums val l a b) (j : Int) :
    Appr l (TMats val l) (fun i => (A i).set1 j (a i)) (B.set1 j b) := by
  unfold Mat.set1
  split
  · refine .ok fun k hk => ?_
    simp only [Vector.getElem_set]
    split
    · exact hab
    · exact h k hk
  · exact .error

theorem set2 {A : ∀ i, Mat (T i) N M} {B : Mat ℝ N M} {a b} (h : TMats val l A B) (hab : Nums val l a b) (j k : Int) :
    Appr l (TMats val l) (fun i => (A i).set2 j k (a i)) (B.set2 j k b) := set1 h hab _
theorem setIdx {A : ∀ i, Mat (T i) N M} {B : Mat ℝ N M} {a b} (h : TMats val l A B) (hab : Nums val l a b) (j : Int) :
    Appr l (TMats val l) (fun i => (A i).setIdx j (a i)) (B.setIdx j b) := set1 h hab _

theorem fill {a : ∀ i, T i} {b} (h : Nums val l a b) : TMats val l (fun i => Mat.fill N M (a i)) (Mat.fill N M b) := fun j hj => by
  simp only [Mat.fill, Vector.getElem_replicate]
  exact h

variable [∀ i, CNum (T i)] (hR : Tends val l)
include hR

theorem add11s {A : ∀ i, Mat (T i) 1 1} {B : Mat ℝ 1 1} {a b} (h : TMats val l A B) (h' : Nums val l a b) :
    Appr l (Nums val l) (fun i => (A i).add11s (a i)) (B.add11s b) := .bind (idx h 0) fun _ _ h => hR.add h h'
theorem sub11s {A : ∀ i, Mat (T i) 1 1} {B : Mat ℝ 1 1} {a b} (h : TMats val l A B) (h' : Nums val l a b) :
    Appr l (Nums val l) (fun i => (A i).sub11s (a i)) (B.sub11s b) := .bind (idx h 0) fun _ _ h => hR.sub h h'

theorem dot {a : ∀ i, RowVec (T i) N} {a' : RowVec ℝ N} {b : ∀ i, ColVec (T i) N} {b' : ColVec ℝ N} (h : TMats val l a a')
    (h' : TMats val l b b') : Appr l (Nums val l) (fun i => (a i).dot (b i)) (a'.dot b') :=
  .loop hR.zero fun i _ _ hs => .bind (idx h i) fun _ _ h1 => .bind (idx h' i) fun _ _ h2 =>
    .bind (hR.mul h1 h2) fun _ _ h3 => hR.add hs h3

theorem outer {a : ∀ i, ColVec (T i) N} {a' : ColVec ℝ N} {b : ∀ i, RowVec (T i) N} {b' : RowVec ℝ N} (h : TMats val l a a')
    (h' : TMats val l b b') : Appr l (TMats val l) (fun i => (a i).outer (b i)) (a'.outer b') :=
  .loop (fill hR.zero) fun i _ _ hs => .loop hs fun j _ _ hs =>
    .bind (idx h i) fun _ _ h1 => .bind (idx h' j) fun _ _ h2 =>
    .bind (hR.mul h1 h2) fun _ _ h3 => set2 hs h3 _ _

theorem mulS {A : ∀ i, Mat (T i) N M} {B : Mat ℝ N M} {a b} (h : TMats val l A B) (h' : Nums val l a b) :
    Appr l (TMats val l) (fun i => (A i).mulS (a i)) (B.mulS b) :=
  .loop (fill hR.zero) fun i _ _ hs => .bind (idx h i) fun _ _ h1 => .bind (hR.mul h1 h') fun _ _ h2 => setIdx hs h2 _

theorem mulM11 {A : ∀ i, Mat (T i) N M} {B : Mat ℝ N M} {a : ∀ i, Mat (T i) 1 1} {b : Mat ℝ 1 1} (h : TMats val l A B)
    (h' : TMats val l a b) : Appr l (TMats val l) (fun i => (A i).mulM11 (a i)) (B.mulM11 b) :=
  .bind (idx h' 0) fun _ _ h1 => mulS hR h h1

theorem add {A C : ∀ i, Mat (T i) N M} {B D : Mat ℝ N M} (h : TMats val l A B) (h' : TMats val l C D) :
    Appr l (TMats val l) (fun i => (A i).add (C i)) (B.add D) :=
  .loop (fill hR.zero) fun i _ _ hs => .bind (idx h i) fun _ _ h1 => .bind (idx h' i) fun _ _ h2 =>
    .bind (hR.add h1 h2) fun _ _ h3 => setIdx hs h3 _

theorem sub {A C : ∀ i, Mat (T i) N M} {B D : Mat ℝ N M} (h : TMats val l A B) (h' : TMats val l C D) :
    Appr l (TMats val l) (fun i => (A i).sub (C i)) (B.sub D) :=
  .loop (fill hR.zero) fun i _ _ hs => .bind (idx h i) fun _ _ h1 => .bind (idx h' i) fun _ _ h2 =>
    .bind (hR.sub h1 h2) fun _ _ h3 => setIdx hs h3 _

theorem mul {A C : ∀ i, Mat (T i) N M} {B D : Mat ℝ N M} (h : TMats val l A B) (h' : TMats val l C D) :
    Appr l (TMats val l) (fun i => (A i).mul (C i)) (B.mul D) :=
  .loop (fill hR.zero) fun _ _ _ hs => .loop hs fun _ _ _ hs => .loop hs fun _ _ _ hs =>
    .bind (at2 hs _ _) fun _ _ h0 => .bind (at2 h _ _) fun _ _ h1 => .bind (at2 h' _ _) fun _ _ h2 =>
    .bind (hR.mul h1 h2) fun _ _ h3 => .bind (hR.add h0 h3) fun _ _ h4 => set2 hs h4 _ _

theorem vecMul {x : ∀ i, RowVec (T i) N} {y : RowVec ℝ N} {A : ∀ i, Mat (T i) N M} {B : Mat ℝ N M} (h' : TMats val l x y)
    (h : TMats val l A B) : Appr l (TMats val l) (fun i => (x i).vecMul (A i)) (y.vecMul B) :=
  .loop (fill hR.zero) fun _ _ _ hs => .loop hs fun _ _ _ hs =>
    .bind (idx hs _) fun _ _ h0 => .bind (at2 h _ _) fun _ _ h1 => .bind (idx h' _) fun _ _ h2 =>
    .bind (hR.mul h1 h2) fun _ _ h3 => .bind (hR.add h0 h3) fun _ _ h4 => setIdx hs h4 _

theorem mulVec {x : ∀ i, ColVec (T i) N} {y : ColVec ℝ N} {A : ∀ i, Mat (T i) N M} {B : Mat ℝ N M} (h : TMats val l A B)
    (h' : TMats val l x y) : Appr l (TMats val l) (fun i => (A i).mulVec (x i)) (B.mulVec y) :=
  .loop (fill hR.zero) fun _ _ _ hs => .loop hs fun _ _ _ hs =>
    .bind (idx hs _) fun _ _ h0 => .bind (at2 h _ _) fun _ _ h1 => .bind (idx h' _) fun _ _ h2 =>
    .bind (hR.mul h1 h2) fun _ _ h3 => .bind (hR.add h0 h3) fun _ _ h4 => setIdx hs h4 _

theorem invertedS {a b} (h : Nums val l a b) (hb : b ≠ 0) :
    Appr l (Nums val l) (fun i => Mat.invertedS (a i)) (Mat.invertedS b) := by
  intro c hc
  have he : Mat.invertedS b = CNum.div CNum.one b := by
    unfold Mat.invertedS
    exact if_pos (decide_eq_true hb)
  rw [he] at hc
  obtain ⟨d, hd, hr⟩ := hR.div hR.one h c hc
  refine ⟨d, ?_, hr⟩
  filter_upwards [hd, hR.nonZero h hb] with i h1 h2
  unfold Mat.invertedS
  rw [if_pos h2]
  exact h1

omit hR in
theorem transposedRow_two {U : Type} [CNum U] (x : RowVec U 2) : x.transposedRow =
    (do let A ← (Mat.fill 2 1 (CNum.zero : U)).set1 (0 : Nat) (x.storage[0]); A.set1 (1 : Nat) (x.storage[1])) := by
  have h : x.storage.toList = [x.storage[0], x.storage[1]] := by
    apply List.ext_getElem
    · simp
    · intro j h1 h2
      have : j < 2 := by simpa using h2
      match j, this with
      | 0, _ => simp
      | 1, _ => simp
  unfold Mat.transposedRow
  rw [h]
  unfold Mat.copyFrom
  refine congrArg _ (funext fun A => ?_)
  unfold Mat.copyFrom
  cases A.set1 (1 : Nat) (x.storage[1]) <;> rfl

theorem transposedRow {x : ∀ i, RowVec (T i) 2} {y : RowVec ℝ 2} (h : TMats val l x y) :
    Appr l (TMats val l) (fun i => (x i).transposedRow) y.transposedRow := by
  simp only [transposedRow_two]
  exact .bind (set1 (fill hR.zero) (h 0 _) _) fun _ _ h1 => set1 h1 (h 1 _) _

theorem eye : Appr l (TMats val l) (fun i => Mat.eye (T i) N) (Mat.eye ℝ N) :=
  .loop (fill hR.zero) fun _ _ _ hs => set2 hs hR.one _ _

omit [∀ i, CNum (T i)] hR in
theorem transposed22 {A : ∀ i, Mat (T i) 2 2} {B : Mat ℝ 2 2} (h : TMats val l A B) :
    Appr l (TMats val l) (fun i => (A i).transposed22) B.transposed22 :=
  .bind (at2 h _ _) fun _ _ h1 => .bind (at2 h _ _) fun _ _ h2 => .bind (set2 h h2 _ _) fun _ _ h3 => set2 h3 h1 _ _

/-! ### The estimator with one measurement -/

variable {u : Dim}

theorem predictState {A : ∀ i, Mat (T i) 2 2} {B : ∀ i, Mat (T i) 2 u.val} {x v} {A' : Mat ℝ 2 2} {B' : Mat ℝ 2 u.val} {x' v'}
    (hA : TMats val l A A') (hB : TMats val l B B') (hx : TMats val l x x') (hv : TMats val l v v') :
    Appr l (TMats val l) (fun i => Kalman.predictState (A i) (B i) (x i) (v i)) (Kalman.predictState A' B' x' v') := by
  refine .bind (mulVec hR hA hx) fun _ _ h1 => .bind ?_ fun _ _ h2 => add hR h1 h2
  cases u
  · exact mulM11 hR hB hv
  · exact mulVec hR hB hv

theorem predictCov {A P Q : ∀ i, Mat (T i) 2 2} {A' P' Q' : Mat ℝ 2 2} (hA : TMats val l A A') (hP : TMats val l P P')
    (hQ : TMats val l Q Q') :
    Appr l (TMats val l) (fun i => Kalman.predictCov (A i) (P i) (Q i)) (Kalman.predictCov A' P' Q') :=
  .bind (mul hR hA hP) fun _ _ h1 => .bind (transposed22 hA) fun _ _ h2 => .bind (mul hR h1 h2) fun _ _ h3 =>
    add hR h3 hQ

/-- The variance of the innovation, computed by the code. -/
def innov {U : Type} [CNum U] (P : Mat U 2 2) (H : Mat U 1 2) (V : Mat U 1 1) : Res U := do
  V.add11s (← Mat.dot (← H.vecMul P) (← H.transposedRow))

theorem gain {P : ∀ i, Mat (T i) 2 2} {H : ∀ i, Mat (T i) 1 2} {V} {P' : Mat ℝ 2 2} {H' : Mat ℝ 1 2} {V'} (hP : TMats val l P P')
    (hH : TMats val l H H') (hV : TMats val l V V') (h0 : innov P' H' V' ≠ .ok 0) :
    Appr l (TMats val l) (fun i => Kalman.gain .one (P i) (H i) (V i)) (Kalman.gain .one P' H' V') := by
  refine .bind (transposedRow hR hH) fun _ _ h1 => .bind (mulVec hR hP h1) fun _ _ h2 =>
      .bind' (vecMul hR hH hP) fun _ w hw h3 => .bind' (transposedRow hR hH) fun _ t ht h4 =>
      .bind' (dot hR h3 h4) fun _ d hd h5 => .bind' (add11s hR hV h5) fun _ s hs h6 => ?_
  refine .bind (invertedS hR h6 fun hz => h0 ?_) fun _ _ h7 => mulS hR h2 h7
  unfold innov
  rw [hw, bind_ok, ht, bind_ok, hd, bind_ok, hs, hz]

theorem correctState {x : ∀ i, ColVec (T i) 2} {K : ∀ i, Mat (T i) 2 1} {H z} {x' : ColVec ℝ 2} {K' : Mat ℝ 2 1} {H' z'}
    (hx : TMats val l x x') (hK : TMats val l K K') (hH : TMats val l H H') (hz : TMats val l z z') :
    Appr l (TMats val l) (fun i => Kalman.correctState .one (x i) (K i) (H i) (z i)) (Kalman.correctState .one x' K' H' z') :=
  .bind (dot hR hH hx) fun _ _ h1 => .bind (sub11s hR hz h1) fun _ _ h2 => .bind (mulS hR hK h2) fun _ _ h3 =>
    add hR hx h3

theorem correctCov {K : ∀ i, Mat (T i) 2 1} {H P} {K' : Mat ℝ 2 1} {H' P'} (hK : TMats val l K K') (hH : TMats val l H H')
    (hP : TMats val l P P') :
    Appr l (TMats val l) (fun i => Kalman.correctCov .one (K i) (H i) (P i)) (Kalman.correctCov .one K' H' P') :=
  .bind (eye hR) fun _ _ h1 => .bind (outer hR hK hH) fun _ _ h2 => .bind (sub hR h1 h2) fun _ _ h3 => mul hR h3 hP

/-! ### The estimator with two measurements -/

theorem inverted22 {A : ∀ i, Mat (T i) 2 2} {B : Mat ℝ 2 2} (h : TMats val l A B) :
    Appr l (TMats val l) (fun i => (A i).inverted22) B.inverted22 :=
  .bind (idx h 0) fun _ _ h0 => .bind (idx h 3) fun _ _ h3 => .bind (hR.mul h0 h3) fun _ _ h4 =>
  .bind (idx h 1) fun _ _ h1 => .bind (idx h 2) fun _ _ h2 => .bind (hR.mul h1 h2) fun _ _ h5 =>
  .bind (hR.sub h4 h5) fun _ _ h6 => .bind (hR.div hR.one h6) fun _ _ hd =>
  .bind (idx h 3) fun _ _ h3 => .bind (hR.mul hd h3) fun _ _ h7 => .bind (setIdx (fill hR.zero) h7 _) fun _ _ r0 =>
  .bind (hR.neg hd) fun _ _ hn => .bind (idx h 2) fun _ _ h2 => .bind (hR.mul hn h2) fun _ _ h8 =>
  .bind (setIdx r0 h8 _) fun _ _ r1 =>
  .bind (hR.neg hd) fun _ _ hn => .bind (idx h 1) fun _ _ h1 => .bind (hR.mul hn h1) fun _ _ h9 =>
  .bind (setIdx r1 h9 _) fun _ _ r2 =>
  .bind (idx h 0) fun _ _ h0 => .bind (hR.mul hd h0) fun _ _ h10 => setIdx r2 h10 _

theorem gain2 {P H V : ∀ i, Mat (T i) 2 2} {P' H' V' : Mat ℝ 2 2} (hP : TMats val l P P')
    (hH : TMats val l H H') (hV : TMats val l V V') :
    Appr l (TMats val l) (fun i => Kalman.gain .two (P i) (H i) (V i)) (Kalman.gain .two P' H' V') :=
  .bind (transposed22 hH) fun _ _ h1 => .bind (mul hR hP h1) fun _ _ h2 => .bind (mul hR hH hP) fun _ _ h3 =>
  .bind (transposed22 hH) fun _ _ h4 => .bind (mul hR h3 h4) fun _ _ h5 => .bind (add hR h5 hV) fun _ _ h6 =>
  .bind (inverted22 hR h6) fun _ _ h7 => mul hR h2 h7

theorem correctState2 {x z : ∀ i, ColVec (T i) 2} {K H : ∀ i, Mat (T i) 2 2} {x' z' : ColVec ℝ 2} {K' H' : Mat ℝ 2 2}
    (hx : TMats val l x x') (hK : TMats val l K K') (hH : TMats val l H H') (hz : TMats val l z z') :
    Appr l (TMats val l) (fun i => Kalman.correctState .two (x i) (K i) (H i) (z i)) (Kalman.correctState .two x' K' H' z') :=
  .bind (mulVec hR hH hx) fun _ _ h1 => .bind (sub hR hz h1) fun _ _ h2 => .bind (mulVec hR hK h2) fun _ _ h3 =>
    add hR hx h3

theorem correctCov2 {K H P : ∀ i, Mat (T i) 2 2} {K' H' P' : Mat ℝ 2 2} (hK : TMats val l K K') (hH : TMats val l H H')
    (hP : TMats val l P P') :
    Appr l (TMats val l) (fun i => Kalman.correctCov .two (K i) (H i) (P i)) (Kalman.correctCov .two K' H' P') :=
  .bind (eye hR) fun _ _ h1 => .bind (mul hR hK hH) fun _ _ h2 => .bind (sub hR h1 h2) fun _ _ h3 => mul hR h3 hP

end TMats
end Verif
