import Verif.Lemmas.Loop
import Verif.Spec.Refine

/-
Two numeric types related by a relation that the operations preserve: programs over them have related results.
-/

namespace Verif

/-- The operations of `T` follow those of `U`. -/
structure Refines {T U : Type} [CNum T] [CNum U] (R : T → U → Prop) : Prop where
  zero : R CNum.zero CNum.zero
  one : R CNum.one CNum.one
  add : ∀ {a b a' b'}, R a a' → R b b' → Follows R (CNum.add a b) (CNum.add a' b')
  sub : ∀ {a b a' b'}, R a a' → R b b' → Follows R (CNum.sub a b) (CNum.sub a' b')
  mul : ∀ {a b a' b'}, R a a' → R b b' → Follows R (CNum.mul a b) (CNum.mul a' b')
  div : ∀ {a b a' b'}, R a a' → R b b' → Follows R (CNum.div a b) (CNum.div a' b')
  neg : ∀ {a a'}, R a a' → Follows R (CNum.neg a) (CNum.neg a')
  nonZero : ∀ {a a'}, R a a' → CNum.isNonZero a = CNum.isNonZero a'

namespace Follows
variable {α β γ δ : Type} {R : α → β → Prop} {S : γ → δ → Prop}

theorem ok {a b} (h : R a b) : Follows R (.ok a) (.ok b) := fun c hc => by
  cases hc; exact ⟨a, rfl, h⟩

theorem error {x : Res α} {e} : Follows R x (.error e) := fun c hc => by cases hc

theorem bind {x : Res α} {y : Res β} {f : α → Res γ} {g : β → Res δ} (h : Follows R x y)
    (hf : ∀ a b, R a b → Follows S (f a) (g b)) : Follows S (x >>= f) (y >>= g) := by
  intro d hd
  obtain ⟨b, hy, hg⟩ := bind_eq_ok.1 hd
  obtain ⟨a, hx, hab⟩ := h b hy
  obtain ⟨c, hc, hcd⟩ := hf a b hab d hg
  exact ⟨c, by rw [hx, bind_ok]; exact hc, hcd⟩

theorem loop {n : Nat} {f : Nat → α → Res α} {g : Nat → β → Res β} {s t} (hs : R s t)
    (h : ∀ i s t, R s t → Follows R (f i s) (g i t)) : Follows R (forRange n f s) (forRange n g t) := by
  induction n with
  | zero => exact ok hs
  | succ n ih => exact bind ih (h n)

end Follows

namespace Refine
variable {T U : Type} {R : T → U → Prop} {N M : Nat}

theorem at1 {A : Mat T N M} {B : Mat U N M} (h : Mats R A B) (i : Int) : Follows R (A.at1 i) (B.at1 i) := by
  unfold Mat.at1
  split
  · exact .ok (h _ _)
  · exact .error

theorem at2 {A : Mat T N M} {B : Mat U N M} (h : Mats R A B) (i j : Int) : Follows R (A.at2 i j) (B.at2 i j) :=
  at1 h _
theorem idx {A : Mat T N M} {B : Mat U N M} (h : Mats R A B) (i : Int) : Follows R (A.idx i) (B.idx i) :=
  at1 h _

theorem set1 {A : Mat T N M} {B : Mat U N M} {a b} (h : Mats R A B) (hab : R a b) (i : Int) :
    Follows (Mats R) (A.set1 i a) (B.set1 i b) := by
  unfold Mat.set1
  split
  · refine .ok fun j hj => ?_
    simp only [Vector.getElem_set]
    split
    · exact hab
    · exact h j hj
  · exact .error

theorem set2 {A : Mat T N M} {B : Mat U N M} {a b} (h : Mats R A B) (hab : R a b) (i j : Int) :
    Follows (Mats R) (A.set2 i j a) (B.set2 i j b) := set1 h hab _
theorem setIdx {A : Mat T N M} {B : Mat U N M} {a b} (h : Mats R A B) (hab : R a b) (i : Int) :
    Follows (Mats R) (A.setIdx i a) (B.setIdx i b) := set1 h hab _

theorem fill {a b} (h : R a b) : Mats R (Mat.fill N M a) (Mat.fill N M b) := fun i hi => by
  simp only [Mat.fill, Vector.getElem_replicate]
  exact h

theorem copyFrom {l l'} (h : List.Forall₂ R l l') : ∀ {A : Mat T N M} {B : Mat U N M} (_ : Mats R A B) (k : Nat),
    Follows (Mats R) (A.copyFrom k l) (B.copyFrom k l') := by
  induction h with
  | nil => exact fun h _ => .ok h
  | cons ha _ ih => exact fun h k => .bind (set1 h ha _) fun A B h => ih h (k + 1)

theorem storage {A : Mat T N M} {B : Mat U N M} (h : Mats R A B) :
    List.Forall₂ R A.storage.toList B.storage.toList := by
  rw [List.forall₂_iff_get]
  refine ⟨by simp, fun i h1 h2 => ?_⟩
  simp only [List.get_eq_getElem, Vector.getElem_toList]
  exact h i (by simpa using h1)

variable [CNum T] [CNum U] (hR : Refines R)
include hR

theorem ofList {l l'} (h : List.Forall₂ R l l') : Follows (Mats R) (Mat.ofList N M l) (Mat.ofList N M l') :=
  copyFrom h (fill hR.zero) 0

theorem add11s {A : Mat T 1 1} {B : Mat U 1 1} {a b} (h : Mats R A B) (h' : R a b) :
    Follows R (A.add11s a) (B.add11s b) := .bind (idx h 0) fun _ _ h => hR.add h h'
theorem sub11s {A : Mat T 1 1} {B : Mat U 1 1} {a b} (h : Mats R A B) (h' : R a b) :
    Follows R (A.sub11s a) (B.sub11s b) := .bind (idx h 0) fun _ _ h => hR.sub h h'

theorem dot {a : RowVec T N} {a' : RowVec U N} {b : ColVec T N} {b' : ColVec U N} (h : Mats R a a') (h' : Mats R b b') :
    Follows R (a.dot b) (a'.dot b') :=
  .loop hR.zero fun i _ _ hs => .bind (idx h i) fun _ _ h1 => .bind (idx h' i) fun _ _ h2 =>
    .bind (hR.mul h1 h2) fun _ _ h3 => hR.add hs h3

theorem outer {a : ColVec T N} {a' : ColVec U N} {b : RowVec T N} {b' : RowVec U N} (h : Mats R a a') (h' : Mats R b b') :
    Follows (Mats R) (a.outer b) (a'.outer b') :=
  .loop (fill hR.zero) fun i _ _ hs => .loop hs fun j _ _ hs =>
    .bind (idx h i) fun _ _ h1 => .bind (idx h' j) fun _ _ h2 =>
    .bind (hR.mul h1 h2) fun _ _ h3 => set2 hs h3 _ _

theorem mulS {A : Mat T N M} {B : Mat U N M} {a b} (h : Mats R A B) (h' : R a b) :
    Follows (Mats R) (A.mulS a) (B.mulS b) :=
  .loop (fill hR.zero) fun i _ _ hs => .bind (idx h i) fun _ _ h1 => .bind (hR.mul h1 h') fun _ _ h2 => setIdx hs h2 _

theorem mulM11 {A : Mat T N M} {B : Mat U N M} {a : Mat T 1 1} {b : Mat U 1 1} (h : Mats R A B) (h' : Mats R a b) :
    Follows (Mats R) (A.mulM11 a) (B.mulM11 b) := .bind (idx h' 0) fun _ _ h1 => mulS hR h h1

theorem add {A C : Mat T N M} {B D : Mat U N M} (h : Mats R A B) (h' : Mats R C D) :
    Follows (Mats R) (A.add C) (B.add D) :=
  .loop (fill hR.zero) fun i _ _ hs => .bind (idx h i) fun _ _ h1 => .bind (idx h' i) fun _ _ h2 =>
    .bind (hR.add h1 h2) fun _ _ h3 => setIdx hs h3 _

theorem sub {A C : Mat T N M} {B D : Mat U N M} (h : Mats R A B) (h' : Mats R C D) :
    Follows (Mats R) (A.sub C) (B.sub D) :=
  .loop (fill hR.zero) fun i _ _ hs => .bind (idx h i) fun _ _ h1 => .bind (idx h' i) fun _ _ h2 =>
    .bind (hR.sub h1 h2) fun _ _ h3 => setIdx hs h3 _

theorem mul {A C : Mat T N M} {B D : Mat U N M} (h : Mats R A B) (h' : Mats R C D) :
    Follows (Mats R) (A.mul C) (B.mul D) :=
  .loop (fill hR.zero) fun _ _ _ hs => .loop hs fun _ _ _ hs => .loop hs fun _ _ _ hs =>
    .bind (at2 hs _ _) fun _ _ h0 => .bind (at2 h _ _) fun _ _ h1 => .bind (at2 h' _ _) fun _ _ h2 =>
    .bind (hR.mul h1 h2) fun _ _ h3 => .bind (hR.add h0 h3) fun _ _ h4 => set2 hs h4 _ _

theorem vecMul {x : RowVec T N} {y : RowVec U N} {A : Mat T N M} {B : Mat U N M} (h' : Mats R x y) (h : Mats R A B) :
    Follows (Mats R) (x.vecMul A) (y.vecMul B) :=
  .loop (fill hR.zero) fun _ _ _ hs => .loop hs fun _ _ _ hs =>
    .bind (idx hs _) fun _ _ h0 => .bind (at2 h _ _) fun _ _ h1 => .bind (idx h' _) fun _ _ h2 =>
    .bind (hR.mul h1 h2) fun _ _ h3 => .bind (hR.add h0 h3) fun _ _ h4 => setIdx hs h4 _

theorem mulVec {x : ColVec T N} {y : ColVec U N} {A : Mat T N M} {B : Mat U N M} (h : Mats R A B) (h' : Mats R x y) :
    Follows (Mats R) (A.mulVec x) (B.mulVec y) :=
  .loop (fill hR.zero) fun _ _ _ hs => .loop hs fun _ _ _ hs =>
    .bind (idx hs _) fun _ _ h0 => .bind (at2 h _ _) fun _ _ h1 => .bind (idx h' _) fun _ _ h2 =>
    .bind (hR.mul h1 h2) fun _ _ h3 => .bind (hR.add h0 h3) fun _ _ h4 => setIdx hs h4 _

theorem transposedRow {x : RowVec T N} {y : RowVec U N} (h : Mats R x y) :
    Follows (Mats R) x.transposedRow y.transposedRow := copyFrom (storage h) (fill hR.zero) 0

theorem invertedS {a b} (h : R a b) : Follows R (Mat.invertedS a) (Mat.invertedS b) := by
  unfold Mat.invertedS
  rw [hR.nonZero h]
  split
  · exact hR.div hR.one h
  · exact .ok hR.zero

theorem inverted22 {A : Mat T 2 2} {B : Mat U 2 2} (h : Mats R A B) :
    Follows (Mats R) A.inverted22 B.inverted22 := by
  have get := fun i => idx (R := R) h i
  refine .bind (get 0) fun _ _ h0 => .bind (get 3) fun _ _ h3 => .bind (hR.mul h0 h3) fun _ _ p =>
    .bind (get 1) fun _ _ h1 => .bind (get 2) fun _ _ h2 => .bind (hR.mul h1 h2) fun _ _ q =>
    .bind (hR.sub p q) fun _ _ d => .bind (hR.div hR.one d) fun _ _ d => ?_
  refine .bind (get 3) fun _ _ h3 => .bind (hR.mul d h3) fun _ _ e => .bind (setIdx (fill hR.zero) e 0) fun _ _ s => ?_
  refine .bind (hR.neg d) fun _ _ n => .bind (get 2) fun _ _ h2 => .bind (hR.mul n h2) fun _ _ e =>
    .bind (setIdx s e 1) fun _ _ s => ?_
  refine .bind (hR.neg d) fun _ _ n => .bind (get 1) fun _ _ h2 => .bind (hR.mul n h2) fun _ _ e =>
    .bind (setIdx s e 2) fun _ _ s => ?_
  exact .bind (get 0) fun _ _ h0 => .bind (hR.mul d h0) fun _ _ e => setIdx s e 3

theorem eye : Follows (Mats R) (Mat.eye T N) (Mat.eye U N) :=
  .loop (fill hR.zero) fun _ _ _ hs => set2 hs hR.one _ _

omit [CNum T] [CNum U] hR in
theorem transposed22 {A : Mat T 2 2} {B : Mat U 2 2} (h : Mats R A B) :
    Follows (Mats R) A.transposed22 B.transposed22 :=
  .bind (at2 h _ _) fun _ _ h1 => .bind (at2 h _ _) fun _ _ h2 => .bind (set2 h h2 _ _) fun _ _ h3 => set2 h3 h1 _ _

/-! ### The estimator -/

variable {m u : Dim}

theorem predictState {A : Mat T 2 2} {B : Mat T 2 u.val} {x v} {A' : Mat U 2 2} {B' : Mat U 2 u.val} {x' v'}
    (hA : Mats R A A') (hB : Mats R B B') (hx : Mats R x x') (hv : Mats R v v') :
    Follows (Mats R) (Kalman.predictState A B x v) (Kalman.predictState A' B' x' v') := by
  refine .bind (mulVec hR hA hx) fun _ _ h1 => .bind ?_ fun _ _ h2 => add hR h1 h2
  cases u
  · exact mulM11 hR hB hv
  · exact mulVec hR hB hv

theorem predictCov {A P Q : Mat T 2 2} {A' P' Q' : Mat U 2 2} (hA : Mats R A A') (hP : Mats R P P') (hQ : Mats R Q Q') :
    Follows (Mats R) (Kalman.predictCov A P Q) (Kalman.predictCov A' P' Q') :=
  .bind (mul hR hA hP) fun _ _ h1 => .bind (transposed22 hA) fun _ _ h2 => .bind (mul hR h1 h2) fun _ _ h3 =>
    add hR h3 hQ

theorem gain {P : Mat T 2 2} {H : Mat T m.val 2} {V} {P' : Mat U 2 2} {H' : Mat U m.val 2} {V'} (hP : Mats R P P')
    (hH : Mats R H H') (hV : Mats R V V') : Follows (Mats R) (Kalman.gain m P H V) (Kalman.gain m P' H' V') := by
  cases m
  · exact .bind (transposedRow hR hH) fun _ _ h1 => .bind (mulVec hR hP h1) fun _ _ h2 =>
      .bind (vecMul hR hH hP) fun _ _ h3 => .bind (transposedRow hR hH) fun _ _ h4 =>
      .bind (dot hR h3 h4) fun _ _ h5 => .bind (add11s hR hV h5) fun _ _ h6 => .bind (invertedS hR h6) fun _ _ h7 =>
      mulS hR h2 h7
  · exact .bind (transposed22 hH) fun _ _ h1 => .bind (mul hR hP h1) fun _ _ h2 =>
      .bind (mul hR hH hP) fun _ _ h3 => .bind (transposed22 hH) fun _ _ h4 =>
      .bind (mul hR h3 h4) fun _ _ h5 => .bind (add hR h5 hV) fun _ _ h6 => .bind (inverted22 hR h6) fun _ _ h7 =>
      mul hR h2 h7

theorem correctState {x : ColVec T 2} {K : Mat T 2 m.val} {H z} {x' : ColVec U 2} {K' : Mat U 2 m.val} {H' z'}
    (hx : Mats R x x') (hK : Mats R K K') (hH : Mats R H H') (hz : Mats R z z') :
    Follows (Mats R) (Kalman.correctState m x K H z) (Kalman.correctState m x' K' H' z') := by
  cases m
  · exact .bind (dot hR hH hx) fun _ _ h1 => .bind (sub11s hR hz h1) fun _ _ h2 => .bind (mulS hR hK h2) fun _ _ h3 =>
      add hR hx h3
  · exact .bind (mulVec hR hH hx) fun _ _ h1 => .bind (sub hR hz h1) fun _ _ h2 => .bind (mulVec hR hK h2) fun _ _ h3 =>
      add hR hx h3

theorem correctCov {K : Mat T 2 m.val} {H P} {K' : Mat U 2 m.val} {H' P'} (hK : Mats R K K') (hH : Mats R H H')
    (hP : Mats R P P') : Follows (Mats R) (Kalman.correctCov m K H P) (Kalman.correctCov m K' H' P') := by
  refine .bind (eye hR) fun _ _ h1 => .bind ?_ fun _ _ h2 => .bind (sub hR h1 h2) fun _ _ h3 => mul hR h3 hP
  cases m
  · exact outer hR hK hH
  · exact mul hR hK hH

theorem update {k : Kalman T m u} {k' : Kalman U m u} {v z v' z'} (h : Ests R k k') (hv : Mats R v v')
    (hz : Mats R z z') : Follows (Ests R) (k.update v z) (k'.update v' z') :=
  .bind (hR.add h.t h.dt) fun _ _ h1 => .bind (predictState hR h.A h.B h.xhat hv) fun _ _ h2 =>
    .bind (predictCov hR h.A h.P h.Q) fun _ _ h3 => .bind (gain hR h3 h.H h.V) fun _ _ h4 =>
    .bind (correctState hR h2 h4 h.H hz) fun _ _ h5 => .bind (correctCov hR h4 h.H h3) fun _ _ h6 =>
    .ok ⟨h.A, h.B, h.H, h.Q, h.V, .inr ⟨_, _, rfl, rfl, h4⟩, h6, h5, h1, h.dt⟩

theorem run {ds ds'} (hd : List.Forall₂ (fun d d' => Mats R d.1 d'.1 ∧ Mats R d.2 d'.2) ds ds') :
    ∀ {k : Kalman T m u} {k' : Kalman U m u}, Ests R k k' → Follows (Ests R) (k.run ds) (k'.run ds') := by
  induction hd with
  | nil => exact fun h => .ok h
  | cons hd _ ih => exact fun h => .bind (update hR h hd.1 hd.2) fun _ _ h => ih h

theorem init (avr : Bool) {dt : T} {A : Mat T 2 2} {B : Mat T 2 u.val} {H : Mat T m.val 2} {Q V P x}
    {dt' : U} {A' : Mat U 2 2} {B' : Mat U 2 u.val} {H' : Mat U m.val 2} {Q' V' P' x'} (h1 : R dt dt')
    (h2 : Mats R A A') (h3 : Mats R B B') (h4 : Mats R H H') (h5 : Mats R Q Q') (h6 : Mats R V V')
    (h7 : Mats R P P') (h8 : Mats R x x') :
    Ests R (Kalman.init avr dt A B H Q V P x) (Kalman.init avr dt' A' B' H' Q' V' P' x') := by
  refine ⟨h2, h3, h4, h5, h6, ?_, h7, h8, hR.zero, h1⟩
  unfold Kalman.init
  cases avr
  · exact .inl ⟨rfl, rfl⟩
  · exact .inr ⟨_, _, rfl, rfl, fill hR.zero⟩

/-! ### Filters -/

theorem step_df2 {q : Biquad T} {q' : Biquad U} {x x'} (h : Sections R q q') (hx : R x x') :
    Follows (fun s s' => R s.1 s'.1 ∧ Sections R s.2 s'.2) (q.step_df2 x) (q'.step_df2 x') :=
  .bind (hR.mul h.a1 h.v1) fun _ _ h1 => .bind (hR.sub hx h1) fun _ _ h2 => .bind (hR.mul h.a2 h.v2) fun _ _ h3 =>
    .bind (hR.sub h2 h3) fun _ _ h4 => .bind (hR.mul h.b0 h4) fun _ _ h5 => .bind (hR.mul h.b1 h.v1) fun _ _ h6 =>
    .bind (hR.add h5 h6) fun _ _ h7 => .bind (hR.mul h.b2 h.v2) fun _ _ h8 => .bind (hR.add h7 h8) fun _ _ h9 =>
    .ok ⟨h9, h.a1, h.a2, h.b0, h.b1, h.b2, h4, h.v1⟩

theorem step_df2_transposed {q : Biquad T} {q' : Biquad U} {x x'} (h : Sections R q q') (hx : R x x') :
    Follows (fun s s' => R s.1 s'.1 ∧ Sections R s.2 s'.2) (q.step_df2_transposed x) (q'.step_df2_transposed x') :=
  .bind (hR.mul h.b0 hx) fun _ _ h1 => .bind (hR.add h1 h.v1) fun _ _ h2 => .bind (hR.mul h.b1 hx) fun _ _ h3 =>
    .bind (hR.mul h.a1 h2) fun _ _ h4 => .bind (hR.sub h3 h4) fun _ _ h5 => .bind (hR.add h5 h.v2) fun _ _ h6 =>
    .bind (hR.mul h.b2 hx) fun _ _ h7 => .bind (hR.mul h.a2 h2) fun _ _ h8 => .bind (hR.sub h7 h8) fun _ _ h9 =>
    .ok ⟨h2, h.a1, h.a2, h.b0, h.b1, h.b2, h6, h9⟩

omit [CNum T] [CNum U] hR in
theorem stepWith {f g} (hfg : ∀ {q : Biquad T} {q' : Biquad U} {x x'}, Sections R q q' → R x x' →
    Follows (fun s s' => R s.1 s'.1 ∧ Sections R s.2 s'.2) (f q x) (g q' x')) {c : Cascade T N} {c' : Cascade U N} {v v'}
    (h : Cascades R c c') (hv : R v v') :
    Follows (fun s s' => R s.1 s'.1 ∧ Cascades R s.2 s'.2) (c.stepWith f v) (c'.stepWith g v') := by
  unfold Cascade.stepWith
  rw [h.next]
  refine .loop ⟨hv, h⟩ fun i s s' hs => ?_
  have hget : Follows (Sections R) (s.2.get i) (s'.2.get i) := by
    unfold Cascade.get
    split
    · exact .ok (hs.2.sections _ _)
    · exact .error
  refine .bind hget fun q q' hq => .bind (hfg hq hs.1) fun t t' ht => .bind (R := Cascades R) ?_ fun _ _ hc => .ok ⟨ht.1, hc⟩
  unfold Cascade.set
  split
  · refine .ok ⟨hs.2.next, fun j hj => ?_⟩
    simp only [Vector.getElem_set]
    split
    · exact ht.2
    · exact hs.2.sections j hj
  · exact .error

theorem step_onepole {q : OnePole T} {q' : OnePole U} {x x'} (h : OnePoles R q q') (hx : R x x') :
    Follows (fun s s' => R s.1 s'.1 ∧ OnePoles R s.2 s'.2) (q.step x) (q'.step x') :=
  .bind (hR.mul hx h.b0) fun _ _ h1 => .bind (hR.mul h.v1 h.a1) fun _ _ h2 => .bind (hR.sub h1 h2) fun _ _ h3 =>
    .ok ⟨h3, h.a1, h.b0, h3⟩

/-! ### The simulation -/

open KalmanSim

variable [CLit T] [CLit U] (hl : ∀ n, Follows R (CLit.lit n : Res T) (CLit.lit n : Res U))
include hl

theorem sysA {p : Params T} {p' : Params U} (h : Parms R p p') : Follows (Mats R) (sysA p) (sysA p') :=
  .bind (hl 1) fun _ _ h1 => .bind (hl 0) fun _ _ h0 => .bind (hl 1) fun _ _ h2 =>
    ofList hR (.cons h1 (.cons h.dt (.cons h0 (.cons h2 .nil))))

theorem sysB {p : Params T} {p' : Params U} (h : Parms R p p') : Follows (Mats R) (sysB p) (sysB p') :=
  .bind (hR.mul h.dt h.dt) fun _ _ h1 => .bind (hl 2) fun _ _ h2 => .bind (hR.div h1 h2) fun _ _ h3 =>
    ofList hR (.cons h3 (.cons h.dt .nil))

theorem sysH : Follows (Mats R) (sysH (T := T)) (sysH (T := U)) :=
  .bind (hl 1) fun _ _ h1 => .bind (hl 0) fun _ _ h0 => ofList hR (.cons h1 (.cons h0 .nil))

theorem start : Follows (Mats R) (start (T := T)) (start (T := U)) :=
  .bind (hl 0) fun _ _ h1 => .bind (hl 0) fun _ _ h0 => ofList hR (.cons h1 (.cons h0 .nil))

omit [CLit T] [CLit U] hl in
theorem sysR {p : Params T} {p' : Params U} (h : Parms R p p') : Follows (Mats R) (sysR p) (sysR p') :=
  .bind (hR.mul h.measnoise h.measnoise) fun _ _ h1 => .ok (fill h1)

theorem sysQ {p : Params T} {p' : Params U} (h : Parms R p p') : Follows (Mats R) (sysQ p) (sysQ p') :=
  .bind (hR.mul h.accelnoise h.accelnoise) fun _ _ hv => .bind (hR.mul h.dt h.dt) fun _ _ h2 =>
    .bind (hR.mul h2 h.dt) fun _ _ h3 => .bind (hR.mul h3 h.dt) fun _ _ h4 => .bind (hl 4) fun _ _ l4 =>
    .bind (hR.div h4 l4) fun _ _ q1 => .bind (hl 2) fun _ _ l2 => .bind (hR.div h3 l2) fun _ _ q2 =>
    .bind (hl 2) fun _ _ l2 => .bind (hR.div h3 l2) fun _ _ q3 =>
    .bind (ofList hR (.cons q1 (.cons q2 (.cons q3 (.cons h2 .nil))))) fun _ _ h => mulS hR h hv

theorem estim (avr : Bool) {p : Params T} {p' : Params U} (h : Parms R p p') :
    Follows (Ests R) (estim avr p) (estim avr p') :=
  .bind (start hR hl) fun _ _ h1 => .bind (sysA hR hl h) fun _ _ h2 => .bind (sysB hR hl h) fun _ _ h3 =>
    .bind (sysH hR hl) fun _ _ h4 => .bind (sysQ hR hl h) fun _ _ h5 => .bind (sysR hR h) fun _ _ h6 =>
    .bind (sysQ hR hl h) fun _ _ h7 => .ok (init hR avr h.dt h2 h3 h4 h5 h6 h7 h1)

omit [CNum T] [CNum U] [CLit T] [CLit U] hR hl in
theorem kalman_gain {k : Kalman T m u} {k' : Kalman U m u} (h : Ests R k k') :
    Follows (Mats R) k.kalman_gain k'.kalman_gain := by
  unfold Kalman.kalman_gain
  obtain ⟨h1, h2⟩ | ⟨K, K', h1, h2, h3⟩ := h.K
  · rw [h1, h2]; exact .error
  · rw [h1, h2]; exact .ok h3

theorem process_noise {p : Params T} {p' : Params U} (h : Parms R p p') {g1 g2 g1' g2'} (h1 : R g1 g1') (h2 : R g2 g2') :
    Follows (Mats R) (process_noise p g1 g2) (process_noise p' g1' g2') :=
  .bind (hR.mul h.dt h.dt) fun _ _ a => .bind (hl 2) fun _ _ b => .bind (hR.div a b) fun _ _ c =>
    .bind (hR.mul c h1) fun _ _ d => .bind (hR.mul h.dt h2) fun _ _ e =>
    .bind (ofList hR (.cons d (.cons e .nil))) fun _ _ s => mulS hR s h.accelnoise

theorem step {p : Params T} {p' : Params U} (h : Parms R p p') {A B H k x g A' B' H' k' x' g'} (hA : Mats R A A')
    (hB : Mats R B B') (hH : Mats R H H') (hk : Ests R k k') (hx : Mats R x x')
    (hg : R g.1 g'.1 ∧ R g.2.1 g'.2.1 ∧ R g.2.2 g'.2.2) :
    Follows (fun s s' => Ests R s.1 s'.1 ∧ Mats R s.2.1 s'.2.1 ∧ Rows R s.2.2 s'.2.2)
      (step p A B H k x g) (step p' A' B' H' k' x' g') := by
  refine .bind (hl 1) fun _ _ l1 => .bind (ofList hR (.cons l1 .nil)) fun _ _ hu => ?_
  refine .bind (mulVec hR hA hx) fun _ _ a => .bind (mulM11 hR hB hu) fun _ _ b => .bind (add hR a b) fun _ _ c =>
    .bind (process_noise hR hl h hg.1 hg.2.1) fun _ _ d => .bind (add hR c d) fun _ _ hx => ?_
  refine .bind (dot hR hH hx) fun _ _ a => .bind (hR.mul h.measnoise hg.2.2) fun _ _ b =>
    .bind (hR.add a b) fun _ _ hz => .bind (update hR hk hu (fill hz)) fun _ _ hk => .bind (kalman_gain hk) fun _ _ hK => ?_
  exact .bind (idx hx 0) fun _ _ r1 => .bind (idx hk.xhat 0) fun _ _ r2 => .bind (idx hK 0) fun _ _ r3 =>
    .bind (idx hk.P 0) fun _ _ r4 => .bind (idx hx 1) fun _ _ r5 => .bind (idx hk.xhat 1) fun _ _ r6 =>
    .bind (idx hK 1) fun _ _ r7 => .bind (idx hk.P 1) fun _ _ r8 => .ok ⟨hk, hx, r1, hz, r2, r3, r4, r5, r6, r7, r8⟩

theorem loop {p : Params T} {p' : Params U} (h : Parms R p p') {A B H A' B' H'} (hA : Mats R A A')
    (hB : Mats R B B') (hH : Mats R H H') {gs gs'}
    (hg : List.Forall₂ (fun g g' => R g.1 g'.1 ∧ R g.2.1 g'.2.1 ∧ R g.2.2 g'.2.2) gs gs') :
    ∀ {k k' x x'}, Ests R k k' → Mats R x x' →
      Follows (List.Forall₂ (Rows R)) (loop p A B H k x gs) (loop p' A' B' H' k' x' gs') := by
  induction hg with
  | nil => exact fun _ _ => .ok .nil
  | cons hg _ ih =>
    exact fun hk hx => .bind (step hR hl h hA hB hH hk hx hg) fun s s' hs =>
      .bind (ih hs.1 hs.2.1) fun _ _ hr => .ok (.cons hs.2.2 hr)

theorem main (avr : Bool) {p : Params T} {p' : Params U} (h : Parms R p p') {gs gs'}
    (hg : List.Forall₂ (fun g g' => R g.1 g'.1 ∧ R g.2.1 g'.2.1 ∧ R g.2.2 g'.2.2) gs gs') :
    Follows (List.Forall₂ (Rows R)) (main avr p gs) (main avr p' gs') :=
  .bind (sysA hR hl h) fun _ _ h1 => .bind (sysB hR hl h) fun _ _ h2 => .bind (sysH hR hl) fun _ _ h3 =>
    .bind (estim hR hl avr h) fun _ _ h4 => .bind (start hR hl) fun _ _ h5 => loop hR hl h h1 h2 h3 hg h4 h5

end Refine
end Verif
