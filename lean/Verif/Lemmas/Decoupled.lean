import Mathlib.Data.Fin.VecNotation
import Mathlib.Tactic.FinCases
import Verif.Spec.Decoupled
import Verif.Lemmas.KalmanRun

/-
Estimators with diagonal matrices in arithmetics with exact zeros.
-/

namespace Verif

variable {T : Type} [CNum T] [Z : ZeroExact T]

/-- The diagonal matrix with entries `a` and `d`. -/
def Mat.diag (a d : T) : Mat T 2 2 := ⟨#v[a, CNum.zero, CNum.zero, d]⟩

namespace Mat

omit [CNum T] Z in
theorem eq_entries (A : Mat T 2 2) : A = ⟨#v[A.get 0 0, A.get 0 1, A.get 1 0, A.get 1 1]⟩ := by
  obtain ⟨⟨⟨l⟩, h⟩⟩ := A
  match l, h with
  | [_, _, _, _], _ => rfl

omit [CNum T] Z in
theorem col_entries (x : ColVec T 2) : x = ⟨#v[x.get 0 0, x.get 1 0]⟩ := by
  obtain ⟨⟨⟨l⟩, h⟩⟩ := x
  match l, h with
  | [_, _], _ => rfl

omit Z in
theorem IsDiag.eq {A : Mat T 2 2} (h : A.IsDiag) : A = diag (A.get 0 0) (A.get 1 1) := by
  conv_lhs => rw [eq_entries A, h.1, h.2]
  rfl

omit Z in
theorem isDiag_diag (a d : T) : (diag a d).IsDiag := ⟨rfl, rfl⟩

theorem diag_mul (a d a' d' : T) : (diag a d).mul (diag a' d') =
    (CNum.mul a a').bind fun x => (CNum.mul d d').bind fun y => .ok (diag x y) := by
  cases h1 : CNum.mul a a' <;> cases h2 : CNum.mul d d' <;>
  simp [Mat.mul, forRange, diag, at2, at1, set2, set1, rows, columns, fill, Z.mul_zero, Z.zero_mul, Z.add_zero, Z.zero_add, h1, h2,
    Except.bind, bind]
  rfl

theorem diag_add (a d a' d' : T) : (diag a d).add (diag a' d') =
    (CNum.add a a').bind fun x => (CNum.add d d').bind fun y => .ok (diag x y) := by
  cases h1 : CNum.add a a' <;> cases h2 : CNum.add d d' <;>
  simp [Mat.add, forRange, diag, idx, setIdx, at2, at1, set2, set1, size, rows, columns, fill, Z.add_zero, h1, h2, Except.bind, bind]
  rfl

theorem diag_sub (a d a' d' : T) : (diag a d).sub (diag a' d') =
    (CNum.sub a a').bind fun x => (CNum.sub d d').bind fun y => .ok (diag x y) := by
  cases h1 : CNum.sub a a' <;> cases h2 : CNum.sub d d' <;>
  simp [Mat.sub, forRange, diag, idx, setIdx, at2, at1, set2, set1, size, rows, columns, fill, Z.sub_zero, h1, h2, Except.bind, bind]
  rfl

omit Z in
theorem diag_transposed (a d : T) : (diag a d).transposed22 = .ok (diag a d) := rfl

omit Z in
theorem eye_diag : eye T 2 = .ok (diag CNum.one CNum.one) := rfl

theorem diag_mulVec (a d x y : T) : (diag a d).mulVec ⟨#v[x, y]⟩ =
    (CNum.mul a x).bind fun r => (CNum.mul d y).bind fun s => .ok ⟨#v[r, s]⟩ := by
  cases h1 : CNum.mul a x <;> cases h2 : CNum.mul d y <;>
  simp [Mat.mulVec, forRange, diag, idx, setIdx, at2, at1, set2, set1, rows, columns, fill, Z.zero_mul, Z.add_zero, Z.zero_add, h1, h2,
    Except.bind, bind]
  rfl

theorem diag_inverted (a d : T) : (diag a d).inverted22 =
    (CNum.mul a d).bind fun p => (CNum.div CNum.one p).bind fun t => (CNum.mul t d).bind fun r => (CNum.neg t).bind fun _ =>
      (CNum.mul t a).bind fun s => .ok (diag r s) := by
  cases h1 : CNum.mul a d with
  | error => simp [inverted22, diag, idx, at2, at1, h1, Except.bind, bind]
  | ok p =>
    cases h2 : CNum.div CNum.one p with
    | error => simp [inverted22, diag, idx, at2, at1, h1, h2, Z.mul_zero, Z.sub_zero, Except.bind, bind]
    | ok t =>
      cases h3 : CNum.mul t d <;> cases h4 : CNum.neg t <;> cases h5 : CNum.mul t a <;>
      simp [inverted22, diag, idx, setIdx, at2, at1, set2, set1, fill, h1, h2, h3, h4, h5, Z.mul_zero, Z.sub_zero, Except.bind, bind]
      rfl

variable {A B C : Mat T 2 2}

theorem IsDiag.mul (hA : A.IsDiag) (hB : B.IsDiag) (h : A.mul B = .ok C) : C.IsDiag := by
  rw [hA.eq, hB.eq, diag_mul] at h
  obtain ⟨x, -, h⟩ := bind_eq_ok.1 h
  obtain ⟨y, -, h⟩ := bind_eq_ok.1 h
  cases h
  exact isDiag_diag _ _

theorem IsDiag.add (hA : A.IsDiag) (hB : B.IsDiag) (h : A.add B = .ok C) : C.IsDiag := by
  rw [hA.eq, hB.eq, diag_add] at h
  obtain ⟨x, -, h⟩ := bind_eq_ok.1 h
  obtain ⟨y, -, h⟩ := bind_eq_ok.1 h
  cases h
  exact isDiag_diag _ _

theorem IsDiag.sub (hA : A.IsDiag) (hB : B.IsDiag) (h : A.sub B = .ok C) : C.IsDiag := by
  rw [hA.eq, hB.eq, diag_sub] at h
  obtain ⟨x, -, h⟩ := bind_eq_ok.1 h
  obtain ⟨y, -, h⟩ := bind_eq_ok.1 h
  cases h
  exact isDiag_diag _ _

omit Z in
theorem IsDiag.transposed (hA : A.IsDiag) (h : A.transposed22 = .ok C) : C.IsDiag := by
  rw [hA.eq, diag_transposed] at h
  cases h
  exact isDiag_diag _ _

theorem IsDiag.inverted (hA : A.IsDiag) (h : A.inverted22 = .ok C) : C.IsDiag := by
  rw [hA.eq, diag_inverted] at h
  obtain ⟨_, -, h⟩ := bind_eq_ok.1 h
  obtain ⟨_, -, h⟩ := bind_eq_ok.1 h
  obtain ⟨_, -, h⟩ := bind_eq_ok.1 h
  obtain ⟨_, -, h⟩ := bind_eq_ok.1 h
  obtain ⟨_, -, h⟩ := bind_eq_ok.1 h
  cases h
  exact isDiag_diag _ _

omit Z in
theorem IsDiag.eye (h : eye T 2 = .ok C) : C.IsDiag := by
  rw [eye_diag] at h
  cases h
  exact isDiag_diag _ _

/-! ### Components of vectors -/

omit Z in
theorem col_add (x y x' y' : T) : (⟨#v[x, y]⟩ : ColVec T 2).add ⟨#v[x', y']⟩ =
    (CNum.add x x').bind fun r => (CNum.add y y').bind fun s => .ok ⟨#v[r, s]⟩ := by
  cases h1 : CNum.add x x' <;> cases h2 : CNum.add y y' <;>
  simp [Mat.add, forRange, idx, setIdx, at2, at1, set2, set1, size, rows, columns, fill, h1, h2, Except.bind, bind]
  rfl

omit Z in
theorem col_sub (x y x' y' : T) : (⟨#v[x, y]⟩ : ColVec T 2).sub ⟨#v[x', y']⟩ =
    (CNum.sub x x').bind fun r => (CNum.sub y y').bind fun s => .ok ⟨#v[r, s]⟩ := by
  cases h1 : CNum.sub x x' <;> cases h2 : CNum.sub y y' <;>
  simp [Mat.sub, forRange, idx, setIdx, at2, at1, set2, set1, size, rows, columns, fill, h1, h2, Except.bind, bind]
  rfl

variable {x y r x' y' r' : ColVec T 2}

omit Z in
theorem add_comp (h : x.add y = .ok r) (c : Fin 2) : CNum.add (x.get c 0) (y.get c 0) = .ok (r.get c 0) := by
  rw [col_entries x, col_entries y, col_add] at h
  obtain ⟨_, h1, h⟩ := bind_eq_ok.1 h
  obtain ⟨_, h2, h⟩ := bind_eq_ok.1 h
  cases h
  fin_cases c
  · exact h1
  · exact h2

omit Z in
theorem sub_comp (h : x.sub y = .ok r) (c : Fin 2) : CNum.sub (x.get c 0) (y.get c 0) = .ok (r.get c 0) := by
  rw [col_entries x, col_entries y, col_sub] at h
  obtain ⟨_, h1, h⟩ := bind_eq_ok.1 h
  obtain ⟨_, h2, h⟩ := bind_eq_ok.1 h
  cases h
  fin_cases c
  · exact h1
  · exact h2

theorem IsDiag.mulVec_comp (hA : A.IsDiag) (h : A.mulVec x = .ok r) (c : Fin 2) :
    CNum.mul (A.get c c) (x.get c 0) = .ok (r.get c 0) := by
  rw [hA.eq, col_entries x, diag_mulVec] at h
  obtain ⟨_, h1, h⟩ := bind_eq_ok.1 h
  obtain ⟨_, h2, h⟩ := bind_eq_ok.1 h
  cases h
  fin_cases c
  · exact h1
  · exact h2

end Mat

namespace Kalman
variable {u : Dim}

/-- Model and covariance are diagonal. -/
structure Decoupled (k : Kalman T .two u) : Prop where
  A : Mat.IsDiag k.A
  H : Mat.IsDiag k.H
  Q : Mat.IsDiag k.Q
  R : Mat.IsDiag k.R
  P : Mat.IsDiag k.P

theorem predictCov_diag {A P Q P' : Mat T 2 2} (hA : A.IsDiag) (hP : P.IsDiag) (hQ : Q.IsDiag)
    (h : predictCov A P Q = .ok P') : P'.IsDiag := by
  obtain ⟨a, h1, h⟩ := bind_eq_ok.1 h
  obtain ⟨b, h2, h⟩ := bind_eq_ok.1 h
  obtain ⟨c, h3, h⟩ := bind_eq_ok.1 h
  exact ((hA.mul hP h1).mul (hA.transposed h2) h3).add hQ h

theorem gain_diag {P H R K : Mat T 2 2} (hP : P.IsDiag) (hH : H.IsDiag) (hR : R.IsDiag)
    (h : gain .two P H R = .ok K) : K.IsDiag := by
  obtain ⟨a, h1, h⟩ := bind_eq_ok.1 h
  obtain ⟨b, h2, h⟩ := bind_eq_ok.1 h
  obtain ⟨c, h3, h⟩ := bind_eq_ok.1 h
  obtain ⟨d, h4, h⟩ := bind_eq_ok.1 h
  obtain ⟨e, h5, h⟩ := bind_eq_ok.1 h
  obtain ⟨f, h6, h⟩ := bind_eq_ok.1 h
  obtain ⟨g, h7, h⟩ := bind_eq_ok.1 h
  exact (hP.mul (hH.transposed h1) h2).mul ((((hH.mul hP h3).mul (hH.transposed h4) h5).add hR h6).inverted h7) h

theorem correctCov_diag {K H P P' : Mat T 2 2} (hK : K.IsDiag) (hH : H.IsDiag) (hP : P.IsDiag)
    (h : correctCov .two K H P = .ok P') : P'.IsDiag := by
  obtain ⟨a, h1, h⟩ := bind_eq_ok.1 h
  obtain ⟨b, h2, h⟩ := bind_eq_ok.1 h
  obtain ⟨c, h3, h⟩ := bind_eq_ok.1 h
  exact ((Mat.IsDiag.eye h1).sub (hK.mul hH h2) h3).mul hP h

theorem Decoupled.update {k k' : Kalman T .two u} {v z} (hk : k.Decoupled) (h : k.update v z = .ok k') :
    k'.Decoupled ∧ ∃ G : Mat T 2 2, k'.K = some G ∧ G.IsDiag := by
  obtain ⟨t, x, P, K, x', P', -, -, h1, h2, -, h3, rfl⟩ := update_inv h
  have hP := predictCov_diag hk.A hk.P hk.Q h1
  have hK := gain_diag hP hk.H hk.R h2
  exact ⟨⟨hk.A, hk.H, hk.Q, hk.R, correctCov_diag hK hk.H hP h3⟩, K, rfl, hK⟩

theorem Decoupled.run {k k' : Kalman T .two u} {ds} (hk : k.Decoupled) (h : k.run ds = .ok k') :
    k'.Decoupled ∧ (ds ≠ [] → ∃ G : Mat T 2 2, k'.K = some G ∧ G.IsDiag) := by
  induction ds generalizing k with
  | nil => cases h; exact ⟨hk, fun h => absurd rfl h⟩
  | cons d ds ih =>
    obtain ⟨k1, h1, h2⟩ := run_cons.1 h
    obtain ⟨hk1, G, e, hG⟩ := hk.update h1
    obtain ⟨h3, h4⟩ := ih hk1 h2
    refine ⟨h3, fun _ => ?_⟩
    by_cases he : ds = []
    · subst he; cases h2; exact ⟨G, e, hG⟩
    · exact h4 he

/-- The component of the estimate depends on that of the data only. -/
theorem Decoupled.update_comp {k l k' l' : Kalman T .two .two} {v z w y} (hk : k.Decoupled) (hB : Mat.IsDiag k.B)
    (s : SameModel k l) (hP : l.P = k.P) (c : Fin 2)
    (hx : l.xhat.get c 0 = k.xhat.get c 0) (hv : Mat.get w c 0 = Mat.get v c 0) (hz : Mat.get y c 0 = Mat.get z c 0)
    (h : k.update v z = .ok k') (h' : l.update w y = .ok l') :
    l'.P = k'.P ∧ l'.xhat.get c 0 = k'.xhat.get c 0 := by
  obtain ⟨t, x, P, K, x1, P1, -, e1, e2, e3, e4, e5, rfl⟩ := update_inv h
  obtain ⟨t', x', P', K', x1', P1', -, f1, f2, f3, f4, f5, rfl⟩ := update_inv h'
  rw [s.A, hP, s.Q, e2] at f2
  cases f2
  rw [s.H, s.R, e3] at f3
  cases f3
  rw [s.H, e5] at f5
  cases f5
  refine ⟨rfl, ?_⟩
  have hPm := predictCov_diag hk.A hk.P hk.Q e2
  have hK := gain_diag hPm hk.H hk.R e3
  rw [s.A, s.B] at f1
  rw [s.H] at f4
  have pred {x v r : ColVec T 2} (h : predictState (u := .two) k.A k.B x v = .ok r) : ∃ p q, CNum.mul (k.A.get c c) (x.get c 0) = .ok p ∧
      CNum.mul (Mat.get k.B c c) (v.get c 0) = .ok q ∧ CNum.add p q = .ok (r.get c 0) := by
    obtain ⟨a, h1, h⟩ := bind_eq_ok.1 h
    obtain ⟨b, h2, h⟩ := bind_eq_ok.1 h
    exact ⟨_, _, hk.A.mulVec_comp h1 c, hB.mulVec_comp h2 c, Mat.add_comp h c⟩
  have corr {x z r : ColVec T 2} (h : correctState .two x K k.H z = .ok r) : ∃ p q o, CNum.mul (Mat.get k.H c c) (x.get c 0) = .ok p ∧
      CNum.sub (z.get c 0) p = .ok q ∧ CNum.mul (Mat.get K c c) q = .ok o ∧ CNum.add (x.get c 0) o = .ok (r.get c 0) := by
    obtain ⟨a, h1, h⟩ := bind_eq_ok.1 h
    obtain ⟨b, h2, h⟩ := bind_eq_ok.1 h
    obtain ⟨d, h3, h⟩ := bind_eq_ok.1 h
    exact ⟨_, _, _, hk.H.mulVec_comp h1 c, Mat.sub_comp h2 c, hK.mulVec_comp h3 c, Mat.add_comp h c⟩
  have ex : x'.get c 0 = x.get c 0 := by
    obtain ⟨p, q, a1, a2, a3⟩ := pred e1
    obtain ⟨p', q', b1, b2, b3⟩ := pred f1
    rw [hx, a1] at b1
    cases b1
    rw [hv, a2] at b2
    cases b2
    rw [a3] at b3
    exact (Except.ok.inj b3).symm
  obtain ⟨p, q, o, a1, a2, a3, a4⟩ := corr e4
  obtain ⟨p', q', o', b1, b2, b3, b4⟩ := corr f4
  rw [ex, a1] at b1
  cases b1
  rw [hz, a2] at b2
  cases b2
  rw [a3] at b3
  cases b3
  rw [ex, a4] at b4
  exact (Except.ok.inj b4).symm

theorem Decoupled.run_comp {ds es} (c : Fin 2) {k l k' l' : Kalman T .two .two} (hk : k.Decoupled) (hB : Mat.IsDiag k.B)
    (s : SameModel k l) (hP : l.P = k.P) (hx : l.xhat.get c 0 = k.xhat.get c 0)
    (hd : List.Forall₂ (fun d e => Mat.get e.1 c 0 = Mat.get d.1 c 0 ∧ Mat.get e.2 c 0 = Mat.get d.2 c 0) ds es)
    (h : k.run ds = .ok k') (h' : l.run es = .ok l') : l'.P = k'.P ∧ l'.xhat.get c 0 = k'.xhat.get c 0 := by
  induction hd generalizing k l with
  | nil => cases h; cases h'; exact ⟨hP, hx⟩
  | cons hde _ ih =>
    obtain ⟨k1, h1, h2⟩ := run_cons.1 h
    obtain ⟨l1, g1, g2⟩ := run_cons.1 h'
    obtain ⟨hP1, hx1⟩ := hk.update_comp hB s hP c hx hde.1 hde.2 h1 g1
    have s1 := update_same h1
    have t1 := update_same g1
    exact ih (hk.update h1).1 (by rw [s1.B]; exact hB)
      ⟨by rw [t1.A, s.A, s1.A], by rw [t1.B, s.B, s1.B], by rw [t1.H, s.H, s1.H], by rw [t1.Q, s.Q, s1.Q],
        by rw [t1.R, s.R, s1.R], by rw [t1.dt, s.dt, s1.dt]⟩ hP1 hx1 h2 g2

end Kalman
end Verif
