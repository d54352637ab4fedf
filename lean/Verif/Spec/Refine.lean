import Verif.Model.KalmanSim
import Verif.Model.Cascade
import Verif.Model.OnePole

/-
Programs over two numeric types: related data, and one program following another.
-/

namespace Verif

/-- Whenever the second computation succeeds, the first does, with a related result. -/
def Follows {α β : Type} (R : α → β → Prop) (x : Res α) (y : Res β) : Prop :=
  ∀ b, y = .ok b → ∃ a, x = .ok a ∧ R a b

namespace Refine
variable {T U : Type} {N M : Nat}

/-- Matrices with related elements. -/
def Mats (R : T → U → Prop) (A : Mat T N M) (B : Mat U N M) : Prop :=
  ∀ i (h : i < N * M), R A.storage[i] B.storage[i]

/-- Estimators with related members. -/
structure Ests {m u : Dim} (R : T → U → Prop) (k : Kalman T m u) (k' : Kalman U m u) : Prop where
  A : Mats R k.A k'.A
  B : Mats R k.B k'.B
  H : Mats R k.H k'.H
  Q : Mats R k.Q k'.Q
  V : Mats R k.R k'.R
  K : (k.K = none ∧ k'.K = none) ∨ ∃ K K', k.K = some K ∧ k'.K = some K' ∧ Mats R K K'
  P : Mats R k.P k'.P
  xhat : Mats R k.xhat k'.xhat
  t : R k.t k'.t
  dt : R k.dt k'.dt

/-- Biquad sections with related coefficients and states. -/
structure Sections (R : T → U → Prop) (q : Biquad T) (q' : Biquad U) : Prop where
  a1 : R q.a.a1 q'.a.a1
  a2 : R q.a.a2 q'.a.a2
  b0 : R q.b.b0 q'.b.b0
  b1 : R q.b.b1 q'.b.b1
  b2 : R q.b.b2 q'.b.b2
  v1 : R q.w.v1 q'.w.v1
  v2 : R q.w.v2 q'.w.v2

/-- Cascades with related sections. -/
structure Cascades (R : T → U → Prop) (c : Cascade T N) (c' : Cascade U N) : Prop where
  next : c.next = c'.next
  sections : ∀ i (h : i < N), Sections R c.biquad[i] c'.biquad[i]

/-- One-pole filters with related coefficients and states. -/
structure OnePoles (R : T → U → Prop) (q : OnePole T) (q' : OnePole U) : Prop where
  a1 : R q.a1 q'.a1
  b0 : R q.b0 q'.b0
  v1 : R q.v1 q'.v1

open KalmanSim

/-- Related parameters. -/
structure Parms (R : T → U → Prop) (p : Params T) (p' : Params U) : Prop where
  dt : R p.dt p'.dt
  measnoise : R p.measnoise p'.measnoise
  accelnoise : R p.accelnoise p'.accelnoise

/-- Related readings of a pass. -/
structure Rows (R : T → U → Prop) (x : Row T) (y : Row U) : Prop where
  pos : R x.pos y.pos
  posmeas : R x.posmeas y.posmeas
  poshat : R x.poshat y.poshat
  posgain : R x.posgain y.posgain
  posecov : R x.posecov y.posecov
  vel : R x.vel y.vel
  velhat : R x.velhat y.velhat
  velgain : R x.velgain y.velgain
  velecov : R x.velecov y.velecov

end Refine
end Verif
