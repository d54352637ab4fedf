import Verif.Lemmas.RoundStep
import Verif.Lemmas.KalmanSteady

/-
Runs of the estimator in arithmetics whose accuracy increases without bound.
-/

namespace Verif
open Filter Topology Kalman

variable {ι : Type*} {l : Filter ι} {T : ι → Type} {val : ∀ i, T i → ℝ} {m u : Dim}

/-- The estimators tend to `k0`, with their gains if `c`. -/
structure TKal (val : ∀ i, T i → ℝ) (l : Filter ι) (c : Prop) (k : ∀ i, Kalman (T i) m u) (k0 : Kalman ℝ m u) : Prop where
  A : TMats val l (fun i => (k i).A) k0.A
  B : TMats val l (fun i => (k i).B) k0.B
  H : TMats val l (fun i => (k i).H) k0.H
  Q : TMats val l (fun i => (k i).Q) k0.Q
  R : TMats val l (fun i => (k i).R) k0.R
  P : TMats val l (fun i => (k i).P) k0.P
  xhat : TMats val l (fun i => (k i).xhat) k0.xhat
  t : Nums val l (fun i => (k i).t) k0.t
  dt : Nums val l (fun i => (k i).dt) k0.dt
  K : c → ∃ (g : ∀ i, Mat (T i) 2 m.val) (g0 : Mat ℝ 2 m.val), (∀ i, (k i).K = some (g i)) ∧ k0.K = some g0 ∧ TMats val l g g0

/-- The variance of a single measurement before the correction is not zero. -/
def Kalman.Invertible : {m : Dim} → Kalman ℝ m u → Prop
  | .one, k => KF.innov (KF.pred k.A.toMatrix k.Q.toMatrix k.P.toMatrix) k.H.toMatrix k.R.toMatrix 0 0 ≠ 0
  | .two, _ => True

/-- The data tend to those of the exact run. -/
def TData (val : ∀ i, T i → ℝ) (l : Filter ι) : (∀ i, List (ColVec (T i) u.val × ColVec (T i) m.val)) →
    List (ColVec ℝ u.val × ColVec ℝ m.val) → Prop
  | D, [] => ∀ i, D i = []
  | D, d0 :: ds0 => ∃ (d : ∀ i, ColVec (T i) u.val × ColVec (T i) m.val) (D' : ∀ i, List (ColVec (T i) u.val × ColVec (T i) m.val)), (∀ i, D i = d i :: D' i) ∧ TMats val l (fun i => (d i).1) d0.1 ∧ TMats val l (fun i => (d i).2) d0.2 ∧
      TData val l D' ds0

variable [∀ i, CNum (T i)] (hR : Tends val l)
include hR

theorem TKal.update {c : Prop} {k : ∀ i, Kalman (T i) m u} {k0 : Kalman ℝ m u} {v z v0 z0} (h : TKal val l c k k0)
    (hi : k0.Invertible) (hv : TMats val l v v0) (hz : TMats val l z z0) :
    Appr l (TKal val l True) (fun i => (k i).update (v i) (z i)) (k0.update v0 z0) := by
  refine .bind (hR.add h.t h.dt) fun _ _ ht => .bind (TMats.predictState hR h.A h.B h.xhat hv) fun _ _ hx =>
    .bind' (TMats.predictCov hR h.A h.P h.Q) fun _ P eP hP => .bind (R := TMats val l) ?_ fun K K0 hK =>
    .bind (R := TMats val l) ?_ fun _ _ hx' => .bind (R := TMats val l) ?_ fun _ _ hP' =>
    .ok ⟨h.A, h.B, h.H, h.Q, h.R, hP', hx', ht, h.dt, fun _ => ⟨K, K0, fun _ => rfl, rfl, hK⟩⟩
  · cases m
    · refine TMats.gain hR hP h.H h.R fun h0 => hi ?_
      rw [Case.innov_eq] at h0
      obtain ⟨P1, e1, e2⟩ := predictCov_mat k0.A k0.P k0.Q
      rw [e1] at eP
      cases eP
      rw [e2] at h0
      exact Except.ok.inj h0
    · exact TMats.gain2 hR hP h.H h.R
  · cases m
    · exact TMats.correctState hR hx hK h.H hz
    · exact TMats.correctState2 hR hx hK h.H hz
  · cases m
    · exact TMats.correctCov hR hK h.H hP
    · exact TMats.correctCov2 hR hK h.H hP

theorem TKal.run (I : Kalman ℝ m u → Prop) (h1 : ∀ k, I k → k.Invertible)
    (h2 : ∀ k v z k', I k → k.update v z = .ok k' → I k') {ds0 : List (ColVec ℝ u.val × ColVec ℝ m.val)} :
    ∀ {c : Prop} {k : ∀ i, Kalman (T i) m u} {k0 : Kalman ℝ m u} {D}, TKal val l c k k0 → I k0 → TData val l D ds0 →
      Appr l (TKal val l (c ∨ ds0 ≠ [])) (fun i => (k i).run (D i)) (k0.run ds0) := by
  induction ds0 with
  | nil =>
    intro c k k0 D h hI hD
    simp only [show ∀ i, D i = [] from hD]
    refine .ok ⟨h.A, h.B, h.H, h.Q, h.R, h.P, h.xhat, h.t, h.dt, fun hc => h.K (hc.resolve_right fun h => h rfl)⟩
  | cons d0 ds0 ih =>
    intro c k k0 D h hI ⟨d, D', e, hv, hz, hD⟩
    simp only [e]
    refine .bind' (TKal.update hR h (h1 k0 hI) hv hz) fun k1 k01 e1 hk1 => ?_
    intro b hb
    obtain ⟨a, ha, hab⟩ := ih hk1 (h2 _ _ _ _ hI e1) hD b hb
    exact ⟨a, ha, ⟨hab.A, hab.B, hab.H, hab.Q, hab.R, hab.P, hab.xhat, hab.t, hab.dt, fun _ => hab.K (.inl trivial)⟩⟩

omit hR [∀ i, CNum (T i)] in
theorem TMats.of_near {N M : Nat} {A : ∀ i, Mat (T i) N M} {B : Mat ℝ N M} {ω : ι → ℝ} (hω : Tendsto ω l (𝓝[>] 0))
    (h : ∀ i, (A i).Near (val i) (ω i) B.toMatrix) : TMats val l A B := by
  refine .of_get fun j k => tendsto_iff_dist_tendsto_zero.2 ?_
  exact squeeze_zero (fun _ => dist_nonneg) (fun i => (Real.dist_eq _ _).le.trans (h i j k)) (hω.mono_right nhdsWithin_le_nhds)

omit hR [∀ i, CNum (T i)] in
theorem Nums.of_near {a : ∀ i, T i} {b : ℝ} {ω : ι → ℝ} (hω : Tendsto ω l (𝓝[>] 0))
    (h : ∀ i, |val i (a i) - b| ≤ ω i) : Nums val l a b := by
  refine tendsto_iff_dist_tendsto_zero.2 ?_
  exact squeeze_zero (fun _ => dist_nonneg) (fun i => (Real.dist_eq _ _).le.trans (h i)) (hω.mono_right nhdsWithin_le_nhds)

omit hR [∀ i, CNum (T i)] in
theorem TMats.near {N M : Nat} {A : ∀ i, Mat (T i) N M} {B : Mat ℝ N M} (h : TMats val l A B) {ε : ℝ} (hε : 0 < ε) :
    ∀ᶠ i in l, (A i).Near (val i) ε B.toMatrix := by
  refine eventually_all.2 fun i => eventually_all.2 fun j => ?_
  have h1 : Tendsto (fun n => val n ((A n).get i j)) l (𝓝 (B.toMatrix i j)) := h _ _
  have h2 := (h1.sub_const (B.toMatrix i j)).abs
  rw [sub_self, abs_zero] at h2
  exact h2.eventually_le_const hε

omit hR [∀ i, CNum (T i)] in
theorem TData.of_near {ω : ι → ℝ} (hω : Tendsto ω l (𝓝[>] 0)) {ds0 : List (ColVec ℝ u.val × ColVec ℝ m.val)} :
    ∀ {D : ∀ i, List (ColVec (T i) u.val × ColVec (T i) m.val)},
      (∀ i, List.Forall₂ (fun d d0 => d.1.Near (val i) (ω i) d0.1.toMatrix ∧ d.2.Near (val i) (ω i) d0.2.toMatrix) (D i) ds0) →
      TData val l D ds0 := by
  induction ds0 with
  | nil => exact fun h i => List.forall₂_nil_right_iff.1 (h i)
  | cons d0 ds0 ih =>
    intro D h
    choose d D' h1 h2 h3 using fun i => List.forall₂_cons_right_iff.1 (h i)
    exact ⟨d, D', h3, .of_near hω fun i => (h1 i).1, .of_near hω fun i => (h1 i).2, ih h2⟩

omit T val hR in
/-- An arithmetic, an estimator and data near those of the exact run. -/
structure Trial (k0 : Kalman ℝ m u) (ds0 : List (ColVec ℝ u.val × ColVec ℝ m.val)) where
  T : Type
  num : CNum T
  val : T → ℝ
  ω : ℝ
  pos : 0 < ω
  acc : Accurate T val ω
  k : Kalman T m u
  near : k.Near val ω k0
  t : |val k.t - k0.t| ≤ ω
  dt : |val k.dt - k0.dt| ≤ ω
  ds : List (ColVec T u.val × ColVec T m.val)
  data : List.Forall₂ (fun d d0 => d.1.Near val ω d0.1.toMatrix ∧ d.2.Near val ω d0.2.toMatrix) ds ds0

attribute [instance] Trial.num

omit T val hR in
theorem Trial.limit (I : Kalman ℝ m u → Prop) (h1 : ∀ k, I k → k.Invertible)
    (h2 : ∀ k v z k', I k → k.update v z = .ok k' → I k') {k0 k0' : Kalman ℝ m u} {ds0} (hI : I k0)
    (hr : k0.run ds0 = .ok k0') {ε : ℝ} (hε : 0 < ε) :
    ∃ ω : ℝ, 0 < ω ∧ ∀ b : Trial k0 ds0, b.ω ≤ ω → ∃ k', b.k.run b.ds = .ok k' ∧
      k'.P.Near b.val ε k0'.P.toMatrix ∧ k'.xhat.Near b.val ε k0'.xhat.toMatrix ∧ |b.val k'.t - k0'.t| ≤ ε ∧
      (ds0 ≠ [] → ∃ g g0, k'.K = some g ∧ k0'.K = some g0 ∧ g.Near b.val ε g0.toMatrix) := by
  have hω : Tendsto (fun b : Trial k0 ds0 => b.ω) (comap (fun b => b.ω) (𝓝[>] 0)) (𝓝[>] 0) := tendsto_comap
  obtain ⟨k', e, h⟩ := TKal.run (val := fun b : Trial k0 ds0 => b.val) (Tends.of_accurate (fun b => b.acc) hω) I h1 h2
    (c := False) (k := fun b => b.k) (D := fun b => b.ds)
    ⟨.of_near hω fun b => b.near.A, .of_near hω fun b => b.near.B, .of_near hω fun b => b.near.H,
      .of_near hω fun b => b.near.Q, .of_near hω fun b => b.near.R, .of_near hω fun b => b.near.P,
      .of_near hω fun b => b.near.xhat, .of_near hω fun b => b.t, .of_near hω fun b => b.dt, False.elim⟩
    hI (.of_near hω fun b => b.data) k0' hr
  have hK : ∀ᶠ b in comap (fun b : Trial k0 ds0 => b.ω) (𝓝[>] 0), ds0 ≠ [] → ∃ g g0, (k' b).K = some g ∧ k0'.K = some g0 ∧
      g.Near b.val ε g0.toMatrix := by
    by_cases hne : ds0 = []
    · exact .of_forall fun _ h => absurd hne h
    · obtain ⟨g, g0, e1, e2, h3⟩ := h.K (.inr hne)
      filter_upwards [h3.near hε] with b hb _
      exact ⟨g b, g0, e1 b, e2, hb⟩
  have ht : ∀ᶠ b in comap (fun b : Trial k0 ds0 => b.ω) (𝓝[>] 0), |b.val (k' b).t - k0'.t| ≤ ε := by
    have h1 := (Tendsto.sub_const h.t k0'.t).abs
    rw [sub_self, abs_zero] at h1
    exact h1.eventually_le_const hε
  have all := e.and ((h.P.near hε).and ((h.xhat.near hε).and (ht.and hK)))
  obtain ⟨s, hs, hsub⟩ := mem_comap.1 all
  obtain ⟨ω, h0, hi⟩ := mem_nhdsGT_iff_exists_Ioc_subset.1 hs
  exact ⟨ω, h0, fun b hb => ⟨_, hsub (hi ⟨b.pos, hb⟩)⟩⟩

end Verif
