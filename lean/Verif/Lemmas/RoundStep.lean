import Mathlib.Order.Filter.Ultrafilter.Basic
import Mathlib.Topology.Instances.Matrix
import Mathlib.Topology.Order.Compact
import Verif.Lemmas.Approach
import Verif.Lemmas.Riccati
import Verif.Lemmas.Kalman

/- One step of an estimator in arithmetic of sufficient accuracy, uniformly for bounded data. -/

namespace Verif
open Matrix Filter Topology

/-! ### The exact step -/

namespace KF
variable {μ : Type} [Fintype μ] [DecidableEq μ] {A Q : Matrix (Fin 2) (Fin 2) ℝ} {H : Matrix μ (Fin 2) ℝ} {R : Matrix μ μ ℝ}

/-- The corrected estimate. -/
noncomputable def corrected {u : Nat} (A : Matrix (Fin 2) (Fin 2) ℝ) (B : Matrix (Fin 2) (Fin u) ℝ) (H : Matrix μ (Fin 2) ℝ)
    (Q : Matrix (Fin 2) (Fin 2) ℝ) (R : Matrix μ μ ℝ) (P : Matrix (Fin 2) (Fin 2) ℝ) (x : Matrix (Fin 2) (Fin 1) ℝ)
    (w : Matrix (Fin u) (Fin 1) ℝ) (z : Matrix μ (Fin 1) ℝ) : Matrix (Fin 2) (Fin 1) ℝ :=
  A * x + B * w + gain (pred A Q P) H R * (z - H * (A * x + B * w))

theorem gain_scalar (M : Matrix (Fin 2) (Fin 2) ℝ) (H : Matrix (Fin 1) (Fin 2) ℝ) (R : Matrix (Fin 1) (Fin 1) ℝ) : gain M H R = ((H * M * Hᵀ + R) 0 0)⁻¹ • (M * Hᵀ) := by
  rw [← Mat.inv_one_one, Mat.smul_eq_mul_one_one]
  rfl

theorem tendsto_mul {ι a b c : Type} [Fintype b] {l : Filter ι} {f : ι → Matrix a b ℝ} {g : ι → Matrix b c ℝ} {M N}
    (hf : Tendsto f l (𝓝 M)) (hg : Tendsto g l (𝓝 N)) : Tendsto (fun i => f i * g i) l (𝓝 (M * N)) :=
  ((continuous_fst.matrix_mul continuous_snd).tendsto (M, N)).comp (hf.prodMk_nhds hg)

theorem tendsto_entries {ι a b : Type} {l : Filter ι} {f : ι → Matrix a b ℝ} {M} :
    Tendsto f l (𝓝 M) ↔ ∀ i j, Tendsto (fun k => f k i j) l (𝓝 (M i j)) :=
  ⟨fun h i j => tendsto_pi_nhds.1 (tendsto_pi_nhds.1 h i) j, fun h => tendsto_pi_nhds.2 fun i => tendsto_pi_nhds.2 (h i)⟩

section
variable {ι : Type} {l : Filter ι} {f : ι → Matrix (Fin 2) (Fin 2) ℝ} {P : Matrix (Fin 2) (Fin 2) ℝ}

theorem pred_tendsto (hf : Tendsto f l (𝓝 P)) : Tendsto (fun i => pred A Q (f i)) l (𝓝 (pred A Q P)) :=
  (tendsto_mul (tendsto_mul tendsto_const_nhds hf) tendsto_const_nhds).add_const _

omit [Fintype μ] [DecidableEq μ] in
theorem innov_tendsto (hf : Tendsto f l (𝓝 P)) :
    Tendsto (fun i => innov (pred A Q (f i)) H R) l (𝓝 (innov (pred A Q P) H R)) :=
  (tendsto_mul (tendsto_mul tendsto_const_nhds (pred_tendsto hf)) tendsto_const_nhds).add_const R

theorem det_tendsto (hf : Tendsto f l (𝓝 P)) :
    Tendsto (fun i => (innov (pred A Q (f i)) H R).det) l (𝓝 (innov (pred A Q P) H R).det) :=
  ((continuous_id.matrix_det).tendsto (innov (pred A Q P) H R)).comp (innov_tendsto hf)

theorem gain_tendsto (hf : Tendsto f l (𝓝 P)) (h0 : (innov (pred A Q P) H R).det ≠ 0) :
    Tendsto (fun i => gain (pred A Q (f i)) H R) l (𝓝 (gain (pred A Q P) H R)) := by
  refine tendsto_mul (tendsto_mul (pred_tendsto hf) tendsto_const_nhds) ?_
  simp only [Matrix.inv_def, Ring.inverse_eq_inv']
  exact ((det_tendsto hf).inv₀ h0).smul
    (((continuous_id.matrix_adjugate).tendsto (innov (pred A Q P) H R)).comp (innov_tendsto hf))

theorem closed_tendsto (hf : Tendsto f l (𝓝 P)) (h0 : (innov (pred A Q P) H R).det ≠ 0) :
    Tendsto (fun i => closed A H Q R (f i)) l (𝓝 (closed A H Q R P)) :=
  tendsto_mul (tendsto_const_nhds.sub (tendsto_mul (gain_tendsto hf h0) tendsto_const_nhds)) tendsto_const_nhds

theorem ricc_tendsto (hf : Tendsto f l (𝓝 P)) (h0 : (innov (pred A Q P) H R).det ≠ 0) :
    Tendsto (fun i => ricc A H Q R (f i)) l (𝓝 (ricc A H Q R P)) :=
  tendsto_mul (tendsto_const_nhds.sub (tendsto_mul (gain_tendsto hf h0) tendsto_const_nhds)) (pred_tendsto hf)

theorem corrected_tendsto {u : Nat} {B : Matrix (Fin 2) (Fin u) ℝ} {x : ι → Matrix (Fin 2) (Fin 1) ℝ} {x'}
    {w : ι → Matrix (Fin u) (Fin 1) ℝ} {w'} {z : ι → Matrix μ (Fin 1) ℝ} {z'} (hf : Tendsto f l (𝓝 P))
    (h0 : (innov (pred A Q P) H R).det ≠ 0) (hx : Tendsto x l (𝓝 x')) (hw : Tendsto w l (𝓝 w')) (hz : Tendsto z l (𝓝 z')) :
    Tendsto (fun i => corrected A B H Q R (f i) (x i) (w i) (z i)) l (𝓝 (corrected A B H Q R P x' w' z')) := by
  have hm := (tendsto_mul (tendsto_const_nhds (x := A)) hx).add (tendsto_mul (tendsto_const_nhds (x := B)) hw)
  exact hm.add (tendsto_mul (gain_tendsto hf h0) (hz.sub (tendsto_mul tendsto_const_nhds hm)))

end
end KF

/-- A bounded sequence has a limit along an ultrafilter. -/
theorem ultra_lim (f : ℕ → ℝ) {a b : ℝ} (h : ∀ n, f n ∈ Set.Icc a b) :
    ∃ y ∈ Set.Icc a b, Tendsto f (hyperfilter ℕ) (𝓝 y) := by
  obtain ⟨y, hy, hl⟩ := (isCompact_Icc (a := a) (b := b)).ultrafilter_le_nhds ((hyperfilter ℕ).map f)
    (by rw [le_principal_iff]; exact Filter.Eventually.of_forall (f := (hyperfilter ℕ : Filter ℕ)) h)
  exact ⟨y, hy, hl⟩

theorem TMats.of_get {ι : Type*} {l : Filter ι} {T : ι → Type} {val : ∀ i, T i → ℝ} {N M : Nat} {A : ∀ i, Mat (T i) N M}
    {B : Mat ℝ N M} (h : ∀ j k, Tendsto (fun i => val i ((A i).get j k)) l (𝓝 (B.get j k))) : TMats val l A B := by
  intro s hs
  have hM : 0 < M := Nat.pos_of_ne_zero fun h0 => by subst h0; simp at hs
  have h1 : s / M < N := Nat.div_lt_of_lt_mul (by rwa [Nat.mul_comm])
  have := h ⟨s / M, h1⟩ ⟨s % M, Nat.mod_lt _ hM⟩
  have e : s / M * M + s % M = s := Nat.div_add_mod' s M
  simp only [Mat.get, e] at this
  exact this

/-- The matrix with the given entries. -/
def Mat.ofEntries {T : Type} {N M : Nat} (y : Matrix (Fin N) (Fin M) T) : Mat T N M :=
  ⟨.ofFn fun s => y ⟨s.val / M, Nat.div_lt_of_lt_mul (s.2.trans_eq (Nat.mul_comm _ _))⟩
    ⟨s.val % M, Nat.mod_lt _ (Nat.pos_of_ne_zero fun h0 => by have := s.2; subst h0; simp at this)⟩⟩

theorem Mat.get_ofEntries {T : Type} {N M : Nat} (y : Matrix (Fin N) (Fin M) T) (i : Fin N) (j : Fin M) :
    (Mat.ofEntries y).get i j = y i j := by
  simp only [Mat.get, Mat.ofEntries, Vector.getElem_ofFn]
  congr
  · rw [Nat.mul_comm, Nat.mul_add_div (Nat.zero_lt_of_lt j.2), Nat.div_eq_of_lt j.2, Nat.add_zero]
  · rw [Nat.mul_comm, Nat.mul_add_mod, Nat.mod_eq_of_lt j.2]

theorem Mat.toMatrix_ofEntries {T : Type} {N M : Nat} (y : Matrix (Fin N) (Fin M) T) : (Mat.ofEntries y).toMatrix = y := by
  ext i j
  exact get_ofEntries y i j

/-- Matrices that are bounded have a limit along an ultrafilter. -/
theorem ultra_mat {N M : Nat} (X : ℕ → Matrix (Fin N) (Fin M) ℝ) (C : Matrix (Fin N) (Fin M) ℝ) {r : ℝ}
    (h : ∀ n i j, |X n i j - C i j| ≤ r) :
    ∃ Y : Matrix (Fin N) (Fin M) ℝ, (∀ i j, |Y i j - C i j| ≤ r) ∧ Tendsto X (hyperfilter ℕ) (𝓝 Y) := by
  have h1 (i : Fin N) (j : Fin M) := ultra_lim (fun n => X n i j) (a := C i j - r) (b := C i j + r) fun n => by
    have := abs_le.1 (h n i j)
    exact ⟨by linarith, by linarith⟩
  choose y hy hl using h1
  exact ⟨y, fun i j => abs_le.2 ⟨by linarith [(hy i j).1], by linarith [(hy i j).2]⟩, KF.tendsto_entries.2 hl⟩

/-! ### One step, uniformly -/

/-- The operands of an update, and exact matrices to compare them with. -/
structure Case (m u : Dim) where
  T : Type
  [num : CNum T]
  val : T → ℝ
  a : Mat T 2 2
  b : Mat T 2 u.val
  h : Mat T m.val 2
  q : Mat T 2 2
  v : Mat T m.val m.val
  p : Mat T 2 2
  x : ColVec T 2
  w : ColVec T u.val
  z : ColVec T m.val
  P : Matrix (Fin 2) (Fin 2) ℝ
  X : Matrix (Fin 2) (Fin 1) ℝ
  W : Matrix (Fin u.val) (Fin 1) ℝ
  Z : Matrix (Fin m.val) (Fin 1) ℝ

namespace Case
attribute [instance] Case.num
variable {m u : Dim}

/-- Operands near the exact ones, which are bounded. -/
structure Good (c : Case m u) (ω : ℝ) (A : Matrix (Fin 2) (Fin 2) ℝ) (B : Matrix (Fin 2) (Fin u.val) ℝ) (H : Matrix (Fin m.val) (Fin 2) ℝ)
    (Q : Matrix (Fin 2) (Fin 2) ℝ) (R : Matrix (Fin m.val) (Fin m.val) ℝ) (C : Matrix (Fin 2) (Fin 2) ℝ) (r ρ : ℝ) : Prop where
  acc : Accurate c.T c.val ω
  a : c.a.Near c.val ω A
  b : c.b.Near c.val ω B
  h : c.h.Near c.val ω H
  q : c.q.Near c.val ω Q
  v : c.v.Near c.val ω R
  p : c.p.Near c.val ω c.P
  x : c.x.Near c.val ω c.X
  w : c.w.Near c.val ω c.W
  z : c.z.Near c.val ω c.Z
  hP : ∀ i j, |c.P i j - C i j| ≤ r
  sym : m = .one ∨ c.Pᵀ = c.P
  hX : ∀ i j, |c.X i j| ≤ ρ
  hW : ∀ i j, |c.W i j| ≤ ρ
  hZ : ∀ i j, |c.Z i j| ≤ ρ

/-- The update completes with results near the exact ones. -/
def Step (c : Case m u) (ε : ℝ) (A : Matrix (Fin 2) (Fin 2) ℝ) (B : Matrix (Fin 2) (Fin u.val) ℝ) (H : Matrix (Fin m.val) (Fin 2) ℝ)
    (Q : Matrix (Fin 2) (Fin 2) ℝ) (R : Matrix (Fin m.val) (Fin m.val) ℝ) : Prop :=
  ∃ xm pm g x' p', Kalman.predictState c.a c.b c.x c.w = .ok xm ∧ Kalman.predictCov c.a c.p c.q = .ok pm ∧
    Kalman.gain m pm c.h c.v = .ok g ∧ Kalman.correctState m xm g c.h c.z = .ok x' ∧
    Kalman.correctCov m g c.h pm = .ok p' ∧ Mat.Near c.val ε g (KF.gain (KF.pred A Q c.P) H R) ∧
    Mat.Near c.val ε p' (KF.ricc A H Q R c.P) ∧ Mat.Near c.val ε x' (KF.corrected A B H Q R c.P c.X c.W c.Z)

theorem innov_eq (P : Mat ℝ 2 2) (H : Mat ℝ 1 2) (V : Mat ℝ 1 1) :
    TMats.innov P H V = .ok (KF.innov P.toMatrix H.toMatrix V.toMatrix 0 0) := by
  obtain ⟨a, ha, ea⟩ := Mat.transposedRow_mat H
  obtain ⟨c, hc, ec⟩ := Mat.vecMul_mat H P
  have hR : V.idx 0 = .ok (V.get 0 0) := Mat.idx_get V 0 0
  unfold TMats.innov Mat.add11s
  rw [hc, bind_ok, ha, bind_ok, Mat.dot_mat, bind_ok, hR, bind_ok, ExactRing.add_eq, ec, ea, add_comm]
  rfl

/-- For every tolerance there is an accuracy that suffices for all bounded operands. -/
theorem uniform (A : Matrix (Fin 2) (Fin 2) ℝ) (B : Matrix (Fin 2) (Fin u.val) ℝ) (H : Matrix (Fin m.val) (Fin 2) ℝ)
    (Q : Matrix (Fin 2) (Fin 2) ℝ) (R : Matrix (Fin m.val) (Fin m.val) ℝ) (C : Matrix (Fin 2) (Fin 2) ℝ) (r ρ : ℝ)
    (hQ : Qᵀ = Q) (hR' : Rᵀ = R) (hbox : ∀ P : Matrix (Fin 2) (Fin 2) ℝ, (∀ i j, |P i j - C i j| ≤ r) → (KF.innov (KF.pred A Q P) H R).det ≠ 0)
    {ε : ℝ} (hε : 0 < ε) :
    ∃ ω : ℝ, 0 < ω ∧ ∀ (ω' : ℝ), 0 < ω' → ω' ≤ ω → ∀ c : Case m u, c.Good ω' A B H Q R C r ρ → c.Step ε A B H Q R := by
  by_contra hneg
  push Not at hneg
  have hpos (n : ℕ) : (0 : ℝ) < 1 / ((n : ℝ) + 1) := Nat.one_div_pos_of_nat
  choose ω hω0 hω c hg hs using fun n : ℕ => hneg (1 / ((n : ℝ) + 1)) (hpos n)
  have hle : (hyperfilter ℕ : Filter ℕ) ≤ atTop := by
    rw [← Nat.cofinite_eq_atTop]; exact hyperfilter_le_cofinite
  have hlim0 : Tendsto ω (hyperfilter ℕ) (𝓝 0) :=
    (squeeze_zero (fun n => (hω0 n).le) hω tendsto_one_div_add_atTop_nhds_zero_nat).mono_left hle
  have hlim : Tendsto ω (hyperfilter ℕ) (𝓝[>] 0) :=
    tendsto_nhdsWithin_iff.2 ⟨hlim0, .of_forall hω0⟩
  have hR := Tends.of_accurate (l := (hyperfilter ℕ : Filter ℕ)) (val := fun n => (c n).val) (fun n => (hg n).acc) hlim
  obtain ⟨P, hP, tP⟩ := ultra_mat (fun n => (c n).P) C fun n => (hg n).hP
  obtain ⟨X, -, tX⟩ := ultra_mat (fun n => (c n).X) 0 fun n i j => by simpa using (hg n).hX i j
  obtain ⟨W, -, tW⟩ := ultra_mat (fun n => (c n).W) 0 fun n i j => by simpa using (hg n).hW i j
  obtain ⟨Z, -, tZ⟩ := ultra_mat (fun n => (c n).Z) 0 fun n i j => by simpa using (hg n).hZ i j
  have near {N M : Nat} {f : ∀ n, Mat (c n).T N M} {Y : ℕ → Matrix (Fin N) (Fin M) ℝ} {Y'}
      (h : ∀ n, (f n).Near (c n).val (ω n) (Y n)) (hY : Tendsto Y (hyperfilter ℕ) (𝓝 Y')) :
      TMats (fun n => (c n).val) (hyperfilter ℕ) f (Mat.ofEntries Y') := by
    refine TMats.of_get fun i j => ?_
    rw [Mat.get_ofEntries]
    have h1 : Tendsto (fun n => (c n).val ((f n).get i j) - Y n i j) (hyperfilter ℕ) (𝓝 0) :=
      squeeze_zero_norm (fun n => h n i j) hlim0
    have h2 := h1.add (KF.tendsto_entries.1 hY i j)
    rw [zero_add] at h2
    exact h2.congr fun n => by ring
  have nA := near (fun n => (hg n).a) tendsto_const_nhds
  have nB := near (fun n => (hg n).b) tendsto_const_nhds
  have nH := near (fun n => (hg n).h) tendsto_const_nhds
  have nQ := near (fun n => (hg n).q) tendsto_const_nhds
  have nR := near (fun n => (hg n).v) tendsto_const_nhds
  have nP := near (fun n => (hg n).p) tP
  have nX := near (fun n => (hg n).x) tX
  have nW := near (fun n => (hg n).w) tW
  have nZ := near (fun n => (hg n).z) tZ
  have h0 := hbox P hP
  obtain ⟨xm, hxm, exm⟩ := Kalman.predictState_mat (Mat.ofEntries A) (Mat.ofEntries B) (Mat.ofEntries X) (Mat.ofEntries W)
  obtain ⟨pm, hpm, epm⟩ := Kalman.predictCov_mat (Mat.ofEntries A) (Mat.ofEntries P) (Mat.ofEntries Q)
  simp only [Mat.toMatrix_ofEntries] at exm epm
  have epm : pm.toMatrix = KF.pred A Q P := epm
  have hsym : (KF.innov (KF.pred A Q P) H R)ᵀ = KF.innov (KF.pred A Q P) H R := by
    by_cases h1 : m = .one
    · subst h1
      ext i j
      rw [Matrix.transpose_apply, Subsingleton.elim i j]
    · have hPs : Pᵀ = P := by
        have h2 : Tendsto (fun n => (c n).Pᵀ) (hyperfilter ℕ) (𝓝 Pᵀ) :=
          KF.tendsto_entries.2 fun i j => KF.tendsto_entries.1 tP j i
        exact tendsto_nhds_unique (h2.congr fun n => (hg n).sym.resolve_left h1) tP
      unfold KF.innov
      rw [Matrix.transpose_add, KF.congr_transpose, KF.pred_symm hPs hQ, hR']
  obtain ⟨g, hgg, eg⟩ := Kalman.gain_symm m pm (Mat.ofEntries H) (Mat.ofEntries R)
    (by rw [epm, Mat.toMatrix_ofEntries, Mat.toMatrix_ofEntries]; exact hsym)
    (by rw [epm, Mat.toMatrix_ofEntries, Mat.toMatrix_ofEntries]; exact .inr h0)
  obtain ⟨x', hx', ex'⟩ := Kalman.correctState_mat m xm g (Mat.ofEntries H) (Mat.ofEntries Z)
  obtain ⟨p', hp', ep'⟩ := Kalman.correctCov_mat m g (Mat.ofEntries H) pm
  simp only [Mat.toMatrix_ofEntries] at eg ex' ep'
  rw [epm] at eg ep'
  have eg : g.toMatrix = KF.gain (KF.pred A Q P) H R := eg
  rw [eg] at ep' ex'
  rw [exm] at ex'
  obtain ⟨xm', a1, b1⟩ := TMats.predictState hR nA nB nX nW _ hxm
  obtain ⟨pm', a2, b2⟩ := TMats.predictCov hR nA nP nQ _ hpm
  obtain ⟨g', a3, b3⟩ : ∃ g', (∀ᶠ n in (hyperfilter ℕ : Filter ℕ), Kalman.gain m (pm' n) (c n).h (c n).v = .ok (g' n)) ∧
      TMats (fun n => (c n).val) (hyperfilter ℕ) g' g := by
    cases m
    · exact TMats.gain hR b2 nH nR (by
        rw [innov_eq, epm, Mat.toMatrix_ofEntries, Mat.toMatrix_ofEntries]
        intro h
        apply h0
        rw [Matrix.det_fin_one]
        exact Except.ok.inj h) _ hgg
    · exact TMats.gain2 hR b2 nH nR _ hgg
  obtain ⟨x'', a4, b4⟩ : ∃ x'', (∀ᶠ n in (hyperfilter ℕ : Filter ℕ),
      Kalman.correctState m (xm' n) (g' n) (c n).h (c n).z = .ok (x'' n)) ∧ TMats (fun n => (c n).val) (hyperfilter ℕ) x'' x' := by
    cases m
    · exact TMats.correctState hR b1 b3 nH nZ _ hx'
    · exact TMats.correctState2 hR b1 b3 nH nZ _ hx'
  obtain ⟨p'', a5, b5⟩ : ∃ p'', (∀ᶠ n in (hyperfilter ℕ : Filter ℕ),
      Kalman.correctCov m (g' n) (c n).h (pm' n) = .ok (p'' n)) ∧ TMats (fun n => (c n).val) (hyperfilter ℕ) p'' p' := by
    cases m
    · exact TMats.correctCov hR b3 nH b2 _ hp'
    · exact TMats.correctCov2 hR b3 nH b2 _ hp'
  have close {N M : Nat} {f : ∀ n, Mat (c n).T N M} {Y : ℕ → Matrix (Fin N) (Fin M) ℝ} {Y' : Mat ℝ N M}
      (h : TMats (fun n => (c n).val) (hyperfilter ℕ) f Y') (hY : Tendsto Y (hyperfilter ℕ) (𝓝 Y'.toMatrix)) :
      ∀ᶠ n in (hyperfilter ℕ : Filter ℕ), (f n).Near (c n).val ε (Y n) := by
    refine eventually_all.2 fun i => eventually_all.2 fun j => ?_
    have h1 : Tendsto (fun n => (c n).val ((f n).get i j)) (hyperfilter ℕ) (𝓝 (Y'.toMatrix i j)) := h _ _
    have h2 := (h1.sub (KF.tendsto_entries.1 hY i j)).abs
    rw [sub_self, abs_zero] at h2
    exact h2.eventually_le_const hε
  have c3 := close (Y := fun n => KF.gain (KF.pred A Q (c n).P) H R) b3 (by rw [eg]; exact KF.gain_tendsto tP h0)
  have c5 := close (Y := fun n => KF.ricc A H Q R (c n).P) b5 (by rw [ep']; exact KF.ricc_tendsto tP h0)
  have c4 := close (Y := fun n => KF.corrected A B H Q R (c n).P (c n).X (c n).W (c n).Z) b4
    (by rw [ex']; exact KF.corrected_tendsto tP h0 tX tW tZ)
  obtain ⟨n, h1, h2, h3, h4, h5, h6, h7, h8⟩ :=
    (a1.and (a2.and (a3.and (a4.and (a5.and (c3.and (c5.and c4))))))).exists
  exact hs n ⟨_, _, _, _, _, h1, h2, h3, h4, h5, h6, h7, h8⟩

end Case
end Verif
