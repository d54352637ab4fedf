import Mathlib.Algebra.BigOperators.Group.List.Basic
import Verif.Lemmas.Cascade
import Verif.Props.Biquad

/-
Properties C40-C44 (and C35 for cascades): include/dsp/biquad-cascade.hpp.

`c.toList` are the sections in use, `c.WF` the representation invariant (established by the
constructor, kept by every operation).
-/

namespace Verif
open Sig Topology
variable {T : Type} {N : Nat}

/-- Two sections for the examples. -/
def exS1 : Biquad ℚ := Biquad.ofBA ⟨1, 2, 1⟩ ⟨-1/4, -1/8⟩
def exS2 : Biquad ℚ := Biquad.ofBA ⟨1, -1, 0⟩ ⟨1/2, 0⟩
/-- A cascade of two out of at most three sections. -/
def exCascade : Cascade ℚ 3 := Cascade.ofList [exS1, exS2] (by decide)

/-! ### C40 a bounded list of sections -/

/-- **C40** A constructed cascade contains the given sections. -/
theorem C40_construct [CNum T] (l : List (Biquad T)) (h : l.length ≤ N) :
    (Cascade.ofList l h : Cascade T N).WF ∧ (Cascade.ofList l h : Cascade T N).toList = l ∧
      (Cascade.ofList l h : Cascade T N).size = l.length := by
  refine ⟨h, ?_, rfl⟩
  apply List.ext_getElem?
  intro m
  rw [Cascade.getElem?_toList]
  show (if m < l.length then (Vector.ofFn fun k : Fin N => l.getD k Biquad.default)[m]? else none) = _
  by_cases hm : m < l.length
  · have hN : m < N := by omega
    rw [if_pos hm, Vector.getElem?_eq_getElem hN, Vector.getElem_ofFn, List.getElem?_eq_getElem hm]
    simp [hm]
  · rw [if_neg hm, List.getElem?_eq_none (by omega)]

/-- **C40** Any sequence of operations does to the sections what the list operations do; it fails, by
an assertion, exactly if one of the operations violates its precondition; the size is the length of
the list and never exceeds the capacity. -/
theorem C40_refines (c : Cascade T N) (hc : c.WF) (ops : List (Cascade.Op T)) :
    (∃ c', c.runOps ops = .ok c' ∧ c'.WF ∧ Cascade.specOps N c.toList ops = some c'.toList ∧
      c'.size = c'.toList.length ∧ c'.size ≤ c'.reserved) ∨
    (c.runOps ops = .error .assertFail ∧ Cascade.specOps N c.toList ops = none) := by
  induction ops generalizing c with
  | nil => exact .inl ⟨c, rfl, hc, rfl, (Cascade.length_toList hc).symm, hc⟩
  | cons op ops ih =>
    unfold Cascade.runOps Cascade.specOps
    rcases Cascade.Op.run_spec hc op with ⟨c1, h1, h2, h3⟩ | ⟨h1, h2⟩
    · rw [h1, bind_ok, h3]
      exact ih c1 h2
    · rw [h1, h2]
      exact .inr ⟨rfl, rfl⟩

/-- **C40** Observers: coefficients and state of section `i`. -/
theorem C40_observers (c : Cascade T N) (hc : c.WF) (i : Int) :
    (∀ q, 0 ≤ i → c.toList[i.toNat]? = some q →
      c.coeff_a i = .ok q.coeff_a ∧ c.coeff_b i = .ok q.coeff_b ∧ c.state i = .ok q.state) ∧
    (i < 0 ∨ c.size ≤ i → c.coeff_a i = .error .assertFail ∧ c.coeff_b i = .error .assertFail ∧
      c.state i = .error .assertFail) := by
  constructor
  · intro q h0 hq
    rw [Cascade.getElem?_toList] at hq
    split at hq
    · rename_i hn
      have hc' : c.next ≤ N := hc
      have hN : i.toNat < N := by omega
      rw [Vector.getElem?_eq_getElem hN] at hq
      have hi : 0 ≤ i ∧ i < c.next := by omega
      unfold Cascade.coeff_a Cascade.coeff_b Cascade.state
      rw [Cascade.assertIndex_ok hi, bind_ok, bind_ok, bind_ok, Cascade.get_ok hN, Option.some.inj hq]
      exact ⟨rfl, rfl, rfl⟩
    · cases hq
  · intro h
    have hi : ¬ (0 ≤ i ∧ i < c.next) := by
      unfold Cascade.size at h
      omega
    unfold Cascade.coeff_a Cascade.coeff_b Cascade.state
    rw [Cascade.assertIndex_err hi]
    exact ⟨rfl, rfl, rfl⟩

/-- **C40** In particular `insert` can neither append nor fill an empty cascade. -/
theorem C40_insert_not_at_end (c : Cascade T N) (bq : Biquad T) :
    c.insert c.size bq = .error .assertFail := by
  unfold Cascade.insert Cascade.size
  exact if_pos (by omega)

example : Cascade.specOps 3 [exS1, exS2] [.append exS1, .remove 0, .insert 1 exS2, .replace 0 exS1]
    = some [exS1, exS2, exS1] ∧
    Cascade.specOps 3 [exS1, exS2] [.append exS1, .append exS1] = none := ⟨rfl, rfl⟩

/-! ### C41 stepping -/

/-- **C41** For each of the step functions: the outputs of the cascade are those of its sections in
series, front to back, each with its own state only.  Any numeric type. -/
theorem C41_series (f : Biquad T → T → Res (T × Biquad T)) (c : Cascade T N) (hc : c.WF)
    (x z : ℕ → T) : Runs (Cascade.stepWith f) c x z ↔ Series f c.toList x z := by
  rw [← runs_stepList]
  have : ∀ n, out (Cascade.stepWith f) c x n = out (Cascade.stepList f) c.toList x n :=
    out_sim Cascade.WF Cascade.toList (fun c v hc => by
      rcases Cascade.stepWith_spec f hc v with ⟨e, h1, h2⟩ | ⟨y, c', h1, h2, h3⟩
      · exact .inl ⟨e, h2, h1⟩
      · exact .inr ⟨y, c', h1, by unfold Cascade.WF at *; omega, h3⟩) hc x
  unfold Runs
  simp only [this]

/-- **C41** The three step functions of the cascade are those of the sections. -/
theorem C41_step_forms [CNum T] (c : Cascade T N) (hc : c.WF) (x z : ℕ → T) :
    (Runs Cascade.step c x z ↔ Series Biquad.step c.toList x z) ∧
    (Runs Cascade.step_df2 c x z ↔ Series Biquad.step_df2 c.toList x z) ∧
    (Runs Cascade.step_df2_transposed c x z ↔ Series Biquad.step_df2_transposed c.toList x z) :=
  ⟨C41_series _ c hc x z, C41_series _ c hc x z, C41_series _ c hc x z⟩

/-- **C41** An empty cascade passes its input on unchanged. -/
theorem C41_empty [CNum T] (c : Cascade T N) (h : c.size = 0) (v : T) :
    c.step v = .ok (v, c) ∧ c.step_df2 v = .ok (v, c) ∧ c.step_df2_transposed v = .ok (v, c) := by
  unfold Cascade.size at h
  unfold Cascade.step Cascade.step_df2 Cascade.step_df2_transposed Cascade.stepWith
  rw [h]
  exact ⟨rfl, rfl, rfl⟩

/-- **C41** A step, in whichever form, changes neither the number of sections nor their
coefficients. -/
theorem C41_step_frame [CNum T] (c c' : Cascade T N) (hc : c.WF) (v y : T)
    (h : c.step v = .ok (y, c') ∨ c.step_df2 v = .ok (y, c') ∨
      c.step_df2_transposed v = .ok (y, c')) :
    c'.size = c.size ∧ c'.toList.map (fun q => (q.coeff_a, q.coeff_b)) =
      c.toList.map (fun q => (q.coeff_a, q.coeff_b)) := by
  have key : ∀ f : Biquad T → T → Res (T × Biquad T),
      (∀ q x y q', f q x = .ok (y, q') → q'.a = q.a ∧ q'.b = q.b) →
      Cascade.stepWith f c v = .ok (y, c') → c'.size = c.size ∧
        c'.toList.map (fun q => (q.coeff_a, q.coeff_b)) =
          c.toList.map (fun q => (q.coeff_a, q.coeff_b)) := by
    intro f hf h
    rcases Cascade.stepWith_spec f hc v with ⟨e, h1, h2⟩ | ⟨y', c'', h1, h2, h3⟩
    · rw [h2] at h; cases h
    · rw [h1] at h
      cases h
      refine ⟨h2, ?_⟩
      have hl : ∀ (l l' : List (Biquad T)) (v y : T), Cascade.stepList f l v = .ok (y, l') →
          l'.map (fun q => (q.coeff_a, q.coeff_b)) = l.map (fun q => (q.coeff_a, q.coeff_b)) := by
        intro l
        induction l with
        | nil => intro l' v y h; cases h; rfl
        | cons q qs ih =>
          intro l' v y h
          simp only [Cascade.stepList, bind_eq_ok, Except.ok.injEq, Prod.mk.injEq] at h
          obtain ⟨⟨v1, q1⟩, e1, ⟨v2, l2⟩, e2, -, rfl⟩ := h
          have hq := hf _ _ _ _ e1
          rw [List.map_cons, List.map_cons, ih _ _ _ e2]
          simp only [Biquad.coeff_a, Biquad.coeff_b, hq.1, hq.2]
      exact hl _ _ _ _ h3
  rcases h with h | h | h
  · exact key _ (fun _ _ _ _ => Biquad.step_df2_coeff) h
  · exact key _ (fun _ _ _ _ => Biquad.step_df2_coeff) h
  · exact key _ (fun _ _ _ _ => Biquad.step_df2_transposed_coeff) h

/-! ### C35 reset of a cascade -/

/-- **C35** After `reset`, every section is the freshly constructed one with its coefficients. -/
theorem C35_reset_cascade [CNum T] (c : Cascade T N) (hc : c.WF) :
    ∃ c', c.reset = .ok c' ∧ c'.WF ∧
      c'.toList = c.toList.map fun q => Biquad.ofBA q.coeff_b q.coeff_a := by
  have hc' : c.next ≤ N := hc
  obtain ⟨c', h1, h2, h3⟩ := forRange_inv
    (P := fun j (c' : Cascade T N) => c'.next = c.next ∧
      ∀ m, c'.biquad[m]? = if m < j then c.biquad[m]?.map Biquad.reset else c.biquad[m]?)
    (n := c.next)
    (body := fun k c => do c.set k (← c.get k).reset)
    (s := c)
    ⟨rfl, fun m => by rw [if_neg (by omega)]⟩
    (by
      rintro j hj c' ⟨hn, hc⟩
      have e1 : j < N := by omega
      refine ⟨{ c' with biquad := c'.biquad.set j c'.biquad[j].reset }, ?_, hn, ?_⟩
      · simp only [Cascade.get_ok e1, bind_ok, Cascade.set_ok e1]
      · intro m
        have hget : some c'.biquad[j] = c.biquad[j]? := by
          rw [← Vector.getElem?_eq_getElem e1, hc, if_neg (by omega)]
        show (c'.biquad.set j c'.biquad[j].reset)[m]? = _
        rw [Vector.getElem?_set]
        by_cases hm : j = m
        · subst hm
          rw [if_pos rfl, if_pos (by omega), ← hget]
          rfl
        · rw [if_neg hm, hc]
          by_cases h1 : m < j
          · rw [if_pos h1, if_pos (by omega)]
          · rw [if_neg h1, if_neg (by omega)])
  refine ⟨c', h1, by unfold Cascade.WF; omega, ?_⟩
  apply List.ext_getElem?
  intro m
  rw [List.getElem?_map, Cascade.getElem?_toList, Cascade.getElem?_toList, h2, h3]
  by_cases hm : m < c.next
  · rw [if_pos hm, if_pos hm, if_pos hm]
    rfl
  · rw [if_neg hm, if_neg hm]
    rfl

/-- **C35** Hence a cascade that processed any samples `x`, in whichever form, then is reset, answers
every further input, in whichever form, like a freshly constructed cascade of sections with the
original coefficients. -/
theorem C35_reset_cascade_outputs [CNum T] (c c1 : Cascade T N) (hc : c.WF) (x : ℕ → T) (n : ℕ)
    (h : after Cascade.step c x n = .ok c1 ∨ after Cascade.step_df2 c x n = .ok c1 ∨
      after Cascade.step_df2_transposed c x n = .ok c1) :
    ∃ c2, c1.reset = .ok c2 ∧ ∀ x' z,
      let fresh := c.toList.map fun q => Biquad.ofBA q.coeff_b q.coeff_a
      (Runs Cascade.step c2 x' z ↔ Series Biquad.step fresh x' z) ∧
      (Runs Cascade.step_df2 c2 x' z ↔ Series Biquad.step_df2 fresh x' z) ∧
      (Runs Cascade.step_df2_transposed c2 x' z ↔ Series Biquad.step_df2_transposed fresh x' z) := by
  have hinv : ∀ f : Cascade T N → T → Res (T × Cascade T N),
      (∀ c c' v y, f c v = .ok (y, c') → c.step v = .ok (y, c') ∨ c.step_df2 v = .ok (y, c') ∨
        c.step_df2_transposed v = .ok (y, c')) →
      ∀ n c1, after f c x n = .ok c1 → c1.WF ∧
        c1.toList.map (fun q => (q.coeff_a, q.coeff_b)) =
          c.toList.map (fun q => (q.coeff_a, q.coeff_b)) := by
    intro f hf n
    induction n with
    | zero => intro c1 h; cases h; exact ⟨hc, rfl⟩
    | succ n ih =>
      intro c1 h
      rw [after_succ, bind_eq_ok] at h
      obtain ⟨c0, h1, h2⟩ := h
      rw [bind_eq_ok] at h2
      obtain ⟨⟨y, c2⟩, h3, h4⟩ := h2
      cases h4
      obtain ⟨w0, e0⟩ := ih c0 h1
      obtain ⟨w1, e1⟩ := C41_step_frame c0 c2 w0 _ _ (hf _ _ _ _ h3)
      refine ⟨?_, e1.trans e0⟩
      show c2.next ≤ N
      unfold Cascade.WF Cascade.size at *
      omega
  obtain ⟨w1, e1⟩ : c1.WF ∧ c1.toList.map (fun q => (q.coeff_a, q.coeff_b)) =
      c.toList.map (fun q => (q.coeff_a, q.coeff_b)) := by
    rcases h with h | h | h
    · exact hinv _ (fun _ _ _ _ h => .inl h) n c1 h
    · exact hinv _ (fun _ _ _ _ h => .inr (.inl h)) n c1 h
    · exact hinv _ (fun _ _ _ _ h => .inr (.inr h)) n c1 h
  obtain ⟨c2, h2, w2, e2⟩ := C35_reset_cascade c1 w1
  refine ⟨c2, h2, fun x' z => ?_⟩
  have e3 := congrArg (List.map fun ab : BqA T × BqB T => Biquad.ofBA ab.2 ab.1) e1
  rw [List.map_map, List.map_map] at e3
  have e4 : c2.toList = c.toList.map fun q => Biquad.ofBA q.coeff_b q.coeff_a := e2.trans e3
  have := C41_step_forms c2 w2 x' z
  rw [e4] at this
  exact this

example : exCascade.WF ∧ exCascade.toList = [exS1, exS2] ∧ exCascade.size = 2 :=
  C40_construct [exS1, exS2] _

/-! ### C42 order of sections -/

/-- All sections at rest. -/
def Cascade.AtRest [CNum T] (c : Cascade T N) : Prop := ∀ q ∈ c.toList, q.w = Biquad.zeroW

section ring
variable [CommRing T] [CNum T] [ExactRing T]

/-- Numerator and denominator of the transfer function of a section. -/
noncomputable def Biquad.numZ (q : Biquad T) : PowerSeries T := poly2 q.b.b0 q.b.b1 q.b.b2
noncomputable def Biquad.denZ (q : Biquad T) : PowerSeries T := poly2 1 q.a.a1 q.a.a2

omit [CommRing T] [ExactRing T] in
theorem eq_ofBA_of_rest {q : Biquad T} (h : q.w = Biquad.zeroW) : q = Biquad.ofBA q.b q.a := by
  unfold Biquad.ofBA
  rw [← h]

omit [CNum T] [ExactRing T] in
theorem isUnit_denZ_prod (l : List (Biquad T)) : IsUnit (l.map Biquad.denZ).prod := by
  induction l with
  | nil => simp
  | cons q qs ih =>
    rw [List.map_cons, List.prod_cons]
    exact (isUnit_poly2 _ _ : IsUnit q.denZ).mul ih

theorem series_iff (l : List (Biquad T)) (h : ∀ q ∈ l, q.w = Biquad.zeroW) (x z : ℕ → T) :
    Series Biquad.step l x z ↔
      (l.map Biquad.denZ).prod * ztrans z = (l.map Biquad.numZ).prod * ztrans x := by
  induction l generalizing x with
  | nil =>
    simp only [Series, List.map_nil, List.prod_nil, one_mul]
    exact ⟨fun h => by rw [h], ztrans_inj⟩
  | cons q qs ih =>
    have hq := eq_ofBA_of_rest (h q (by simp))
    have hrun : ∀ y, Runs Biquad.step q x y ↔ q.denZ * ztrans y = q.numZ * ztrans x := by
      intro y
      rw [hq, C32_step, diffEq_iff]
      rfl
    simp only [Series, List.map_cons, List.prod_cons, hrun, ih (fun p hp => h p (by simp [hp]))]
    have hu : IsUnit q.denZ := isUnit_poly2 _ _
    constructor
    · rintro ⟨y, h1, h2⟩
      rw [mul_assoc, h2, mul_left_comm, h1, ← mul_assoc, mul_comm q.numZ]
    · intro h
      obtain ⟨y, hy⟩ := Biquad.runs_df2_exists q x
      have h1 := (hrun y).1 hy
      refine ⟨y, h1, ?_⟩
      apply hu.mul_left_cancel
      rw [← mul_assoc, h, mul_left_comm _ _ (ztrans y), h1]
      ring

/-- **C42** From rest, the cascade is the linear system with the product transfer function: `z` is its
output for `x` iff `(∏ A_i) Z = (∏ B_i) X`. -/
theorem C42_product_transfer (c : Cascade T N) (hc : c.WF) (hr : c.AtRest) (x z : ℕ → T) :
    Runs Cascade.step c x z ↔
      (c.toList.map fun q => poly2 1 q.coeff_a.a1 q.coeff_a.a2).prod * ztrans z =
        (c.toList.map fun q => poly2 q.coeff_b.b0 q.coeff_b.b1 q.coeff_b.b2).prod * ztrans x := by
  rw [(C41_step_forms c hc x z).1]
  exact series_iff c.toList hr x z

/-- **C42** From rest, the outputs do not depend on the order of the sections. -/
theorem C42_order_irrelevant {M : Nat} (c : Cascade T N) (c' : Cascade T M) (hc : c.WF) (hc' : c'.WF)
    (hr : c.AtRest) (hp : c.toList.Perm c'.toList) (x z : ℕ → T) :
    Runs Cascade.step c x z ↔ Runs Cascade.step c' x z := by
  have hr' : c'.AtRest := fun q hq => hr q (hp.mem_iff.2 hq)
  rw [C42_product_transfer c hc hr, C42_product_transfer c' hc' hr', (hp.map _).prod_eq,
    (hp.map fun q : Biquad T => poly2 q.coeff_b.b0 q.coeff_b.b1 q.coeff_b.b2).prod_eq]

/-- **C42** From rest, every input has exactly one output. -/
theorem C42_run_exists (c : Cascade T N) (hc : c.WF) (hr : c.AtRest) (x : ℕ → T) :
    ∃! z, Runs Cascade.step c x z := by
  obtain ⟨u, hu⟩ := isUnit_denZ_prod c.toList
  refine ⟨fun n => PowerSeries.coeff n
    ((u⁻¹ : (PowerSeries T)ˣ) * ((c.toList.map Biquad.numZ).prod * ztrans x) : PowerSeries T), ?_, fun z hz => ?_⟩
  · show Runs _ _ _ _
    rw [(C41_step_forms c hc x _).1, series_iff c.toList hr]
    have : ztrans (fun n => PowerSeries.coeff n ((u⁻¹ : (PowerSeries T)ˣ) * ((c.toList.map Biquad.numZ).prod * ztrans x) : PowerSeries T)) =
        (u⁻¹ : (PowerSeries T)ˣ) * ((c.toList.map Biquad.numZ).prod * ztrans x) := by
      ext n
      simp [ztrans]
    rw [this, ← hu, Units.mul_inv_cancel_left]
  · replace hz : Runs Cascade.step c x z := hz
    rw [(C41_step_forms c hc x _).1, series_iff c.toList hr, ← hu] at hz
    have : ztrans z = (u⁻¹ : (PowerSeries T)ˣ) * ((c.toList.map Biquad.numZ).prod * ztrans x) := by
      rw [← hz, Units.inv_mul_cancel_left]
    funext n
    rw [← this]
    simp [ztrans]

/-- **C41** From rest, both forms of the cascade have the same outputs. -/
theorem C41_forms_agree (c : Cascade T N) (hc : c.WF) (hr : c.AtRest) (x z : ℕ → T) :
    Runs Cascade.step_df2 c x z ↔ Runs Cascade.step_df2_transposed c x z := by
  rw [(C41_step_forms c hc x z).2.1, (C41_step_forms c hc x z).2.2]
  have key : ∀ (l : List (Biquad T)) (_ : ∀ q ∈ l, q.w = Biquad.zeroW) (x z : ℕ → T),
      Series Biquad.step_df2 l x z ↔ Series Biquad.step_df2_transposed l x z := by
    intro l
    induction l with
    | nil => intro _ x z; rfl
    | cons q qs ih =>
      intro h x z
      have hq := eq_ofBA_of_rest (h q (by simp))
      simp only [Series, ih (fun p hp => h p (by simp [hp]))]
      refine exists_congr fun y => and_congr_left fun _ => ?_
      rw [hq]
      unfold Runs
      simp only [C33_df2_transposed]
  exact key _ hr x z

end ring

example : exCascade.WF ∧ exCascade.AtRest ∧ exCascade.toList.Perm [exS2, exS1] ∧ exS1 ≠ exS2 := by
  have h := C40_construct (N := 3) [exS1, exS2] (by decide)
  refine ⟨h.1, fun q hq => ?_, ?_, fun h => ?_⟩
  · unfold exCascade at hq
    rw [h.2.1] at hq
    simp only [List.mem_cons, List.not_mem_nil, or_false] at hq
    rcases hq with rfl | rfl <;> rfl
  · unfold exCascade
    rw [h.2.1]
    exact List.Perm.swap _ _ _
  · have := congrArg (fun q => q.b.b1) h
    norm_num [exS1, exS2, Biquad.ofBA] at this

/-! ### C43 response and stability -/

/-- **C43** The response of a cascade is the product of the responses of its sections, if these are
defined; for an empty cascade it is 1. -/
theorem C43_response (c : Cascade ℝ N) (hc : c.WF) (f : ℝ) (H : Biquad ℝ → ℂ)
    (h : ∀ q ∈ c.toList, q.response f = .ok (H q)) :
    c.response f = .ok (c.toList.map H).prod := by
  have hl := Cascade.length_toList hc
  have hc' : c.next ≤ N := hc
  obtain ⟨r, h1, h2⟩ := forRange_inv
    (P := fun j (r : ℂ) => r = ((c.toList.take j).map H).prod)
    (n := c.next)
    (body := fun k result => do
      let bq ← c.get k
      .ok (result * (← bq.response f)))
    (s := (1 : ℂ)) (by simp)
    (by
      rintro j hj r rfl
      have e1 : j < N := by omega
      have e2 : j < c.toList.length := by omega
      have hq : c.biquad[j] = c.toList[j] := by
        have := Cascade.getElem?_toList c j
        rw [if_pos hj, Vector.getElem?_eq_getElem e1, List.getElem?_eq_getElem e2] at this
        exact (Option.some.inj this).symm
      refine ⟨_, ?_, rfl⟩
      simp only [Cascade.get_ok e1, bind_ok, hq, h _ (List.getElem_mem e2)]
      rw [List.take_succ_eq_append_getElem e2, List.map_append, List.prod_append, List.map_singleton,
        List.prod_singleton])
  rw [h2, ← hl, List.take_length] at h1
  show forRange c.next _ _ = _
  rw [← hl]
  exact h1

/-- **C43** If the response of some section is undefined at a frequency, so is that of the cascade: the code
divides by zero. -/
theorem C43_response_undefined (c : Cascade ℝ N) (hc : c.WF) (f : ℝ) (q : Biquad ℝ) (hq : q ∈ c.toList)
    (e : Err) (h : q.response f = .error e) : c.response f = .error .divByZero := by
  have hl := Cascade.length_toList hc
  have hc' : c.next ≤ N := hc
  have hdiv : ∀ (q : Biquad ℝ) e, q.response f = .error e → e = .divByZero := by
    intro q e h
    rw [response_formula q f] at h
    split_ifs at h
    cases h
    rfl
  have key : ∀ n, n ≤ c.next → (∃ j < n, ∃ e, ∃ q, c.toList[j]? = some q ∧ q.response f = .error e) →
      forRange n (fun k result => do
        let bq ← c.get k
        .ok (result * (← bq.response f))) (1 : ℂ) = .error .divByZero := by
    intro n
    induction n with
    | zero => rintro - ⟨j, hj, -⟩; omega
    | succ n ih =>
      rintro hn ⟨j, hj, e, q, hq, he⟩
      rw [forRange_succ]
      have e1 : n < N := by omega
      have e2 : n < c.toList.length := by omega
      by_cases hex : ∃ j < n, ∃ e, ∃ q, c.toList[j]? = some q ∧ q.response f = .error e
      · rw [ih (by omega) hex]
        rfl
      · have hjn : j = n := by
          by_contra hne
          exact hex ⟨j, by omega, e, q, hq, he⟩
        subst hjn
        have hg : c.biquad[j] = q := by
          have := Cascade.getElem?_toList c j
          rw [if_pos (by omega), Vector.getElem?_eq_getElem e1, hq] at this
          exact (Option.some.inj this).symm
        cases hr : forRange j (fun k result => do
            let bq ← c.get k
            .ok (result * (← bq.response f))) (1 : ℂ) with
        | ok r =>
          simp only [bind_ok, Cascade.get_ok e1, hg, he, hdiv _ _ he]
          rfl
        | error e' =>
          have : ∀ n, n ≤ j → forRange n (fun k result => do
              let bq ← c.get k
              .ok (result * (← bq.response f))) (1 : ℂ) ≠ .error e' := by
            intro n
            induction n with
            | zero => rintro - h; cases h
            | succ n ihn =>
              intro hn h
              have e1 : n < N := by omega
              have e2 : n < c.toList.length := by omega
              rw [forRange_succ] at h
              cases hr : forRange n (fun k result => do
                let bq ← c.get k
                .ok (result * (← bq.response f))) (1 : ℂ) with
              | error e'' => 
                rw [hr] at h
                cases h
                exact ihn (by omega) hr
              | ok r =>
                rw [hr] at h
                have hg : c.biquad[n] = c.toList[n] := by
                  have := Cascade.getElem?_toList c n
                  rw [if_pos (by omega), Vector.getElem?_eq_getElem e1, List.getElem?_eq_getElem e2] at this
                  exact (Option.some.inj this).symm
                simp only [bind_ok, Cascade.get_ok e1, hg] at h
                cases hs : c.toList[n].response f with
                | ok v => rw [hs] at h; cases h
                | error e'' =>
                  exact hex ⟨n, by omega, e'', c.toList[n], List.getElem?_eq_getElem e2, hs⟩
          exact absurd hr (this j le_rfl)
  obtain ⟨j, hj, rfl⟩ := List.mem_iff_getElem.1 hq
  exact key c.next le_rfl ⟨j, by omega, e, c.toList[j], List.getElem?_eq_getElem hj, h⟩

example : (Biquad.ofBA (⟨1, 0, 0⟩ : BqB ℝ) ⟨-1, 0⟩).response 0 = .error .divByZero := by
  rw [response_formula]
  simp [Biquad.ofBA]

/-- **C43** The response, also whether it is defined, does not depend on the order of the sections. -/
theorem C43_response_order {M : Nat} (c : Cascade ℝ N) (c' : Cascade ℝ M) (hc : c.WF) (hc' : c'.WF)
    (hp : c.toList.Perm c'.toList) (f : ℝ) : c.response f = c'.response f := by
  classical
  by_cases h : ∀ q ∈ c.toList, ∃ H, q.response f = .ok H
  swap
  · push Not at h
    obtain ⟨q, hq, h⟩ := h
    cases hr : q.response f with
    | ok H => exact absurd hr (h H)
    | error e =>
      rw [C43_response_undefined c hc f q hq e hr,
        C43_response_undefined c' hc' f q (hp.mem_iff.1 hq) e hr]
  let H : Biquad ℝ → ℂ := fun q => if h : ∃ H, q.response f = .ok H then h.choose else 0
  have hH : ∀ q ∈ c.toList, q.response f = .ok (H q) := by
    intro q hq
    have := h q hq
    simp only [H, dif_pos this]
    exact this.choose_spec
  rw [C43_response c hc f H hH, C43_response c' hc' f H (fun q hq => hH q (hp.mem_iff.2 hq)),
    (hp.map H).prod_eq]

/-- **C43** A cascade is reported stable iff all its sections are; the report is always defined. -/
theorem C43_is_stable (c : Cascade ℝ N) (hc : c.WF) : ∃ s, c.is_stable = .ok s ∧
    (s = true ↔ ∀ q ∈ c.toList, q.is_stable = .ok true) := by
  have hl := Cascade.length_toList hc
  have hc' : c.next ≤ N := hc
  obtain ⟨r, h1, h2⟩ := forRange_inv
    (P := fun j (r : Bool) => r = true ↔ ∀ q ∈ c.toList.take j, q.is_stable = .ok true)
    (n := c.next)
    (body := fun k result => do
      let bq ← c.get k
      if result then bq.is_stable else .ok false)
    (s := true) (by simp)
    (by
      rintro j hj r hr
      have e1 : j < N := by omega
      have e2 : j < c.toList.length := by omega
      have hq : c.biquad[j] = c.toList[j] := by
        have := Cascade.getElem?_toList c j
        rw [if_pos hj, Vector.getElem?_eq_getElem e1, List.getElem?_eq_getElem e2] at this
        exact (Option.some.inj this).symm
      simp only [Cascade.get_ok e1, bind_ok, hq]
      rw [List.take_succ_eq_append_getElem e2]
      cases r with
      | false =>
        refine ⟨false, rfl, ?_⟩
        simp only [Bool.false_eq_true, false_iff] at hr ⊢
        exact fun h => hr fun q hq => h q (List.mem_append_left _ hq)
      | true =>
        obtain ⟨s, hs, -⟩ := C37_is_stable_poles c.toList[j]
        refine ⟨s, by simpa using hs, ?_⟩
        simp only [true_iff] at hr
        constructor
        · rintro rfl q hq
          rcases List.mem_append.1 hq with hq | hq
          · exact hr q hq
          · rw [List.mem_singleton.1 hq]; exact hs
        · intro h
          have := h c.toList[j] (List.mem_append_right _ (List.mem_singleton.2 rfl))
          rw [hs] at this
          exact Except.ok.inj this)
  refine ⟨r, h1, ?_⟩
  rw [← hl, List.take_length] at h2
  exact h2

/-- **C43** If all poles of all sections are strictly inside the unit circle then, from any state of
the sections, the output for a sinusoidal input converges to the sinusoid with the amplitude
multiplied by `response( f )`. -/
theorem C43_response_limit (c : Cascade ℝ N) (hc : c.WF) (f : ℝ) (A : ℂ) (z : ℕ → ℝ)
    (hp : ∀ q ∈ c.toList, ∃ p, q.poles = .ok p ∧ ‖p.s0‖ < 1 ∧ ‖p.s1‖ < 1)
    (h : Runs Cascade.step c (sinusoid A f) z) :
    ∃ H, c.response f = .ok H ∧
      Filter.Tendsto (fun n => z n - sinusoid (H * A) f n) Filter.atTop (𝓝 0) := by
  rw [(C41_step_forms c hc _ z).1] at h
  have key : ∀ (l : List (Biquad ℝ)) (_ : ∀ q ∈ l, ∃ p, q.poles = .ok p ∧ ‖p.s0‖ < 1 ∧ ‖p.s1‖ < 1)
      (A : ℂ) (x : ℕ → ℝ) (_ : Filter.Tendsto (fun n => x n - sinusoid A f n) Filter.atTop (𝓝 0))
      (_ : Series Biquad.step l x z), ∃ H : Biquad ℝ → ℂ, (∀ q ∈ l, q.response f = .ok (H q)) ∧
      Filter.Tendsto (fun n => z n - sinusoid ((l.map H).prod * A) f n) Filter.atTop (𝓝 0) := by
    intro l
    induction l with
    | nil =>
      intro _ A x hx hs
      cases hs
      exact ⟨fun _ => 0, by simp, by simpa using hx⟩
    | cons q qs ih =>
      intro hl A x hx hs
      obtain ⟨y, h1, h2⟩ := hs
      obtain ⟨p, hp, p0, p1⟩ := hl q (by simp)
      obtain ⟨H0, r0, t0⟩ := C36_response_limit_asymptotic q p hp p0 p1 f A x y hx h1
      obtain ⟨H, r, t⟩ := ih (fun q hq => hl q (by simp [hq])) (H0 * A) y t0 h2
      classical
      let H' : Biquad ℝ → ℂ := fun q => if h : ∃ H, q.response f = .ok H then h.choose else 0
      have hH' : ∀ q H, q.response f = .ok H → H' q = H := by
        intro q H hq
        have hex : ∃ H, q.response f = .ok H := ⟨H, hq⟩
        simp only [H', dif_pos hex]
        exact Except.ok.inj (hex.choose_spec.symm.trans hq)
      refine ⟨H', fun q' hq' => ?_, ?_⟩
      · rcases List.mem_cons.1 hq' with rfl | hq'
        · rw [r0, hH' _ _ r0]
        · rw [r q' hq', hH' _ _ (r q' hq')]
      · have e : (qs.map H').prod = (qs.map H).prod := by
          congr 1
          exact List.map_congr_left fun q hq => hH' q _ (r q hq)
        rw [List.map_cons, List.prod_cons, e, hH' _ _ r0]
        have : H0 * (qs.map H).prod * A = (qs.map H).prod * (H0 * A) := by ring
        rw [this]
        exact t
  obtain ⟨H, r, t⟩ := key c.toList hp A _ (by simp) h
  exact ⟨_, C43_response c hc f H r, t⟩

example : ∃ H, (Biquad.ofBA (⟨1, 0, 0⟩ : BqB ℝ) ⟨0, 0⟩).response (1/8) = .ok H := by
  refine ⟨_, (C36_response_transfer _ _).1 ?_⟩
  simp [Biquad.ofBA, Complex.exp_ne_zero]

/-! ### C44 replace, insert, remove -/

/-- **C44** `replace( i, bq )` returns section `i` and changes no other; replacing it back restores the
cascade. -/
theorem C44_replace (c : Cascade T N) (hc : c.WF) (i : Int) (h : 0 ≤ i ∧ i < c.size) (bq : Biquad T) :
    ∃ old c', c.replace i bq = .ok (old, c') ∧ c.toList[i.toNat]? = some old ∧
      c'.toList = c.toList.set i.toNat bq ∧
      ∃ c'', c'.replace i old = .ok (bq, c'') ∧ c''.toList = c.toList := by
  obtain ⟨old, c', h1, h2, h3, h4⟩ := Cascade.replace_spec hc bq h
  have hl := Cascade.length_toList hc
  have hl' := Cascade.length_toList h2
  have hsize : c'.next = c.next := by rw [← hl', h3, List.length_set, hl]
  obtain ⟨old', c'', g1, g2, g3, g4⟩ := Cascade.replace_spec h2 (i := i) old (by
    unfold Cascade.size at h; omega)
  have hi : i.toNat < c.toList.length := by
    unfold Cascade.size at h
    omega
  have e : old' = bq := by
    rw [h3, List.getElem?_set_self hi] at g4
    exact (Option.some.inj g4).symm
  refine ⟨old, c', h1, h4, h3, c'', by rw [g1, e], ?_⟩
  rw [g3, h3, List.set_set]
  rw [List.getElem?_eq_getElem hi] at h4
  rw [← Option.some.inj h4, List.set_getElem_self]

/-- **C44** `remove( i )` after `insert( i, bq )` restores the sections. -/
theorem C44_insert_remove (c : Cascade T N) (hc : c.WF) (i : Int)
    (h : 0 ≤ i ∧ i < c.size ∧ c.size < c.reserved) (bq : Biquad T) :
    ∃ c' c'', c.insert i bq = .ok c' ∧ c'.toList = c.toList.insertIdx i.toNat bq ∧
      c'.remove i = .ok c'' ∧ c''.toList = c.toList := by
  obtain ⟨c', h1, h2, h3⟩ := Cascade.insert_spec hc bq h
  have hl := Cascade.length_toList hc
  have hl' := Cascade.length_toList h2
  unfold Cascade.size at h
  have hn : c'.next = c.next + 1 := by
    rw [← hl', h3, List.length_insertIdx_of_le_length (by omega), hl]
  obtain ⟨c'', g1, g2, g3⟩ := Cascade.remove_spec h2 (i := i) (by omega)
  refine ⟨c', c'', h1, h3, g1, ?_⟩
  rw [g3, h3, List.eraseIdx_insertIdx_self]

/-- **C44** `insert( i, bq )` after `remove( i )` of that section restores the sections, unless it was
the last one (there `append` does it). -/
theorem C44_remove_insert (c : Cascade T N) (hc : c.WF) (i : Int) (h : 0 ≤ i ∧ i + 1 < c.size)
    (bq : Biquad T) (hb : c.toList[i.toNat]? = some bq) :
    ∃ c' c'', c.remove i = .ok c' ∧ c'.insert i bq = .ok c'' ∧ c''.toList = c.toList := by
  have hl := Cascade.length_toList hc
  have hN : c.next ≤ N := hc
  unfold Cascade.size at h
  obtain ⟨c', h1, h2, h3⟩ := Cascade.remove_spec hc (i := i) (by omega)
  have hl' := Cascade.length_toList h2
  have hn : c'.next = c.next - 1 := by
    rw [← hl', h3, List.length_eraseIdx_of_lt (by omega), hl]
  obtain ⟨c'', g1, g2, g3⟩ := Cascade.insert_spec h2 (i := i) bq (by omega)
  have hi : i.toNat < c.toList.length := by omega
  refine ⟨c', c'', h1, g1, ?_⟩
  rw [g3, h3]
  rw [List.getElem?_eq_getElem hi] at hb
  rw [← Option.some.inj hb]
  exact List.insertIdx_eraseIdx_getElem hi

example : (0 : Int) ≤ 1 ∧ 1 < (exCascade.size : Int) ∧ exCascade.size < exCascade.reserved := by decide

end Verif
