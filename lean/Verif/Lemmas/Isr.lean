import Verif.Spec.Isr
import Verif.Lemmas.Atmega
import Mathlib.Data.List.FinRange
import Mathlib.Data.Fintype.Basic

/- Lemmas about interrupts. -/

namespace Verif
namespace Mcu

section
variable {n : Nat}

theorem chain_snoc {x y z : Val n} {l : List (Val n × Val n)} (h : Chain x l y) : Chain x (l ++ [(y, z)]) z := by
  induction l generalizing x with
  | nil => exact ⟨h, rfl⟩
  | cons p ps ih => exact ⟨h.1, ih h.2⟩

theorem foldl_isr (fs : List (Val n → Val n)) (s : Cpu n) :
    ∃ l, (fs.foldl Cpu.isr s).runs = s.runs ++ l ∧ Chain s.var l (fs.foldl Cpu.isr s).var ∧
      (fs.foldl Cpu.isr s).copy = s.copy ∧ (fs.foldl Cpu.isr s).ie = s.ie ∧ (fs = [] → l = []) := by
  induction fs generalizing s with
  | nil => exact ⟨[], by simp, rfl, rfl, rfl, fun _ => rfl⟩
  | cons f fs ih =>
    obtain ⟨l, h1, h2, h3, h4, -⟩ := ih (s.isr f)
    refine ⟨(s.var, f s.var) :: l, ?_, ⟨rfl, h2⟩, h3, h4, by simp⟩
    rw [List.foldl_cons, h1]
    simp [Cpu.isr]

theorem interrupts_chain (fs : List (Val n → Val n)) (s : Cpu n) :
    ∃ l, (s.interrupts fs).runs = s.runs ++ l ∧ Chain s.var l (s.interrupts fs).var ∧
      (s.interrupts fs).copy = s.copy ∧ (s.interrupts fs).ie = s.ie := by
  unfold Cpu.interrupts
  split
  · obtain ⟨l, h1, h2, h3, h4, -⟩ := foldl_isr fs s
    exact ⟨l, h1, h2, h3, h4⟩
  · exact ⟨[], by simp, rfl, rfl, rfl⟩

/-- The instruction accesses a byte. -/
def Instr.IsAccess : Instr n → Prop
  | .load _ | .store _ _ => True
  | _ => False

theorem exec_off {p q : List (Instr n)} (hp : ∀ i ∈ p, i.IsAccess) {sched : Nat → List (Val n → Val n)} {s : Cpu n}
    (h : s.ie = false) :
    Cpu.exec (p ++ q) sched s = Cpu.exec q (fun k => sched (k + p.length)) (p.foldl Cpu.step s) := by
  induction p generalizing s sched with
  | nil => rfl
  | cons i p ih =>
    have h1 : s.interrupts (sched 0) = s := by simp [Cpu.interrupts, h]
    have h2 : (s.step i).ie = false := by
      cases i with
      | cli => rfl
      | sei => exact absurd (hp .sei (by simp)) (by simp [Instr.IsAccess])
      | load k => exact h
      | store k v => exact h
    rw [List.cons_append, Cpu.exec, h1, ih (fun j hj => hp j (by simp [hj])) h2]
    simp [Nat.add_assoc]

theorem foldl_load (order : List (Fin n)) (s : Cpu n) :
    (plainRead order).foldl Cpu.step s = { s with copy := fun j => if j ∈ order then s.var j else s.copy j } := by
  induction order generalizing s with
  | nil => simp [plainRead]
  | cons k order ih =>
    show (plainRead order).foldl Cpu.step (s.step (.load k)) = _
    rw [ih]
    simp only [Cpu.step, List.mem_cons, Cpu.mk.injEq, true_and, and_true]
    funext j
    by_cases h : j ∈ order <;> by_cases h' : j = k <;> simp [h, h']

theorem foldl_store (order : List (Fin n)) (v : Val n) (s : Cpu n) :
    (plainWrite order v).foldl Cpu.step s = { s with var := fun j => if j ∈ order then v j else s.var j } := by
  induction order generalizing s with
  | nil => simp [plainWrite]
  | cons k order ih =>
    show (plainWrite order v).foldl Cpu.step (s.step (.store k (v k))) = _
    rw [ih]
    simp only [Cpu.step, List.mem_cons, Cpu.mk.injEq, and_true]
    funext j
    by_cases h : j ∈ order
    · simp [h]
    · by_cases h' : j = k
      · subst h'; simp [h]
      · simp [h, h']

theorem plainRead_access (order : List (Fin n)) : ∀ i ∈ plainRead order, i.IsAccess := by
  simp [plainRead, Instr.IsAccess]

theorem plainWrite_access (order : List (Fin n)) (v : Val n) : ∀ i ∈ plainWrite order v, i.IsAccess := by
  simp [plainWrite, Instr.IsAccess]

/-- A guarded sequence of accesses: interrupts, then all accesses, then interrupts. -/
theorem exec_guarded {p : List (Instr n)} (hp : ∀ i ∈ p, i.IsAccess) (sched : Nat → List (Val n → Val n)) (s : Cpu n) :
    Cpu.exec (guarded p) sched s
      = Cpu.interrupts { p.foldl Cpu.step { s.interrupts (sched 0) with ie := false } with ie := true }
          (sched (p.length + 2)) := by
  have hie : ∀ (p : List (Instr n)), (∀ i ∈ p, i.IsAccess) → ∀ t : Cpu n, (p.foldl Cpu.step t).ie = t.ie := by
    intro p hp
    induction p with
    | nil => intro t; rfl
    | cons i p ih =>
      intro t
      rw [List.foldl_cons, ih fun j hj => hp j (by simp [hj])]
      cases i with
      | cli => exact absurd (hp .cli (by simp)) (by simp [Instr.IsAccess])
      | sei => exact absurd (hp .sei (by simp)) (by simp [Instr.IsAccess])
      | load k => rfl
      | store k v => rfl
  rw [guarded, Cpu.exec, exec_off hp (by rfl)]
  simp only [Cpu.exec, Cpu.step]
  have : ∀ (t : Cpu n) fs, t.ie = false → t.interrupts fs = t := fun t fs h => by simp [Cpu.interrupts, h]
  rw [this (p.foldl Cpu.step { s.interrupts (sched 0) with ie := false }) (sched (0 + p.length + 1)) (hie p hp _)]
  rw [show 0 + 1 + p.length + 1 = p.length + 2 by omega]

theorem perm_mem {order : List (Fin n)} (h : order.Perm (List.finRange n)) (k : Fin n) : k ∈ order :=
  h.mem_iff.2 (List.mem_finRange k)

theorem perm_one {n : Nat} (hn : ¬ n > 1) {order : List (Fin n)} (h : order.Perm (List.finRange n)) :
    order = [] ∧ n = 0 ∨ ∃ k, order = [k] ∧ ∀ j, j = k := by
  have hl : order.length = n := by simpa using h.length_eq
  match n, order, hl with
  | 0, [], _ => exact .inl ⟨rfl, rfl⟩
  | 1, [k], _ => exact .inr ⟨k, rfl, fun j => Subsingleton.elim _ _⟩
  | n + 2, _, _ => omega

end

/-! ### Counters -/

open Atmega

theorem c64_step (c m : Nat) (hm : m < 10) (hc : c = 10 - m) :
    ((BitVec.ofNat 8 c - 1 > (0 : Byte)) ↔ m + 1 ≠ 10) ∧
      (m + 1 ≠ 10 → BitVec.ofNat 8 c - 1 = BitVec.ofNat 8 (10 - (m + 1))) := by
  subst hc
  interval_cases m <;> exact ⟨by decide, by decide⟩

/-- The counters after `n` ticks. -/
structure BeatInv (n : Nat) (s : Beat) : Prop where
  c10 : s.cnt_10ms = BitVec.ofNat 8 (10 - n % 10)
  c100 : s.cnt_100ms = BitVec.ofNat 8 (10 - n / 10 % 10)
  c1000 : s.cnt_1000ms = BitVec.ofNat 8 (10 - n / 100 % 10)

theorem beat_step {n : Nat} {s : Beat} (h : BeatInv n s) :
    BeatInv (n + 1) s.isr ∧ s.isr.mbx_1ms = true ∧
      s.isr.mbx_10ms = (s.mbx_10ms || decide (10 ∣ n + 1)) ∧
      s.isr.mbx_100ms = (s.mbx_100ms || decide (100 ∣ n + 1)) ∧
      s.isr.mbx_1000ms = (s.mbx_1000ms || decide (1000 ∣ n + 1)) := by
  obtain ⟨h1, h2, h3⟩ := h
  obtain ⟨p1, q1⟩ := c64_step _ (n % 10) (Nat.mod_lt _ (by norm_num)) rfl
  obtain ⟨p2, q2⟩ := c64_step _ (n / 10 % 10) (Nat.mod_lt _ (by norm_num)) rfl
  obtain ⟨p3, q3⟩ := c64_step _ (n / 100 % 10) (Nat.mod_lt _ (by norm_num)) rfl
  unfold Beat.isr
  simp only [h1, h2, h3]
  by_cases e1 : n % 10 + 1 = 10
  · rw [if_neg (by rw [p1]; simpa using e1)]
    have d1 : 10 ∣ n + 1 := by omega
    by_cases e2 : n / 10 % 10 + 1 = 10
    · rw [if_neg (by rw [p2]; simpa using e2)]
      have d2 : 100 ∣ n + 1 := by omega
      by_cases e3 : n / 100 % 10 + 1 = 10
      · rw [if_neg (by rw [p3]; simpa using e3)]
        have d3 : 1000 ∣ n + 1 := by omega
        refine ⟨⟨?_, ?_, ?_⟩, rfl, by simp [d1], by simp [d2], by simp [d3]⟩
        · show 10 = _; rw [show (n + 1) % 10 = 0 by omega]; rfl
        · show 10 = _; rw [show (n + 1) / 10 % 10 = 0 by omega]; rfl
        · show 10 = _; rw [show (n + 1) / 100 % 10 = 0 by omega]; rfl
      · rw [if_pos (by rw [p3]; exact e3)]
        have d3 : ¬ 1000 ∣ n + 1 := by omega
        refine ⟨⟨?_, ?_, ?_⟩, rfl, by simp [d1], by simp [d2], by simp [d3]⟩
        · show 10 = _; rw [show (n + 1) % 10 = 0 by omega]; rfl
        · show 10 = _; rw [show (n + 1) / 10 % 10 = 0 by omega]; rfl
        · show _ = _; rw [q3 e3, show (n + 1) / 100 % 10 = n / 100 % 10 + 1 by omega]
    · rw [if_pos (by rw [p2]; exact e2)]
      have d2 : ¬ 100 ∣ n + 1 := by omega
      have d3 : ¬ 1000 ∣ n + 1 := by omega
      refine ⟨⟨?_, ?_, ?_⟩, rfl, by simp [d1], by simp [d2], by simp [d3]⟩
      · show 10 = _; rw [show (n + 1) % 10 = 0 by omega]; rfl
      · show _ = _; rw [q2 e2, show (n + 1) / 10 % 10 = n / 10 % 10 + 1 by omega]
      · show _ = _; rw [show (n + 1) / 100 % 10 = n / 100 % 10 by omega]
  · rw [if_pos (by rw [p1]; exact e1)]
    have d1 : ¬ 10 ∣ n + 1 := by omega
    have d2 : ¬ 100 ∣ n + 1 := by omega
    have d3 : ¬ 1000 ∣ n + 1 := by omega
    refine ⟨⟨?_, ?_, ?_⟩, rfl, by simp [d1], by simp [d2], by simp [d3]⟩
    · show _ = _; rw [q1 e1, show (n + 1) % 10 = n % 10 + 1 by omega]
    · show _ = _; rw [show (n + 1) / 10 % 10 = n / 10 % 10 by omega]
    · show _ = _; rw [show (n + 1) / 100 % 10 = n / 100 % 10 by omega]

end Mcu
end Verif
