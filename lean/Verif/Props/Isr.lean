import Verif.Lemmas.Isr
import Verif.Props.Register
import Mathlib.Order.MinMax
import Mathlib.Data.Nat.Count

/- Properties of interrupt handling: C63 (atomic access), C64 (periodic counters), C65 (clamp), C75 (mailbox),
C76 (heartbeat period), C77 (initialisation), C78 (16-bit registers). -/

namespace Verif

open Mcu Atmega

/-! ### C63: atomic access -/

/-- `atomic( value )` reads a value that the variable had as a whole: all runs of the interrupt routine happen, in order,
either before or after the whole variable is read.  For all schedules, interrupt routines, variable sizes and orders of
the byte accesses. -/
theorem C63_read {n : Nat} {order : List (Fin n)} (ho : order.Perm (List.finRange n))
    (sched : Nat → List (Val n → Val n)) (s : Cpu n) (hr : s.runs = []) :
    ∃ before after, (Cpu.exec (atomicRead order) sched s).runs = before ++ after ∧
      Chain s.var before (Cpu.exec (atomicRead order) sched s).copy ∧
      Chain (Cpu.exec (atomicRead order) sched s).copy after (Cpu.exec (atomicRead order) sched s).var := by
  unfold atomicRead
  by_cases hn : n > 1
  · rw [if_pos hn, exec_guarded (plainRead_access order), foldl_load]
    obtain ⟨l, h1, h2, -, -⟩ := interrupts_chain (sched 0) s
    simp only [perm_mem ho, if_true]
    obtain ⟨l', h1', h2', h3', -⟩ := interrupts_chain (sched ((plainRead order).length + 2))
      (⟨(s.interrupts (sched 0)).var, (s.interrupts (sched 0)).var, true, (s.interrupts (sched 0)).runs⟩ : Cpu n)
    refine ⟨l, l', by rw [h1', h1, hr]; rfl, ?_, ?_⟩
    · rw [h3']; exact h2
    · rw [h3']; exact h2'
  · rw [if_neg hn]
    obtain ⟨l, h1, h2, h3, -⟩ := interrupts_chain (sched 0) s
    rcases perm_one hn ho with ⟨rfl, rfl⟩ | ⟨k, rfl, hk⟩
    · refine ⟨l, [], ?_, ?_, Subsingleton.elim _ _⟩
      · show (s.interrupts (sched 0)).runs = _
        rw [h1, hr]; simp
      · rwa [Subsingleton.elim (Cpu.exec _ _ _).copy (s.interrupts (sched 0)).var]
    · have hc : ∀ t : Cpu n, t.step (.load k) = { t with copy := t.var } := fun t => by
        simp only [Cpu.step, Cpu.mk.injEq, true_and, and_true]
        funext j; simp [hk j]
      simp only [plainRead, List.map_cons, List.map_nil, Cpu.exec, hc]
      obtain ⟨l', h1', h2', h3', -⟩ := interrupts_chain (sched (0 + 1))
        ({ s.interrupts (sched 0) with copy := (s.interrupts (sched 0)).var } : Cpu n)
      refine ⟨l, l', by rw [h1', h1, hr]; rfl, ?_, ?_⟩
      · rw [h3']; exact h2
      · rw [h3']; exact h2'

/-- `atomic( dest, value )` writes the variable as a whole: all runs of the interrupt routine happen, in order, either
before the write or after it, and find a value that is not half written. -/
theorem C63_write {n : Nat} {order : List (Fin n)} (ho : order.Perm (List.finRange n)) (v : Val n)
    (sched : Nat → List (Val n → Val n)) (s : Cpu n) (hr : s.runs = []) :
    ∃ before after x, (Cpu.exec (atomicWrite order v) sched s).runs = before ++ after ∧
      Chain s.var before x ∧ Chain v after (Cpu.exec (atomicWrite order v) sched s).var := by
  unfold atomicWrite
  by_cases hn : n > 1
  · rw [if_pos hn, exec_guarded (plainWrite_access order v), foldl_store]
    obtain ⟨l, h1, h2, -, -⟩ := interrupts_chain (sched 0) s
    simp only [perm_mem ho, if_true]
    obtain ⟨l', h1', h2', -, -⟩ := interrupts_chain (sched ((plainWrite order v).length + 2))
      (⟨v, (s.interrupts (sched 0)).copy, true, (s.interrupts (sched 0)).runs⟩ : Cpu n)
    exact ⟨l, l', _, by rw [h1', h1, hr]; rfl, h2, h2'⟩
  · rw [if_neg hn]
    obtain ⟨l, h1, h2, h3, -⟩ := interrupts_chain (sched 0) s
    rcases perm_one hn ho with ⟨rfl, rfl⟩ | ⟨k, rfl, hk⟩
    · refine ⟨l, [], _, ?_, h2, Subsingleton.elim _ _⟩
      show (s.interrupts (sched 0)).runs = _
      rw [h1, hr]; simp
    · have hc : ∀ t : Cpu n, t.step (.store k (v k)) = { t with var := v } := fun t => by
        simp only [Cpu.step, Cpu.mk.injEq, and_true]
        funext j; simp [hk j]
      simp only [plainWrite, List.map_cons, List.map_nil, Cpu.exec, hc]
      obtain ⟨l', h1', h2', -, -⟩ := interrupts_chain (sched (0 + 1))
        ({ s.interrupts (sched 0) with var := v } : Cpu n)
      exact ⟨l, l', _, by rw [h1', h1, hr]; rfl, h2, h2'⟩

/-- The hypotheses are met by the two orders of the bytes of a 16-bit variable; here the interrupt routine runs once before
and once after the read. -/
example : ([1, 0] : List (Fin 2)).Perm (List.finRange 2) ∧ ([0, 1] : List (Fin 2)).Perm (List.finRange 2) ∧
    (Cpu.exec (atomicRead [0, 1]) (fun k => if k = 1 then [] else [fun v i => v i + 1])
      (⟨fun _ => 7, fun _ => 0, true, []⟩ : Cpu 2)).copy = fun _ => 8 := by
  refine ⟨by decide, by decide, ?_⟩
  funext i
  match i with
  | 0 => rfl
  | 1 => rfl

/-- A plain read is not atomic: of a variable of two or more bytes it can yield a value that the variable never had. -/
theorem C63_plain_torn {n : Nat} (hn : 2 ≤ n) {order : List (Fin n)} (ho : order.Perm (List.finRange n)) :
    ∃ (s : Cpu n) (sched : Nat → List (Val n → Val n)), s.runs = [] ∧
      (Cpu.exec (plainRead order) sched s).copy ≠ s.var ∧
      ∀ p ∈ (Cpu.exec (plainRead order) sched s).runs, (Cpu.exec (plainRead order) sched s).copy ≠ p.2 := by
  obtain ⟨a, b, l, rfl⟩ : ∃ a b l, order = a :: b :: l := by
    have hl : order.length = n := by simpa using ho.length_eq
    match order, hl with
    | a :: b :: l, _ => exact ⟨a, b, l, rfl⟩
    | [_], h => simp at h; omega
    | [], h => simp at h; omega
  have hnd : (a :: b :: l).Nodup := ho.nodup_iff.2 (List.nodup_finRange n)
  have hab : a ≠ b := by
    intro h
    subst h
    simp at hnd
  have hbl : b ∉ l := fun h => by simp [h] at hnd
  have hal : a ∉ l := fun h => by simp [h] at hnd
  -- reading the rest without interrupts
  have rest : ∀ (l : List (Fin n)) (t : Cpu n),
      Cpu.exec (plainRead l) (fun _ => []) t
        = { t with copy := fun j => if j ∈ l then t.var j else t.copy j } := by
    intro l t
    rw [← foldl_load]
    induction l generalizing t with
    | nil =>
      show t.interrupts [] = t
      unfold Cpu.interrupts
      split <;> rfl
    | cons k l ih =>
      show Cpu.exec (plainRead l) (fun _ => []) ((t.interrupts []).step (.load k)) = _
      have : t.interrupts [] = t := by unfold Cpu.interrupts; split <;> rfl
      rw [this, ih]; rfl
  refine ⟨⟨fun _ => 0, fun _ => 0, true, []⟩, fun k => if k = 1 then [fun _ _ => 1] else [], rfl, ?_⟩
  have e : Cpu.exec (plainRead (a :: b :: l)) (fun k => if k = 1 then [fun _ _ => 1] else [])
      (⟨fun _ => 0, fun _ => 0, true, []⟩ : Cpu n)
      = ⟨fun _ => 1, fun j => if j = a then 0 else if j ∈ b :: l then 1 else 0, true, [(fun _ => 0, fun _ => 1)]⟩ := by
    show Cpu.exec (plainRead l) (fun _ => []) _ = _
    rw [rest]
    simp only [Cpu.interrupts, Cpu.step, Cpu.isr, if_true, List.foldl_nil, List.foldl_cons, Cpu.mk.injEq, true_and,
      List.nil_append, and_true, if_false, Nat.zero_ne_one]
    funext j
    by_cases h1 : j = a
    · subst h1; simp [hal, hab]
    · by_cases h2 : j = b
      · subst h2; simp [h1]
      · simp [h1, h2]
  rw [e]
  constructor
  · intro h
    have := congrFun h b
    simp [hab.symm] at this
  · intro p hp h
    simp only [List.mem_singleton] at hp
    subst hp
    have := congrFun h a
    simp at this

/-- `atomic` enables interrupts: after it they are enabled, also if they were disabled before. -/
theorem C63_enables {n : Nat} (hn : 2 ≤ n) (order : List (Fin n)) (v : Val n) (sched : Nat → List (Val n → Val n))
    (s : Cpu n) :
    (Cpu.exec (atomicRead order) sched s).ie = true ∧ (Cpu.exec (atomicWrite order v) sched s).ie = true := by
  have hn' : n > 1 := hn
  constructor
  · rw [atomicRead, if_pos hn', exec_guarded (plainRead_access order)]
    obtain ⟨-, -, -, -, h⟩ := interrupts_chain (sched ((plainRead order).length + 2))
      { (plainRead order).foldl Cpu.step { s.interrupts (sched 0) with ie := false } with ie := true }
    exact h
  · rw [atomicWrite, if_pos hn', exec_guarded (plainWrite_access order v)]
    obtain ⟨-, -, -, -, h⟩ := interrupts_chain (sched ((plainWrite order v).length + 2))
      { (plainWrite order v).foldl Cpu.step { s.interrupts (sched 0) with ie := false } with ie := true }
    exact h

/-- So `atomic` must not be used with interrupts off: of two reads in a section with interrupts off, the first of which is
atomic, the second may find another value. -/
theorem C63_section_broken :
    ∃ (s : Cpu 2) (sched : Nat → List (Val 2 → Val 2)), s.ie = false ∧
      (Cpu.exec (atomicRead [0, 1] ++ plainRead [0, 1]) sched s).copy ≠ (Cpu.exec (atomicRead [0, 1]) (fun _ => []) s).copy := by
  refine ⟨⟨fun _ => 0, fun _ => 0, false, []⟩, fun k => if k = 4 then [fun _ _ => 1] else [], rfl, fun h => ?_⟩
  exact absurd (congrFun h 0) (by decide)

/-! ### C64: periodic counters -/

/-- The counters are not accessible to the main program, which may change the mailboxes between ticks. -/
def SameCounters (s t : Beat) : Prop :=
  s.cnt_10ms = t.cnt_10ms ∧ s.cnt_100ms = t.cnt_100ms ∧ s.cnt_1000ms = t.cnt_1000ms

/-- The timer interrupt routine posts the 1 ms mailbox at each tick, the 10, 100 and 1000 ms mailboxes exactly at the ticks
whose number is a multiple of 10, 100, 1000; it never withdraws a post.  `before n` and `after n` are the states before and
after tick number `n + 1`; between the ticks the main program does what it likes with the mailboxes. -/
theorem C64_beat (before after : Nat → Beat)
    (hstart : SameCounters (before 0) {})
    (htick : ∀ n, after n = (before n).isr)
    (hmain : ∀ n, SameCounters (before (n + 1)) (after n)) (n : Nat) :
    (after n).mbx_1ms = true ∧
      (after n).mbx_10ms = ((before n).mbx_10ms || decide (10 ∣ n + 1)) ∧
      (after n).mbx_100ms = ((before n).mbx_100ms || decide (100 ∣ n + 1)) ∧
      (after n).mbx_1000ms = ((before n).mbx_1000ms || decide (1000 ∣ n + 1)) := by
  have inv : ∀ n, BeatInv n (before n) := by
    intro n
    induction n with
    | zero => exact ⟨hstart.1, hstart.2.1, hstart.2.2⟩
    | succ n ih =>
      have h := (beat_step ih).1
      rw [← htick] at h
      exact ⟨(hmain n).1.trans h.c10, (hmain n).2.1.trans h.c100, (hmain n).2.2.trans h.c1000⟩
  rw [htick]
  exact (beat_step (inv n)).2

/-- The hypotheses are met by a main program that empties all mailboxes between ticks. -/
example : ∃ before after : Nat → Beat, SameCounters (before 0) {} ∧ (∀ n, after n = (before n).isr) ∧
    (∀ n, SameCounters (before (n + 1)) (after n)) ∧ ∀ n, (before n).mbx_1000ms = false := by
  let before : Nat → Beat := fun n => n.rec {} fun _ s => ⟨s.isr.1, s.isr.2, s.isr.3, false, false, false, false⟩
  refine ⟨before, fun n => (before n).isr, ⟨rfl, rfl, rfl⟩, fun _ => rfl, fun _ => ⟨rfl, rfl, rfl⟩, fun n => ?_⟩
  cases n <;> rfl

/-- After `n` ticks the LED of the blink example has been toggled n/1000 times and nothing else has changed on the port. -/
theorem C64_blink (port : Byte) (n : Nat) :
    (Blink.isr^[n] { led_port := port }).led_port = if n / 1000 % 2 = 1 then port ^^^ 0x20#8 else port := by
  suffices h : ∀ n, let s := Blink.isr^[n] { led_port := port }
      (s.cnt_10ms = BitVec.ofNat 8 (10 - n % 10) ∧ s.cnt_100ms = BitVec.ofNat 8 (10 - n / 10 % 10) ∧
        s.cnt_1000ms = BitVec.ofNat 8 (10 - n / 100 % 10)) ∧
      s.led_port = if n / 1000 % 2 = 1 then port ^^^ 0x20#8 else port from (h n).2
  intro n
  induction n with
  | zero => exact ⟨⟨rfl, rfl, rfl⟩, rfl⟩
  | succ n ih =>
    simp only [Function.iterate_succ_apply']
    obtain ⟨⟨h1, h2, h3⟩, h4⟩ := ih
    generalize Blink.isr^[n] { led_port := port } = s at h1 h2 h3 h4
    obtain ⟨p1, q1⟩ := c64_step _ (n % 10) (Nat.mod_lt _ (by norm_num)) rfl
    obtain ⟨p2, q2⟩ := c64_step _ (n / 10 % 10) (Nat.mod_lt _ (by norm_num)) rfl
    obtain ⟨p3, q3⟩ := c64_step _ (n / 100 % 10) (Nat.mod_lt _ (by norm_num)) rfl
    unfold Blink.isr
    simp only [h1, h2, h3]
    by_cases e1 : n % 10 + 1 = 10
    · rw [if_neg (by rw [p1]; simpa using e1)]
      by_cases e2 : n / 10 % 10 + 1 = 10
      · rw [if_neg (by rw [p2]; simpa using e2)]
        by_cases e3 : n / 100 % 10 + 1 = 10
        · rw [if_neg (by rw [p3]; simpa using e3)]
          refine ⟨⟨?_, ?_, ?_⟩, ?_⟩
          · show 10 = _; rw [show (n + 1) % 10 = 0 by omega]; rfl
          · show 10 = _; rw [show (n + 1) / 10 % 10 = 0 by omega]; rfl
          · show 10 = _; rw [show (n + 1) / 100 % 10 = 0 by omega]; rfl
          · show s.led_port ^^^ 0x20#8 = _
            rw [h4]
            by_cases e : n / 1000 % 2 = 1
            · rw [if_pos e, if_neg (by omega), BitVec.xor_assoc, BitVec.xor_self, BitVec.xor_zero]
            · rw [if_neg e, if_pos (by omega)]
        · rw [if_pos (by rw [p3]; exact e3)]
          refine ⟨⟨?_, ?_, ?_⟩, ?_⟩
          · show 10 = _; rw [show (n + 1) % 10 = 0 by omega]; rfl
          · show 10 = _; rw [show (n + 1) / 10 % 10 = 0 by omega]; rfl
          · show _ = _; rw [q3 e3, show (n + 1) / 100 % 10 = n / 100 % 10 + 1 by omega]
          · show s.led_port = _
            rw [h4, show (n + 1) / 1000 = n / 1000 by omega]
      · rw [if_pos (by rw [p2]; exact e2)]
        refine ⟨⟨?_, ?_, ?_⟩, ?_⟩
        · show 10 = _; rw [show (n + 1) % 10 = 0 by omega]; rfl
        · show _ = _; rw [q2 e2, show (n + 1) / 10 % 10 = n / 10 % 10 + 1 by omega]
        · show _ = _; rw [show (n + 1) / 100 % 10 = n / 100 % 10 by omega]
        · show s.led_port = _
          rw [h4, show (n + 1) / 1000 = n / 1000 by omega]
    · rw [if_pos (by rw [p1]; exact e1)]
      refine ⟨⟨?_, ?_, ?_⟩, ?_⟩
      · show _ = _; rw [q1 e1, show (n + 1) % 10 = n % 10 + 1 by omega]
      · show _ = _; rw [show (n + 1) / 10 % 10 = n / 10 % 10 by omega]
      · show _ = _; rw [show (n + 1) / 100 % 10 = n / 100 % 10 by omega]
      · show s.led_port = _
        rw [h4, show (n + 1) / 1000 = n / 1000 by omega]

/-! ### C65: clamp -/

/-- The result is within the bounds. -/
theorem C65_bounds {T : Type} [LinearOrder T] {v lo hi : T} (h : lo ≤ hi) :
    lo ≤ clamp v lo hi ∧ clamp v lo hi ≤ hi := by
  unfold clamp
  split
  · exact ⟨le_refl _, h⟩
  · split
    · exact ⟨h, le_refl _⟩
    · exact ⟨not_lt.1 ‹_›, not_lt.1 ‹_›⟩

/-- Values within the bounds are not changed. -/
theorem C65_inside {T : Type} [LinearOrder T] {v lo hi : T} (h1 : lo ≤ v) (h2 : v ≤ hi) : clamp v lo hi = v := by
  rw [clamp, if_neg (not_lt.2 h1), if_neg (not_lt.2 h2)]

/-- Of the values within the bounds, the result is the nearest to `v`: it lies between `v` and each of them. -/
theorem C65_nearest {T : Type} [LinearOrder T] {v lo hi y : T} (h1 : lo ≤ y) (h2 : y ≤ hi) :
    v ≤ clamp v lo hi ∧ clamp v lo hi ≤ y ∨ y ≤ clamp v lo hi ∧ clamp v lo hi ≤ v := by
  unfold clamp
  split
  · exact .inl ⟨le_of_lt ‹_›, h1⟩
  · split
    · exact .inr ⟨h2, le_of_lt ‹_›⟩
    · rcases le_total v y with h | h
      · exact .inl ⟨le_refl _, h⟩
      · exact .inr ⟨h, le_refl _⟩

/-- Clamping twice is clamping once. -/
theorem C65_idempotent {T : Type} [LinearOrder T] {v lo hi : T} (h : lo ≤ hi) :
    clamp (clamp v lo hi) lo hi = clamp v lo hi :=
  C65_inside (C65_bounds h).1 (C65_bounds h).2

/-- Clamping is monotone. -/
theorem C65_monotone {T : Type} [LinearOrder T] {v u lo hi : T} (h : lo ≤ hi) (huv : v ≤ u) :
    clamp v lo hi ≤ clamp u lo hi := by
  by_cases h1 : v < lo
  · rw [show clamp v lo hi = lo from if_pos h1]; exact (C65_bounds h).1
  · by_cases h2 : hi < u
    · rw [show clamp u lo hi = hi by rw [clamp, if_neg (not_lt.2 (h.trans h2.le)), if_pos h2]]
      exact (C65_bounds h).2
    · rw [C65_inside (not_lt.1 h1) (huv.trans (not_lt.1 h2)), C65_inside ((not_lt.1 h1).trans huv) (not_lt.1 h2)]
      exact huv

/-- The hypotheses are met, and the three cases occur. -/
example : (3 : ℕ) ≤ 1023 ∧ clamp 2 3 1023 = 3 ∧ clamp 512 3 1023 = 512 ∧ clamp 5000 3 1023 = 1023 := by decide

/-- `dac::write( value )` sets the compare register of timer 1 once, to the value clamped to the range 3 to 1023 of the
10-bit converter. -/
theorem C65_dac (value : BitVec 16) (s : Ocr) :
    ∃ s2 x, dac_write ocrHw value s = .ok ((), s2) ∧ s2.history = s.history ++ [x] ∧
      3 ≤ x.toNat ∧ x.toNat ≤ 1023 ∧ x.toNat = clamp value.toNat 3 1023 := by
  have hx : (clamp value 0b0011#16 0b1111111111#16).toNat = clamp value.toNat 3 1023 := by
    unfold clamp
    simp only [BitVec.lt_def, show (0b0011#16).toNat = 3 from rfl, show (0b1111111111#16).toNat = 1023 from rfl]
    split
    · rfl
    · split <;> rfl
  obtain ⟨b1, b2⟩ := C65_bounds (v := value.toNat) (show 3 ≤ 1023 by norm_num)
  refine ⟨_, clamp value 0b0011#16 0b1111111111#16, rfl, ?_, by rw [hx]; exact b1, by rw [hx]; exact b2, hx⟩
  show s.history ++ [_] = _
  congr 2
  generalize clamp value 0b0011#16 0b1111111111#16 = x
  refine BitVec.eq_of_getLsbD_eq fun i hi => ?_
  show (x.extractLsb' 8 8 ++ x.extractLsb' 0 8).getLsbD i = _
  rw [BitVec.getLsbD_append]
  interval_cases i <;> simp

/-! ### C75: mailbox -/

/-- A poll of the mailbox: it answers true exactly if there is a post at the time of the test; in this case all posts up
to the time of the reset are gone, also those made after the test; otherwise the mailbox remains empty. -/
theorem C75_poll (s : Box) :
    ∃ b s2, mbxGet boxHw 0 s = .ok (b, s2) ∧ (b = true ↔ s.flag ≠ 0 ∨ s.sched 0 ≠ 0) ∧ s2.flag = 0 ∧
      s2.posts = s.posts + s.sched 0 + (if b then s.sched 1 else 0) ∧
      s2.sched = fun k => s.sched (k + if b then 2 else 1) := by
  have hf : s.interrupts.flag ≠ 0 ↔ s.flag ≠ 0 ∨ s.sched 0 ≠ 0 := by
    unfold Box.interrupts
    by_cases h : s.sched 0 = 0
    · simp [h]
    · simp [h]
  by_cases h : s.interrupts.flag ≠ 0
  · refine ⟨true, { s.interrupts.interrupts with flag := 0 }, ?_, by simpa using hf.1 h, rfl, rfl, rfl⟩
    rw [mbxGet, M_bind]
    show (if s.interrupts.flag ≠ 0 then _ else _ : M Box Bool) s.interrupts = _
    rw [if_pos h]
    rfl
  · refine ⟨false, s.interrupts, ?_, by simpa using mt hf.2 h, not_not.1 h, rfl, rfl⟩
    rw [mbxGet, M_bind]
    show (if s.interrupts.flag ≠ 0 then _ else _ : M Box Bool) s.interrupts = _
    rw [if_neg h]
    rfl

/-- Assigning `true` or `false` to a mailbox fills or empties it, and the next poll (if nothing is posted meanwhile) says so
and leaves it empty. -/
theorem C75_put (x : Bool) (s : Box) (h : ∀ k, s.sched k = 0) :
    ∃ s2 s3, mbxPut boxHw 0 x s = .ok ((), s2) ∧ mbxGet boxHw 0 s2 = .ok (x, s3) ∧ s3.flag = 0 := by
  refine ⟨{ s.interrupts with flag := if x then 1 else 0 }, ?_⟩
  obtain ⟨b, s3, h1, h2, h3, -⟩ := C75_poll { s.interrupts with flag := if x then 1 else 0 }
  refine ⟨s3, rfl, ?_, h3⟩
  rw [h1]
  have hb : b = x := by
    have h0 : s.interrupts.sched 0 = 0 := h 1
    rw [h0] at h2
    cases x with
    | false => cases b with
      | false => rfl
      | true => rcases h2.1 rfl with h | h <;> exact absurd rfl h
    | true => exact h2.2 (.inl (by show (1 : Byte) ≠ 0; decide))
  rw [hb]

example : ∃ s : Box, (∀ k, s.sched k = 0) ∧ s.flag = 0 := ⟨⟨0, 0, fun _ => 0⟩, fun _ => rfl, rfl⟩

/-- However the interrupt routine posts, and however often the main program polls: there are never more positive answers
than posts. -/
theorem C75_no_spurious (n : Nat) (sched : Nat → Nat) :
    ∃ answers s2, polls n ⟨0, 0, sched⟩ = .ok (answers, s2) ∧ answers.length = n ∧ answers.count true ≤ s2.posts := by
  suffices h : ∀ s : Box, ∃ answers s2, polls n s = .ok (answers, s2) ∧ answers.length = n ∧
      answers.count true + s.posts ≤ s2.posts + if s.flag ≠ 0 then 1 else 0 by
    obtain ⟨bs, s2, h1, h2, h3⟩ := h ⟨0, 0, sched⟩
    exact ⟨bs, s2, h1, h2, by simpa using h3⟩
  induction n with
  | zero => intro s; exact ⟨[], s, rfl, rfl, by simp⟩
  | succ n ih =>
    intro s
    obtain ⟨b, s1, e1, hb, hf, hp, -⟩ := C75_poll s
    obtain ⟨bs, s2, e2, hl, hc⟩ := ih s1
    refine ⟨b :: bs, s2, ?_, by simp [hl], ?_⟩
    · rw [polls, M_bind, e1, bind_okM, M_bind, e2, bind_okM, M_pure]
    · rw [if_neg (by simpa using hf), hp] at hc
      cases b with
      | false => simp at hc ⊢; omega
      | true =>
        rw [List.count_cons_self]
        simp only [if_true] at hc
        rcases hb.1 rfl with h | h
        · rw [if_pos h]; omega
        · omega

/-- A post that is not interrupted by the reset is noticed: if there is a post before a poll, then the poll answers true,
whatever the schedule afterwards. -/
theorem C75_noticed (s : Box) (h : 0 < s.sched 0) : ∃ s2, mbxGet boxHw 0 s = .ok (true, s2) := by
  obtain ⟨b, s2, h1, h2, -⟩ := C75_poll s
  rw [h2.2 (.inr h.ne')] at h1
  exact ⟨s2, h1⟩

/-- Posts made between test and reset are lost: with one post before the poll and any number `k` of posts between test and
reset, the first poll answers true, and no later one does, however many there are. -/
theorem C75_lost (k n : Nat) :
    ∃ s2, polls (n + 1) ⟨0, 0, fun i => if i = 0 then 1 else if i = 1 then k else 0⟩
        = .ok (true :: List.replicate n false, s2) ∧ s2.posts = k + 1 := by
  obtain ⟨b, s1, e1, hb, hf, hp, hs⟩ := C75_poll ⟨0, 0, fun i => if i = 0 then 1 else if i = 1 then k else 0⟩
  have hbt : b = true := hb.2 (.inr (by simp))
  subst hbt
  have rest : ∀ (n : Nat) (s : Box), s.flag = 0 → (s.sched = fun _ => 0) →
      ∃ s2, polls n s = .ok (List.replicate n false, s2) ∧ s2.posts = s.posts := by
    intro n
    induction n with
    | zero => intro s _ _; exact ⟨s, rfl, rfl⟩
    | succ n ih =>
      intro s h1 h2
      obtain ⟨b, s1, e1, hb, hf, hp, hs⟩ := C75_poll s
      have hbf : b = false := by
        cases b with
        | false => rfl
        | true => rcases hb.1 rfl with h | h <;> simp [h1, h2] at h
      subst hbf
      obtain ⟨s2, e2, hp2⟩ := ih s1 hf (by rw [hs, h2])
      refine ⟨s2, ?_, by rw [hp2, hp, h2]; simp⟩
      rw [polls, M_bind, e1, bind_okM, M_bind, e2, bind_okM, M_pure]
      rfl
  obtain ⟨s2, e2, hp2⟩ := rest n s1 hf (by rw [hs]; funext i; simp)
  refine ⟨s2, ?_, by rw [hp2, hp]; simp; omega⟩
  rw [polls, M_bind, e1, bind_okM, M_bind, e2, bind_okM, M_pure]

/-! ### C77: initialisation and LED -/

/-- `beat::init()`: enables the compare interrupt (TIMSK0 bit 1), sets OCR0A to 250, CTC mode (WGM0 = 2) and prescaler 64
(CS0 = 3); everything else is left as it was. -/
theorem C77_beat_init (s : Chip) :
    ∃ s2, beat_init ram s = .ok ((), s2) ∧
      s2.mem 0x6e = s.mem 0x6e ||| 0x02#8 ∧ s2.mem 0x47 = 250#8 ∧
      s2.mem 0x44 = (s.mem 0x44 &&& 0xfc#8) ||| 0x02#8 ∧
      s2.mem 0x45 = (s.mem 0x45 &&& 0xf0#8) ||| 0x03#8 ∧
      ∀ b, b ∉ [0x6e, 0x47, 0x44, 0x45] → s2.mem b = s.mem b := by
  have e1 : rngmask .w8 1 1 = .ok 0x02#8 := rfl
  have e2 : bitmask .w8 [1, 0] = .ok 0x03#8 := rfl
  have e3 : rngmask .w8 1 0 = .ok 0x03#8 := rfl
  have e4 : rngmask .w8 3 3 = .ok 0x08#8 := rfl
  have e5 : rngmask .w8 2 0 = .ok 0x07#8 := rfl
  have hw : ∀ t : Chip, Field.write ram tc0.ocr0a count1ms t = .ok ((), upd t 0x47 250#8) := fun t => wr_ram 0x47 250#8 t
  rw [beat_init, M_bind, write_lazy_eq (io := .rw) (a := 0x6e) e1 (by norm_num), pureRes_ok, bind_okM, M_bind,
    destroy_ram, bind_okM, M_bind, hw, bind_okM, M_bind, tc0.set_waveform, M_bind, e2, pureRes_ok, bind_okM, M_bind,
    write_ram (io := .rw) (a := 0x44) e3 (by norm_num) (by norm_num) (by norm_num), bind_okM, M_bind,
    shr8 _ (by norm_num), pureRes_ok, bind_okM,
    write_lazy_eq (io := .rw) (a := 0x45) e4 (by norm_num), pureRes_ok, bind_okM, M_bind,
    write_lazy_eq (io := .rw) (a := 0x45) e5 (by norm_num), pureRes_ok, bind_okM, Proxy.statement_eq]
  refine ⟨_, destroy_ram _ _ _, ?_, ?_, ?_, ?_, fun b hb => ?_⟩
  · rw [upd_other _ _ (by norm_num), upd_other _ _ (by norm_num), upd_other _ _ (by norm_num), upd_same]
    refine BitVec.eq_of_getLsbD_eq fun i hi => ?_
    interval_cases i <;> simp
  · rw [upd_other _ _ (by norm_num), upd_other _ _ (by norm_num), upd_same]
  · rw [upd_other _ _ (by norm_num), upd_same, upd_other _ _ (by norm_num), upd_other _ _ (by norm_num)]
    refine BitVec.eq_of_getLsbD_eq fun i hi => ?_
    interval_cases i <;> simp
  · rw [upd_same, upd_other _ _ (by norm_num), upd_other _ _ (by norm_num), upd_other _ _ (by norm_num)]
    refine BitVec.eq_of_getLsbD_eq fun i hi => ?_
    interval_cases i <;> simp <;> rfl
  · simp only [List.mem_cons, List.not_mem_nil, or_false, not_or] at hb
    rw [upd_other _ _ hb.2.2.2, upd_other _ _ hb.2.2.1, upd_other _ _ hb.2.1, upd_other _ _ hb.1]

/-- `adc::init()`: AVcc as reference and channel 0, the adjustment being left as it is; free running; ADC enabled with
interrupt, auto trigger, prescaler 128, and started.  A pending ADC interrupt (bit 4 of ADCSRA, cleared by writing 1) is
cleared, since it is written back.  Everything else is left as it was. -/
theorem C77_adc_init (s : Chip) :
    ∃ s2, adc.init (chip fun a => if a = 0x7a then 0x10 else 0) s = .ok ((), s2) ∧
      s2.mem 0x7c = (s.mem 0x7c &&& 0x30#8) ||| 0x40#8 ∧
      s2.mem 0x7b = s.mem 0x7b &&& 0xf8#8 ∧
      s2.mem 0x7a = 0xef#8 ∧
      ∀ b, b ∉ [0x7c, 0x7b, 0x7a] → s2.mem b = s.mem b := by
  have masked : ∀ {w x : Byte} (m v : Byte), ∀ i < 8, ((((x &&& ~~~ m) ||| (v &&& m)) &&& ~~~ w) |||
      (x &&& w &&& ~~~ ((x &&& ~~~ m) ||| (v &&& m)))).getLsbD i =
      if w.getLsbD i then x.getLsbD i && m.getLsbD i && !v.getLsbD i
      else if m.getLsbD i then v.getLsbD i else x.getLsbD i := by
    intro w x m v i hi
    simp only [BitVec.getLsbD_or, BitVec.getLsbD_and, BitVec.getLsbD_not, hi, decide_true, Bool.true_and]
    cases w.getLsbD i <;> cases m.getLsbD i <;> cases v.getLsbD i <;> cases x.getLsbD i <;> rfl
  refine ⟨_, rfl, ?_, ?_, ?_, fun b hb => ?_⟩
  · refine BitVec.eq_of_getLsbD_eq fun i hi => (masked (w := 0#8) (x := s.mem 0x7c) 0xcf#8 0x40#8 i hi).trans ?_
    interval_cases i <;> simp
  · refine BitVec.eq_of_getLsbD_eq fun i hi => (masked (w := 0#8) (x := s.mem 0x7b) 0x07#8 0x00#8 i hi).trans ?_
    interval_cases i <;> simp
  · refine BitVec.eq_of_getLsbD_eq fun i hi => (masked (w := 0x10#8) (x := s.mem 0x7a) 0xef#8 0xef#8 i hi).trans ?_
    interval_cases i <;> simp
  · simp only [List.mem_cons, List.not_mem_nil, or_false, not_or] at hb
    show (if b = 0x7a then _ else if b = 0x7b then _ else if b = 0x7c then _ else s.mem b) = s.mem b
    rw [if_neg hb.2.2, if_neg hb.2.1, if_neg hb.1]

/-- The LED functions change exactly one bit. -/
theorem C77_led {port pin : Nat} (hp : pin < 8) (s : Chip) :
    (∃ s2, led_on ram port pin s = .ok ((), s2) ∧
      Becomes .w8 (0x25 + 3 * port) s s2 fun i => if i = pin then true else bitAt s.mem (0x25 + 3 * port) i) ∧
    (∃ s2, led_off ram port pin s = .ok ((), s2) ∧
      Becomes .w8 (0x25 + 3 * port) s s2 fun i => if i = pin then false else bitAt s.mem (0x25 + 3 * port) i) ∧
    (∃ s2, led_toggle ram port pin s = .ok ((), s2) ∧
      Becomes .w8 (0x25 + 3 * port) s s2 fun i =>
        if i = pin then !bitAt s.mem (0x25 + 3 * port) i else bitAt s.mem (0x25 + 3 * port) i) ∧
    ∃ s2, led_enable ram port pin s = .ok ((), s2) ∧
      Becomes .w8 (0x24 + 3 * port) s s2 fun i => if i = pin then true else bitAt s.mem (0x24 + 3 * port) i := by
  have e1 : port_addr port = 0x25 + 3 * port := by unfold port_addr; omega
  have e2 : ddr_addr port = 0x24 + 3 * port := by unfold ddr_addr; omega
  rw [← e1, ← e2]
  exact ⟨C59_set (f := out port pin) hp (plain_ram _ _) s, C59_clear (f := out port pin) hp nofun (plain_ram _ _) s,
    C59_toggle (f := out port pin) hp (plain_ram _ _) s, C59_set (f := dir port pin) hp (plain_ram _ _) s⟩

/-- The hypothesis is met by the on-board LED, PB5. -/
example (s : Chip) : ∃ s2, led_on ram 0 5 s = .ok ((), s2) ∧ bitAt s2.mem 0x25 5 = true := by
  obtain ⟨⟨s2, h1, h2⟩, -⟩ := C77_led (port := 0) (pin := 5) (by norm_num) s
  exact ⟨s2, h1, h2.1 5 (show 5 < 8 by norm_num)⟩

/-! ### C76: heartbeat period -/

/-- The timer in CTC mode requests an interrupt every `ocr + 1` timer clocks. -/
theorem C76_period (ocr k : Nat) : (Ctc.clock ocr)^[k] ⟨0, 0⟩ = ⟨k % (ocr + 1), k / (ocr + 1)⟩ := by
  suffices h : ∀ k, let t := (Ctc.clock ocr)^[k] ⟨0, 0⟩; t.count + (ocr + 1) * t.events = k ∧ t.count < ocr + 1 by
    obtain ⟨h1, h2⟩ := (Nat.div_mod_unique (Nat.succ_pos ocr)).2 (h k)
    rw [h1, h2]
  intro k
  induction k with
  | zero => simp
  | succ k ih =>
    simp only [Function.iterate_succ_apply']
    generalize (Ctc.clock ocr)^[k] ⟨0, 0⟩ = t at ih
    obtain ⟨h1, h2⟩ := ih
    unfold Ctc.clock
    split
    · refine ⟨?_, Nat.succ_pos _⟩
      show 0 + (ocr + 1) * (t.events + 1) = k + 1
      rw [Nat.mul_add]; omega
    · refine ⟨?_, ?_⟩
      · show t.count + 1 + (ocr + 1) * t.events = k + 1
        omega
      · show t.count + 1 < ocr + 1
        omega

/-- After `beat::init()` the heartbeat comes every 251 timer clocks of 64 processor clocks. -/
theorem C76_beat (s : Chip) : ∃ s2, beat_init ram s = .ok ((), s2) ∧
    ∀ k, ((Ctc.clock (s2.mem 0x47).toNat)^[k] ⟨0, 0⟩).events = k / 251 := by
  obtain ⟨s2, h1, -, h2, -⟩ := C77_beat_init s
  refine ⟨s2, h1, fun k => ?_⟩
  rw [h2, C76_period]
  rfl

/-- So the heartbeat is late: after `n` milliseconds, 250 timer clocks each, there have been fewer than `n` beats; the
error is a whole beat for each 251 ms. -/
theorem C76_late (s : Chip) : ∃ s2, beat_init ram s = .ok ((), s2) ∧
    ∀ n, ((Ctc.clock (s2.mem 0x47).toNat)^[250 * n] ⟨0, 0⟩).events = n - (n + 250) / 251 := by
  obtain ⟨s2, h1, h2⟩ := C76_beat s
  exact ⟨s2, h1, fun n => by rw [h2]; omega⟩

/-! ### C78: 16-bit registers -/

/-- `conversion::result()` reads the low byte first, so it is a result of one conversion, even if another conversion
completes between the two accesses. -/
theorem C78_adc_result (data : BitVec 16) (sched : Nat → Option (BitVec 16)) :
    ∃ s2, adc.result adcHw ⟨data, none, sched⟩ = .ok ((sched 0).getD data, s2) ∧ s2.locked = none := by
  refine ⟨⟨(sched 1).getD ((sched 0).getD data), none, fun k => sched (k + 2)⟩, ?_, rfl⟩
  have h : ∀ x : BitVec 16, x.extractLsb' 8 8 ++ x.extractLsb' 0 8 = x := fun x => by
    refine BitVec.eq_of_getLsbD_eq fun i hi => ?_
    show (x.extractLsb' 8 8 ++ x.extractLsb' 0 8).getLsbD i = _
    rw [BitVec.getLsbD_append]
    interval_cases i <;> simp
  have : ∀ r : BitVec 16, r = (sched 0).getD data →
      (Except.ok (r, (⟨(sched 1).getD ((sched 0).getD data), none, fun k => sched (k + 2)⟩ : Adc)) : Res _)
        = .ok ((sched 0).getD data, ⟨(sched 1).getD ((sched 0).getD data), none, fun k => sched (k + 2)⟩) := by
    intro r hr; rw [hr]
  exact this _ (h ((sched 0).getD data))

/-- Reading the bytes in the other order can combine two conversions. -/
theorem C78_other_order_torn :
    ∃ (data : BitVec 16) (sched : Nat → Option (BitVec 16)) (hi lo : Byte) (s1 s2 : Adc),
      rd adcHw 0x79 ⟨data, none, sched⟩ = .ok (hi, s1) ∧ rd adcHw 0x78 s1 = .ok (lo, s2) ∧
      hi ++ lo ≠ data ∧ ∀ k x, sched k = some x → hi ++ lo ≠ x := by
  refine ⟨0x00ff#16, fun k => if k = 1 then some 0x0100#16 else none, _, _, _, _, rfl, rfl, ?_, ?_⟩
  · decide
  · intro k x h
    beta_reduce at h
    by_cases hk : k = 1
    · rw [if_pos hk] at h
      cases h
      decide
    · rw [if_neg hk] at h
      cases h

/-- A 16-bit timer register is written with the high byte first, so it takes the new value at once. -/
theorem C78_store (v : BitVec 16) (s : Ocr) :
    ∃ s2, store ocrHw .w16 0x88 v s = .ok ((), s2) ∧ s2.history = s.history ++ [v] := by
  refine ⟨_, rfl, ?_⟩
  show s.history ++ [_] = _
  congr 2
  refine BitVec.eq_of_getLsbD_eq fun i hi => ?_
  show (v.extractLsb' 8 8 ++ v.extractLsb' 0 8).getLsbD i = _
  rw [BitVec.getLsbD_append]
  interval_cases i <;> simp

end Verif
