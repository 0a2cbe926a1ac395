import Verif.Lemmas.Rtt

set_option autoImplicit false

/-! The real time transfer: C303–C305. -/

namespace Props.Rtt

open Modm.Rtt

/-! ## Transmit (C303) -/

/-- **C303** (order and completeness). For every size, every order of the accesses of the program and the debugger: nothing undefined
happens, the debugger gets the bytes whose `write` returned true in their order without gaps and repetitions, and never more than
`size - 1` of them wait. -/
theorem C303_transmit (N : Nat) (hN : 0 < N) (b : Nat → Byte) (l : List TxAct) :
    ∃ s, (Tx.init N b).run l = some s ∧ s.got <+: accepted s.log ∧ (accepted s.log).length ≤ s.acked + (N - 1) ∧ s.acked ≤ s.got.length := by
  obtain ⟨s, e, h⟩ := tinv_run N hN l _ (tinv_init N hN b)
  exact ⟨s, e, by rw [h.got]; exact List.take_prefix _ _, by have := h.full; omega, h.acked⟩

/-- **C303** (refused bytes). `write` returns false exactly if `size - 1` bytes were waiting for the debugger when it looked at `tail`. -/
theorem C303_refused (N : Nat) (hN : 0 < N) (b : Nat → Byte) (l : List TxAct) (s : Tx) (hr : (Tx.init N b).run l = some s) (d : Byte) (h : Nat)
    (hp : s.pc = .loaded d h) :
    ∃ s', s.step .prog = some s' ∧ ((s'.pc = .idle ∧ s'.log = s.log ++ [(d, false)]) ↔ (accepted s.log).length = s.acked + (N - 1)) ∧
      (s'.pc = .idle ∨ (s'.pc = .room d h ∧ s'.log = s.log)) := by
  obtain ⟨s1, e, i⟩ := tinv_run N hN l _ (tinv_init N hN b)
  rw [hr] at e
  simp only [Option.some.injEq] at e
  subst e
  have hpc := i.pc
  rw [hp] at hpc
  simp only at hpc
  have hs : s.ring.size ≠ 0 := by rw [i.size]; omega
  have hf := i.full
  by_cases he : (h + 1) % s.ring.size = s.ring.tail
  · refine ⟨{ s with pc := .idle, log := s.log ++ [(d, false)] }, by simp only [Tx.step, Tx.prog, hp, if_neg hs, if_pos he], ⟨fun _ => ?_, fun _ => ⟨rfl, rfl⟩⟩, Or.inl rfl⟩
    rw [hpc, i.size, i.tail, succ_mod] at he
    have hle : s.acked ≤ (accepted s.log).length := by
      obtain ⟨K, _, k2, k3⟩ := i.seen
      exact Nat.le_trans i.acked (Nat.le_trans k2 k3)
    by_contra hc
    have := mod_inj N s.acked ((accepted s.log).length + 1) (by omega) (by omega) he.symm
    omega
  · refine ⟨{ s with pc := .room d h }, by simp only [Tx.step, Tx.prog, hp, if_neg hs, if_neg he], ⟨?_, ?_⟩, Or.inr ⟨rfl, rfl⟩⟩
    · intro q
      exact absurd q.1 (by simp)
    · intro q
      refine absurd ?_ he
      rw [hpc, i.size, i.tail, succ_mod, q, show s.acked + (N - 1) + 1 = s.acked + N by omega, Nat.add_mod_right]

/-- **C303** (nothing is kept back). From any reachable state, a debugger that looks and then reads gets all bytes that were accepted. -/
theorem C303_drain (N : Nat) (hN : 0 < N) (b : Nat → Byte) (l : List TxAct) (s : Tx) (hr : (Tx.init N b).run l = some s) :
    ∃ s', s.run (.look :: List.replicate ((accepted s.log).length - s.got.length) .take) = some s' ∧ s'.got = accepted s.log ∧ s'.log = s.log := by
  obtain ⟨s1, e, i⟩ := tinv_run N hN l _ (tinv_init N hN b)
  rw [hr] at e
  simp only [Option.some.injEq] at e
  subst e
  have key : ∀ (n : Nat) (s : Tx), TInv N s → s.seen = (accepted s.log).length % N → (accepted s.log).length - s.got.length = n →
      ∃ s', s.run (List.replicate n .take) = some s' ∧ s'.got = accepted s.log ∧ s'.log = s.log := by
    intro n
    induction n with
    | zero =>
      intro s h hs hn
      refine ⟨s, rfl, ?_, rfl⟩
      rw [h.got, List.take_of_length_le (by omega)]
    | succ n ih =>
      intro s h hs hn
      have hf := h.full
      have ha := h.acked
      have hc : s.cursor ≠ s.seen := by
        rw [h.cursor, hs]
        intro q
        have := mod_inj N _ _ (by omega) (by omega) q
        omega
      obtain ⟨s1, e1, h1⟩ := tinv_step N hN s .take h
      have e2 := e1
      simp only [Tx.step, if_neg hc, Option.some.injEq] at e2
      obtain ⟨s', e3, a, c⟩ := ih s1 h1 (by rw [← e2]; exact hs) (by rw [← e2]; simp only [List.length_append, List.length_singleton]; omega)
      refine ⟨s', ?_, ?_, ?_⟩
      · rw [List.replicate_succ, Tx.run, e1]
        exact e3
      · rw [a, ← e2]
      · rw [c, ← e2]
  obtain ⟨s1, e1, h1⟩ := tinv_step N hN s .look i
  have e2 := e1
  simp only [Tx.step, Option.some.injEq] at e2
  obtain ⟨s', e3, a, c⟩ := key ((accepted s.log).length - s.got.length) s1 h1 (by rw [← e2]; exact i.head) (by rw [← e2])
  refine ⟨s', ?_, ?_, ?_⟩
  · rw [Tx.run, e1]
    exact e3
  · rw [a, ← e2]
  · rw [c, ← e2]

/-- **C303** (finished). `isWriteFinished` holds exactly if the debugger has acknowledged all accepted bytes. -/
theorem C303_finished (N : Nat) (hN : 0 < N) (b : Nat → Byte) (l : List TxAct) (s : Tx) (hr : (Tx.init N b).run l = some s) :
    s.ring.isEmpty = true ↔ s.acked = (accepted s.log).length := by
  obtain ⟨s1, e, i⟩ := tinv_run N hN l _ (tinv_init N hN b)
  rw [hr] at e
  simp only [Option.some.injEq] at e
  subst e
  obtain ⟨K, _, k2, k3⟩ := i.seen
  have hf := i.full
  have ha := i.acked
  simp only [Ring.isEmpty, decide_eq_true_eq, i.head, i.tail]
  constructor
  · intro q
    exact mod_inj N _ _ (by omega) (by omega) q.symm
  · intro q
    rw [q]

example : ∃ s, (Tx.init 3 fun _ => 0).run [.call 1, .prog, .prog, .prog, .prog, .call 2, .prog, .prog, .look, .prog, .take, .take, .prog, .call 3, .prog, .prog, .ack,
    .call 4, .prog, .prog, .prog, .prog, .look, .take, .take] = some s ∧ s.got = [1, 2, 4] ∧ s.log = [(1, true), (2, true), (3, false), (4, true)] := by
  refine ⟨_, rfl, by decide, by decide⟩

/-! ## Receive (C304) -/

/-- **C304** (order and completeness). For every size and every order of the accesses: nothing undefined happens, and `read` returns the bytes
that the debugger put in their order without gaps and repetitions, and only bytes that it has published. -/
theorem C304_receive (N : Nat) (hN : 0 < N) (b : Nat → Byte) (l : List RxAct) :
    ∃ s, (Rx.init N b).run l = some s ∧ received s.log <+: s.put.take s.shown ∧ s.put.length ≤ (received s.log).length + (N - 1) := by
  obtain ⟨s, e, h⟩ := rinv_run N hN l _ (rinv_init N hN b)
  refine ⟨s, e, ?_, ?_⟩
  · rw [h.got, List.prefix_iff_eq_take, List.take_take, List.length_take]
    have := h.le1
    have := h.le2
    congr 1
    omega
  · obtain ⟨S, _, k2, k3⟩ := h.seen
    omega

/-- **C304** (nothing there). `read` returns false exactly if nothing was published and unread when it looked at `head`; without steps of the
debugger in between it returns the next byte. -/
theorem C304_read (N : Nat) (hN : 0 < N) (b : Nat → Byte) (l : List RxAct) (s : Rx) (hr : (Rx.init N b).run l = some s) (hp : s.pc = .idle) :
    ∃ s', s.run [.call, .prog, .prog, .prog, .prog] = some s' ∧ s'.pc = .idle ∧
      s'.log = s.log ++ [if (received s.log).length < s.shown then s.put[(received s.log).length]? else none] := by
  obtain ⟨s1, e, i⟩ := rinv_run N hN l _ (rinv_init N hN b)
  rw [hr] at e
  simp only [Option.some.injEq] at e
  subst e
  have le1 := i.le1
  have le2 := i.le2
  by_cases hc : (received s.log).length < s.shown
  · have hne : ¬ (s.ring.size = 0 ∨ s.ring.tail = s.ring.head) := by
      rw [i.size, i.head, i.tail]
      rintro (q | q)
      · omega
      · obtain ⟨S, _, k2, k3⟩ := i.seen
        have := mod_inj N _ _ le1 (by omega) q
        omega
    have hl : s.ring.tail < s.ring.size := by rw [i.tail, i.size]; exact Nat.mod_lt _ hN
    refine ⟨{ s with pc := .idle, ring := { s.ring with tail := (s.ring.tail + 1) % s.ring.size }, log := s.log ++ [some (s.ring.buffer s.ring.tail)] }, ?_, rfl, ?_⟩
    · simp [Rx.run, Rx.step, Rx.prog, hp, hne, hl]
    · rw [if_pos hc, i.slots _ (Nat.le_refl _) (by omega), i.tail]
  · refine ⟨{ s with pc := .idle, log := s.log ++ [none] }, ?_, rfl, by rw [if_neg hc]⟩
    have hq : s.ring.size = 0 ∨ s.ring.tail = s.ring.head := by
      right
      rw [i.head, i.tail, show (received s.log).length = s.shown by omega]
    simp [Rx.run, Rx.step, Rx.prog, hp, hq]

example : ∃ s, (Rx.init 4 fun _ => 0).run [.put 7, .put 8, .call, .prog, .prog, .show, .call, .prog, .put 9, .put 10, .prog, .prog, .show, .prog, .look, .put 11,
    .call, .prog, .prog, .prog, .prog] = some s ∧ received s.log = [7, 8] ∧ s.put = [7, 8, 9, 11] ∧ s.log = [none, some 7, some 8] := by
  refine ⟨_, rfl, by decide, by decide, by decide⟩

/-! ## Sizes and blocks (C305) -/

/-- The bytes in a buffer, from the oldest one on -/
def content (r : Ring) : List Byte := (List.range ((r.head + r.size - r.tail) % r.size)).map fun i => r.buffer ((r.tail + i) % r.size)

/-- A buffer whose indices are inside of it -/
def Valid (r : Ring) : Prop := r.head < r.size ∧ r.tail < r.size

theorem mod_cases (N m : Nat) (h : m < 2 * N) : m % N = if m < N then m else m - N := by
  split
  · exact Nat.mod_eq_of_lt (by assumption)
  · rw [Nat.mod_eq_sub_mod (by omega), Nat.mod_eq_of_lt (by omega)]

theorem content_length (r : Ring) (h : Valid r) : (content r).length = if r.tail ≤ r.head then r.head - r.tail else r.head + r.size - r.tail := by
  obtain ⟨h1, h2⟩ := h
  unfold content
  rw [List.length_map, List.length_range, mod_cases _ _ (by omega)]
  split <;> split <;> omega

theorem write_valid (r : Ring) (h : Valid r) (d : Byte) :
    ((content r).length = r.size - 1 ∧ r.write d = some (false, r)) ∨
    ((content r).length < r.size - 1 ∧ ∃ r', r.write d = some (true, r') ∧ Valid r' ∧ r'.size = r.size ∧ content r' = content r ++ [d]) := by
  have hl := content_length r h
  obtain ⟨h1, h2⟩ := h
  have hs : r.size ≠ 0 := by omega
  have hm := mod_cases r.size (r.head + 1) (by omega)
  unfold Ring.write
  rw [if_neg hs]
  by_cases he : (r.head + 1) % r.size = r.tail
  · left
    rw [if_pos he]
    refine ⟨?_, rfl⟩
    rw [hl]
    rw [hm] at he
    split at he <;> split <;> omega
  · right
    rw [if_neg he, if_pos h1]
    have hlt : (content r).length < r.size - 1 := by
      rw [hl]
      rw [hm] at he
      split at he <;> split <;> omega
    refine ⟨hlt, _, rfl, ⟨Nat.mod_lt _ (by omega), h2⟩, rfl, ?_⟩
    unfold content at hlt ⊢
    rw [List.length_map, List.length_range] at hlt
    simp only
    have e : ((r.head + 1) % r.size + r.size - r.tail) % r.size = (r.head + r.size - r.tail) % r.size + 1 := by
      have hb : (r.head + 1) % r.size < r.size := Nat.mod_lt _ (by omega)
      rw [mod_cases r.size (r.head + r.size - r.tail) (by omega)] at hlt ⊢
      rw [mod_cases r.size ((r.head + 1) % r.size + r.size - r.tail) (by omega)]
      rcases Nat.lt_or_ge (r.head + 1) r.size with q | q
      · rw [if_pos q] at hm
        rw [hm]
        split at hlt <;> split <;> omega
      · rw [if_neg (by omega)] at hm
        rw [hm]
        split at hlt <;> split <;> omega
    rw [e, List.range_succ, List.map_append, List.map_singleton]
    congr 1
    · apply List.map_congr_left
      intro i hi
      rw [List.mem_range] at hi
      rw [Function.update_of_ne]
      rw [mod_cases r.size (r.tail + i) (by omega)]
      rw [mod_cases r.size (r.head + r.size - r.tail) (by omega)] at hi
      split at hi <;> split <;> omega
    · congr 1
      rw [show (r.tail + (r.head + r.size - r.tail) % r.size) % r.size = r.head by
        rw [mod_cases r.size (r.head + r.size - r.tail) (by omega)]
        split
        · rw [mod_cases _ _ (by omega)]; split <;> omega
        · rw [mod_cases _ _ (by omega)]; split <;> omega]
      rw [Function.update_self]

theorem read_valid (r : Ring) (h : Valid r) :
    (content r = [] ∧ r.read = some (none, r)) ∨
    (∃ d l r', content r = d :: l ∧ r.read = some (some d, r') ∧ Valid r' ∧ r'.size = r.size ∧ content r' = l) := by
  have hl := content_length r h
  obtain ⟨h1, h2⟩ := h
  have hs : r.size ≠ 0 := by omega
  unfold Ring.read
  by_cases he : r.tail = r.head
  · left
    rw [if_pos (Or.inr he)]
    refine ⟨?_, rfl⟩
    apply List.eq_nil_of_length_eq_zero
    rw [hl]
    split <;> omega
  · right
    rw [if_neg (fun q => q.elim hs he), if_pos h2]
    have hpos : 0 < (r.head + r.size - r.tail) % r.size := by
      rw [mod_cases _ _ (by omega)]
      split <;> omega
    obtain ⟨n, hn⟩ : ∃ n, (r.head + r.size - r.tail) % r.size = n + 1 := ⟨(r.head + r.size - r.tail) % r.size - 1, by omega⟩
    refine ⟨r.buffer r.tail, (List.range n).map (fun i => r.buffer ((r.tail + (i + 1)) % r.size)), _, ?_, rfl, ⟨h1, Nat.mod_lt _ (by omega)⟩, rfl, ?_⟩
    · unfold content
      rw [hn, List.range_succ_eq_map, List.map_cons, Nat.add_zero, Nat.mod_eq_of_lt h2, List.map_map]
      rfl
    · unfold content
      simp only
      have hm := mod_cases r.size (r.tail + 1) (by omega)
      have e : (r.head + r.size - (r.tail + 1) % r.size) % r.size = n := by
        rw [mod_cases _ _ (by omega)] at hn
        rw [hm, mod_cases _ _ (by split <;> omega)]
        split at hn <;> split <;> split <;> omega
      rw [e]
      apply List.map_congr_left
      intro i _
      rw [Nat.mod_add_mod, Nat.add_assoc, Nat.add_comm 1 i]

/-- **C305** (blocks, transmit). `write` of a block puts as many bytes of it as there is room for behind the waiting ones, and returns their number. -/
theorem C305_write_block : ∀ (l : List Byte) (r : Ring), Valid r →
    ∃ n r', r.writeMany l = some (n, r') ∧ n = min l.length (r.size - 1 - (content r).length) ∧ Valid r' ∧ content r' = content r ++ l.take n := by
  intro l
  induction l with
  | nil => exact fun r h => ⟨0, r, rfl, by simp, h, by simp⟩
  | cons d l ih =>
    intro r h
    rcases write_valid r h d with ⟨a1, a2⟩ | ⟨a1, r1, a2, a3, a4, a5⟩
    · refine ⟨0, r, ?_, by simp [a1], h, by simp⟩
      rw [Ring.writeMany, a2]
    · obtain ⟨n, r2, b1, b2, b3, b4⟩ := ih r1 a3
      refine ⟨n + 1, r2, ?_, ?_, b3, ?_⟩
      · rw [Ring.writeMany, a2]
        simp only [b1, Option.map_some]
      · rw [b2, a4, a5, List.length_append, List.length_singleton, List.length_cons]
        omega
      · rw [b4, a5, List.take_succ_cons, List.append_assoc]
        rfl

/-- **C305** (blocks, receive). `read` of a block returns the oldest bytes, as many as were asked for if there are so many. -/
theorem C305_read_block : ∀ (n : Nat) (r : Ring), Valid r →
    ∃ r', r.readMany n = some ((content r).take n, r') ∧ Valid r' ∧ content r' = (content r).drop n := by
  intro n
  induction n with
  | zero => exact fun r h => ⟨r, rfl, h, rfl⟩
  | succ n ih =>
    intro r h
    rcases read_valid r h with ⟨a1, a2⟩ | ⟨d, l, r1, a1, a2, a3, a4, a5⟩
    · exact ⟨r, by rw [Ring.readMany, a2, a1]; rfl, h, by rw [a1]; rfl⟩
    · obtain ⟨r2, b1, b2, b3⟩ := ih r1 a3
      refine ⟨r2, ?_, b2, by rw [b3, a5, a1]; rfl⟩
      rw [Ring.readMany, a2, a1]
      simp only [b1, Option.map_some, a5, List.take_succ_cons]

/-- **C305** (numbers). For a buffer that is not empty, `transmitBufferSize` and `receiveBufferSize` are the number of bytes in it.
Missing: the empty buffer, see `C305_empty_counterexample`. -/
theorem C305_size_partial (r : Ring) (h : Valid r) (hs : r.size < 2 ^ 31) (hne : content r ≠ []) : r.getSize = (content r).length := by
  have hl := content_length r h
  obtain ⟨h1, h2⟩ := h
  have hh : r.head ≠ r.tail := by
    intro e
    apply hne
    apply List.eq_nil_of_length_eq_zero
    rw [hl, e]
    simp
  rw [hl]
  unfold Ring.getSize
  split <;> split <;> omega

/-- **C305** (numbers), false in general: for every empty buffer the number is its whole size, though nothing is in it, also though at
most `size - 1` bytes fit into it. -/
theorem C305_empty_counterexample (r : Ring) (h : Valid r) (hs : r.size < 2 ^ 31) (he : content r = []) : r.getSize = r.size ∧ r.isEmpty = true := by
  have hl := content_length r h
  rw [he] at hl
  obtain ⟨h1, h2⟩ := h
  have e : r.head = r.tail := by
    simp only [List.length_nil] at hl
    split at hl <;> omega
  refine ⟨?_, by simp [Ring.isEmpty, e]⟩
  unfold Ring.getSize
  rw [if_neg (by omega)]
  omega

/-- **C305** (channels without a buffer), false in general. `module.md` allows the size 0 for an unused direction, but `write` divides by the size
before it tests it; `read` tests it first and returns false. -/
theorem C305_no_buffer_counterexample (r : Ring) (h : r.size = 0) (d : Byte) : r.write d = none ∧ r.read = some (none, r) := by
  refine ⟨by simp [Ring.write, h], by simp [Ring.read, h]⟩

example : Valid ⟨4, 1, 3, fun i => BitVec.ofNat 8 i⟩ ∧ content ⟨4, 1, 3, fun i => BitVec.ofNat 8 i⟩ = [3, 0] ∧
    (Ring.writeMany ⟨4, 1, 3, fun i => BitVec.ofNat 8 i⟩ [9, 8]).map (fun q => (q.1, content q.2)) = some (1, [3, 0, 9]) ∧
    (Ring.readMany ⟨4, 1, 3, fun i => BitVec.ofNat 8 i⟩ 5).map (fun q => q.1) = some [3, 0] ∧
    Ring.getSize ⟨4, 1, 3, fun i => BitVec.ofNat 8 i⟩ = 2 := by
  refine ⟨⟨by decide, by decide⟩, by decide, by decide, by decide, by decide⟩

example : Valid ⟨4, 3, 3, fun _ => 0⟩ ∧ content ⟨4, 3, 3, fun _ => 0⟩ = [] := ⟨⟨by decide, by decide⟩, by decide⟩

end Props.Rtt
