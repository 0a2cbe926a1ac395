import Verif.Lemmas.Deque
set_option autoImplicit false
/- Properties C03, C04, C05. -/
namespace Props
open Modm.Deque

/-- C03: every legal call history on a fresh deque has exactly the results of the bounded list. -/
theorem C03_deque_refines_list {α : Type} (N : Nat) (hN : N ≤ 65535) (h0 : 0 < N) (mem : List α)
    (hmem : mem.length = N) (ops : List (Op α)) (l : List α) (rs : List (Out α))
    (hlegal : Spec.Deque.run N [] ops = some (l, rs)) : ∃ d, run N (init N mem) ops = some (d, rs) := by
  obtain ⟨d, h, _⟩ := run_refines ops (rep_init mem hN h0 hmem) hlegal
  exact ⟨d, h⟩

example : Spec.Deque.run 2 ([] : List Nat)
    [.append 1, .prepend 2, .append 3, .appendOverwrite 4, .getFront, .prependOverwrite 5, .getBack,
     .rget 0, .get 0, .removeBack, .getSize, .removeFront, .isEmpty, .clear] =
    some ([], [.bool true, .bool true, .bool false, .unit, .val 1, .unit, .val 1, .val 1, .val 5, .unit,
     .num 1, .unit, .bool true, .unit]) := by decide

/-- C46: the queue adaptor is a bounded FIFO. -/
theorem C46_bounded_queue_is_fifo {α : Type} (N : Nat) (hN : N ≤ 65535) (h0 : 0 < N) (mem : List α)
    (hmem : mem.length = N) (ops : List (AOp α)) (l : List α) (rs : List (Out α))
    (hlegal : Spec.Deque.runWith (Spec.Deque.qstep N) [] ops = some (l, rs)) :
    ∃ d, run N (init N mem) (ops.map queueOp) = some (d, rs) := by
  have key : ∀ (ops : List (AOp α)) (l0 l : List α) (rs : List (Out α)),
      Spec.Deque.runWith (Spec.Deque.qstep N) l0 ops = some (l, rs) →
      Spec.Deque.run N l0 (ops.map queueOp) = some (l, rs) := by
    intro ops
    induction ops with
    | nil => intro l0 l rs h; exact h
    | cons o os ih =>
      intro l0 l rs h
      simp only [Spec.Deque.runWith, Option.bind_eq_bind, Option.bind_eq_some_iff] at h
      obtain ⟨⟨l1, r⟩, h1, ⟨l2, rs2⟩, h2, h3⟩ := h
      have e : Spec.Deque.step N l0 (queueOp o) = some (l1, r) := by
        cases o <;> cases l0 <;> first | exact h1 | (simp [Spec.Deque.qstep] at h1)
      simp [Spec.Deque.run, e, ih _ _ _ h2]
      simpa using h3
  exact C03_deque_refines_list N hN h0 mem hmem _ l rs (key ops [] l rs hlegal)

/-- C46: the stack adaptor is a bounded LIFO. -/
theorem C46_bounded_stack_is_lifo {α : Type} (N : Nat) (hN : N ≤ 65535) (h0 : 0 < N) (mem : List α)
    (hmem : mem.length = N) (ops : List (AOp α)) (l : List α) (rs : List (Out α))
    (hlegal : Spec.Deque.runWith (Spec.Deque.sstep N) [] ops = some (l, rs)) :
    ∃ d, run N (init N mem) (ops.map stackOp) = some (d, rs) := by
  have key : ∀ (ops : List (AOp α)) (l0 l : List α) (rs : List (Out α)),
      Spec.Deque.runWith (Spec.Deque.sstep N) l0 ops = some (l, rs) →
      Spec.Deque.run N l0 (ops.map stackOp) = some (l, rs) := by
    intro ops
    induction ops with
    | nil => intro l0 l rs h; exact h
    | cons o os ih =>
      intro l0 l rs h
      simp only [Spec.Deque.runWith, Option.bind_eq_bind, Option.bind_eq_some_iff] at h
      obtain ⟨⟨l1, r⟩, h1, ⟨l2, rs2⟩, h2, h3⟩ := h
      have e : Spec.Deque.step N l0 (stackOp o) = some (l1, r) := by
        cases o <;> cases l0 <;> first | exact h1 | (simp [Spec.Deque.sstep] at h1)
      simp [Spec.Deque.run, e, ih _ _ _ h2]
      simpa using h3
  exact C03_deque_refines_list N hN h0 mem hmem _ l rs (key ops [] l rs hlegal)

example : Spec.Deque.runWith (Spec.Deque.sstep 2) ([] : List Nat)
    [.push 1, .push 2, .push 3, .get, .pop, .get, .getSize] =
    some ([1], [.bool true, .bool true, .bool false, .val 2, .unit, .val 1, .num 1]) := by decide

example : Spec.Deque.runWith (Spec.Deque.qstep 2) ([] : List Nat)
    [.push 1, .push 2, .push 3, .get, .pop, .get, .getSize] =
    some ([2], [.bool true, .bool true, .bool false, .val 1, .unit, .val 2, .num 1]) := by decide

/-- C04: after any legal history, `get(i)` is the i-th stored element from the front, `rget(i)` the i-th
from the back; `getFront`/`getBack` are the two ends. -/
theorem C04_deque_indexing {α : Type} (N : Nat) (hN : N ≤ 65535) (h0 : 0 < N) (mem : List α)
    (hmem : mem.length = N) (ops : List (Op α)) (l : List α) (rs : List (Out α))
    (hlegal : Spec.Deque.run N [] ops = some (l, rs)) :
    ∃ d, run N (init N mem) ops = some (d, rs) ∧
      (∀ i (h : i < l.length), get N d i = some l[i] ∧ rget N d i = some l[l.length - 1 - i]) ∧
      (∀ h : l ≠ [], getFront d = some (l.head h) ∧ getBack d = some (l.getLast h)) := by
  obtain ⟨d, h, R⟩ := run_refines ops (rep_init mem hN h0 hmem) hlegal
  refine ⟨d, h, fun i hi => ⟨rep_get R (by simp [hi]), rep_rget R ?_⟩, fun hne =>
    ⟨rep_front R (List.head?_eq_some_head hne), rep_back R (List.getLast?_eq_some_getLast hne)⟩⟩
  rw [List.getElem?_reverse hi, List.getElem?_eq_getElem]

example : Spec.Deque.run 3 ([] : List Nat) [.append 1, .prepend 2, .append 3] =
    some ([2, 1, 3], [.bool true, .bool true, .bool true]) := by decide

/-- C05 (proved part; the missing case is the empty deque, where it is false, see
`C05_deque_empty_iteration_counterexample`): after any legal history that leaves elements stored, the
`begin()..end()` loop ends and visits exactly the stored elements in order. -/
theorem C05_deque_iteration_partial {α : Type} (N : Nat) (hN : N ≤ 65535) (h0 : 0 < N) (mem : List α)
    (hmem : mem.length = N) (ops : List (Op α)) (l : List α) (rs : List (Out α))
    (hlegal : Spec.Deque.run N [] ops = some (l, rs)) (hne : l ≠ []) :
    ∃ d, run N (init N mem) ops = some (d, rs) ∧
      ∀ fuel, l.length ≤ fuel → loop N d fuel (begin d) = some (some l) := by
  obtain ⟨d, h, R⟩ := run_refines ops (rep_init mem hN h0 hmem) hlegal
  refine ⟨d, h, fun fuel hf => ?_⟩
  have hp : 0 < l.length := List.length_pos_iff.2 hne
  have := loop_at R fuel 0 hp (by omega)
  rw [← itAt_zero R, this, List.drop_zero]

example : Spec.Deque.run 3 ([] : List Nat) [.append 1, .append 2, .append 3, .appendOverwrite 4] =
    some ([2, 3, 4], [.bool true, .bool true, .bool true, .unit]) := by decide

/-- C05 is false for the empty deque: a freshly constructed (or emptied) deque of any size yields one stale
element when iterated. -/
theorem C05_deque_empty_iteration_counterexample {α : Type} (N : Nat) (hN : N ≤ 65535) (h0 : 0 < N)
    (mem : List α) (hmem : mem.length = N) :
    ∃ x, ∀ fuel, loop N (init N mem) (fuel + 1) (begin (init N mem)) = some (some [x]) := by
  have R := rep_init mem hN h0 hmem
  have ht := R.tl
  have hlen := R.len
  refine ⟨(init N mem).buf[(init N mem).tail]'(by omega), fun fuel => ?_⟩
  have hne : (begin (init N mem)).ne (end' N) = true := by
    simp only [It.ne, begin, end', bne_iff_ne]; omega
  have hinc : (begin (init N mem)).incr N (init N mem) = ⟨N, 1⟩ := by
    have : 1 % idxMod N = 1 := Nat.mod_eq_of_lt (by unfold idxMod; split <;> omega)
    simp [It.incr, begin, this]; simp [init]
  rw [loop, if_pos hne, hinc]
  have : loop N (init N mem) fuel ⟨N, 1⟩ = some (some []) := by cases fuel <;> simp [loop, It.ne, end']
  rw [this]
  have hidx : (begin (init N mem)).index = (init N mem).tail := rfl
  rw [hidx, List.getElem?_eq_getElem (by omega)]
  rfl

example : loop 3 (init 3 [7, 8, 9]) 5 (begin (init 3 [7, 8, 9])) = some (some [8]) := by decide

/-- C05 (backward step, proved part): decrementing an iterator that points to a stored element other than the
first gives the iterator of the previous element. Missing: decrementing `end()`. -/
theorem C05_deque_iterator_decrement_partial {α : Type} (N : Nat) (hN : N ≤ 65535) (h0 : 0 < N)
    (mem : List α) (hmem : mem.length = N) (ops : List (Op α)) (l : List α) (rs : List (Out α))
    (hlegal : Spec.Deque.run N [] ops = some (l, rs)) :
    ∃ d, run N (init N mem) ops = some (d, rs) ∧
      ∀ k, (hk : k + 1 < l.length) → (advance N d (k + 1)).decr N = advance N d k ∧
        d.buf[(advance N d k).index]? = some l[k] := by
  obtain ⟨d, h, R⟩ := run_refines ops (rep_init mem hN h0 hmem) hlegal
  refine ⟨d, h, fun k hk => ?_⟩
  rw [advance_at R _ hk, advance_at R _ (by omega)]
  refine ⟨decr_at R hk, ?_⟩
  show d.buf[wrap N (d.tail + k)]? = _
  rw [R.el k (by omega), List.getElem?_eq_getElem]

/-- decrementing the iterator that reached `end()` does not lead to the last stored element: on a deque of
three places holding only `5`, `--end` designates another slot. -/
theorem C05_deque_decrement_end_counterexample :
    ∃ d, run 3 (init 3 [0, 0, 9]) [Op.append 5] = some (d, [.bool true]) ∧
      (advance 3 d 1).ne (end' 3) = false ∧
      d.buf[((advance 3 d 1).decr 3).index]? = some 9 ∧ getBack d = some 5 := by
  refine ⟨_, rfl, ?_⟩; decide

end Props
