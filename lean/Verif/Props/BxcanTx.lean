import Verif.Lemmas.BxcanTxRun
/-
Claims C145 to C147 about sending with the STM32 bxCAN driver.
-/
set_option autoImplicit false
namespace Props.BxcanTx
open Modm.BxcanTx Spec.BxcanTx

variable {α : Type}

/-! ### With a queue -/

/-- **C145.** Whatever the interleaving, the queue is never accessed outside of its buffer. -/
theorem C145_defined {cfg : Config} {mem : List α} (hf : Fits cfg mem) {x : α} {s : State α} {tr : List (Ev α)}
    (h : Reach cfg (fun _ _ => True) (init x mem) s tr) (a : Act α) : step cfg s a ≠ none := by
  obtain ⟨l, hl⟩ := reach_q hf h
  obtain ⟨s', e, hs⟩ := step_defined hl a
  rw [hs]; simp

/-- **C145.** Whatever the interleaving, header and data of every frame sent are those of messages which have been passed to
`sendMessage`, and there are at most as many frames as calls. -/
theorem C145_origin {cfg : Config} {mem : List α} (hf : Fits cfg mem) {x : α} {s : State α} {tr : List (Ev α)}
    (h : Reach cfg (fun _ _ => True) (init x mem) s tr) :
    (∀ p ∈ s.hw.wire, p.1 ∈ offered tr ∧ p.2 ∈ offered tr) ∧ s.hw.wire.length ≤ (offered tr).length := by
  obtain ⟨l, hq, hg⟩ := reach_g hf h
  refine ⟨hg.wire, ?_⟩
  have h1 := hg.count
  have h2 : s.isr.popping ≤ l.length := by
    have h3 := hq.isr
    cases hi : s.isr <;> simp only [Isr.popping] <;> try omega
    simp only [IsrQ, hi] at h3
    exact List.length_pos_iff.2 h3
  omega

/-- **C145, part.** If no transmission ends during a call and there is no call while the interrupt is pending: the frames sent
are those of the first messages taken, in order; and without further calls the others follow. -/
theorem C145_order_partial {cfg : Config} (h0 : cfg.txSize ≠ 0) (hc : CodeOk cfg) {mem : List α} (hf : Fits cfg mem) {x : α} {s : State α}
    {tr : List (Ev α)} (h : Reach cfg Calm (init x mem) s tr) :
    s.hw.wire <+: (taken tr).map frame ∧
    (s.main = .idle → ∃ as s', (∀ a ∈ as, Auto a) ∧ run cfg s as = some (s', []) ∧ s'.hw.wire = (taken tr).map frame) := by
  obtain ⟨l, hq, hcv⟩ := reach_c h0 hc hf h
  refine ⟨?_, fun hm => drain_c h0 hc _ s l _ rfl hq hcv hm⟩
  rw [← hcv.flow, List.append_assoc]
  exact List.prefix_append ..

/-- **C145.** Whatever the interleaving, `sendMessage` refuses a message only when the queue is full. -/
theorem C145_refused {cfg : Config} (h0 : cfg.txSize ≠ 0) {mem : List α} (hf : Fits cfg mem) {x : α} {s s' : State α} {tr e : List (Ev α)}
    (h : Reach cfg (fun _ _ => True) (init x mem) s tr) {a : Act α} (hs : step cfg s a = some (s', e)) {m : α} (he : Ev.sent m false ∈ e) :
    Modm.AtomicQueue.getSize cfg.txSize s.q = cfg.txSize := by
  obtain ⟨l, hl⟩ := reach_q hf h
  have := refused hl hs he
  have h1 := hl.rep.sz
  rw [Modm.AtomicQueue.size_eq hl.rep]
  have h2 : ¬ l.length < cfg.txSize := fun hlt => this ⟨fun _ => hlt, fun h => absurd h h0⟩
  omega

/-! ### Without a queue -/

/-- **C146.** For every interleaving: the frames sent are those of the first messages taken, in order and each once; the others are
in the mailboxes and follow without further calls; a message is refused only if three are in the mailboxes. -/
theorem C146_order {cfg : Config} (h0 : cfg.txSize = 0) (hc : CodeOk cfg) {mem : List α} {x : α} {s : State α} {tr : List (Ev α)}
    (h : Reach cfg (fun _ _ => True) (init x mem) s tr) :
    s.hw.wire <+: (taken tr).map frame ∧
    (∃ as s', (∀ a ∈ as, Auto a) ∧ run cfg s as = some (s', []) ∧ s'.main = s.main ∧ s'.hw.wire = (taken tr).map frame) := by
  have hu := reach_u h0 hc h
  refine ⟨?_, drain_u h0 hc _ s _ rfl hu⟩
  rw [← hu.flow]
  exact List.prefix_append ..

theorem C146_refused {cfg : Config} (h0 : cfg.txSize = 0) (hc : CodeOk cfg) {mem : List α} (hf : Fits cfg mem) {x : α} {s s' : State α} {tr e : List (Ev α)}
    (h : Reach cfg (fun _ _ => True) (init x mem) s tr) {a : Act α} (hs : step cfg s a = some (s', e)) {m : α} (he : Ev.sent m false ∈ e) :
    (taken tr).length = s.hw.wire.length + 3 := by
  obtain ⟨l, hl⟩ := reach_q hf h
  have hu := reach_u h0 hc h
  have := refused hl hs he
  have hall : ∀ k, k < 3 → k ∈ s.hw.boxes := fun k hk => Classical.byContradiction fun hn => this ⟨fun h => absurd h0 h, fun _ => ⟨k, hk, hn⟩⟩
  have h1 := congrArg List.length hu.flow
  simp only [List.length_append, List.length_map] at h1
  have h2 : s.hw.boxes.length = 3 := by
    have hsub : s.hw.boxes ⊆ [0, 1, 2] := fun k hk => by
      have := hu.lt k hk
      simp; omega
    have h3 : s.hw.boxes.length ≤ 3 := hu.nodup.length_le_of_subset hsub
    have h4 : 3 ≤ s.hw.boxes.length :=
      List.Nodup.length_le_of_subset (l₁ := [0, 1, 2]) (by decide) (by intro k hk; exact hall k (by simp at hk; omega))
    omega
  omega

/-! ### `isReadyToSend` -/

/-- **C147.** After `isReadyToSend` has returned `true` the next `sendMessage` returns `true`, whatever happens in between. -/
theorem C147_ready {cfg : Config} {mem : List α} (hf : Fits cfg mem) {x : α} {s s' : State α} {tr e : List (Ev α)}
    (h : Reach cfg (fun _ _ => True) (init x mem) s tr) (ha : announced false tr = true) {a : Act α} (hs : step cfg s a = some (s', e))
    {m : α} {b : Bool} (he : Ev.sent m b ∈ e) : b = true := by
  obtain ⟨l, hl, hr⟩ := reach_room hf h
  cases b with
  | true => rfl
  | false => exact absurd (hr ha) (refused hl hs he)

/-! ### Cases -/

/-- `CODE` as the lowest free mailbox, or the one requested last. -/
def lowest (l : List Nat) : Nat := if 0 ∈ l then (if 1 ∈ l then 2 else 1) else 0

theorem lowest_ok (n : Nat) : CodeOk ⟨n, lowest⟩ := by
  intro l
  simp only [lowest]
  split_ifs with h0 h1
  · refine ⟨by omega, ?_⟩
    rintro ⟨k, hk, hn⟩
    match k, hk, hn with
    | 0, _, hn => exact absurd h0 hn
    | 1, _, hn => exact absurd h1 hn
    | 2, _, hn => exact hn
  · exact ⟨by omega, fun _ => h1⟩
  · exact ⟨by omega, fun _ => h0⟩

def two : Config := ⟨2, lowest⟩
def unbuffered : Config := ⟨0, lowest⟩

def after (cfg : Config) (as : List (Act Nat)) : Option (State Nat × List (Ev Nat)) :=
  run cfg (init 0 (List.replicate (cfg.txSize + 1) 0)) as

/-- `sendMessage` without interruption. -/
def send (m : Nat) : List (Act Nat) := [.call (.send m), .main, .main, .main, .main, .main]

/-- The interrupt handler. -/
def handler : List (Act Nat) := .interrupt :: List.replicate 8 .isr

/-- A transmission ends, the handler runs. -/
def done : List (Act Nat) := .complete :: handler

/-- Everything that can happen without the program. -/
def rest : List (Act Nat) := done ++ done ++ done ++ done

def summary (r : State Nat × List (Ev Nat)) : List (Nat × Nat) × List Nat × List Nat × Nat :=
  (r.1.hw.wire, taken r.2, r.1.hw.boxes, Modm.AtomicQueue.getSize 2 r.1.q)

/-- Non-vacuous: five messages, two of them by way of the queue. -/
example : (after two (send 1 ++ send 2 ++ send 3 ++ send 4 ++ send 5 ++ done ++ send 6 ++ rest ++ rest)).map summary =
    some ([(1, 1), (2, 2), (3, 3), (4, 4), (5, 5), (6, 6)], [1, 2, 3, 4, 5, 6], [], 0) := by decide +kernel

/-- A full queue refuses. -/
example : (after two (send 1 ++ send 2 ++ send 3 ++ send 4 ++ send 5 ++ send 6)).map (fun r => (taken r.2, r.2.getLast?)) =
    some ([1, 2, 3, 4, 5], some (.sent 6 false)) := by decide +kernel

/-- Non-vacuous: without a queue. -/
example : (after unbuffered (send 1 ++ send 2 ++ send 3 ++ send 4 ++ done ++ send 5 ++ rest)).map (fun r => (r.1.hw.wire, taken r.2)) =
    some ([(1, 1), (2, 2), (3, 3), (5, 5)], [1, 2, 3, 5]) := by decide +kernel

/-- Non-vacuous: `isReadyToSend`, then a transmission ends. -/
example : (after two (send 1 ++ send 2 ++ send 3 ++ send 4 ++ [.call .ready, .main] ++ done ++ send 5)).map
    (fun r => (announced false (r.2.take (r.2.length - 1)), r.2.getLast?)) = some (true, some (.sent 5 true)) := by decide +kernel

/-- **C145, refuted.** Two transmissions end before the handler has been entered.  The next message does not go behind the one in the queue. -/
theorem C145_overtakes_counterexample :
    (after two (send 1 ++ send 2 ++ send 3 ++ send 4 ++ [.complete, .complete] ++ send 5 ++ handler ++ rest)).map summary =
      some ([(1, 1), (2, 2), (3, 3), (5, 5), (4, 4)], [1, 2, 3, 4, 5], [], 0) := by decide +kernel

/-- **C145, refuted.** A transmission ends; before the handler is entered the mailbox is used for the next message, which clears the
flag.  The handler writes the message of the queue to mailbox 0, which is pending: the message is lost. -/
theorem C145_lost_counterexample :
    (after two (send 1 ++ send 2 ++ send 3 ++ send 4 ++ [.complete] ++ send 5 ++ handler ++ rest)).map summary =
      some ([(1, 1), (2, 2), (3, 3), (5, 5)], [1, 2, 3, 4, 5], [], 0) := by decide +kernel

/-- **C145, refuted.** The handler runs between the test and the use of the mailbox: `sendMessage` returns `true` and the message is lost. -/
theorem C145_ignored_counterexample :
    (after two (send 1 ++ send 2 ++ send 3 ++ send 4 ++ [.complete, .call (.send 5), .main, .main] ++ handler ++ [.main, .main, .main] ++ rest)).map summary =
      some ([(1, 1), (2, 2), (3, 3), (4, 4)], [1, 2, 3, 4, 5], [], 0) := by decide +kernel

/-- **C145, refuted.** The three transmissions end between the test of the mailboxes and the access to the queue: the message
waits until another one is sent. -/
theorem C145_waits_counterexample :
    (after two (send 1 ++ send 2 ++ send 3 ++ [.call (.send 4), .main] ++ done ++ done ++ done ++ [.main, .main, .main] ++ rest)).map summary =
      some ([(1, 1), (2, 2), (3, 3)], [1, 2, 3, 4], [], 1) := by decide +kernel

/-- **C145, refuted.** A frame is sent with the identifier of one message and the data of another. -/
theorem C145_mixed_counterexample :
    (after two (send 1 ++ send 2 ++ send 3 ++ send 4 ++ [.complete, .call (.send 5), .main, .main, .main] ++ handler ++ done ++ done ++ done ++ [.main, .main] ++ rest)).map summary =
      some ([(1, 1), (2, 2), (3, 3), (4, 4), (4, 5)], [1, 2, 3, 4, 5], [], 0) := by decide +kernel

/-- **C145, refuted.** A message is sent twice and another one not at all. -/
theorem C145_twice_counterexample :
    (after two (send 1 ++ send 2 ++ send 3 ++ send 4 ++ [.complete, .call (.send 5), .main, .main, .main] ++ handler ++ [.main] ++ done ++ done ++ done ++ [.main] ++ rest)).map summary =
      some ([(1, 1), (2, 2), (3, 3), (4, 4), (4, 4)], [1, 2, 3, 4, 5], [], 0) := by decide +kernel

end Props.BxcanTx
