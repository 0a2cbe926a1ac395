import Verif.Lemmas.BxcanRxRun
/-
Claims C148 to C150 about receiving with the STM32 bxCAN driver.
-/
set_option autoImplicit false
namespace Props.BxcanRx
open Modm.BxcanRx Spec.BxcanRx

variable {α : Type}

/-! ### With a queue -/

/-- **C148.** Whatever the interleaving, the queue is never accessed outside of its buffer, and no mailbox is read or released
unless there is a message in it. -/
theorem C148_defined {cfg : Config} (h0 : cfg.rxSize ≠ 0) {mem : List (Item α)} (hf : Fits cfg mem) {s : State α} {tr : List (Ev α)}
    (h : Reach cfg (fun _ _ => True) (init mem) s tr) (a : Act α) : ∃ s' e, step cfg s a = some (s', e) ∧ Ev.stale ∉ e := by
  obtain ⟨l, hb, -⟩ := reach_b h0 hf h
  obtain ⟨s', e, hs⟩ := step_defined hb a
  exact ⟨s', e, hs, not_stale h0 hb hs⟩

/-- **C148.** Whatever the interleaving, the messages delivered from a FIFO are received messages, header and data unchanged, in the
order of reception and none twice.  Every message which is not delivered and no longer in the driver was lost in one of three ways: on
overrun of the FIFO, removed unread by the handler (at most once for each overrun), or because the queue was full. -/
theorem C148_order {cfg : Config} (h0 : cfg.rxSize ≠ 0) {mem : List (Item α)} (hf : Fits cfg mem) {s : State α} {tr : List (Ev α)}
    (h : Reach cfg (fun _ _ => True) (init mem) s tr) (i : Bool) :
    (got i tr).Sublist ((arrived i tr).map frame) ∧
    (got i tr).length + overruns i tr + drops i tr + fulls i tr ≤ (arrived i tr).length ∧
    (arrived i tr).length ≤ (got i tr).length + overruns i tr + drops i tr + fulls i tr
      + Modm.AtomicQueue.getSize cfg.rxSize s.q + 1 + (s.f i).length ∧
    drops i tr ≤ overruns i tr := by
  obtain ⟨l, hb, hfl⟩ := reach_b h0 hf h
  obtain ⟨⟨h1, h2⟩, h3⟩ := hfl i
  refine ⟨(List.sublist_append_left _ _).trans (by simpa using h1), ?_, ?_, by omega⟩
  · simp at h2; omega
  · have h4 : (rest i s l).length ≤ l.length + 1 + (s.f i).length := by
      simp only [rest, List.length_append, List.length_map]
      have h5 : (ofFifo i l).length ≤ l.length := by simpa [ofFifo] using List.length_filter_le _ l
      have h6 : (hand i s.isr).length ≤ 1 := by
        cases s.isr <;> simp only [hand, List.length_nil, Nat.zero_le]
        rename_i x
        simpa [ofFifo] using List.length_filter_le (fun y : Item α => decide (y.fifo = i)) [x]
      omega
    rw [Modm.AtomicQueue.size_eq hb.rep]
    simp at h2; omega

/-- **C148.** As long as there was no overrun and the queue was never full: the messages delivered are the first ones received, and
without further messages the handler and `getMessage` deliver all others. -/
theorem C148_exact {cfg : Config} (h0 : cfg.rxSize ≠ 0) {mem : List (Item α)} (hf : Fits cfg mem) {s : State α} {tr : List (Ev α)}
    (h : Reach cfg (fun _ _ => True) (init mem) s tr) (hno : ∀ i, overruns i tr = 0 ∧ fulls i tr = 0) :
    (∀ i, got i tr <+: (arrived i tr).map frame) ∧
    (s.main = .idle → s.isr = .none → ∃ as s' e, (∀ a ∈ as, Quiet a) ∧ run cfg s as = some (s', e) ∧
      ∀ i, got i (tr ++ e) = (arrived i tr).map frame) := by
  obtain ⟨l, hb, hfl⟩ := reach_b h0 hf h
  have hd : ∀ i, drops i tr = 0 ∧ s.fovr i = false := fun i => by
    have h1 := (hfl i).drop
    rw [(hno i).1] at h1
    cases hv : s.fovr i <;> simp [hv] at h1 <;> simp [h1]
  have heq : ∀ i, got i tr ++ rest i s l = (arrived i tr).map frame := fun i => by
    obtain ⟨h1, h2⟩ := (hfl i).flow
    have h3 := (hno i).1; have h4 := (hno i).2; have h5 := (hd i).1
    rw [List.nil_append] at h1
    refine h1.eq_of_length ?_
    simp at h2 ⊢; omega
  refine ⟨fun i => ⟨_, heq i⟩, fun hm hi => ?_⟩
  obtain ⟨as, s', e, hq, hr, hl, hfe⟩ := fetch h0 _ s l rfl hb ⟨fun h => absurd hi h, fun h => absurd hm h, by simp [hm], fun i => (hd i).2⟩
  refine ⟨as, s', e, hq, hr, fun i => ?_⟩
  obtain ⟨h1, h2⟩ := hfe i
  obtain ⟨l1, l2, l3, l4⟩ := hl i
  simp only [l1, l2, l3, l4, List.append_nil, List.map_nil, List.length_nil, Nat.add_zero] at h1 h2
  rw [got_append, h1.eq_of_length h2, heq i]

/-- **C148.** Whatever the interleaving, `getMessage` returns `false` only when the queue is empty. -/
theorem C148_nothing {cfg : Config} (h0 : cfg.rxSize ≠ 0) {mem : List (Item α)} (hf : Fits cfg mem) {s s' : State α} {tr e : List (Ev α)}
    (h : Reach cfg (fun _ _ => True) (init mem) s tr) {a : Act α} (hs : step cfg s a = some (s', e)) (he : Ev.nothing ∈ e) :
    Modm.AtomicQueue.getSize cfg.rxSize s.q = 0 := by
  obtain ⟨l, hb, -⟩ := reach_b h0 hf h
  rw [Modm.AtomicQueue.size_eq hb.rep, nothing hb hs he]; rfl

/-! ### Without a queue -/

/-- **C149, part.** As long as there was no overrun: the messages delivered from a FIFO are the first ones received, header and data
unchanged, in order; the others are in the FIFO; no mailbox is read without a message. -/
theorem C149_exact_partial {cfg : Config} (h0 : cfg.rxSize = 0) {mem : List (Item α)} {s : State α} {tr : List (Ev α)}
    (h : Reach cfg (fun _ _ => True) (init mem) s tr) (hno : ∀ i m, Ev.overrun i m ∉ tr) :
    (∀ i, got i tr ++ (s.f i).map frame = (arrived i tr).map frame) ∧
    ∀ a s' e, step cfg s a = some (s', e) → (∀ i m, Ev.overrun i m ∉ e) → Ev.stale ∉ e :=
  have hu := reach_u h0 h hno
  ⟨hu.flow, fun _ _ _ hs hn => (step_u h0 hu hs hn).2.1⟩

/-! ### `isMessageAvailable` -/

/-- **C150, part.** With a queue: after `isMessageAvailable` has returned `true` the next `getMessage` delivers a message, whatever happens in
between. -/
theorem C150_available_partial {cfg : Config} (h0 : cfg.rxSize ≠ 0) {mem : List (Item α)} (hf : Fits cfg mem) {s s' : State α} {tr e : List (Ev α)}
    (h : Reach cfg (fun _ _ => True) (init mem) s tr) (ha : announced false tr = true) {a : Act α} (hs : step cfg s a = some (s', e)) :
    Ev.nothing ∉ e := by
  obtain ⟨l, hb, hn⟩ := reach_announced h0 hf h
  exact fun he => hn ha (nothing hb hs he)

/-- **C150, part.** Without a queue the same holds as long as there is no overrun. -/
theorem C150_unbuffered_partial {cfg : Config} (h0 : cfg.rxSize = 0) {mem : List (Item α)} {s s' : State α} {tr e : List (Ev α)}
    (h : Reach cfg (fun _ _ => True) (init mem) s tr) (hno : ∀ i m, Ev.overrun i m ∉ tr) (ha : announced false tr = true) {a : Act α}
    (hs : step cfg s a = some (s', e)) (hno' : ∀ i m, Ev.overrun i m ∉ e) : Ev.nothing ∉ e :=
  (step_u h0 (reach_u h0 h hno) hs hno').2.2 ha

/-! ### Cases -/

def queued : Config := ⟨4, true⟩
def overwriting : Config := ⟨4, false⟩
def unbuffered : Config := ⟨0, true⟩

def after (cfg : Config) (as : List (Act Nat)) : Option (State Nat × List (Ev Nat)) :=
  run cfg (init (List.replicate (cfg.rxSize + 1) ⟨false, 0, 0⟩)) as

/-- `getMessage` without interruption. -/
def fetched : List (Act Nat) := .call .get :: List.replicate 5 .main

/-- The handler of a FIFO without interruption. -/
def handler (i : Bool) : List (Act Nat) := .interrupt i :: List.replicate 6 .isr

def summary (r : State Nat × List (Ev Nat)) : List (Nat × Nat) × List (Nat × Nat) × Nat × Nat :=
  (got false r.2, got true r.2, overruns false r.2, drops false r.2)

/-- Non-vacuous: messages for both FIFOs; one arrives while the handler runs, one while the program reads. -/
example : (after queued ([.arrive false 1, .arrive true 2, .interrupt false, .isr, .isr, .arrive false 3, .isr, .isr, .isr, .isr] ++ handler true ++
      [.call .get, .main, .main, .arrive false 4] ++ handler false ++ [.main, .main] ++ handler false ++ fetched ++ fetched ++ fetched ++ fetched)).map summary =
    some ([(1, 1), (3, 3), (4, 4)], [(2, 2)], 0, 0) := by decide +kernel

/-- Non-vacuous: a message is available and another one arrives. -/
example : (after queued ([.arrive false 1] ++ handler false ++ [.call .available, .main, .arrive true 2] ++ handler true)).map
    (fun r => announced false r.2) = some true := by decide +kernel

/-- Non-vacuous: without a queue. -/
example : (after unbuffered ([.arrive false 1, .arrive true 2, .call .get, .main, .main, .arrive false 3, .main, .main] ++ fetched ++ fetched ++ fetched)).map summary =
    some ([(1, 1), (3, 3)], [(2, 2)], 0, 0) := by decide +kernel

/-- **C148, refuted** that an overrun loses one message: four messages arrive before the handler runs.  The fourth is lost by the
hardware, and the handler, clearing the flag, removes the first one unread. -/
theorem C148_overrun_counterexample :
    (after queued ([.arrive false 1, .arrive false 2, .arrive false 3, .arrive false 4] ++ handler false ++ handler false ++ handler false ++ fetched ++ fetched ++ fetched)).map summary =
      some ([(2, 2), (3, 3)], [], 1, 1) ∧
    (after overwriting ([.arrive false 1, .arrive false 2, .arrive false 3, .arrive false 4] ++ handler false ++ handler false ++ handler false ++ fetched ++ fetched ++ fetched)).map summary =
      some ([(2, 2), (4, 4)], [], 1, 1) := by decide +kernel

/-- **C149, refuted** in general: an overrun while `getMessage` reads the mailbox.  The handler releases the mailbox, `getMessage` delivers the
identifier of one message with the data of the next, and releases that one too. -/
theorem C149_mixed_counterexample :
    (after unbuffered ([.arrive false 1, .arrive false 2, .arrive false 3, .call .get, .main, .main, .arrive false 4] ++ handler false ++ [.main, .main] ++ fetched ++ fetched)).map summary =
      some ([(1, 2), (3, 3)], [], 1, 1) := by decide +kernel

/-- **C150, refuted** without a queue: an overrun is handled after `isMessageAvailable` has returned `true`; the handler removes the only message. -/
theorem C150_overrun_counterexample :
    (after unbuffered ([.arrive false 1, .arrive false 2, .arrive false 3, .arrive false 4] ++ fetched ++ fetched ++ [.call .available, .main] ++ handler false ++ fetched)).map
      (fun r => (announced false (r.2.take (r.2.length - 2)), r.2.getLast?)) = some (true, some .nothing) := by decide +kernel

end Props.BxcanRx
