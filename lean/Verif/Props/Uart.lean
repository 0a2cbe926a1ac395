import Verif.Lemmas.UartRun

set_option autoImplicit false

/-!
# Properties of the buffered UART

`Reach cfg ok (init …) s tr` are all interleavings of the main program, the interrupt handler and the
hardware in which every choice is allowed by `ok`.
-/

namespace Props.Uart

open Modm.Uart Spec.Uart
open Modm.AtomicQueue (next Rep size_eq full_iff rep_get wrap)

variable {α : Type}

/-! ### Programs that discard nothing -/

private def discarding : Main α → Bool
  | .discardRead => true
  | .discardWrite => true
  | .discardLoop _ => true
  | .discardPop _ => true
  | .discardStore _ _ => true
  | _ => false

private theorem step_keep {cfg : Config} {s s' : State α} {e : List (Ev α)} (h : discarding s.main = false) (a : Act α)
    (ha : a ≠ .call .discardTransmitBuffer) (hs : step cfg s a = some (s', e)) : discarding s'.main = false ∧ dropsTx e = 0 := by
  cases a with
  | call c =>
    simp only [step] at hs
    split at hs <;> simp only [Option.some.injEq, Prod.mk.injEq] at hs <;> obtain ⟨rfl, rfl⟩ := hs
    · cases c <;> simp [start, discarding, dropsTx] at ha ⊢
    · exact ⟨h, rfl⟩
  | isr => have := isr_hidden hs; rw [this.1]; exact ⟨h, this.2.2.2.1⟩
  | main =>
    simp only [step] at hs
    split at hs
    · unfold mainStep at hs
      cases hmain : s.main <;> rw [hmain] at hs h <;> simp only at hs <;> simp only [discarding, reduceCtorEq] at h
      case write k x rest i =>
        have hnb : discarding (nextByte rest (i + 1)).1 = false ∧ dropsTx (nextByte rest (i + 1)).2 = 0 := by
          cases rest <;> exact ⟨rfl, rfl⟩
        unfold writeStep at hs
        cases k <;> simp only at hs
        all_goals
          repeat' split at hs
          all_goals simp only [Option.some.injEq, Prod.mk.injEq, reduceCtorEq] at hs
          all_goals
            obtain ⟨rfl, rfl⟩ := hs
            first | exact hnb | exact ⟨rfl, rfl⟩ | exact ⟨hnb.1, by simpa [dropsTx] using hnb.2⟩
      case blocking b x rest =>
        cases b <;> simp only [Option.some.injEq, Prod.mk.injEq] at hs
        · obtain ⟨rfl, rfl⟩ := hs; exact ⟨rfl, rfl⟩
        · cases rest <;> obtain ⟨rfl, rfl⟩ := hs <;> exact ⟨rfl, rfl⟩
      case finish b loop =>
        cases b <;> simp only at hs
        all_goals
          repeat' split at hs
          all_goals simp only [Option.some.injEq, Prod.mk.injEq] at hs; obtain ⟨rfl, rfl⟩ := hs; simp [discarding, dropsTx, hmain]
      case txSize b | rxSize b =>
        cases b <;> simp only at hs
        all_goals
          repeat' split at hs
          all_goals simp only [Option.some.injEq, Prod.mk.injEq] at hs; obtain ⟨rfl, rfl⟩ := hs; exact ⟨rfl, rfl⟩
      case clear b =>
        cases b <;> simp only at hs
        · split at hs <;> simp only [Option.some.injEq, Prod.mk.injEq] at hs <;> obtain ⟨rfl, rfl⟩ := hs <;> exact ⟨rfl, rfl⟩
        · simp only [Option.some.injEq, Prod.mk.injEq] at hs; obtain ⟨rfl, rfl⟩ := hs
          exact ⟨rfl, (eatenBy_tx s.hw _).2⟩
      all_goals
        repeat' split at hs
        all_goals simp only [Option.some.injEq, Prod.mk.injEq, reduceCtorEq] at hs
        all_goals obtain ⟨rfl, rfl⟩ := hs; simp [discarding, dropsTx, hmain, readDone]
    · simp only [Option.some.injEq, Prod.mk.injEq] at hs; obtain ⟨rfl, rfl⟩ := hs; exact ⟨h, rfl⟩
  | _ =>
    simp only [step] at hs
    repeat' split at hs
    all_goals simp only [Option.some.injEq, Prod.mk.injEq] at hs; obtain ⟨rfl, rfl⟩ := hs; exact ⟨h, rfl⟩

private theorem polite_keep {cfg : Config} {txMem rxMem : List α} {s : State α} {tr : List (Ev α)}
    (h : Reach cfg Polite (init txMem rxMem) s tr) : discarding s.main = false ∧ dropsTx tr = 0 := by
  induction h with
  | start => exact ⟨rfl, rfl⟩
  | step a _ ha hs ih =>
    have := step_keep ih.1 a (by rintro rfl; exact ha) hs
    exact ⟨this.1, by rw [dropsTx_append, ih.2, this.2]⟩

private theorem plain_polite {s : State α} {a : Act α} (h : Plain a) : Polite s a := by
  cases a with
  | call c => cases c <;> first | trivial | exact h
  | _ => trivial

private theorem polite_ok {cfg : Config} {s : State α} {a : Act α} (h : Polite s a) : TxOk cfg s a := by
  cases a with
  | call c => cases c <;> first | trivial | exact h | cases h
  | _ => trivial

/-- The sizes of the memory of the queues. -/
structure Fits (cfg : Config) (txMem rxMem : List α) : Prop where
  tx : cfg.txSize ≤ 65535
  txMem : txMem.length = cfg.txSize + 1
  rx : cfg.rxSize ≤ 65535
  rxMem : rxMem.length = cfg.rxSize + 1

private theorem polite_flow {cfg : Config} {txMem rxMem : List α} (hf : Fits cfg txMem rxMem) {s : State α} {tr : List (Ev α)}
    (h : Reach cfg Polite (init txMem rxMem) s tr) : ∃ l, TxInv cfg s l (accepteds tr) 0 ∧ accepteds tr = flow s l := by
  obtain ⟨l, ht⟩ := reach_tx hf.tx hf.txMem (h.mono fun _ _ => polite_ok)
  rw [(polite_keep h).2] at ht
  exact ⟨l, ht, (ht.sub.eq_of_length (by have := ht.len; omega)).symm⟩

private theorem idle_written {cfg : Config} {ok : State α → Act α → Prop} {txMem rxMem : List α} {s : State α} {tr : List (Ev α)}
    (h : Reach cfg ok (init txMem rxMem) s tr) (hi : s.main = .idle) :
    accepteds tr = (api tr).written ∧ gots tr = (api tr).received ∧ dropsTx tr = (api tr).discardedTx ∧ dropsRx tr = (api tr).discardedRx := by
  have := reach_res h; rw [hi] at this; exact this

private theorem waiting_le {cfg : Config} {s : State α} {l acc : List α} {d : Nat} (h : TxInv cfg s l acc d) : (waiting s l).length ≤ cfg.txSize := by
  have := h.rep.sz
  unfold waiting; split
  · simp; omega
  · exact this

private theorem order_aux {cfg : Config} {txMem rxMem : List α} (hf : Fits cfg txMem rxMem) {s : State α} {tr : List (Ev α)}
    (h : Reach cfg Polite (init txMem rxMem) s tr) :
    s.hw.wire <+: (api tr).written ++ ((api tr).current.map data).getD [] ∧
    (s.main = .idle → s.hw.wire <+: (api tr).written ∧ (api tr).written.length ≤ s.hw.wire.length + cfg.txSize + 2) := by
  obtain ⟨l, ht, hacc⟩ := polite_flow hf h
  have hpre : s.hw.wire <+: accepteds tr := by rw [hacc]; exact List.prefix_append _ _
  constructor
  · refine hpre.trans ?_
    have hr := reach_res h
    unfold Res at hr
    cases hmain : s.main <;> rw [hmain] at hr
    case write k x rest i =>
      obtain ⟨pre, h1, h2, h3, -⟩ := hr
      rw [h3, h1]
      refine (List.prefix_append_right_inj _).2 ?_
      cases k <;> simp only [Option.getD_some] <;> first | exact List.prefix_append _ _ | exact ⟨rest, by simp⟩
    case blocking b x rest =>
      obtain ⟨pre, h1, h3, -⟩ := hr
      rw [h3, h1]
      exact (List.prefix_append_right_inj _).2 (List.prefix_append _ _)
    all_goals rw [hr.1]; exact List.prefix_append _ _
  · intro hi
    have hw := (idle_written h hi).1
    rw [← hw]
    refine ⟨hpre, ?_⟩
    rw [hacc]
    have h1 := waiting_le ht
    have h2 : s.hw.shift.toList.length ≤ 1 := by cases s.hw.shift <;> simp
    have h3 : s.hw.tdr.toList.length ≤ 1 := by cases s.hw.tdr <;> simp
    simp only [flow, List.length_append]; omega

private theorem complete_aux {cfg : Config} {txMem rxMem : List α} (hf : Fits cfg txMem rxMem) {s : State α} {tr : List (Ev α)}
    (h : Reach cfg Polite (init txMem rxMem) s tr) (hi : s.main = .idle) (hp : pending cfg s.hw = false)
    (ht : s.hw.tdr = none) (hs : s.hw.shift = none) : s.hw.wire = (api tr).written := by
  obtain ⟨l, htx, hacc⟩ := polite_flow hf h
  rw [← (idle_written h hi).1, hacc]
  have hl : l = [] := by
    refine Classical.byContradiction fun h0 => ?_
    rcases htx.live h0 with h1 | h1
    · simp [pending, h1, ht] at hp
    · rw [hi] at h1; cases h1
  simp [flow, waiting, hl, ht, hs]

private theorem good_of {cfg : Config} {txMem rxMem : List α} (hf : Fits cfg txMem rxMem) {s : State α} {tr : List (Ev α)}
    (h : Reach cfg (TxOk cfg) (init txMem rxMem) s tr) : Good cfg s (accepteds tr) (dropsTx tr) := by
  obtain ⟨l', t, hr, -, -⟩ := reach_rx hf.rx hf.rxMem h
  exact ⟨reach_tx hf.tx hf.txMem h, _, _, _, _, hr⟩

private theorem drained {cfg : Config} {s : State α} {acc : List α} {d : Nat} (h : Good cfg s acc d)
    (ht : s.hw.tdr = none) (hs : s.hw.shift = none) (hz : Modm.AtomicQueue.getSize cfg.txSize s.tx = 0) :
    s.hw.wire.Sublist acc ∧ s.hw.wire.length + d = acc.length := by
  obtain ⟨l, h⟩ := h.tx
  have hl : l = [] := by rw [size_eq h.rep] at hz; simpa using hz
  have h1 := h.sub; have h2 := h.len
  simp only [flow, waiting, hl, ht, hs, List.tail_nil, ite_self, Option.toList_none, List.append_nil] at h1 h2
  exact ⟨h1, h2⟩

/-! ### Transmission -/

/-- **C137.** For every interleaving of `write`, the handler and the hardware: what is on the wire is what the
caller has written, in order and without repetition (up to the data of a call which has not returned), and at
most the size of the queue plus two bytes are under way. -/
theorem C137_order {cfg : Config} {txMem rxMem : List α} (hf : Fits cfg txMem rxMem) {s : State α} {tr : List (Ev α)}
    (h : Reach cfg (fun _ => Plain) (init txMem rxMem) s tr) :
    s.hw.wire <+: (api tr).written ++ ((api tr).current.map data).getD [] ∧
    (s.main = .idle → s.hw.wire <+: (api tr).written ∧ (api tr).written.length ≤ s.hw.wire.length + cfg.txSize + 2) :=
  order_aux hf (h.mono fun _ _ => plain_polite)

/-- **C137.** When no interrupt is requested and the transmitter is empty, everything written has been sent: no byte is forgotten
in the queue. -/
theorem C137_complete {cfg : Config} {txMem rxMem : List α} (hf : Fits cfg txMem rxMem) {s : State α} {tr : List (Ev α)}
    (h : Reach cfg (fun _ => Plain) (init txMem rxMem) s tr) (hi : s.main = .idle)
    (hp : pending cfg s.hw = false) (ht : s.hw.tdr = none) (hs : s.hw.shift = none) : s.hw.wire = (api tr).written :=
  complete_aux hf (h.mono fun _ _ => plain_polite) hi hp ht hs

/-- **C137.** From every state between two calls, the handler and the hardware alone can send everything that was written. -/
theorem C137_drains {cfg : Config} {txMem rxMem : List α} (hf : Fits cfg txMem rxMem) {s : State α} {tr : List (Ev α)}
    (h : Reach cfg (fun _ => Plain) (init txMem rxMem) s tr) (hi : s.main = .idle) :
    ∃ as s' e, (∀ a ∈ as, Auto a) ∧ run cfg s as = some (s', e) ∧ s'.hw.wire = (api tr).written := by
  have h' : Reach cfg Polite (init txMem rxMem) s tr := h.mono fun _ _ => plain_polite
  obtain ⟨as, s', e, ha, hr, hg, -, -, ht, hs, hz⟩ := drain _ s rfl (by rw [hi]; rfl) (good_of hf (h'.mono fun _ _ => polite_ok))
  refine ⟨as, s', e, ha, hr, ?_⟩
  obtain ⟨h1, h2⟩ := drained hg ht hs hz
  rw [← (idle_written h hi).1]
  rw [(polite_keep h').2] at h2
  exact h1.eq_of_length h2

/-- **C137.** `write` takes fewer bytes than it was given only if the queue is full: at least as many bytes as the queue
can hold have been written and not yet been sent. -/
theorem C137_refused {cfg : Config} {txMem rxMem : List α} (hf : Fits cfg txMem rxMem) {s s' : State α} {tr e : List (Ev α)}
    (h : Reach cfg (fun _ => Plain) (init txMem rxMem) s tr) {a : Act α} (hs : step cfg s a = some (s', e)) {n : Nat}
    (hd : Ev.done (.wrote n) ∈ e) (hlt : n < (((api tr).current.map data).getD []).length) :
    s'.hw.wire.length + cfg.txSize ≤ (api (tr ++ e)).written.length := by
  obtain ⟨l, htx, hacc⟩ := polite_flow hf (h.mono fun _ _ => plain_polite)
  have hr := reach_res h
  obtain ⟨hisr, hm⟩ := done_main hs hd
  rcases done_wrote hm hd with ⟨x, rest, hmain, hfull, rfl, rfl⟩ | ⟨k, x, i, hmain, rfl⟩
  · rw [hmain] at hr
    obtain ⟨pre, h1, h2, h3, -⟩ := hr
    have hl := (full_iff htx.rep).1 hfull
    rw [api_append]
    simp only [List.foldl, learn, h1, Option.getD_some, ← h2, List.take_left']
    simp only at h3
    rw [← h3, hacc]
    simp [flow, waiting, hisr, Isr.popping, hl]
    omega
  · rw [hmain] at hr
    obtain ⟨pre, h1, h2, -⟩ := hr
    rw [h1] at hlt
    simp at hlt; omega

/-- **C137.** No access outside of the queues. -/
theorem C137_defined {cfg : Config} {txMem rxMem : List α} (hf : Fits cfg txMem rxMem) {s : State α} {tr : List (Ev α)}
    (h : Reach cfg (fun _ => Plain) (init txMem rxMem) s tr) (a : Act α) : step cfg s a ≠ none := by
  have h' : Reach cfg Polite (init txMem rxMem) s tr := h.mono fun _ _ => plain_polite
  obtain ⟨l, htx, -⟩ := polite_flow hf h'
  obtain ⟨l', t, hr, -, -⟩ := reach_rx hf.rx hf.rxMem h
  exact step_defined htx hr a

/-! ### isWriteFinished -/

private theorem written_idle {cfg : Config} {ok : State α → Act α → Prop} {txMem rxMem : List α} {s : State α} {tr : List (Ev α)} {b lp : Bool}
    (h : Reach cfg ok (init txMem rxMem) s tr) (hm : s.main = .finish b lp) (c : Bool) :
    (api (tr ++ [Ev.done (.finished c)])).written = accepteds tr := by
  have hr := reach_res h
  rw [hm] at hr
  rw [api_append]; simp [learn, hr.1]

/-- **C138, part.** When `isWriteFinished` returns `true`, or `flushWriteBuffer` returns, everything written has been sent or is in
the shift register. -/
theorem C138_finished_partial {cfg : Config} {txMem rxMem : List α} (hf : Fits cfg txMem rxMem) {s s' : State α} {tr e : List (Ev α)}
    (h : Reach cfg Polite (init txMem rxMem) s tr) {a : Act α} (hs : step cfg s a = some (s', e))
    (hd : Ev.done (.finished true) ∈ e) : s'.hw.wire ++ s'.hw.shift.toList = (api (tr ++ e)).written := by
  obtain ⟨l, htx, hacc⟩ := polite_flow hf h
  obtain ⟨hisr, hm⟩ := done_main hs hd
  obtain ⟨rfl, rfl, h1 | h1 | h1⟩ := done_finished hm hd
  · obtain ⟨-, ht, lp, hmain⟩ := h1
    rw [written_idle h hmain, hacc]
    have := htx.main; unfold MainTx at this; rw [hmain] at this
    subst this
    simp [flow, waiting, ht]
  · cases h1.1
  · cases h1.1

/-- **C138.** When `isWriteFinished` returns `false`, something has not been sent. -/
theorem C138_unfinished {cfg : Config} {txMem rxMem : List α} (hf : Fits cfg txMem rxMem) {s s' : State α} {tr e : List (Ev α)}
    (h : Reach cfg Polite (init txMem rxMem) s tr) {a : Act α} (hs : step cfg s a = some (s', e))
    (hd : Ev.done (.finished false) ∈ e) : s'.hw.wire.length < (api (tr ++ e)).written.length := by
  obtain ⟨l, htx, hacc⟩ := polite_flow hf h
  obtain ⟨hisr, hm⟩ := done_main hs hd
  obtain ⟨rfl, rfl, h1 | h1 | h1⟩ := done_finished hm hd
  · cases h1.1
  · obtain ⟨-, ht, hmain⟩ := h1
    rw [written_idle h hmain, hacc]
    cases htdr : s.hw.tdr with
    | none => exact absurd htdr ht
    | some x => simp [flow, htdr]; omega
  · obtain ⟨-, he, hmain⟩ := h1
    rw [written_idle h hmain, hacc]
    have : l ≠ [] := fun h0 => by rw [(isEmpty_iff htx.rep).2 h0] at he; cases he
    have := List.length_pos_iff.2 this
    simp [flow, waiting, hisr, Isr.popping]; omega

/-- A UART with a transmit queue of two bytes; `extended` with a receive queue of two bytes, `basic` likewise, `txOnly` without. -/
def extended : Config := ⟨2, 2, true, false⟩
def basic : Config := ⟨2, 2, false, false⟩
def txOnly : Config := ⟨2, 0, true, false⟩

/-- What is known after a schedule. -/
def after (cfg : Config) (as : List (Act Nat)) : Option (State Nat × List (Ev Nat)) :=
  run cfg (init (List.replicate (cfg.txSize + 1) 0) (List.replicate (cfg.rxSize + 1) 0)) as

/-- **C138, refuted.** "`true` if the buffer is empty and the last byte has been sent": the byte is still in the shift register. -/
theorem C138_finished_counterexample :
    (after extended [.call (.write 7 []), .main, .main, .main, .load, .call .isWriteFinished, .main, .main]).map
        (fun r => (r.2.getLast?, (api r.2).written, r.1.hw.wire, r.1.hw.shift)) =
      some (some (.done (.finished true)), [7], [], some 7) := by
  decide +kernel

/-! ### writeBlocking -/

/-- **C139, part.** If `writeBlocking` is called only while the transmit queue is empty, it keeps the order with all other bytes. -/
theorem C139_order_partial {cfg : Config} {txMem rxMem : List α} (hf : Fits cfg txMem rxMem) {s : State α} {tr : List (Ev α)}
    (h : Reach cfg Polite (init txMem rxMem) s tr) (hi : s.main = .idle) :
    s.hw.wire <+: (api tr).written ∧
    (pending cfg s.hw = false → s.hw.tdr = none → s.hw.shift = none → s.hw.wire = (api tr).written) :=
  ⟨((order_aux hf h).2 hi).1, fun hp ht hs => complete_aux hf h hi hp ht hs⟩

/-- Three bytes are written; the first is on its way, the second and the third wait in the queue. -/
def three : List (Act Nat) :=
  [.call (.write 1 [2, 3]), .main, .main, .main, .main, .main, .main, .main, .main, .main, .main, .main, .main, .main, .main]

/-- What the handler and the hardware do with one byte. -/
def round : List (Act Nat) := [.sent, .load, .interrupt, .isr, .isr, .isr, .isr, .isr, .isr, .isr]

/-- **C139, refuted.** `writeBlocking` overtakes bytes written before, which wait in the queue. -/
theorem C139_overtakes_counterexample :
    (after extended (three ++ [.load, .call (.writeBlocking 9 []), .main, .main] ++ round ++ round ++ round ++ round ++ round)).map
        (fun r => ((api r.2).written, r.1.hw.wire)) = some ([1, 2, 3, 9], [1, 9, 2, 3]) := by
  decide +kernel

/-- **C139, refuted.** A byte is lost when the handler runs between the test of the data register and the write. -/
theorem C139_lost_counterexample :
    (after extended (three ++ [.load, .call (.writeBlocking 9 []), .main, .interrupt, .isr, .isr, .isr, .isr, .isr, .isr, .isr, .main]
        ++ round ++ round ++ round ++ round ++ round)).map
      (fun r => ((api r.2).written, r.1.hw.wire, pending extended r.1.hw, r.1.hw.tdr, r.1.hw.shift)) =
      some ([1, 2, 3, 9], [1, 9, 3], false, none, none) := by
  decide +kernel

/-- **C139, refuted.** "Write a single byte and wait for completion": it returns with the byte in the data register. -/
theorem C139_waits_counterexample :
    (after extended [.call (.writeBlocking 9 []), .main, .main]).map
      (fun r => (r.2.getLast?, (api r.2).written, r.1.hw.wire, r.1.hw.tdr)) = some (some (.done .blocked), [9], [], some 9) := by
  decide +kernel

/-! ### discardTransmitBuffer -/

private theorem discard_ok {cfg : Config} (h0 : cfg.rxSize = 0) (hsh : cfg.shared = false) {s : State α} {a : Act α} (h : PoliteDiscard s a) :
    TxOk cfg s a := by
  cases a with
  | call c => cases c <;> first | trivial | exact h | exact ⟨h0, hsh⟩
  | _ => trivial

/-- **C140, part.** Without a receive queue and with an interrupt of its own: bytes are sent in the order in which they
were written, and those not sent are exactly as many as `discardTransmitBuffer` has reported. -/
theorem C140_discard_partial {cfg : Config} {txMem rxMem : List α} (hf : Fits cfg txMem rxMem) (h0 : cfg.rxSize = 0) (hsh : cfg.shared = false)
    {s : State α} {tr : List (Ev α)} (h : Reach cfg PoliteDiscard (init txMem rxMem) s tr) (hi : s.main = .idle) :
    s.hw.wire.Sublist (api tr).written ∧
    (pending cfg s.hw = false → s.hw.tdr = none → s.hw.shift = none → s.hw.wire.length + (api tr).discardedTx = (api tr).written.length) ∧
    (∀ a, step cfg s a ≠ none) := by
  have h' := h.mono fun _ _ => discard_ok h0 hsh
  obtain ⟨l, ht⟩ := reach_tx hf.tx hf.txMem h'
  obtain ⟨l', t, hr, -, -⟩ := reach_rx hf.rx hf.rxMem h
  have hw := idle_written h hi
  rw [hw.1, hw.2.2.1] at ht
  refine ⟨(List.sublist_append_left _ _).trans ht.sub, ?_, fun a => step_defined ht hr a⟩
  intro hp htdr hs
  have hl : l = [] := by
    refine Classical.byContradiction fun hne => ?_
    rcases ht.live hne with h1 | h1
    · simp [pending, h1, htdr] at hp
    · rw [hi] at h1; cases h1
  have := ht.len
  simpa [flow, waiting, hl, htdr, hs] using this

/-- **C140, part.** When it returns, the transmit queue is empty, and only what was in the transmitter is sent. -/
theorem C140_empty_partial {cfg : Config} {txMem rxMem : List α} (hf : Fits cfg txMem rxMem) (h0 : cfg.rxSize = 0) (hsh : cfg.shared = false)
    {s s' : State α} {tr e : List (Ev α)} (h : Reach cfg PoliteDiscard (init txMem rxMem) s tr) {a : Act α}
    (hs : step cfg s a = some (s', e)) {n : Nat} (hd : Ev.done (.discardedTx n) ∈ e) :
    Modm.AtomicQueue.getSize cfg.txSize s'.tx = 0 ∧
    s'.hw.wire.length + s'.hw.shift.toList.length + s'.hw.tdr.toList.length + (api (tr ++ e)).discardedTx = (api (tr ++ e)).written.length := by
  have h' := h.mono fun _ _ => discard_ok h0 hsh
  obtain ⟨l, ht⟩ := reach_tx hf.tx hf.txMem h'
  obtain ⟨hisr, hm⟩ := done_main hs hd
  obtain ⟨rfl, rfl, hmain, he⟩ := done_discardedTx hm hd
  have hl := (isEmpty_iff ht.rep).1 he
  subst hl
  have hr := reach_res h
  rw [hmain] at hr
  obtain ⟨h1, -, h2, -⟩ := hr
  have := ht.len
  refine ⟨size_eq ht.rep, ?_⟩
  rw [api_append]
  simp [learn]
  simp [flow, waiting] at this
  rw [h1, h2] at this
  omega

/-- **C140, refuted.** The handler, entered for a received byte, takes the last byte out of the queue while it is being discarded; `pop` is then
called on an empty queue: three bytes are reported though two were in the queue, and one of the discarded bytes is sent. -/
theorem C140_discard_counterexample :
    (after extended (three ++ [.call .discardTransmitBuffer, .main, .main, .main, .main, .main, .main,
        .load, .arrive 5, .interrupt, .isr, .isr, .isr, .isr, .isr, .isr, .isr, .isr, .main, .main,
        .sent, .load, .arrive 5, .interrupt, .isr, .isr, .isr, .isr, .isr, .isr, .isr, .isr, .main, .main, .main, .main]
        ++ round ++ round ++ round)).map
      (fun r => ((api r.2).written, (api r.2).discardedTx, r.1.hw.wire, pending extended r.1.hw)) =
      some ([1, 2, 3], 3, [1, 3, 2], false) := by
  decide +kernel

/-- **C140, refuted.** "Empty the transmit FIFO queue and hardware buffer": the byte in the data register is sent. -/
theorem C140_hardware_counterexample :
    (after txOnly (three ++ [.call .discardTransmitBuffer, .main, .main, .main, .main, .main, .main, .main, .main, .main]
        ++ round ++ round)).map
      (fun r => ((api r.2).written, (api r.2).discardedTx, r.1.hw.wire)) = some ([1, 2, 3], 2, [1]) := by
  decide +kernel

/-! ### Reception -/

/-- **C141.** For every interleaving: what `read` delivers are bytes that have arrived, in order and without repetition; every byte that
arrived was read, discarded, lost, or waits in the queue, the handler or the data register. -/
theorem C141_order {cfg : Config} {txMem rxMem : List α} (hf : Fits cfg txMem rxMem) {s : State α} {tr : List (Ev α)}
    (h : Reach cfg (fun _ _ => True) (init txMem rxMem) s tr) (hi : s.main = .idle) :
    (api tr).received.Sublist (arrivals tr) ∧
    (arrivals tr).length = (api tr).received.length + (api tr).discardedRx + Modm.AtomicQueue.getSize cfg.rxSize s.rx + before s +
      (overflows tr).length + (eatens tr).length := by
  obtain ⟨l, t, hr, h1, h2⟩ := reach_rx hf.rx hf.rxMem h
  have hw := idle_written h hi
  rw [hw.2.1] at h1 h2
  rw [hw.2.2.2] at h2
  refine ⟨h1.trans ((List.sublist_append_left _ _).trans hr.sub), ?_⟩
  have := hr.len
  rw [size_eq hr.rep]
  simp [stock, hi, Main.popping] at this
  simp only [before]
  omega

/-- **C141, part.** A driver with separate registers loses no byte except when the data register or the queue is full; if that does not
happen and nothing is discarded, what is read is a prefix of what arrived, and once nothing waits it is everything. -/
theorem C141_exact_partial {cfg : Config} (hx : cfg.extended = true) {txMem rxMem : List α} (hf : Fits cfg txMem rxMem) {s : State α} {tr : List (Ev α)}
    (h : Reach cfg (fun _ _ => True) (init txMem rxMem) s tr) :
    eatens tr = [] ∧ Ev.done Result.stale ∉ tr ∧
    (s.main = .idle → overflows tr = [] → (api tr).discardedRx = 0 →
      (api tr).received <+: arrivals tr ∧
      (Modm.AtomicQueue.isEmpty s.rx = true → s.hw.rdr = none → s.isr = .none → (api tr).received = arrivals tr)) := by
  have he : eatens tr = [] ∧ Ev.done Result.stale ∉ tr := by
    induction h with
    | start => exact ⟨rfl, by simp⟩
    | step a hreach ha hs ih =>
      obtain ⟨l, t, hr, -, -⟩ := reach_rx hf.rx hf.rxMem hreach
      have := step_extended hr hx a hs
      rw [eatens_append, ih.1, this.1]
      refine ⟨rfl, ?_⟩
      intro hmem
      rcases List.mem_append.1 hmem with h' | h'
      · exact ih.2 h'
      · exact this.2 h'
  refine ⟨he.1, he.2, ?_⟩
  intro hi ho hd
  obtain ⟨l, t, hr, h1, h2⟩ := reach_rx hf.rx hf.rxMem h
  have hw := idle_written h hi
  rw [hw.2.1] at h1 h2
  rw [hw.2.2.2, hd] at h2
  have ht : (api tr).received = t := h1.eq_of_length (by omega)
  have hlen := hr.len
  rw [he.1, ho] at hlen
  have harr := hr.sub.eq_of_length (by simpa using hlen)
  rw [ht, ← harr]
  refine ⟨List.prefix_append _ _, ?_⟩
  intro hq hrdr hisr
  have hl := (isEmpty_iff hr.rep).1 hq
  simp [stock, hi, Main.popping, hl, hrdr, hisr, Isr.byte]

/-- **C141.** With a receive queue no byte stays in the data register: whatever the program is doing, the interrupt comes, and when the handler returns the data
register is empty.  With `C141_order` the byte is then in the queue, or lost because the queue was full. -/
theorem C141_fetched {cfg : Config} (h0 : cfg.rxSize ≠ 0) {txMem rxMem : List α} (hf : Fits cfg txMem rxMem) {s : State α} {tr : List (Ev α)}
    (h : Reach cfg (TxOk cfg) (init txMem rxMem) s tr) :
    ∃ as s' e, (∀ a ∈ as, Auto a) ∧ run cfg s as = some (s', e) ∧ s'.main = s.main ∧ s'.isr = .none ∧ s'.hw.rdr = none := by
  obtain ⟨as, s', e, h1, h2, -, h3, h4, h5⟩ := fetch h0 s (good_of hf h)
  exact ⟨as, s', e, h1, h2, h3, h4, h5⟩

/-- Non-vacuous: a byte in the data register while the program writes. -/
example : (after extended [.arrive 5, .call (.write 1 [])]).map (fun r => (r.1.hw.rdr, r.1.main.popping)) = some (some 5, false) ∧
    (after extended ([.arrive 5, .call (.write 1 [])] ++ round)).map (fun r => (r.1.hw.rdr, Modm.AtomicQueue.getSize 2 r.1.rx)) = some (none, 1) := by
  decide +kernel

/-- **C141, refuted.** The handler of the other drivers reads the data register to clear the overrun flag.  A byte which arrives while it runs is
lost without any error. -/
theorem C141_eaten_counterexample :
    (after basic [.arrive 5, .interrupt, .isr, .isr, .isr, .arrive 6, .isr, .isr, .isr, .isr, .isr,
        .call (.read 2), .main, .main, .main, .main, .main]).map
      (fun r => (arrivals r.2, (api r.2).received, overflows r.2, r.1.hw.rdr, r.1.hw.ore)) = some ([5, 6], [5], [], none, false) := by
  decide +kernel

/-- **C141, refuted.** Without a receive queue, sending loses received bytes. -/
theorem C141_unbuffered_counterexample :
    (after ⟨2, 0, false, false⟩ (three ++ [.arrive 5] ++ round ++ [.call (.read 1), .main])).map
      (fun r => (arrivals r.2, (api r.2).received, overflows r.2, r.2.getLast?)) = some ([5], [], [], some (.done (.received []))) := by
  decide +kernel

/-- **C141, refuted.** Without a receive queue, `read` with the length zero stores a byte. -/
theorem C141_length_counterexample :
    (after txOnly [.arrive 5, .call (.read 0), .main, .main]).map (fun r => r.2.getLast?) = some (some (.done (.received [5]))) := by
  decide +kernel

/-! ### Sizes -/

/-- **C142.** `transmitBufferSize` is the number of bytes written that have not been given to the transmitter. -/
theorem C142_transmitBufferSize {cfg : Config} {txMem rxMem : List α} (hf : Fits cfg txMem rxMem) {s s' : State α} {tr e : List (Ev α)}
    (h : Reach cfg Polite (init txMem rxMem) s tr) {a : Act α} (hs : step cfg s a = some (s', e)) {n : Nat}
    (hd : Ev.done (.txSize n) ∈ e) :
    (api (tr ++ e)).written.length = s'.hw.wire.length + s'.hw.shift.toList.length + s'.hw.tdr.toList.length + n := by
  obtain ⟨l, htx, hacc⟩ := polite_flow hf h
  obtain ⟨hisr, hm⟩ := done_main hs hd
  obtain ⟨rfl, rfl, hh0, hmain, rfl⟩ := done_txSize hm hd
  have hr := reach_res h
  rw [hmain] at hr
  have hh := htx.main; unfold MainTx at hh; rw [hmain] at hh
  rw [api_append]
  simp only [List.foldl, learn]
  rw [← hr.1, hacc]
  have : ({ s.tx with head := hh0 } : Modm.AtomicQueue.Q α) = s.tx := by rw [hh]
  rw [this, size_eq htx.rep]
  simp [flow, waiting, hisr, Isr.popping]; omega

/-- **C142.** After `transmitBufferSize` has returned `n`, no byte is refused before as many bytes have been written as the queue
then had room for, however much time passes and whatever else is called. -/
theorem C142_room {cfg : Config} {txMem rxMem : List α} (hf : Fits cfg txMem rxMem) {s s1 s2 s3 : State α} {tr e tr' e' : List (Ev α)}
    (h : Reach cfg Polite (init txMem rxMem) s tr) {a : Act α} (ha : Polite s a) (hs : step cfg s a = some (s1, e)) {n : Nat}
    (hd : Ev.done (.txSize n) ∈ e) (h' : Reach cfg Polite s1 s2 tr') {a' : Act α} (hs' : step cfg s2 a' = some (s3, e')) {m : Nat}
    (hd' : Ev.done (.wrote m) ∈ e') (hlt : m < (((api (tr ++ e ++ tr')).current.map data).getD []).length) :
    (api (tr ++ e)).written.length + cfg.txSize ≤ (api (tr ++ e ++ tr' ++ e')).written.length + n := by
  have hsize := C142_transmitBufferSize hf h hs hd
  have h1 : Reach cfg Polite (init txMem rxMem) s1 (tr ++ e) := .step a h ha hs
  have h2 := h1.trans h'
  have hc := count_reach h'
  obtain ⟨l, htx, hacc⟩ := polite_flow hf h2
  have hr := reach_res h2
  obtain ⟨hisr, hm⟩ := done_main hs' hd'
  rcases done_wrote hm hd' with ⟨x, rest, hmain, hfull, rfl, rfl⟩ | ⟨k, x, i, hmain, rfl⟩
  · rw [hmain] at hr
    obtain ⟨pre, e1, e2, e3, -⟩ := hr
    have hl := (full_iff htx.rep).1 hfull
    rw [api_append _ [_]]
    simp only [List.foldl, learn, e1, Option.getD_some, ← e2, List.take_left']
    simp only at e3
    rw [← e3, hacc, hsize]
    simp only [flow, waiting, hisr, Isr.popping, List.length_append, Bool.false_eq_true, if_false, hl]
    simp only [count] at hc
    omega
  · rw [hmain] at hr
    obtain ⟨pre, e1, e2, -⟩ := hr
    rw [e1] at hlt
    simp at hlt; omega

/-- **C142.** After `receiveBufferSize` has returned `n`, `read` delivers fewer bytes than it was asked for only after `n` bytes have been read
or discarded. -/
theorem C142_available {cfg : Config} (h0 : cfg.rxSize ≠ 0) {txMem rxMem : List α} (hf : Fits cfg txMem rxMem)
    {s s1 s2 s3 : State α} {tr e tr' e' : List (Ev α)} (h : Reach cfg (fun _ _ => True) (init txMem rxMem) s tr) {a : Act α}
    (hs : step cfg s a = some (s1, e)) {n : Nat} (hd : Ev.done (.rxSize n) ∈ e) (h' : Reach cfg (fun _ _ => True) s1 s2 tr') {a' : Act α}
    (hs' : step cfg s2 a' = some (s3, e')) {xs : List α} {k : Nat} (hd' : Ev.done (.received xs) ∈ e')
    (hk : (api (tr ++ e ++ tr')).current = some (.read k)) (hlt : xs.length < k) :
    (api (tr ++ e)).received.length + (api (tr ++ e)).discardedRx + n ≤
      (api (tr ++ e ++ tr' ++ e')).received.length + (api (tr ++ e ++ tr' ++ e')).discardedRx := by
  obtain ⟨hisr, hm⟩ := done_main hs hd
  obtain ⟨l, t, hr, g1, g2⟩ := reach_rx hf.rx hf.rxMem h
  have hres := reach_res h
  obtain ⟨hs1, he, hdd, hmain, rfl⟩ := done_rxSize hm hd h0
  rw [hmain] at hres
  have hmr := hr.main; unfold MainRx at hmr; rw [hmain] at hmr
  obtain ⟨-, j, hj, hjd⟩ := hmr
  have hsz : Modm.AtomicQueue.getSize cfg.rxSize { s.rx with head := hdd } = j := by
    have hrep : Rep cfg.rxSize { s.rx with head := hdd } (l.take j) := by
      refine ⟨hr.rep.hN, hr.rep.len, ?_, hr.rep.tl, ?_, ?_⟩
      · simp only [List.length_take, Nat.min_eq_left hj]; exact hjd
      · have := hr.rep.sz; simp; omega
      · intro i hi
        simp only [List.length_take, Nat.min_eq_left hj] at hi
        rw [List.getElem?_take_of_lt hi]
        exact hr.rep.el i (by omega)
    rw [size_eq hrep]; simp; omega
  have h1 : Reach cfg (fun _ _ => True) (init txMem rxMem) s1 (tr ++ e) := .step a h trivial hs
  have h2 := h1.trans h'
  obtain ⟨l2, t2, hr2, k1, k2⟩ := reach_rx hf.rx hf.rxMem h2
  have hres2 := reach_res h2
  obtain ⟨hisr2, hm2⟩ := done_main hs' hd'
  have hnd : s2.main ≠ .readDirect := by
    intro hmain2
    have := hr2.main; unfold MainRx at this; rw [hmain2] at this
    exact h0 this.1
  obtain ⟨-, he2, k', hmain2, hor⟩ := done_received hm2 hd' h0 hnd
  rw [hmain2] at hres2
  obtain ⟨-, q2, -, q4, -, q6⟩ := hres2
  rw [hk] at q6
  simp only [Option.some.injEq, Call.read.injEq] at q6
  have hemp : l2 = [] := (isEmpty_iff hr2.rep).1 (hor.resolve_left (by omega))
  have hb := before_reach h'
  have hlen := hr.len; have hlen2 := hr2.len
  subst hemp
  rw [hsz]
  have hapi1 : (api (tr ++ e)).received = gots tr ∧ (api (tr ++ e)).discardedRx = dropsRx tr := by
    rw [api_append, he]; exact ⟨hres.2.1.symm, hres.2.2.2.symm⟩
  have hapi2 : (api (tr ++ e ++ tr' ++ e')).received = gots (tr ++ e ++ tr') ∧
      (api (tr ++ e ++ tr' ++ e')).discardedRx = dropsRx (tr ++ e ++ tr') := by
    rw [api_append _ e', he2]; exact ⟨q2.symm, q4.symm⟩
  rw [hapi1.1, hapi1.2, hapi2.1, hapi2.2]
  have hbe : arrivals e = [] ∧ overflows e = [] ∧ eatens e = [] := by rw [he]; exact ⟨rfl, rfl, rfl⟩
  simp only [arrivals_append, overflows_append, eatens_append, hbe.1, hbe.2.1, hbe.2.2, List.length_append, List.length_nil] at hlen2
  simp only [stock, hmain, hmain2, Main.popping, List.length_append, Bool.false_eq_true, if_false, List.length_nil] at hlen hlen2
  have hbs : before s1 = before s := by rw [hs1]; rfl
  rw [hbs] at hb
  simp only [before] at hb
  omega

/-! ### Cases -/

/-- Interleavings of all kinds: the handler runs in the middle of `write`. -/
example : (after extended (three ++ [.load, .call (.write 4 [5]), .main, .interrupt, .isr, .isr, .arrive 8, .isr, .load, .isr, .isr, .isr, .main, .main, .main, .main, .main, .main]
      ++ round ++ round ++ round ++ round ++ round)).map (fun r => ((api r.2).written, r.1.hw.wire, arrivals r.2)) =
    some ([1, 2, 3, 4], [1, 2, 3, 4], [8]) := by decide +kernel

example : Fits extended [0, 0, 0] [0, 0, 0] := ⟨by decide, rfl, by decide, rfl⟩

/-- `three` is an execution of the kind considered in C137; the second call of `write` in it is refused. -/
example : ∃ s tr, Reach extended (fun _ => Plain) (init [0, 0, 0] [0, 0, 0]) s tr ∧ (api tr).written = [1, 2, 3] := by
  have hrun : ∃ r, run extended (init [0, 0, 0] [0, 0, 0]) three = some r ∧ (api r.2).written = [1, 2, 3] := by
    have : (run extended (init [0, 0, 0] [0, 0, 0]) three).map (fun r => (api r.2).written) = some [1, 2, 3] := by decide +kernel
    rcases h : run extended (init [0, 0, 0] [0, 0, 0]) three with _ | r
    · rw [h] at this; cases this
    · rw [h] at this; exact ⟨r, rfl, by simpa using this⟩
  obtain ⟨⟨s, tr⟩, hr, hw⟩ := hrun
  refine ⟨s, tr, ?_, hw⟩
  have := reach_run (ok := fun _ => Plain) three (fun s a ha => ?_) .start hr
  · simpa using this
  · simp only [three, List.mem_cons, List.not_mem_nil, or_false] at ha
    rcases ha with rfl | h
    · trivial
    · have : a = .main := by simpa using h
      subst this; trivial

/-- A refused byte, a size and a read after a size. -/
example : (after extended (three ++ [.call (.write 4 []), .main, .main])).map (fun r => (r.2.getLast?, (api r.2).written)) =
    some (some (.done (.wrote 0)), [1, 2, 3]) := by decide +kernel
example : (after extended (three ++ [.call .transmitBufferSize, .main, .main])).map (fun r => r.2.getLast?) =
    some (some (.done (.txSize 2))) := by decide +kernel
example : (after extended [.arrive 5, .interrupt, .isr, .isr, .isr, .isr, .isr, .isr, .isr, .call .receiveBufferSize, .main, .main,
      .call (.read 2), .main, .main, .main, .main, .main]).map (fun r => (r.2.getLast?, r.2.contains (.done (.rxSize 1)))) =
    some (some (.done (.received [5])), true) := by decide +kernel
example : (after txOnly (three ++ [.call .discardTransmitBuffer, .main, .main, .main, .main, .main, .main, .main, .main, .main])).map
    (fun r => r.2.getLast?) = some (some (.done (.discardedTx 2))) := by decide +kernel

end Props.Uart
