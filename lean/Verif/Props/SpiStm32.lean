import Verif.Lemmas.SpiStm32

set_option autoImplicit false

/-!
# C286–C288: the SPI master of STM32
-/

namespace Props.SpiStm32

open Model.SpiStm32 Spec.SpiStm32 Lemmas.SpiStm32

variable {c : Cfg} {a : Args}

/-! ## C286: polling -/

/-- **C286**.  However the hardware progresses between and within the calls: when `transfer` returns
`Stop`, exactly the bytes at `tx` went over the wire, each answer is at its place, nothing else in
memory is changed, nothing was lost, and the master is idle again. -/
theorem C286_transfer (hcap : 0 < c.cap) (ap : Apart a) (s0 s1 : St) (q : Quiet s0) (as : List PollAct)
    (h : exec c a as s0 = (true, s1)) :
    Sent a s0 s1 ∧ Received c a s0 s1 ∧ Frame a s0 s1 ∧ s1.hw.lost = s0.hw.lost ∧ Quiet s1 := by
  have := (exec_inv hcap ap q as s0 (Or.inl rfl)).2
  rw [h] at this
  obtain ⟨p1, p2, p3, p4, p5⟩ := this rfl
  exact ⟨p2, p3, p4, p5, p1⟩

/-- At any moment the bytes on the wire are the beginning of those to be sent. -/
theorem C286_prefix (hcap : 0 < c.cap) (ap : Apart a) (s0 s1 : St) (q : Quiet s0) (as : List PollAct)
    (h : exec c a as s0 = (false, s1)) : ∃ k, s1.hw.sent = s0.hw.sent ++ (want a s0.hw.mem).take k := by
  have := (exec_inv hcap ap q as s0 (Or.inl rfl)).1
  rw [h] at this
  rcases this rfl with e | i
  · exact ⟨0, by simp only [] at e; rw [e]; simp⟩
  · rcases i.phase with ⟨_, _, _, _, e⟩ | ⟨_, _, _, _, e⟩ | ⟨_, _, _, _, e⟩ | ⟨_, _, _, _, e⟩ <;> exact ⟨_, e⟩

/-- From wherever the transfer is, a call during which the hardware progresses comes to the end. -/
theorem C286_returns (hcap : 0 < c.cap) (ap : Apart a) (s0 s1 : St) (q : Quiet s0) (as : List PollAct)
    (h : exec c a as s0 = (false, s1)) :
    (transfer c a (List.replicate a.length [.load, .finish]) s1).1 = true := by
  have := (exec_inv hcap ap q as s0 (Or.inl rfl)).1
  rw [h] at this
  rcases this rfl with e | i
  · simp only [] at e
    subst e
    unfold transfer
    rw [q.bit1]
    simp only [Bool.false_eq_true, if_false]
    by_cases hp : 0 < a.length
    · rw [if_pos hp]
      apply loop_returns hcap ap (s0 := s1)
      · exact { index := hp, bit1 := rfl, txDma := q.txDma, rxDma := q.rxDma, clock := q.clock, ct := q.ct, cr := q.cr, lost := rfl, frame := fun _ _ => rfl, stored := fun _ _ j hj => absurd hj (Nat.not_lt_zero j), phase := Or.inl ⟨q.bit0, q.tx, q.shift, q.rx, by simp⟩ }
      · simp
    · rw [if_neg hp]
  · simp only [] at i
    unfold transfer
    rw [i.bit1]
    exact loop_returns hcap ap _ s1 i (by omega)

theorem fresh_quiet (mem : Nat → Byte) : Quiet (fresh mem) := by
  constructor <;> simp [fresh]

/-! ### Examples -/

/-- A device that returns the complement of what it got last (0x99 at first). -/
def dev (l : List Byte) : Byte := match l.getLast? with
  | none => 0x99
  | some b => ~~~b

def plain : Cfg := { cap := 1, fifo := false, dummy := 1000, ans := dev }
def fifo4 : Cfg := { cap := 4, fifo := true, dummy := 1000, ans := dev }

def mem0 (x : Nat) : Byte := if x = 10 then 0xA1 else if x = 11 then 0xB2 else if x = 12 then 0xC3 else 0

def three : Args := { tx := some 10, rx := some 20, length := 3 }

example : Quiet (fresh mem0) ∧ Apart three ∧ 0 < plain.cap :=
  ⟨fresh_quiet _, by intro p q hp hq i _ j _; cases hp; cases hq; simp [three] at *; omega, by decide⟩

/-- The same buffer for both directions is allowed, one byte further is not. -/
example : Apart { tx := some 10, rx := some 10, length := 3 } ∧ ¬ Apart { tx := some 10, rx := some 11, length := 3 } := by
  constructor
  · intro p q hp hq i _ j hj; cases hp; cases hq; simp; omega
  · intro h; exact h 10 11 rfl rfl 1 (by decide) 0 (by decide) rfl

def slow : List PollAct := [.hw .load, .call [[]], .hw .load, .call [[]], .hw .finish, .call [[], [.load]], .call [[.finish], [.load, .finish]]]

example : (exec plain three slow (fresh mem0)).1 = true ∧
    (exec plain three slow (fresh mem0)).2.hw.sent = [0xA1, 0xB2, 0xC3] ∧
    [20, 21, 22, 23].map (exec plain three slow (fresh mem0)).2.hw.mem = [0x99, 0x5E, 0x4D, 0] := by
  decide +kernel

/-! ## C287: DMA -/

/-- **C287**, as far as it holds: without bus error, with buffers as `Usable` demands and between 1 and
65535 bytes, `transfer` returns only after exactly the bytes at `tx` went over the wire, and it changes no
other memory.  The answers are all at their place *if* no byte was lost by overrun and no
received byte is left in the peripheral; the latter is assured only with FIFO (`C287_fifo_partial`). -/
theorem C287_transfer_partial (s0 s1 : St) (u : Usable c a s0.hw.mem) (q : Quiet s0) (hl : s0.hw.lost = false)
    (as : List Act) (hok : ∀ x ∈ as, ActOk x) (h : execDma c a as s0 = (true, s1)) :
    Sent a s0 s1 ∧ FrameDummy c a s0 s1 ∧ (a.rx ≠ none → Frame a s0 s1) ∧
      (s1.hw.lost = false → s1.hw.rx = [] → Received c a s0 s1 ∧
        (s1.sw.txComplete = true → s1.sw.rxComplete = true → Quiet s1)) := by
  have := (execDma_inv u q hl as s0 (Or.inl rfl) hok).2
  rw [h] at this
  obtain ⟨s2, i, e, hf, htx, hsh, hleft⟩ := (this rfl).ex
  simp only [] at e
  subst e
  have hfr : ∀ x, (∀ q, a.rx = some q → ∀ j < a.length, x ≠ q + j) → (a.rx = none → x ≠ c.dummy) → s2.hw.mem x = s0.hw.mem x :=
    fun x h1 h2 => i.frame x (fun q hq j hj => h1 q hq j (by omega)) h2
  refine ⟨?_, fun x h1 h2 => hfr x h2 (fun _ => h1), fun hne x h1 => hfr x h1 (fun h => absurd h hne), fun hlost hrx => ?_⟩
  · have := i.sent
    rw [List.take_of_length_le (Nat.le_of_eq (want_length a s0.hw.mem))] at this
    exact this
  · simp only [finishDma] at hlost hrx
    obtain ⟨c1, c2, c3⟩ := i.rcont hlost
    rw [hrx] at c1
    simp only [List.length_nil] at c1
    refine ⟨fun q' hq j hj => c3 q' hq j (by omega), fun ht hr => ?_⟩
    simp only [finishDma] at ht hr
    rcases i.tchan with ⟨t1, _⟩ | ⟨_, t2, t3, _⟩
    · rw [t1] at ht; cases ht
    rcases i.rchan with ⟨r1, _⟩ | ⟨_, r2, r3, _⟩
    · rw [r1] at hr; cases hr
    exact ⟨htx, hsh, hrx, rfl, rfl, i.clock, ⟨t2, t3, i.te.1⟩, ⟨r2, r3, i.te.2⟩, i.bit0, rfl⟩

/-- With FIFO the levels are waited for: if no byte is lost, all answers are there. -/
theorem C287_fifo_partial (hf : c.fifo = true) (s0 s1 : St) (u : Usable c a s0.hw.mem) (q : Quiet s0)
    (hl : s0.hw.lost = false) (as : List Act) (hok : ∀ x ∈ as, ActOk x)
    (h : execDma c a as s0 = (true, s1)) (hlost : s1.hw.lost = false) : Sent a s0 s1 ∧ Received c a s0 s1 := by
  have h0 := C287_transfer_partial s0 s1 u q hl as hok h
  have := (execDma_inv u q hl as s0 (Or.inl rfl) hok).2
  rw [h] at this
  obtain ⟨s2, i, e, hf', _⟩ := (this rfl).ex
  simp only [] at e
  have hrx : s1.hw.rx = [] := by rw [e]; exact hf' hf
  exact ⟨h0.1, (h0.2.2.2 hlost hrx).1⟩

/-- Without FIFO at most the last answers are missing: those that are in memory are right. -/
theorem C287_plain_partial (s0 s1 : St) (u : Usable c a s0.hw.mem) (q : Quiet s0)
    (hl : s0.hw.lost = false) (as : List Act) (hok : ∀ x ∈ as, ActOk x)
    (h : execDma c a as s0 = (true, s1)) (hlost : s1.hw.lost = false) :
    ∀ p, a.rx = some p → ∀ i < a.length - s1.hw.rx.length,
      s1.hw.mem (p + i) = answer c.ans s0.hw.sent (want a s0.hw.mem) i := by
  have := (execDma_inv u q hl as s0 (Or.inl rfl) hok).2
  rw [h] at this
  obtain ⟨s2, i, e, _⟩ := (this rfl).ex
  simp only [] at e
  subst e
  obtain ⟨c1, _, c3⟩ := i.rcont hlost
  intro p hp j hj
  simp only [finishDma] at hj ⊢
  exact c3 p hp j (by omega)

/-- No transfer hangs: every event that changes something lowers a bound that is never above `8 n + 2`, and when
nothing is left to happen, the next call returns. -/
theorem C287_live (hcap : 0 < c.cap) (s0 s1 : St) (u : Usable c a s0.hw.mem) (q : Quiet s0)
    (hl : s0.hw.lost = false) (as : List Act) (hok : ∀ x ∈ as, ActOk x)
    (h : execDma c a as s0 = (false, s1)) (hb : s1.sw.bit1 = true) :
    meas s1 ≤ 8 * a.length + 2 ∧
    (∀ e, NoFault e → step c e s1 = s1 ∨ meas (step c e s1) < meas s1) ∧
    ((∀ e, NoFault e → step c e s1 = s1) → (transferDma c a [] [] [] s1).1 = true) := by
  have := (execDma_inv u q hl as s0 (Or.inl rfl) hok).1
  rw [h] at this
  rcases this rfl with e | ⟨m, i⟩
  · simp only [] at e
    rw [e, q.bit1] at hb; cases hb
  · refine ⟨?_, fun e he => step_meas i e he, fun hs => stuck_returns i hcap hs⟩
    have h1 := congrArg List.length i.pipe
    simp only [List.length_append, List.length_drop, List.length_take, want_length] at h1
    have h2 := i.left
    have h3 := i.rle
    have h4 := i.mle
    have h5 := b2n_le s1.hw.ct.tc
    have h6 := b2n_le s1.hw.cr.tc
    simp only [] at h1 h2 h3 h4
    unfold meas
    omega

/-! ### Examples -/

theorem usable_three (c : Cfg) (hc : c.dummy = 1000) : Usable c three mem0 := by
  refine ⟨by decide, by decide, ?_, ?_, ?_, by intro h; cases h⟩
  · intro p q hp hq i hi j hj; cases hp; cases hq; simp only [three] at hi; omega
  · intro p hp i hi; cases hp; simp only [three] at hi; rw [hc]; omega
  · intro p hp i hi; cases hp; simp only [three] at hi; rw [hc]; omega

/-- One byte through the peripheral. -/
def one : List Ev := [.dmaTx, .load, .finish, .dmaRx]

def good : List Act := [.call [] [] [], .call (one ++ one) [] [], .hw .dmaTx, .hw .irqTx, .call [] [.load] [], .hw .finish, .hw .dmaRx, .hw .irqRx, .call [] [] []]

example : (∀ x ∈ good, ActOk x) ∧ Usable plain three mem0 ∧ Usable fifo4 three mem0 := by
  refine ⟨?_, usable_three _ rfl, usable_three _ rfl⟩
  simp [good, ActOk, NoFault, one]

example : (execDma plain three good (fresh mem0)).1 = true ∧
    (execDma plain three good (fresh mem0)).2.hw.sent = [0xA1, 0xB2, 0xC3] ∧
    [20, 21, 22, 23].map (execDma plain three good (fresh mem0)).2.hw.mem = [0x99, 0x5E, 0x4D, 0] := by
  decide +kernel

/-! ### What fails -/

/-- The receive channel has not yet taken the last byte when the conditions are read. -/
def early : List Act := [.call [] [] [], .hw .dmaTx, .hw .load, .hw .finish, .hw .dmaRx, .hw .dmaTx, .hw .load, .hw .finish, .hw .dmaRx, .hw .dmaTx, .hw .load, .hw .irqTx, .hw .finish, .call [] [] []]

/-- **C287 is false without FIFO**: `transfer` returns after the transmitter is done, the last answer is
not in memory and never gets there, and the next transfer of one byte returns it instead of its
own answer. -/
theorem C287_last_counterexample :
    Usable plain three mem0 ∧ Quiet (fresh mem0) ∧ (∀ x ∈ early, ActOk x) ∧
    (execDma plain three early (fresh mem0)).1 = true ∧
    (execDma plain three early (fresh mem0)).2.hw.lost = false ∧
    (execDma plain three early (fresh mem0)).2.hw.mem 22 = 0 ∧
    answer plain.ans [] (want three mem0) 2 = 0x4D ∧
    (transferByteDma plain 0x55 [.load, .finish] (execDma plain three early (fresh mem0)).2).1 = some 0x4D := by
  refine ⟨usable_three _ rfl, fresh_quiet _, ?_, ?_⟩
  · simp [early, ActOk, NoFault]
  · decide +kernel

/-- The receive channel is late by the whole FIFO; the byte that finds no room is lost and `transfer`
returns as after success. -/
def late : List Act := [.call [] [] [], .call [.dmaTx, .load, .finish, .dmaTx, .load, .finish, .dmaTx, .load, .finish, .irqTx, .dmaRx] [] []]

theorem C287_overrun_counterexample :
    Usable { fifo4 with cap := 2 } three mem0 ∧ (∀ x ∈ late, ActOk x) ∧
    (execDma { fifo4 with cap := 2 } three (late ++ [.call [.dmaRx] [] []]) (fresh mem0)).1 = true ∧
    (execDma { fifo4 with cap := 2 } three (late ++ [.call [.dmaRx] [] []]) (fresh mem0)).2.hw.mem 22 = 0 ∧
    (execDma { fifo4 with cap := 2 } three (late ++ [.call [.dmaRx] [] []]) (fresh mem0)).2.sw.error = false := by
  refine ⟨usable_three _ rfl, ?_, ?_⟩
  · simp [late, ActOk, NoFault]
  · decide +kernel

/-- The two transfers: one without `rx`, then one without `tx`. -/
def sendOnly : Args := { tx := some 10, rx := none, length := 1 }
def receiveOnly : Args := { tx := none, rx := some 20, length := 2 }
def run1 : List Act := [.call [] [] [], .call (one ++ [.irqTx, .irqRx]) [] []]
def run2 : List Act := [.call [] [] [], .call (one ++ one ++ [.irqTx, .irqRx]) [] []]

/-- The byte for transfers without buffer is the same for both directions: after a transfer
without `rx` a transfer without `tx` sends what was received then, not zeros; the transfer by polling sends
zeros. -/
theorem C287_dummy_counterexample :
    (execDma plain sendOnly run1 (fresh mem0)).1 = true ∧
    Quiet (execDma plain sendOnly run1 (fresh mem0)).2 ∧
    (execDma plain receiveOnly run2 (execDma plain sendOnly run1 (fresh mem0)).2).1 = true ∧
    (execDma plain receiveOnly run2 (execDma plain sendOnly run1 (fresh mem0)).2).2.hw.sent = [0xA1, 0x99, 0x99] ∧
    want receiveOnly (execDma plain sendOnly run1 (fresh mem0)).2.hw.mem = [0, 0] := by
  refine ⟨by decide +kernel, ?_, by decide +kernel, by decide +kernel, by decide +kernel⟩
  constructor <;> decide +kernel

/-- Only the length modulo 65536 reaches the channels. -/
theorem begin_mod (c : Cfg) (a : Args) (s : St) : begin c { a with length := a.length % 65536 } s = begin c a s := by
  simp [begin, Chan.setup]

theorem execDma_mod (c : Cfg) (a : Args) (as : List Act) :
    ∀ s, execDma c { a with length := a.length % 65536 } as s = execDma c a as s := by
  induction as with
  | nil => intro s; rfl
  | cons x as ih =>
    intro s
    cases x with
    | hw e => rw [execDma, execDma, ih]
    | call m0 m1 m2 =>
      rw [execDma, execDma]
      have : transferDma c { a with length := a.length % 65536 } m0 m1 m2 s = transferDma c a m0 m1 m2 s := by
        unfold transferDma
        rw [begin_mod]
      rw [this]
      generalize transferDma c a m0 m1 m2 s = r
      obtain ⟨b, s1⟩ := r
      cases b
      · exact ih s1
      · rfl

/-- A transfer of 65536 bytes or more sends only the length modulo 65536, whatever happens. -/
theorem C287_long_counterexample (s0 s1 : St) (hlong : 65536 ≤ a.length)
    (u : Usable c { a with length := a.length % 65536 } s0.hw.mem) (q : Quiet s0) (hl : s0.hw.lost = false)
    (as : List Act) (hok : ∀ x ∈ as, ActOk x) (h : execDma c a as s0 = (true, s1)) :
    s1.hw.sent = s0.hw.sent ++ want { a with length := a.length % 65536 } s0.hw.mem ∧ ¬ Sent a s0 s1 := by
  have h1 := (C287_transfer_partial s0 s1 u q hl as hok (by rw [execDma_mod]; exact h)).1
  unfold Sent at h1
  refine ⟨h1, fun h2 => ?_⟩
  unfold Sent at h2
  rw [h1] at h2
  have := congrArg List.length (List.append_cancel_left h2)
  rw [want_length, want_length] at this
  simp only [] at this
  omega

def tooLong : Args := { tx := some 10, rx := some 70000, length := 65537 }

example : Usable plain { tooLong with length := tooLong.length % 65536 } mem0 ∧ 65536 ≤ tooLong.length ∧
    (∀ x ∈ run1, ActOk x) ∧ (execDma plain tooLong run1 (fresh mem0)).1 = true ∧
    (execDma plain tooLong run1 (fresh mem0)).2.hw.sent = [0xA1] := by
  refine ⟨⟨by decide, by decide, ?_, ?_, ?_, by intro h; cases h⟩, by decide, ?_, by decide +kernel, by decide +kernel⟩
  · intro p q hp hq i hi j hj; cases hp; cases hq; simp [tooLong] at hi; omega
  · intro p hp i hi; cases hp; simp [tooLong] at hi; simp [plain]; omega
  · intro p hp i hi; cases hp; simp [tooLong] at hi; simp [plain]; omega
  · simp [run1, ActOk, NoFault, one]

/-- The state of a transfer with nothing to do for the channels. -/
structure Idle (s : St) : Prop where
  bit1 : s.sw.bit1 = true
  error : s.sw.error = false
  tc : s.sw.txComplete = false
  rc : s.sw.rxComplete = false
  ct : s.hw.ct.left = 0 ∧ s.hw.ct.tc = false ∧ s.hw.ct.te = false
  cr : s.hw.cr.left = 0 ∧ s.hw.cr.tc = false ∧ s.hw.cr.te = false

theorem idle_step {s : St} (i : Idle s) (e : Ev) (he : NoFault e) : Idle (step c e s) := by
  obtain ⟨e1, e2, e3⟩ := i.ct
  obtain ⟨e4, e5, e6⟩ := i.cr
  cases e with
  | load => simp only [step, load]; split <;> exact ⟨i.bit1, i.error, i.tc, i.rc, i.ct, i.cr⟩
  | finish =>
    simp only [step, finish]
    split
    · exact i
    · split <;> exact ⟨i.bit1, i.error, i.tc, i.rc, i.ct, i.cr⟩
  | dmaTx => simp only [step, dmaTx, e1, Nat.lt_irrefl, decide_false, Bool.and_false, Bool.false_and]; exact i
  | dmaRx =>
    simp only [step, dmaRx]
    split
    · exact i
    · simp only [e4, Nat.lt_irrefl, decide_false, Bool.and_false]; exact i
  | irqTx => simp only [step, irqTx, e2, e3, Bool.or_false, Bool.and_false]; exact i
  | irqRx => simp only [step, irqRx, e5, e6, Bool.or_false, Bool.and_false]; exact i
  | faultTx => exact he.elim
  | faultRx => exact he.elim

theorem idle_steps (es : List Ev) : ∀ s : St, Idle s → (∀ e ∈ es, NoFault e) → Idle (steps c es s) := by
  induction es with
  | nil => intro s i _; exact i
  | cons e es ih => intro s i h; exact ih _ (idle_step i e (h e (by simp))) (fun x hx => h x (by simp [hx]))

theorem idle_call {s : St} (i : Idle s) (m0 m1 m2 : List Ev) (h : ActOk (.call m0 m1 m2)) :
    (transferDma c a m0 m1 m2 s).1 = false ∧ Idle (transferDma c a m0 m1 m2 s).2 := by
  unfold transferDma
  rw [i.bit1]
  have i1 := idle_steps (c := c) m0 s i h.1
  simp only [if_true, check, i1.error, i1.tc, i1.rc, Bool.not_false, Bool.and_self, Bool.false_eq_true, if_false]
  exact ⟨trivial, i1⟩

/-- A transfer of no bytes never returns, whatever happens; so does one of 65536. -/
theorem C287_zero_counterexample (s0 : St) (q : Quiet s0) (hz : a.length % 65536 = 0) (as : List Act)
    (hok : ∀ x ∈ as, ActOk x) : (execDma c a as s0).1 = false := by
  have hb : Idle (begin c a s0) := by
    obtain ⟨e1, e2, e3⟩ := q.ct
    obtain ⟨e4, e5, e6⟩ := q.cr
    constructor <;> simp [begin, Chan.setup, Chan.start, q.clock, e1, e4, hz]
  have key : ∀ (as : List Act) (s : St), (s = s0 ∨ Idle s) → (∀ x ∈ as, ActOk x) → (execDma c a as s).1 = false := by
    intro as
    induction as with
    | nil => intro s _ _; rfl
    | cons x as ih =>
      intro s h hok
      have hok' : ∀ y ∈ as, ActOk y := fun y hy => hok y (by simp [hy])
      have hx := hok x (by simp)
      cases x with
      | hw e =>
        rw [execDma]
        apply ih _ _ hok'
        rcases h with h | h
        · left; rw [h]; exact quiet_step q e
        · right; exact idle_step h e hx
      | call m0 m1 m2 =>
        rw [execDma]
        have hc : (transferDma c a m0 m1 m2 s).1 = false ∧ Idle (transferDma c a m0 m1 m2 s).2 := by
          rcases h with h | h
          · have : transferDma c a m0 m1 m2 s = transferDma c a m0 m1 m2 (begin c a s0) := by
              rw [h]
              unfold transferDma
              rw [q.bit1, hb.bit1]
              simp
            rw [this]
            exact idle_call hb m0 m1 m2 hx
          · exact idle_call h m0 m1 m2 hx
        generalize transferDma c a m0 m1 m2 s = r at hc ⊢
        obtain ⟨b, s1⟩ := r
        simp only [] at hc
        obtain ⟨h1, h2⟩ := hc
        subst h1
        exact ih s1 (Or.inr h2) hok'
  exact key as s0 (Or.inl rfl) hok

/-- By polling a transfer of no bytes returns at once. -/
example : (transfer plain { three with length := 0 } [] (fresh mem0)).1 = true := by decide +kernel

/-! ## C288: bus errors -/

/-- **C288**, the part that holds: a bus error of either channel ends the transfer, the next call after the
interrupt returns. -/
theorem C288_ends_partial (s : St) (hb : s.sw.bit1 = true) (hc : s.hw.clock = true) :
    (s.hw.ct.te = true → (transferDma c a [] [] [] (irqTx s)).1 = true) ∧
    (s.hw.cr.te = true → (transferDma c a [] [] [] (irqRx s)).1 = true) := by
  constructor
  · intro he
    cases htc : s.hw.ct.tc <;> simp [irqTx, hc, he, htc, handleError, handleTransmit, transferDma, hb, steps, check]
  · intro he
    cases htc : s.hw.cr.tc <;> simp [irqRx, hc, he, htc, handleError, handleReceive, transferDma, hb, steps, check]

/-- Such states are reached, with an error of either channel. -/
example : (execDma plain three [.call [] [] [], .hw .faultTx] (fresh mem0)).2.hw.ct.te = true ∧
    (execDma plain three [.call [] [] [], .hw .faultRx] (fresh mem0)).2.hw.cr.te = true ∧
    (execDma plain three [.call [] [] [], .hw .faultRx] (fresh mem0)).2.sw.bit1 = true ∧
    (execDma plain three [.call [] [] [], .hw .faultRx] (fresh mem0)).2.hw.clock = true := by
  decide +kernel

/-- The state of a transfer on a controller without clock. -/
structure Dead (s : St) : Prop where
  clock : s.hw.clock = false
  bit1 : s.sw.bit1 = true
  error : s.sw.error = false
  tc : s.sw.txComplete = false
  rc : s.sw.rxComplete = false

theorem clock_step {s : St} (h : s.hw.clock = false) (e : Ev) :
    (step c e s).hw.clock = false ∧ (step c e s).sw = s.sw := by
  cases e with
  | load => simp only [step, load]; split <;> simp [h]
  | finish =>
    simp only [step, finish]
    split
    · simp [h]
    · split <;> simp [h]
  | dmaTx => simp [step, dmaTx, h]
  | dmaRx => simp only [step, dmaRx]; split <;> simp [h]
  | irqTx => simp [step, irqTx, h]
  | irqRx => simp [step, irqRx, h]
  | faultTx => simp [step, h]
  | faultRx => simp [step, h]

theorem clock_steps (es : List Ev) : ∀ s : St, s.hw.clock = false →
    (steps c es s).hw.clock = false ∧ (steps c es s).sw = s.sw := by
  induction es with
  | nil => intro s h; exact ⟨h, rfl⟩
  | cons e es ih =>
    intro s h
    obtain ⟨h1, h2⟩ := clock_step (c := c) h e
    obtain ⟨h3, h4⟩ := ih _ h1
    exact ⟨h3, h4.trans h2⟩

theorem dead_call {s : St} (i : Dead s) (m0 m1 m2 : List Ev) :
    (transferDma c a m0 m1 m2 s).1 = false ∧ Dead (transferDma c a m0 m1 m2 s).2 := by
  unfold transferDma
  rw [i.bit1]
  obtain ⟨h1, h2⟩ := clock_steps (c := c) m0 s i.clock
  have i1 : Dead (steps c m0 s) := ⟨h1, by rw [h2]; exact i.bit1, by rw [h2]; exact i.error, by rw [h2]; exact i.tc, by rw [h2]; exact i.rc⟩
  simp only [if_true, check, i1.error, i1.tc, i1.rc, Bool.not_false, Bool.and_self, Bool.false_eq_true, if_false]
  exact ⟨trivial, i1⟩

/-- **C288 is false**: the interrupt of a bus error switches off the clock of the whole DMA controller, and
from then on no transfer of any length returns, whatever happens. -/
theorem C288_forever_counterexample (s0 : St) (hc : s0.hw.clock = false) (hb : s0.sw.bit1 = false) (as : List Act) :
    (execDma c a as s0).1 = false := by
  have hd : ∀ s : St, s.hw.clock = false → Dead (begin c a s) := fun s h => ⟨h, rfl, rfl, rfl, rfl⟩
  have key : ∀ (as : List Act) (s : St), s.hw.clock = false → (s.sw.bit1 = false ∨ Dead s) → (execDma c a as s).1 = false := by
    intro as
    induction as with
    | nil => intro s _ _; rfl
    | cons x as ih =>
      intro s hcl h
      cases x with
      | hw e =>
        rw [execDma]
        obtain ⟨h1, h2⟩ := clock_step (c := c) hcl e
        apply ih _ h1
        rcases h with h | h
        · left; rw [h2]; exact h
        · right; exact ⟨h1, by rw [h2]; exact h.bit1, by rw [h2]; exact h.error, by rw [h2]; exact h.tc, by rw [h2]; exact h.rc⟩
      | call m0 m1 m2 =>
        rw [execDma]
        have hcall : (transferDma c a m0 m1 m2 s).1 = false ∧ Dead (transferDma c a m0 m1 m2 s).2 := by
          rcases h with h | h
          · have : transferDma c a m0 m1 m2 s = transferDma c a m0 m1 m2 (begin c a s) := by
              unfold transferDma
              rw [h, (hd s hcl).bit1]
              simp
            rw [this]
            exact dead_call (hd s hcl) m0 m1 m2
          · exact dead_call h m0 m1 m2
        generalize transferDma c a m0 m1 m2 s = r at hcall ⊢
        obtain ⟨b, s1⟩ := r
        simp only [] at hcall
        obtain ⟨h1, h2⟩ := hcall
        subst h1
        exact ih s1 h2.clock (Or.inr h2)
  exact key as s0 hc (Or.inl hb)

def broken : List Act := [.call [] [] [], .hw .dmaTx, .hw .faultTx, .hw .irqTx, .call [] [] []]

/-- Such a state is reached: one bus error; the transfer returns `Stop` like any other, with one of three
bytes handed to the peripheral. -/
theorem C288_error_counterexample :
    (execDma plain three broken (fresh mem0)).1 = true ∧
    (execDma plain three broken (fresh mem0)).2.hw.clock = false ∧
    (execDma plain three broken (fresh mem0)).2.sw.bit1 = false ∧
    (execDma plain three broken (fresh mem0)).2.hw.sent = [] := by
  decide +kernel

end Props.SpiStm32
