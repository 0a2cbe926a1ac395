import Verif.Spec.I2cMaster
import Verif.Lemmas.I2cMaster
import Verif.Model.I2cStm32

/-! # Properties of the I²C master of STM32 -/

set_option autoImplicit false

namespace Props.I2cStm32

open Modm.I2c Modm.Spec.I2c Modm.I2cStm32 I2cMasterSpec

variable {α τ : Type} (A : App α) (T : Transaction τ)

/-- The interrupts that have to be served before the byte on the bus is over: before the last byte of a buffer is written, and before the
fourth last byte is read. -/
def Critical (s : St α τ) : Prop := (s.mode = .tx ∧ s.wlen = 1) ∨ (s.mode = .rx ∧ s.rlen = 4)

/-- Critical interrupts are served in time, others at any time. -/
def Fine (late : Nat → St α τ → Bool) : Prop := ∀ i s, Critical s → late i s = false

/-- Whatever comes late, in the end `Q` holds. -/
def Leads (s : St α τ) (Q : St α τ → Prop) : Prop :=
  ∀ late, Fine late → ∃ n s', run A T n late s = some s' ∧ Q s'

variable {A T}

theorem Leads.now {s : St α τ} {Q : St α τ → Prop} (h : Q s) : Leads A T s Q := fun _ _ => ⟨0, s, rfl, h⟩

theorem Leads.step {s : St α τ} {Q : St α τ → Prop}
    (h : ∀ b, (Critical s → b = false) → ∃ s', step A T b s = some s' ∧ Leads A T s' Q) : Leads A T s Q := by
  intro late hf
  obtain ⟨s1, h1, h2⟩ := h (late 0 s) (hf 0 s)
  obtain ⟨n, s2, h3, h4⟩ := h2 (fun i => late (i + 1)) (fun i => hf (i + 1))
  exact ⟨n + 1, s2, by rw [run, h1, Option.bind_some, h3], h4⟩

theorem run_add (n m : Nat) : ∀ (late : Nat → St α τ → Bool) (s s' : St α τ), run A T n late s = some s' →
    run A T (n + m) late s = run A T m (fun i => late (i + n)) s' := by
  induction n with
  | zero =>
      intro late s s' h
      simp only [run, Option.some.injEq] at h
      subst h
      simp
  | succ n ih =>
      intro late s s' h
      rw [run] at h
      obtain ⟨s1, h1, h2⟩ := Option.bind_eq_some_iff.mp h
      rw [show n + 1 + m = (n + m) + 1 by omega, run, h1, Option.bind_some, ih _ _ _ h2]
      congr 1

theorem Leads.trans {s : St α τ} {P Q : St α τ → Prop} (h : Leads A T s P) (h' : ∀ s', P s' → Leads A T s' Q) : Leads A T s Q := by
  intro late hf
  obtain ⟨n, s1, h1, h2⟩ := h late hf
  obtain ⟨m, s2, h3, h4⟩ := h' s1 h2 (fun i => late (i + n)) (fun i => hf (i + n))
  exact ⟨n + m, s2, by rw [run_add n m late s s1 h1, h3], h4⟩

/-- An event is to be served, and nothing is on the bus. -/
theorem Leads.ev {s s' : St α τ} {Q : St α τ → Prop} (hp : evPending s = true) (hb : onBus s = false) (he : ev A T s = some s')
    (h : Leads A T s' Q) : Leads A T s Q :=
  Leads.step fun b _ => ⟨s', by rw [Modm.I2cStm32.step, if_pos hp, hb, Bool.and_false, if_neg (by simp), he], h⟩

/-- Nothing is to be served. -/
theorem Leads.advance {s s' : St α τ} {Q : St α τ → Prop} (hp : evPending s = false) (hr : erPending s = false) (he : advance A s = s')
    (h : Leads A T s' Q) : Leads A T s Q :=
  Leads.step fun b _ => ⟨s', by rw [Modm.I2cStm32.step, if_neg (by simp [hp]), if_neg (by simp [hr]), he], h⟩

/-- An error is to be served. -/
theorem Leads.er {s : St α τ} {Q : St α τ → Prop} (hp : evPending s = false) (hr : erPending s = true)
    (h : Leads A T (er A T s) Q) : Leads A T s Q :=
  Leads.step fun b _ => ⟨_, by rw [Modm.I2cStm32.step, if_neg (by simp [hp]), if_pos hr], h⟩

variable (A T)

/-- In the middle of a transaction; others are waiting in the queue `q`, others were detached. -/
structure Mid (s : St α τ) (t : τ) (app : α) (mem : Nat → Byte) (q : List (τ × Option Nat)) (d : List τ) : Prop where
  attached : s.attached = true
  trans : s.trans = t
  app : s.app = app
  mem : s.mem = mem
  queue : s.queue = q
  done : s.done = d
  error : s.error = .noError
  stop : s.stop = false
  it : s.it = true

/-- A START condition was sent. -/
structure Started (s : St α τ) (t : τ) (app : α) (mem : Nat → Byte) (q : List (τ × Option Nat)) (d : List τ) : Prop where
  mid : Mid s t (A.start app) mem q d
  mode : s.mode = .sb
  itbuf : s.itbuf = false
  check : s.check = .no
  pos : s.pos = false
  wlen : s.wlen = 0
  rlen : s.rlen = 0
  drFull : s.drFull = false
  shift : s.shift = none

/-- The master has nothing to do. -/
structure Idle (s : St α τ) : Prop where
  attached : s.attached = false
  mode : s.mode = .idle
  it : s.it = false
  stop : s.stop = false
  wlen : s.wlen = 0
  rlen : s.rlen = 0
  drFull : s.drFull = false
  shift : s.shift = none

/-- A transaction is over: the next one of the queue was started, or there is none. -/
def After (q : List (τ × Option Nat)) (d : List τ) (r : Result α τ) (s : St α τ) : Prop :=
  match q with
  | [] => Idle s ∧ s.queue = [] ∧ s.app = r.app ∧ s.mem = r.mem ∧ s.error = r.error ∧ s.done = d ++ [r.trans]
  | (t, _) :: q' => Started A s t r.app r.mem q' (d ++ [r.trans])

variable {A T}

theorem configure_same (c : Option Nat) (s : St α τ) : ∃ x y, configure c s = { s with config := x, configs := y } := by
  unfold configure
  cases c with
  | none => exact ⟨_, _, rfl⟩
  | some h =>
      simp only
      split
      · exact ⟨_, _, rfl⟩
      · exact ⟨_, _, rfl⟩

theorem started_of (s : St α τ) (t : τ) (app : α) (mem : Nat → Byte) (q : List (τ × Option Nat)) (d : List τ) (happ : s.app = app)
    (hmem : s.mem = mem) (hdone : s.done = d) (hs : s.stop = false) (hm : onBus s = false) (hw : s.wlen = 0)
    (hl : s.rlen = 0) (hd : s.drFull = false) (ha : s.attached = true) (ht : s.trans = t) (hq : s.queue = q) :
    Started A (callStarting A s) t app mem q d := by
  have hb : onBus { s with check := .no, error := .noError, pos := false, itbuf := false, it := true } = false := hm
  have e : callStarting A s = { s with check := .no, error := .noError, pos := false, itbuf := false, it := true, app := A.start s.app, mode := .sb, busy := none, sent := false, shift := none, rxEnd := false } := by
    rw [callStarting, waitStop, if_neg (by simp [hs])]
    simp only [setStart, hb]
    rfl
  rw [e]
  exact ⟨⟨ha, ht, by rw [happ], hmem, hq, hdone, rfl, hs, rfl⟩, rfl, rfl, rfl, rfl, hw, hl, hd, rfl⟩

theorem after_next (s : St α τ) (q : List (τ × Option Nat)) (d : List τ) (r : Result α τ) (hi : Idle s) (hq : s.queue = q) (ha : s.app = r.app)
    (hm : s.mem = r.mem) (he : s.error = r.error) (hd : s.done = d ++ [r.trans]) : After A q d r (callNext A s) := by
  cases q with
  | nil =>
      rw [callNext, hq]
      exact ⟨hi, hq, ha, hm, he, hd⟩
  | cons x q =>
      obtain ⟨t, c⟩ := x
      rw [callNext, hq]
      simp only
      rw [waitStop, if_neg (by simp [hi.stop])]
      obtain ⟨x, y, hc⟩ := configure_same c { s with queue := q }
      rw [hc]
      exact started_of (A := A) { s with queue := q, config := x, configs := y, trans := t, attached := true } t r.app r.mem q (d ++ [r.trans])
        ha hm hd hi.stop (by simp [onBus, hi.mode]) hi.wlen hi.rlen hi.drFull rfl rfl rfl

theorem After.check {q : List (τ × Option Nat)} {d : List τ} {r : Result α τ} {s : St α τ} (h : After A q d r s) :
    After A q d r { s with check := .no } := by
  cases q with
  | nil =>
      obtain ⟨⟨h1, h2, h3, h4, h5, h6, h7, h8⟩, h9⟩ := h
      exact ⟨⟨h1, h2, h3, h4, h5, h6, h7, h8⟩, h9⟩
  | cons x q =>
      obtain ⟨⟨h1, h2, h3, h4, h5, h6, h7, h8, h9⟩, k1, k2, k3, k4, k5, k6, k7, k8⟩ := h
      exact ⟨⟨h1, h2, h3, h4, h5, h6, h7, h8, h9⟩, k1, k2, rfl, k4, k5, k6, k7, k8⟩

theorem ev_of {s s1 s2 : St α τ} (h1 : onFlag A T s = some s1) (h2 : (if btf s then onBtf A s1 else some s1) = some s2) :
    ev A T s = onNext A T s2 := by
  rw [ev, h1, Option.bind_some, h2, Option.bind_some]

theorem onFlag_tx (s : St α τ) (hm : s.mode = .tx ∨ s.mode = .nacked) (h : txe s = true) : onFlag A T s = onTxe A s := by
  rcases hm with hm | hm <;> (unfold onFlag; rw [hm]; simp only; rw [if_pos h])

theorem onFlag_rx (s : St α τ) (hm : s.mode = .rx) (h : rxne s = true) : onFlag A T s = onRxne s := by
  unfold onFlag
  rw [hm]
  simp only
  rw [if_neg (by simp [txe, hm]), if_pos h]

/-! ## Errors -/

/-- After something was not acknowledged. -/
theorem nacked (s : St α τ) (t : τ) (app : α) (mem : Nat → Byte) (q : List (τ × Option Nat)) (d : List τ) (h : Mid s t app mem q d)
    (hm : s.mode = .nacked) (hs : s.shift = none) (hb : s.itbuf = true → (0 < s.wlen → ∃ p, s.wbuf = some p))
    (hc : s.check = .no ∨ s.check = .noWaitForBtf) :
    Leads A T s (After A q d ⟨if s.address ≠ 0 then .addressNack else .dataNack, T.detaching .errorCondition t, A.stop app, mem⟩) := by
  -- the error
  have key : ∀ s : St α τ, Mid s t app mem q d → s.mode = .nacked → s.shift = none → (s.itbuf = false ∨ s.drFull = true) →
      Leads A T s (After A q d ⟨if s.address ≠ 0 then .addressNack else .dataNack, T.detaching .errorCondition t, A.stop app, mem⟩) := by
    intro s h hm hs hi
    refine Leads.er ?_ ?_ (Leads.now ?_)
    · rcases hi with hi | hi <;> simp [evPending, hm, hi, btf, txe, rxne]
    · simp [erPending, hm, h.it]
    · rw [er, if_pos hm]
      have e : setStop A s = { sendStop A s with busy := none, drFull := false } := by
        rw [setStop, if_neg (by simp [onBus, hm]), hm]
      simp only [e]
      apply after_next
      · rw [detach, if_pos (by simpa [sendStop] using h.attached)]
        exact ⟨rfl, rfl, rfl, rfl, rfl, rfl, rfl, hs⟩
      · rw [detach, if_pos (by simpa [sendStop] using h.attached)]
        exact h.queue
      · rw [detach, if_pos (by simpa [sendStop] using h.attached)]
        simp [sendStop, h.app]
      · rw [detach, if_pos (by simpa [sendStop] using h.attached)]
        exact h.mem
      · rw [detach, if_pos (by simpa [sendStop] using h.attached)]
      · rw [detach, if_pos (by simpa [sendStop] using h.attached)]
        simp [sendStop, h.trans, h.done]
  by_cases hi : s.itbuf = false ∨ s.drFull = true
  · exact key s h hm hs hi
  · simp only [not_or, Bool.not_eq_false, Bool.not_eq_true] at hi
    obtain ⟨hi, hf⟩ := hi
    have hp : evPending s = true := by simp [evPending, h.it, hi, txe, hm, hf]
    have hob : onBus s = false := by simp [onBus, hm]
    have ht : txe s = true := by simp [txe, hm, hf]
    have hbt : btf s = false := by simp [btf, hm]
    have hn : ∀ x : St α τ, (x.check = .no ∨ x.check = .noWaitForBtf) → onNext A T x = some x := by
      intro x hx
      rw [onNext, if_neg]
      rcases hx with hx | hx <;> simp [hx]
    by_cases hw : 0 < s.wlen
    · obtain ⟨p, hwb⟩ := hb hi hw
      refine Leads.ev hp hob (s' := { s with dr := s.mem p, drFull := true, wbuf := some (p + 1), wlen := s.wlen - 1, check := .noWaitForBtf, itbuf := s.itbuf && decide (s.wlen - 1 ≠ 0) }) ?_ ?_
      · rw [ev_of (s1 := { s with dr := s.mem p, drFull := true, wbuf := some (p + 1), wlen := s.wlen - 1, check := .noWaitForBtf, itbuf := s.itbuf && decide (s.wlen - 1 ≠ 0) })
          (by rw [onFlag_tx s (Or.inr hm) ht]; simp [onTxe, hw, hwb, writeDr, hm]) (if_neg (by simp [hbt]))]
        exact hn _ (Or.inr rfl)
      · exact key _ ⟨h.attached, h.trans, h.app, h.mem, h.queue, h.done, h.error, h.stop, h.it⟩ hm hs (Or.inr rfl)
    · refine Leads.ev hp hob (s' := { s with itbuf := s.itbuf && decide (s.wlen ≠ 0) }) ?_ ?_
      · rw [ev_of (s1 := { s with itbuf := s.itbuf && decide (s.wlen ≠ 0) })
          (by rw [onFlag_tx s (Or.inr hm) ht]; simp [onTxe, hw]) (if_neg (by simp [hbt]))]
        exact hn _ hc
      · exact key _ ⟨h.attached, h.trans, h.app, h.mem, h.queue, h.done, h.error, h.stop, h.it⟩ hm hs (Or.inl (by simp; omega))

/-! ## Writing -/

/-- Bytes are being sent. -/
structure Tx (s : St α τ) : Prop where
  mode : s.mode = .tx
  rlen : s.rlen = 0
  address : s.address = 0
  shift : s.shift = none
  check : s.check = .no ∨ s.check = .noWaitForBtf
  more : 0 < s.wlen → s.itbuf = true ∧ ∃ p, s.wbuf = some p
  last : s.wlen = 0 → s.itbuf = false ∧ s.check = .noWaitForBtf ∧ (s.busy = none → s.sent = true)
  none : s.busy = none → s.drFull = false ∧ (s.sent = true → s.wlen ≠ 1)

/-- The bytes that were not sent yet. -/
def pend (s : St α τ) : List Byte := s.busy.toList ++ (if s.drFull then [s.dr] else []) ++ bytesOf s.mem s.wbuf s.wlen

/-- All bytes were sent, the next operation is to be looked at. -/
structure Ready (s : St α τ) (t : τ) (app : α) (mem : Nat → Byte) (q : List (τ × Option Nat)) (d : List τ) : Prop where
  mid : Mid s t app mem q d
  mode : s.mode = .tx
  busy : s.busy = none
  drFull : s.drFull = false
  shift : s.shift = none
  wlen : s.wlen = 0
  rlen : s.rlen = 0
  address : s.address = 0
  check : s.check = .yes

theorem bytesOf_succ (mem : Nat → Byte) (p n : Nat) : bytesOf mem (some p) (n + 1) = mem p :: bytesOf mem (some (p + 1)) n := by
  simp only [bytesOf, List.range_succ_eq_map, List.map_cons, List.map_map, Nat.add_zero]
  congr 1
  apply List.map_congr_left
  intro i _
  simp only [Function.comp]
  congr 1
  omega

theorem bytesOf_zero (mem : Nat → Byte) (b : Option Nat) : bytesOf mem b 0 = [] := by
  cases b <;> rfl

theorem onNext_no (x : St α τ) (hx : x.check = .no ∨ x.check = .noWaitForBtf) : onNext A T x = some x := by
  rw [onNext, if_neg]
  rcases hx with hx | hx <;> simp [hx]

theorem onBtf_tx (x : St α τ) (hr : x.rlen = 0) (hw : x.wlen ≠ 0) : onBtf A x = some x := by
  simp [onBtf, hr, hw]

theorem tx_loop (t : τ) (mem : Nat → Byte) (q : List (τ × Option Nat)) (d : List τ) (Q : St α τ → Prop) (n : Nat) : ∀ (s : St α τ) (app : α),
    4 * s.wlen + (if s.drFull then 2 else 0) + (if s.busy.isSome then 1 else 0) ≤ n →
    Mid s t app mem q d → Tx s →
    ((writes A (pend s) app).1 = true → ∀ s6, Ready s6 t (writes A (pend s) app).2 mem q d → s6.next = s.next →
      ∃ s', onNext A T s6 = some s' ∧ Leads A T s' Q) →
    ((writes A (pend s) app).1 = false → ∀ s', After A q d ⟨.dataNack, T.detaching .errorCondition t, A.stop (writes A (pend s) app).2, mem⟩ s' → Q s') →
    Leads A T s Q := by
  induction n with
  | zero =>
      intro s app hn hm hx hok hbad
      have hw : s.wlen = 0 := by omega
      have hd : s.drFull = false := by
        cases h : s.drFull
        · rfl
        · simp [h] at hn
      have hb : s.busy = none := by
        cases h : s.busy with
        | none => rfl
        | some b => simp [h] at hn
      have hp : pend s = [] := by simp [pend, hb, hd, hw, bytesOf_zero]
      rw [hp] at hok
      obtain ⟨l1, l2, l3⟩ := hx.last hw
      have hs := l3 hb
      obtain ⟨s', e, hl⟩ := hok rfl { s with itbuf := false, check := .yes }
        ⟨⟨hm.attached, hm.trans, hm.app, hm.mem, hm.queue, hm.done, hm.error, hm.stop, hm.it⟩, hx.mode, hb, hd, hx.shift, hw, hx.rlen, hx.address, rfl⟩ rfl
      refine Leads.ev ?_ ?_ ?_ hl
      · simp [evPending, hm.it, btf, hx.mode, hs, hb, hd]
      · simp [onBus, hx.mode, hb]
      · have h1 : btf s = true := by simp [btf, hx.mode, hs, hb, hd]
        have h2 : txe s = true := by simp [txe, hx.mode, hd]
        have h3 : onTxe A s = some { s with itbuf := false } := by simp [onTxe, hw]
        have h4 : onBtf A { s with itbuf := false } = some { s with itbuf := false, check := .yes } := by
          simp [onBtf, hx.rlen, l2, hw]
        rw [ev_of ((onFlag_tx s (Or.inl hx.mode) h2).trans h3) ((if_pos h1).trans h4)]
        exact e
  | succ n ih =>
      intro s app hn hm hx hok hbad
      -- a byte on the bus is finished
      have hadv : ∀ b, s.busy = some b → (s.drFull = false → s.wlen ≠ 1) → Leads A T (advance A s) Q := by
        intro b hb hne
        have hp : pend s = b :: ((if s.drFull then [s.dr] else []) ++ bytesOf s.mem s.wbuf s.wlen) := by simp [pend, hb]
        rw [hp] at hok hbad
        cases ha : (A.write b app).1
        · have e : advance A s = { s with app := (A.write b app).2, busy := none, mode := .nacked } := by
            simp [advance, hx.mode, hb, hm.app, ha, hm.stop]
          rw [e]
          have hw : writes A (b :: ((if s.drFull then [s.dr] else []) ++ bytesOf s.mem s.wbuf s.wlen)) app = (false, (A.write b app).2) := by
            simp [writes, ha]
          rw [hw] at hbad
          refine (nacked (A := A) (T := T) { s with app := (A.write b app).2, busy := none, mode := .nacked } t (A.write b app).2 mem q d
            ⟨hm.attached, hm.trans, rfl, hm.mem, hm.queue, hm.done, hm.error, hm.stop, hm.it⟩ rfl hx.shift (fun _ h => (hx.more h).2) hx.check).trans ?_
          intro s' hs'
          refine Leads.now (hbad rfl s' ?_)
          simpa [hx.address] using hs'
        · have hw : writes A (b :: ((if s.drFull then [s.dr] else []) ++ bytesOf s.mem s.wbuf s.wlen)) app
              = writes A ((if s.drFull then [s.dr] else []) ++ bytesOf s.mem s.wbuf s.wlen) (A.write b app).2 := by
            simp [writes, ha]
          rw [hw] at hok hbad
          cases hf : s.drFull
          · have e : advance A s = { s with app := (A.write b app).2, busy := none, sent := true } := by
              simp [advance, hx.mode, hb, hm.app, ha, hm.stop, hf]
            have hp' : pend { s with app := (A.write b app).2, busy := none, sent := true } = (if s.drFull then [s.dr] else []) ++ bytesOf s.mem s.wbuf s.wlen := by
              simp [pend]
            rw [e]
            rw [← hp'] at hok hbad
            refine ih _ (A.write b app).2 ?_ ⟨hm.attached, hm.trans, rfl, hm.mem, hm.queue, hm.done, hm.error, hm.stop, hm.it⟩
              ⟨hx.mode, hx.rlen, hx.address, hx.shift, hx.check, hx.more, fun h => ⟨(hx.last h).1, (hx.last h).2.1, fun _ => rfl⟩, fun _ => ⟨hf, fun _ => hne hf⟩⟩ hok hbad
            simp [hb] at hn ⊢
            omega
          · have e : advance A s = { s with app := (A.write b app).2, busy := some s.dr, drFull := false } := by
              simp [advance, hx.mode, hb, hm.app, ha, hm.stop, hf]
            have hp' : pend { s with app := (A.write b app).2, busy := some s.dr, drFull := false } = (if s.drFull then [s.dr] else []) ++ bytesOf s.mem s.wbuf s.wlen := by
              simp [pend, hf]
            rw [e]
            rw [← hp'] at hok hbad
            refine ih _ (A.write b app).2 ?_ ⟨hm.attached, hm.trans, rfl, hm.mem, hm.queue, hm.done, hm.error, hm.stop, hm.it⟩
              ⟨hx.mode, hx.rlen, hx.address, hx.shift, hx.check, hx.more, fun h => ⟨(hx.last h).1, (hx.last h).2.1, by simp⟩, by simp⟩ hok hbad
            simp [hb, hf] at hn ⊢
            omega
      cases hb : s.busy with
      | none =>
          obtain ⟨hd, hne⟩ := hx.none hb
          by_cases hw : s.wlen = 0
          · exact ih s app (by simp [hw, hd, hb]) hm hx hok hbad
          · obtain ⟨hi, p, hwb⟩ := hx.more (by omega)
            obtain ⟨m, hwl⟩ := Nat.exists_eq_succ_of_ne_zero hw
            rw [Nat.succ_eq_add_one] at hwl
            have h2 : txe s = true := by simp [txe, hx.mode, hd]
            obtain ⟨s1, hs1⟩ : ∃ s1 : St α τ, s1 = { s with busy := some (s.mem p), sent := false, wbuf := some (p + 1), wlen := m, check := .noWaitForBtf, itbuf := decide (m ≠ 0) } := ⟨_, rfl⟩
            have h3 : onTxe A s = some s1 := by
              rw [hs1]
              simp [onTxe, hwl, hwb, writeDr, hx.mode, hb, hi]
            have h4 : (if btf s = true then onBtf A s1 else some s1) = some s1 := by
              split
              · rename_i hbt
                have hse : s.sent = true := by
                  simp only [btf, hx.mode, hb, hd] at hbt
                  simpa using hbt
                have := hne hse
                exact onBtf_tx s1 (by rw [hs1]; exact hx.rlen) (by rw [hs1]; simp only; omega)
              · rfl
            have hp : pend s1 = pend s := by
              rw [hs1]
              simp [pend, hb, hd, hwb, hwl, bytesOf_succ]
            refine Leads.ev (s' := s1) ?_ ?_ ?_ ?_
            · simp [evPending, hm.it, hi, h2]
            · simp [onBus, hx.mode, hb]
            · rw [ev_of ((onFlag_tx s (Or.inl hx.mode) h2).trans h3) h4]
              exact onNext_no s1 (by rw [hs1]; exact Or.inr rfl)
            · refine ih s1 app ?_ ?_ ?_ ?_ ?_
              · rw [hs1]
                simp [hd, hb] at hn ⊢
                omega
              · rw [hs1]
                exact ⟨hm.attached, hm.trans, hm.app, hm.mem, hm.queue, hm.done, hm.error, hm.stop, hm.it⟩
              · rw [hs1]
                refine ⟨hx.mode, hx.rlen, hx.address, hx.shift, Or.inr rfl, fun h => ⟨by simp only at h ⊢; simp; omega, _, rfl⟩, fun h => ⟨by simpa using h, rfl, by simp⟩, by simp⟩
              · rw [hp]
                intro h s6 h6 h7
                exact hok h s6 h6 (by rw [h7, hs1])
              · rw [hp]
                exact hbad
      | some b =>
          by_cases hf : s.drFull = true
          · refine Leads.advance ?_ ?_ rfl (hadv b hb (by simp [hf]))
            · simp [evPending, hx.mode, btf, txe, rxne, hf]
            · simp [erPending, hx.mode]
          · have hf : s.drFull = false := by simpa using hf
            by_cases hw : s.wlen = 0
            · refine Leads.advance ?_ ?_ rfl (hadv b hb (by omega))
              · simp [evPending, hx.mode, btf, hb, (hx.last hw).1]
              · simp [erPending, hx.mode]
            · obtain ⟨hi, p, hwb⟩ := hx.more (by omega)
              obtain ⟨m, hwl⟩ := Nat.exists_eq_succ_of_ne_zero hw
              rw [Nat.succ_eq_add_one] at hwl
              have h2 : txe s = true := by simp [txe, hx.mode, hf]
              have hpe : evPending s = true := by simp [evPending, hm.it, hi, h2]
              have hbt : btf s = false := by simp [btf, hx.mode, hb]
              refine Leads.step fun late hlate => ?_
              cases hl : late
              · obtain ⟨s1, hs1⟩ : ∃ s1 : St α τ, s1 = { s with dr := s.mem p, drFull := true, wbuf := some (p + 1), wlen := m, check := .noWaitForBtf, itbuf := decide (m ≠ 0) } := ⟨_, rfl⟩
                have h3 : onTxe A s = some s1 := by
                  rw [hs1]
                  simp [onTxe, hwl, hwb, writeDr, hx.mode, hb, hi]
                have hp : pend s1 = pend s := by
                  rw [hs1]
                  simp [pend, hb, hf, hwb, hwl, bytesOf_succ]
                refine ⟨s1, ?_, ?_⟩
                · rw [Modm.I2cStm32.step, if_pos hpe, Bool.false_and, if_neg (by simp)]
                  rw [ev_of ((onFlag_tx s (Or.inl hx.mode) h2).trans h3) (if_neg (by simp [hbt]))]
                  exact onNext_no s1 (by rw [hs1]; exact Or.inr rfl)
                · refine ih s1 app ?_ ?_ ?_ ?_ ?_
                  · rw [hs1]
                    simp [hf, hb] at hn ⊢
                    omega
                  · rw [hs1]
                    exact ⟨hm.attached, hm.trans, hm.app, hm.mem, hm.queue, hm.done, hm.error, hm.stop, hm.it⟩
                  · rw [hs1]
                    refine ⟨hx.mode, hx.rlen, hx.address, hx.shift, Or.inr rfl, fun h => ⟨by simp only at h ⊢; simp; omega, _, rfl⟩, fun h => ⟨by simpa using h, rfl, by simp [hb]⟩, by simp [hb]⟩
                  · rw [hp]
                    intro h s6 h6 h7
                    exact hok h s6 h6 (by rw [h7, hs1])
                  · rw [hp]
                    exact hbad
              · refine ⟨advance A s, ?_, hadv b hb ?_⟩
                · rw [Modm.I2cStm32.step, if_pos hpe, if_pos (by simp [onBus, hx.mode, hb])]
                · intro _ h1
                  have := hlate (Or.inl ⟨hx.mode, h1⟩)
                  rw [hl] at this
                  simp at this

/-! ## Reading -/

/-- The end of a transaction. -/
theorem finish (s : St α τ) (t : τ) (app : α) (mem : Nat → Byte) (q : List (τ × Option Nat)) (d : List τ) (hm : Mid s t app mem q d)
    (h1 : s.mode = .idle) (h2 : s.wlen = 0) (h3 : s.rlen = 0) (h4 : s.drFull = false) (h5 : s.shift = none) :
    After A q d ⟨.noError, T.detaching .normalStop t, app, mem⟩ { callNext A (detach T .normalStop { s with it := false, itbuf := false }) with check := .no } := by
  apply After.check
  rw [detach, if_pos (by exact hm.attached)]
  exact after_next _ q d _ ⟨rfl, h1, rfl, hm.stop, h2, h3, h4, h5⟩ hm.queue hm.app hm.mem hm.error (by simp [hm.trans, hm.done])

theorem onNext_noStop (s : St α τ) (h : s.check = .yesNoStopBit) (hn : s.next = .stop) :
    onNext A T s = some { callNext A (detach T .normalStop { s with it := false, itbuf := false }) with check := .no } := by
  rw [onNext, if_pos (Or.inr h)]
  simp [h, hn]

/-- Bytes are being received. -/
structure Rx (s : St α τ) (p : Nat) : Prop where
  mode : s.mode = .rx
  wlen : s.wlen = 0
  check : s.check = .no
  next : s.next = .stop
  rbuf : s.rbuf = some p

/-- What happens in the end. -/
abbrev Final (A : App α) (T : Transaction τ) (q : List (τ × Option Nat)) (d : List τ) (t : τ) (app : α) (mem : Nat → Byte) : St α τ → Prop :=
  After A q d ⟨.noError, T.detaching .normalStop t, A.stop app, mem⟩

/-- The last two bytes were received. -/
theorem rx2_end (s : St α τ) (t : τ) (app : α) (mem : Nat → Byte) (q : List (τ × Option Nat)) (d : List τ) (p : Nat) (y : Byte)
    (hm : Mid s t app mem q d) (hx : Rx s p) (hl : s.rlen = 2) (hf : s.drFull = true) (hs : s.shift = some y) :
    Leads A T s (Final A T q d t app (stored mem p [s.dr, y])) := by
  have h1 : rxne s = true := by simp [rxne, hx.mode, hf]
  have h2 : btf s = true := by simp [btf, hx.mode, hs]
  have h3 : onRxne s = some { s with itbuf := false } := by simp [onRxne, hl]
  obtain ⟨s2, hs2⟩ : ∃ s2 : St α τ, s2 = { s with itbuf := false, app := A.stop s.app, stop := false, mode := .idle, sent := false, mem := Function.update (Function.update s.mem p s.dr) (p + 1) y, rbuf := some (p + 2), dr := y, drFull := false, shift := none, rlen := 0, check := .yesNoStopBit } := ⟨_, rfl⟩
  have h4 : onBtf A { s with itbuf := false } = some s2 := by
    rw [hs2]
    simp [onBtf, hl, setStop, onBus, hx.mode, hs, sendStop, store, hx.rbuf, readDr, waitStop]
  refine Leads.ev ?_ ?_ ((ev_of ((onFlag_rx s hx.mode h1).trans h3) ((if_pos h2).trans h4)).trans (onNext_noStop s2 (by rw [hs2]) (by rw [hs2]; exact hx.next))) (Leads.now ?_)
  · simp [evPending, hm.it, h2]
  · simp [onBus, hx.mode, hs]
  · apply finish s2 t (A.stop app) _ q d
    · rw [hs2]
      refine ⟨hm.attached, hm.trans, by simp [hm.app], ?_, hm.queue, hm.done, hm.error, rfl, hm.it⟩
      simp only [hm.mem]
      rw [Lemmas.I2cMaster.stored_cons, Lemmas.I2cMaster.stored_cons, Lemmas.I2cMaster.stored_nil]
    · rw [hs2]
    · rw [hs2]; exact hx.wlen
    · rw [hs2]
    · rw [hs2]
    · rw [hs2]

/-- One of the last two bytes was received. -/
theorem rx2_one (s : St α τ) (t : τ) (app : α) (mem : Nat → Byte) (q : List (τ × Option Nat)) (d : List τ) (p : Nat)
    (hm : Mid s t app mem q d) (hx : Rx s p) (hl : s.rlen = 2) (hi : s.itbuf = false) (hf : s.drFull = true) (hs : s.shift = none) (he : s.rxEnd = false)
    (ha : (if s.pos then s.posAck else s.ack) = false) :
    Leads A T s (Final A T q d t (readN A 1 app).2 (stored mem p (s.dr :: (readN A 1 app).1))) := by
  have e : advance A s = { s with app := A.acked false (A.read app).2, posAck := s.ack, rxEnd := true, shift := some (A.read app).1 } := by
    simp [advance, hx.mode, hs, he, ha, hf, hm.stop, hm.app]
  refine Leads.advance ?_ ?_ e ?_
  · simp [evPending, hx.mode, btf, hs, hi]
  · simp [erPending, hx.mode]
  · exact rx2_end _ t _ mem q d p (A.read app).1 ⟨hm.attached, hm.trans, rfl, hm.mem, hm.queue, hm.done, hm.error, hm.stop, hm.it⟩
      ⟨hx.mode, hx.wlen, hx.check, hx.next, hx.rbuf⟩ hl hf rfl

/-- Two bytes are to be received, with `POS`. -/
theorem rx2 (s : St α τ) (t : τ) (app : α) (mem : Nat → Byte) (q : List (τ × Option Nat)) (d : List τ) (p : Nat)
    (hm : Mid s t app mem q d) (hx : Rx s p) (hl : s.rlen = 2) (hi : s.itbuf = false) (hf : s.drFull = false) (hs : s.shift = none) (he : s.rxEnd = false)
    (hp : s.pos = true) (ha : s.ack = false) (hpa : s.posAck = true) :
    Leads A T s (Final A T q d t (readN A 2 app).2 (stored mem p (readN A 2 app).1)) := by
  have e : advance A s = { s with app := A.acked true (A.read app).2, posAck := s.ack, rxEnd := false, dr := (A.read app).1, drFull := true } := by
    simp [advance, hx.mode, hs, he, hp, hpa, hf, hm.stop, hm.app]
  refine Leads.advance ?_ ?_ e ?_
  · simp [evPending, hx.mode, btf, hs, hi]
  · simp [erPending, hx.mode]
  · exact rx2_one { s with app := A.acked true (A.read app).2, posAck := s.ack, rxEnd := false, dr := (A.read app).1, drFull := true } t
      (A.acked true (A.read app).2) mem q d p ⟨hm.attached, hm.trans, rfl, hm.mem, hm.queue, hm.done, hm.error, hm.stop, hm.it⟩
      ⟨hx.mode, hx.wlen, hx.check, hx.next, hx.rbuf⟩ hl hi rfl hs rfl (by simp [hp, ha])

/-- Three bytes are left, two of them were received. -/
theorem rx3_two (s : St α τ) (t : τ) (app : α) (mem : Nat → Byte) (q : List (τ × Option Nat)) (d : List τ) (p : Nat) (y : Byte)
    (hm : Mid s t app mem q d) (hx : Rx s p) (hl : s.rlen = 3) (hf : s.drFull = true) (hs : s.shift = some y) (he : s.rxEnd = false) (hp : s.pos = false) :
    Leads A T s (Final A T q d t (readN A 1 app).2 (stored mem p (s.dr :: y :: (readN A 1 app).1))) := by
  have h1 : rxne s = true := by simp [rxne, hx.mode, hf]
  have h2 : btf s = true := by simp [btf, hx.mode, hs]
  have h3 : onRxne s = some { s with itbuf := false } := by simp [onRxne, hl]
  obtain ⟨s2, hs2⟩ : ∃ s2 : St α τ, s2 = { s with itbuf := false, ack := false, mem := Function.update s.mem p s.dr, rbuf := some (p + 1), dr := y, drFull := true, shift := none, rlen := 2 } := ⟨_, rfl⟩
  have h4 : onBtf A { s with itbuf := false } = some s2 := by
    rw [hs2]
    simp [onBtf, hl, store, hx.rbuf, readDr, hs, hx.check]
  refine Leads.ev ?_ ?_ ((ev_of ((onFlag_rx s hx.mode h1).trans h3) ((if_pos h2).trans h4)).trans (onNext_no s2 (by rw [hs2]; exact Or.inl hx.check))) ?_
  · simp [evPending, hm.it, h2]
  · simp [onBus, hx.mode, hs]
  · have := rx2_one (A := A) (T := T) s2 t app (Function.update mem p s.dr) q d (p + 1)
      (by rw [hs2]; exact ⟨hm.attached, hm.trans, hm.app, by simp [hm.mem], hm.queue, hm.done, hm.error, hm.stop, hm.it⟩)
      (by rw [hs2]; exact ⟨hx.mode, hx.wlen, hx.check, hx.next, rfl⟩) (by rw [hs2]) (by rw [hs2]) (by rw [hs2]) (by rw [hs2]) (by rw [hs2]; exact he) (by rw [hs2]; simp [hp])
    rw [Lemmas.I2cMaster.stored_cons]
    rw [hs2] at this ⊢
    exact this

/-- Three bytes are left, one of them was received. -/
theorem rx3_one (s : St α τ) (t : τ) (app : α) (mem : Nat → Byte) (q : List (τ × Option Nat)) (d : List τ) (p : Nat)
    (hm : Mid s t app mem q d) (hx : Rx s p) (hl : s.rlen = 3) (hi : s.itbuf = false) (hf : s.drFull = true) (hs : s.shift = none) (he : s.rxEnd = false)
    (hp : s.pos = false) (ha : s.ack = true) :
    Leads A T s (Final A T q d t (readN A 2 app).2 (stored mem p (s.dr :: (readN A 2 app).1))) := by
  have e : advance A s = { s with app := A.acked true (A.read app).2, posAck := s.ack, rxEnd := false, shift := some (A.read app).1 } := by
    simp [advance, hx.mode, hs, he, ha, hf, hm.stop, hm.app, hp]
  refine Leads.advance ?_ ?_ e ?_
  · simp [evPending, hx.mode, btf, hs, hi]
  · simp [erPending, hx.mode]
  · exact rx3_two _ t _ mem q d p (A.read app).1 ⟨hm.attached, hm.trans, rfl, hm.mem, hm.queue, hm.done, hm.error, hm.stop, hm.it⟩
      ⟨hx.mode, hx.wlen, hx.check, hx.next, hx.rbuf⟩ hl hf rfl rfl hp

/-- Three bytes are to be received. -/
theorem rx3 (s : St α τ) (t : τ) (app : α) (mem : Nat → Byte) (q : List (τ × Option Nat)) (d : List τ) (p : Nat)
    (hm : Mid s t app mem q d) (hx : Rx s p) (hl : s.rlen = 3) (hi : s.itbuf = false) (hf : s.drFull = false) (hs : s.shift = none) (he : s.rxEnd = false)
    (hp : s.pos = false) (ha : s.ack = true) :
    Leads A T s (Final A T q d t (readN A 3 app).2 (stored mem p (readN A 3 app).1)) := by
  have e : advance A s = { s with app := A.acked true (A.read app).2, posAck := s.ack, rxEnd := false, dr := (A.read app).1, drFull := true } := by
    simp [advance, hx.mode, hs, he, hp, hf, hm.stop, hm.app, ha]
  refine Leads.advance ?_ ?_ e ?_
  · simp [evPending, hx.mode, btf, hs, hi]
  · simp [erPending, hx.mode]
  · exact rx3_one { s with app := A.acked true (A.read app).2, posAck := s.ack, rxEnd := false, dr := (A.read app).1, drFull := true } t
      (A.acked true (A.read app).2) mem q d p ⟨hm.attached, hm.trans, rfl, hm.mem, hm.queue, hm.done, hm.error, hm.stop, hm.it⟩
      ⟨hx.mode, hx.wlen, hx.check, hx.next, hx.rbuf⟩ hl hi rfl hs rfl hp ha

/-- The bytes that were received, but not read. -/
def got (s : St α τ) : List Byte := (if s.drFull then [s.dr] else []) ++ s.shift.toList

theorem readN_succ (n : Nat) (app : α) (h : n ≠ 0) :
    readN A (n + 1) app = ((A.read app).1 :: (readN A n (A.acked true (A.read app).2)).1, (readN A n (A.acked true (A.read app).2)).2) := by
  rw [readN]
  simp [h]

/-- More than three bytes are left. -/
theorem rxN (t : τ) (q : List (τ × Option Nat)) (d : List τ) (n : Nat) : ∀ (s : St α τ) (app : α) (mem : Nat → Byte) (p : Nat),
    2 * s.rlen - (got s).length ≤ n → Mid s t app mem q d → Rx s p → 3 < s.rlen → s.itbuf = true → (s.shift.isSome = true → s.drFull = true ∧ s.rlen ≠ 4) →
    s.rxEnd = false → s.pos = false → s.ack = true →
    Leads A T s (Final A T q d t (readN A (s.rlen - (got s).length) app).2 (stored mem p (got s ++ (readN A (s.rlen - (got s).length) app).1))) := by
  induction n with
  | zero =>
      intro s app mem p hn hm hx hl hi hs he hp ha
      have : (got s).length ≤ 2 := by
        unfold got
        cases s.drFull <;> cases s.shift <;> simp
      omega
  | succ n ih =>
      intro s app mem p hn hm hx hl hi hs he hp ha
      -- a byte is received
      have hadv : s.shift = none → (s.drFull = true → s.rlen ≠ 4) →
          Leads A T (advance A s) (Final A T q d t (readN A (s.rlen - (got s).length) app).2 (stored mem p (got s ++ (readN A (s.rlen - (got s).length) app).1))) := by
        intro hsn hne
        have hr : ∀ k, k + 1 = s.rlen - (got s).length → readN A (s.rlen - (got s).length) app = ((A.read app).1 :: (readN A k (A.acked true (A.read app).2)).1, (readN A k (A.acked true (A.read app).2)).2) := by
          intro k hk
          rw [← hk]
          apply readN_succ
          have : (got s).length ≤ 1 := by
            unfold got
            cases s.drFull <;> simp [hsn]
          omega
        cases hf : s.drFull
        · have hg : got s = [] := by simp [got, hf, hsn]
          obtain ⟨s1, hs1⟩ : ∃ s1 : St α τ, s1 = { s with app := A.acked true (A.read app).2, posAck := s.ack, rxEnd := false, dr := (A.read app).1, drFull := true } := ⟨_, rfl⟩
          have e : advance A s = s1 := by
            rw [hs1]
            simp [advance, hx.mode, hsn, he, hp, hf, hm.stop, hm.app, ha]
          have hg1 : got s1 = [(A.read app).1] := by rw [hs1]; simp [got, hsn]
          have h := ih s1 (A.acked true (A.read app).2) mem p (by rw [hg1, hs1]; rw [hg] at hn; simp at hn ⊢; omega)
            (by rw [hs1]; exact ⟨hm.attached, hm.trans, rfl, hm.mem, hm.queue, hm.done, hm.error, hm.stop, hm.it⟩)
            (by rw [hs1]; exact ⟨hx.mode, hx.wlen, hx.check, hx.next, hx.rbuf⟩) (by rw [hs1]; exact hl) (by rw [hs1]; exact hi)
            (by rw [hs1]; simp [hsn]) (by rw [hs1]) (by rw [hs1]; exact hp) (by rw [hs1]; exact ha)
          have hlen : s1.rlen = s.rlen := by rw [hs1]
          rw [hg1, hlen] at h
          rw [hr (s.rlen - 1) (by rw [hg]; simp; omega), hg, e]
          exact h
        · have hg : got s = [s.dr] := by simp [got, hf, hsn]
          obtain ⟨s1, hs1⟩ : ∃ s1 : St α τ, s1 = { s with app := A.acked true (A.read app).2, posAck := s.ack, rxEnd := false, shift := some (A.read app).1 } := ⟨_, rfl⟩
          have e : advance A s = s1 := by
            rw [hs1]
            simp [advance, hx.mode, hsn, he, hp, hf, hm.stop, hm.app, ha]
          have hg1 : got s1 = [s.dr, (A.read app).1] := by rw [hs1]; simp [got, hf]
          have h := ih s1 (A.acked true (A.read app).2) mem p (by rw [hg1, hs1]; rw [hg] at hn; simp at hn ⊢; omega)
            (by rw [hs1]; exact ⟨hm.attached, hm.trans, rfl, hm.mem, hm.queue, hm.done, hm.error, hm.stop, hm.it⟩)
            (by rw [hs1]; exact ⟨hx.mode, hx.wlen, hx.check, hx.next, hx.rbuf⟩) (by rw [hs1]; exact hl) (by rw [hs1]; exact hi)
            (by rw [hs1]; intro _; exact ⟨hf, hne hf⟩) (by rw [hs1]) (by rw [hs1]; exact hp) (by rw [hs1]; exact ha)
          have hlen : s1.rlen = s.rlen := by rw [hs1]
          rw [hg1, hlen] at h
          rw [hr (s.rlen - 2) (by rw [hg]; simp; omega), hg, e]
          exact h
      cases hf : s.drFull
      · -- nothing was received
        have hsn : s.shift = none := by
          cases h : s.shift with
          | none => rfl
          | some y =>
              have := (hs (by simp [h])).1
              rw [hf] at this
              simp at this
        refine Leads.advance ?_ ?_ rfl (hadv hsn (by simp [hf]))
        · simp [evPending, hx.mode, btf, hsn, txe, rxne, hf]
        · simp [erPending, hx.mode]
      · have h1 : rxne s = true := by simp [rxne, hx.mode, hf]
        have hpe : evPending s = true := by simp [evPending, hm.it, hi, h1]
        -- the interrupt
        have hev : ∃ s', ev A T s = some s' ∧ Leads A T s' (Final A T q d t (readN A (s.rlen - (got s).length) app).2 (stored mem p (got s ++ (readN A (s.rlen - (got s).length) app).1))) := by
          obtain ⟨s1, hs1⟩ : ∃ s1 : St α τ, s1 = readDr { s with mem := Function.update s.mem p s.dr, rbuf := some (p + 1), rlen := s.rlen - 1, itbuf := decide (3 < s.rlen - 1) } := ⟨_, rfl⟩
          have f1 : s1.rlen = s.rlen - 1 := by rw [hs1, readDr]; split <;> rfl
          have f2 : got s1 = (got s).tail := by
            rw [hs1, readDr]
            cases hsh : s.shift <;> simp [got, hf, hsh]
          have f3 : got s = s.dr :: (got s).tail := by simp [got, hf]
          have f4 : Mid s1 t app (Function.update mem p s.dr) q d := by
            rw [hs1, readDr]
            split <;> exact ⟨hm.attached, hm.trans, hm.app, by simp [hm.mem], hm.queue, hm.done, hm.error, hm.stop, hm.it⟩
          have f5 : Rx s1 (p + 1) := by
            rw [hs1, readDr]
            split <;> exact ⟨hx.mode, hx.wlen, hx.check, hx.next, rfl⟩
          have f6 : s1.shift = none := by
            rw [hs1, readDr]
            cases hsh : s.shift <;> simp
          have f7 : s1.itbuf = decide (3 < s.rlen - 1) := by rw [hs1, readDr]; split <;> rfl
          have f8 : s1.rxEnd = false := by rw [hs1, readDr]; split <;> exact he
          have f9 : s1.pos = false := by rw [hs1, readDr]; split <;> exact hp
          have f10 : s1.ack = true := by rw [hs1, readDr]; split <;> exact ha
          have f11 : s1.check = .no := f5.check
          have h3 : onRxne s = some s1 := by
            rw [hs1]
            simp only [onRxne, hl, if_true, store, hx.rbuf, Option.map_some, hi, readDr]
            split <;> simp
          have h4 : (if btf s then onBtf A s1 else some s1) = some s1 := by
            split
            · rename_i hb
              have hsome : s.shift.isSome = true := by simpa [btf, hx.mode] using hb
              have := (hs hsome).2
              have h5 : s1.rlen ≠ 2 := by omega
              have h6 : s1.rlen ≠ 3 := by omega
              simp [onBtf, h5, h6, f11]
            · rfl
          refine ⟨s1, (ev_of ((onFlag_rx s hx.mode h1).trans h3) h4).trans (onNext_no s1 (Or.inl f11)), ?_⟩
          have hlen : s.rlen - (got s).length = s1.rlen - (got s1).length := by
            rw [f1, f2]
            rw [f3]
            simp only [List.length_cons, List.tail_cons]
            omega
          have hgot : ∀ l, stored mem p (got s ++ l) = stored (Function.update mem p s.dr) (p + 1) (got s1 ++ l) := by
            intro l
            rw [f2]
            conv => lhs; rw [f3]
            rw [List.cons_append, Lemmas.I2cMaster.stored_cons]
          rw [hlen, hgot]
          by_cases h4r : 3 < s1.rlen
          · refine ih s1 app _ (p + 1) ?_ f4 f5 h4r (by rw [f7]; simp; omega) (by simp [f6]) f8 f9 f10
            have : (got s1).length + 1 = (got s).length := by
              rw [f2]
              conv => rhs; rw [f3]
              simp
            omega
          · have hr3 : s1.rlen = 3 := by omega
            have hdr : s1.drFull = false := by
              have hshn : s.shift = none := by
                cases h : s.shift with
                | none => rfl
                | some y =>
                    have := (hs (by simp [h])).2
                    omega
              rw [hs1, readDr, hshn]
            have hg1 : got s1 = [] := by simp [got, hdr, f6]
            rw [hg1, hr3]
            exact rx3 s1 t app _ q d (p + 1) f4 f5 hr3 (by rw [f7]; simp; omega) hdr f6 f8 f9 f10
        refine Leads.step fun late hlate => ?_
        by_cases hlb : (late && onBus s) = true
        · refine ⟨advance A s, by rw [Modm.I2cStm32.step, if_pos hpe, if_pos hlb], hadv ?_ ?_⟩
          · simp only [onBus, hx.mode, Bool.and_eq_true] at hlb
            simpa [he] using hlb.2
          · intro _ h4r
            have := hlate (Or.inr ⟨hx.mode, h4r⟩)
            rw [this] at hlb
            simp at hlb
        · obtain ⟨s', e, h⟩ := hev
          exact ⟨s', by rw [Modm.I2cStm32.step, if_pos hpe, if_neg hlb, e], h⟩

/-! ## Transactions -/

/-- What the types of the interface allow, and besides: the address of a device is not 0, there is no restart after a read, and a buffer that follows another one has two
bytes at least.  `I` holds for the object at all times. -/
structure Plain (T : Transaction τ) (I : τ → Prop) : Prop where
  starting : ∀ t, I t → (T.starting t).1.next ≠ .restart ∧ (T.starting t).1.address ≠ 0 ∧ I (T.starting t).2
  writing : ∀ t, I t → (T.writing t).1.next ≠ .read ∧ I (T.writing t).2 ∧
    ((T.writing t).1.next = .write → 2 ≤ lengthOf (T.writing (T.writing t).2).1.buffer (T.writing (T.writing t).2).1.length)
  reading : ∀ t, I t → (T.reading t).1.next = .stop

/-- From the next operation on. -/
def Goes (A : App α) (T : Transaction τ) (I : τ → Prop) (k : Nat) : Prop :=
  ∀ op t app mem r q d (s : St α τ), op ≠ .read → (op = .write → 2 ≤ lengthOf (T.writing t).1.buffer (T.writing t).1.length) → I t →
    ideal A T k (fetch T op t).1 (fetch T op t).2 app mem = some (true, r) → Ready s t app mem q d → s.next = op →
    ∃ s', onNext A T s = some s' ∧ Leads A T s' (After A q d r)

/-- From a START condition on. -/
def Begins (A : App α) (T : Transaction τ) (I : τ → Prop) (k : Nat) : Prop :=
  ∀ t app mem r q d (s : St α τ), I t → ideal A T k .restart t app mem = some (true, r) → Started A s t app mem q d → Leads A T s (After A q d r)

theorem ideal_write_ok {k : Nat} {w : Writing} {t : τ} {app : α} {mem : Nat → Byte} {r : Result α τ}
    (h : ideal A T (k + 1) (.write w) t app mem = some (true, r)) (hw : (writes A (bytesOf mem w.buffer w.length) app).1 = true) :
    ideal A T k (fetch T w.next t).1 (fetch T w.next t).2 (writes A (bytesOf mem w.buffer w.length) app).2 mem = some (true, r) := by
  simp only [ideal, hw, if_true, Option.map_eq_some_iff] at h
  obtain ⟨⟨b, r'⟩, h1, h2⟩ := h
  simp only [Prod.mk.injEq, Bool.and_eq_true] at h2
  obtain ⟨⟨_, h3⟩, h4⟩ := h2
  subst h3 h4
  exact h1

theorem bytesOf_lengthOf (mem : Nat → Byte) (b : Option Nat) (n : Nat) : bytesOf mem b (lengthOf b n) = bytesOf mem b n := by
  cases b <;> simp [bytesOf, lengthOf]

/-- A buffer is written. -/
theorem write_phase {I : τ → Prop} (k : Nat) (hg : Goes A T I k) (w : Writing) (t : τ) (app : α) (mem : Nat → Byte) (r : Result α τ)
    (q : List (τ × Option Nat)) (d : List τ) (s : St α τ) (hI : I t) (hn : w.next ≠ .read)
    (hc : w.next = .write → 2 ≤ lengthOf (T.writing t).1.buffer (T.writing t).1.length)
    (hi : ideal A T (k + 1) (.write w) t app mem = some (true, r)) (hm : Mid s t app mem q d) (hx : Tx s)
    (hp : pend s = bytesOf mem w.buffer w.length) (hs : s.next = w.next) : Leads A T s (After A q d r) := by
  refine tx_loop t mem q d _ _ s app (Nat.le_refl _) hm hx ?_ ?_
  · intro h s6 h6 h7
    rw [hp] at h h6
    exact hg w.next t _ mem r q d s6 hn hc hI (ideal_write_ok hi h) h6 (h7.trans hs)
  · intro h s' h'
    rw [hp] at h h'
    simp only [ideal, h] at hi
    simp only [Bool.false_eq_true, if_false, Option.some.injEq, Prod.mk.injEq, true_and] at hi
    rw [← hi]
    exact h'

theorem goes {I : τ → Prop} (hP : Plain T I) (k : Nat) (hg : ∀ j, j < k → Goes A T I j) (hb : Begins A T I k) : Goes A T I k := by
  intro op t app mem r q d s hop hlen hI hi hr hn
  have hc := hr.check
  cases op with
  | read => exact absurd rfl hop
  | stop =>
      cases k with
      | zero => simp [ideal] at hi
      | succ k =>
          simp only [fetch, ideal, Option.some.injEq, Prod.mk.injEq, true_and] at hi
          have e : setStop A s = { s with app := A.stop s.app, stop := false, mode := .idle, sent := false, busy := none, drFull := false } := by
            simp [setStop, onBus, hr.mode, hr.busy, sendStop]
          refine ⟨{ callNext A (detach T .normalStop { setStop A s with it := false, itbuf := false }) with check := .no }, ?_, Leads.now ?_⟩
          · rw [onNext, if_pos (Or.inl hc)]
            simp [hc, hn]
          · rw [← hi]
            apply finish (setStop A s) t (A.stop app) mem q d
            · rw [e]
              exact ⟨hr.mid.attached, hr.mid.trans, by rw [← hr.mid.app], hr.mid.mem, hr.mid.queue, hr.mid.done, hr.mid.error, rfl, hr.mid.it⟩
            · rw [e]
            · rw [e]; exact hr.wlen
            · rw [e]; exact hr.rlen
            · rw [e]
            · rw [e]; exact hr.shift
  | restart =>
      refine ⟨{ callStarting A s with check := .no }, ?_, ?_⟩
      · rw [onNext, if_pos (Or.inl hc)]
        simp [hn]
      · have := started_of (A := A) s t app mem q d hr.mid.app hr.mid.mem hr.mid.done hr.mid.stop (by simp [onBus, hr.mode, hr.busy]) hr.wlen hr.rlen
          hr.drFull hr.mid.attached hr.mid.trans hr.mid.queue
        obtain ⟨⟨h1, h2, h3, h4, h5, h6, h7, h8, h9⟩, k1, k2, k3, k4, k5, k6, k7, k8⟩ := this
        exact hb t app mem r q d _ hI hi ⟨⟨h1, h2, h3, h4, h5, h6, h7, h8, h9⟩, k1, k2, rfl, k4, k5, k6, k7, k8⟩
  | write =>
      cases k with
      | zero => simp [ideal] at hi
      | succ k =>
          have hlen := hlen rfl
          simp only [fetch] at hi
          obtain ⟨hn1, hI1, hn2⟩ := hP.writing t hI
          obtain ⟨s1, hs1⟩ : ∃ s1 : St α τ, s1 = { s with trans := (T.writing t).2, wbuf := (T.writing t).1.buffer, wlen := lengthOf (T.writing t).1.buffer (T.writing t).1.length, next := (T.writing t).1.next, itbuf := true, check := .no } := ⟨_, rfl⟩
          refine ⟨s1, ?_, ?_⟩
          · rw [hs1, onNext, if_pos (Or.inl hc)]
            simp [hn, hc, hr.mid.attached, fetchWriting, hr.mid.trans]
          · have hwb : ∃ p, (T.writing t).1.buffer = some p := by
              cases h : (T.writing t).1.buffer with
              | none => simp [h, lengthOf] at hlen
              | some p => exact ⟨p, rfl⟩
            refine write_phase k (hg k (by omega)) (T.writing t).1 (T.writing t).2 app mem r q d s1 hI1 hn1 hn2 hi ?_ ?_ ?_ ?_
            · rw [hs1]
              exact ⟨hr.mid.attached, rfl, hr.mid.app, hr.mid.mem, hr.mid.queue, hr.mid.done, hr.mid.error, hr.mid.stop, hr.mid.it⟩
            · rw [hs1]
              refine ⟨hr.mode, hr.rlen, hr.address, hr.shift, Or.inl rfl, fun _ => ⟨rfl, hwb⟩, fun h => ?_, fun _ => ⟨hr.drFull, fun _ h => ?_⟩⟩
              · simp only at h
                omega
              · simp only at h
                omega
            · rw [hs1]
              simp only [pend, hr.busy, hr.drFull, hr.mid.mem]
              simp [bytesOf_lengthOf]
            · rw [hs1]

theorem address_eq (st : Starting) : (if st.next = .read then 1 else 0) ||| (st.address &&& 0xfe) = addressByte st := by
  rw [addressByte]
  exact BitVec.or_comm ..

theorem address_dir (st : Starting) : (addressByte st).getLsbD 0 = decide (st.next = .read) := by
  rw [addressByte]
  by_cases h : st.next = .read <;> simp [h]

/-- The address was acknowledged. -/
structure Answered (s : St α τ) (t : τ) (app : α) (mem : Nat → Byte) (q : List (τ × Option Nat)) (d : List τ) : Prop where
  mid : Mid s t app mem q d
  itbuf : s.itbuf = false
  check : s.check = .no
  drFull : s.drFull = false
  shift : s.shift = none

theorem Answered.ev {s s1 s2 : St α τ} {t : τ} {app : α} {mem : Nat → Byte} {q : List (τ × Option Nat)} {d : List τ} {Q : St α τ → Prop} {rd : Bool}
    (h : Answered s t app mem q d) (hm : s.mode = .addr rd) (h1 : onAddr A s = some s1) (h2 : onNext A T s1 = some s2) (h3 : Leads A T s2 Q) : Leads A T s Q := by
  refine Leads.ev ?_ ?_ ?_ h3
  · cases rd <;> simp [evPending, hm, h.mid.it]
  · simp [onBus, hm]
  · rw [ev_of (s1 := s1) (s2 := s1) (by unfold onFlag; rw [hm]; exact h1) (if_neg (by simp [btf, hm])), h2]

/-- A number of bytes is read. -/
theorem read_phase (s : St α τ) (t : τ) (app : α) (mem : Nat → Byte) (q : List (τ × Option Nat)) (d : List τ) (p n : Nat) (h : Answered s t app mem q d)
    (hm : s.mode = .addr true) (hw : s.wlen = 0) (hr : s.rlen = n) (hb : s.rbuf = some p) (hn : s.next = .stop) (h0 : n ≠ 0)
    (ha : s.ack = decide (2 ≤ n)) (hp : s.pos = decide (n = 2)) (hpa : s.posAck = s.ack) :
    Leads A T s (Final A T q d t (readN A n app).2 (stored mem p (readN A n app).1)) := by
  obtain ⟨s1, hs1⟩ : ∃ s1 : St α τ, s1 = { s with address := 0, itbuf := decide (3 < n), mode := .rx, busy := none, sent := false, shift := none, rxEnd := false } := ⟨_, rfl⟩
  have m1 : Mid s1 t app mem q d := by
    rw [hs1]
    exact ⟨h.mid.attached, h.mid.trans, h.mid.app, h.mid.mem, h.mid.queue, h.mid.done, h.mid.error, h.mid.stop, h.mid.it⟩
  have e : onAddr A s = if n = 1 then (store (waitStop A (setStop A s1))).map fun s => { s with rlen := 0, check := .yesNoStopBit }
      else if n = 2 then some { s1 with ack := false } else some s1 := by
    rw [hs1]
    simp only [onAddr, h.itbuf, hw, hr, clearAddr, hm, h0, h.check]
    simp
  by_cases h1 : n = 1
  · subst h1
    obtain ⟨s2, hs2⟩ : ∃ s2 : St α τ, s2 = { s1 with app := A.stop (A.acked false (A.read app).2), stop := false, mode := .idle, posAck := s.ack, rxEnd := true, dr := (A.read app).1, drFull := false, mem := Function.update mem p (A.read app).1, rbuf := some (p + 1), rlen := 0, check := .yesNoStopBit } := ⟨_, rfl⟩
    have e2 : onAddr A s = some s2 := by
      rw [e, if_pos rfl]
      have hpos : s1.pos = false := by rw [hs1]; simpa using hp
      have hack : s1.ack = false := by rw [hs1]; simpa using ha
      have f1 : setStop A s1 = { s1 with stop := true } := by
        rw [setStop, if_pos (by rw [hs1]; simp [onBus])]
      have f2 : waitStop A { s1 with stop := true } = { s1 with app := A.stop (A.acked false (A.read app).2), stop := false, mode := .idle, posAck := s.ack, rxEnd := true, dr := (A.read app).1, drFull := true } := by
        rw [waitStop, if_pos rfl]
        have : s1.mode = .rx := by rw [hs1]
        have i1 : s1.shift = none := by rw [hs1]
        have i2 : s1.rxEnd = false := by rw [hs1]
        have i3 : s1.drFull = false := by rw [hs1]; exact h.drFull
        have i4 : s1.app = app := m1.app
        have i5 : s1.sent = false := by rw [hs1]
        have i6 : s1.ack = s.ack := by rw [hs1]
        simp [advance, this, i1, i2, i3, i4, hpos, hack, sendStop, i5, ← i6]
      rw [f1, f2, hs2]
      have i1 : s1.shift = none := by rw [hs1]
      have i7 : s1.rbuf = some p := by rw [hs1]; exact hb
      simp [store, i7, readDr, i1, m1.mem]
    refine h.ev hm e2 (onNext_noStop s2 (by rw [hs2]) (by rw [hs2, hs1]; exact hn)) (Leads.now ?_)
    have hN : readN A 1 app = ([(A.read app).1], A.acked false (A.read app).2) := by simp [readN]
    rw [hN]
    apply finish s2 t _ _ q d
    · rw [hs2]
      refine ⟨m1.attached, m1.trans, rfl, ?_, m1.queue, m1.done, m1.error, rfl, m1.it⟩
      rw [Lemmas.I2cMaster.stored_cons, Lemmas.I2cMaster.stored_nil]
    · rw [hs2]
    · rw [hs2, hs1]; exact hw
    · rw [hs2]
    · rw [hs2]
    · rw [hs2, hs1]
  · rw [if_neg h1] at e
    by_cases h2 : n = 2
    · subst h2
      rw [if_pos rfl] at e
      refine h.ev hm e (onNext_no _ (Or.inl (by rw [hs1]; exact h.check))) ?_
      rw [hs1]
      exact rx2 _ t app mem q d p ⟨h.mid.attached, h.mid.trans, h.mid.app, h.mid.mem, h.mid.queue, h.mid.done, h.mid.error, h.mid.stop, h.mid.it⟩
        ⟨rfl, hw, h.check, hn, hb⟩ hr rfl h.drFull rfl rfl (by simpa using hp) rfl (by simpa [ha] using hpa)
    · rw [if_neg h2] at e
      refine h.ev hm e (onNext_no _ (Or.inl (by rw [hs1]; exact h.check))) ?_
      have hack : s.ack = true := by rw [ha]; simp; omega
      have hpos : s.pos = false := by rw [hp]; simp [h2]
      by_cases h3 : n = 3
      · subst h3
        rw [hs1]
        exact rx3 _ t app mem q d p ⟨h.mid.attached, h.mid.trans, h.mid.app, h.mid.mem, h.mid.queue, h.mid.done, h.mid.error, h.mid.stop, h.mid.it⟩
          ⟨rfl, hw, h.check, hn, hb⟩ hr rfl h.drFull rfl rfl hpos hack
      · have hg : got s1 = [] := by rw [hs1]; simp [got, h.drFull]
        have hl : s1.rlen = n := by rw [hs1]; exact hr
        have := rxN (A := A) (T := T) t q d _ s1 app mem p (Nat.le_refl _) m1
          (by rw [hs1]; exact ⟨rfl, hw, h.check, hn, hb⟩) (by omega) (by rw [hs1]; simp; omega) (by rw [hs1]; simp) (by rw [hs1]) (by rw [hs1]; exact hpos) (by rw [hs1]; exact hack)
        rw [hg, hl] at this
        exact this

theorem begins {I : τ → Prop} (hP : Plain T I) (k : Nat) (hg : ∀ j, j < k → Goes A T I j) : Begins A T I k := by
  intro t app mem r q d s hI hi hs
  cases k with
  | zero => simp [ideal] at hi
  | succ k =>
  obtain ⟨hn1, ha0, hI1⟩ := hP.starting t hI
  obtain ⟨st, t1, hst⟩ : ∃ st t1, T.starting t = (st, t1) := ⟨_, _, rfl⟩
  rw [hst] at hn1 ha0 hI1
  simp only at hn1 ha0 hI1
  obtain ⟨f, tf, hf⟩ : ∃ f tf, fetch T st.next t1 = (f, tf) := ⟨_, _, rfl⟩
  simp only [ideal, hst, hf] at hi
  obtain ⟨s0, hs0⟩ : ∃ s0 : St α τ, s0 = (match st.next with
      | .read => fetchReading T { s with trans := t1, address := st.address }
      | .write => fetchWriting T { s with trans := t1, address := st.address }
      | _ => { s with trans := t1, address := st.address, wlen := 0, rlen := 0, next := .stop }) := ⟨_, rfl⟩
  -- what is the same for all
  have c0 : Mid s0 tf (A.start app) mem q d ∧ s0.mode = .sb ∧ s0.itbuf = false ∧ s0.check = .no ∧ s0.drFull = false ∧ s0.shift = none ∧ s0.address = st.address := by
    rw [hs0]
    cases hop : st.next
    all_goals
      rw [hop] at hf
      simp only [fetch, Prod.mk.injEq] at hf
      rw [← hf.2]
      exact ⟨⟨hs.mid.attached, rfl, hs.mid.app, hs.mid.mem, hs.mid.queue, hs.mid.done, hs.mid.error, hs.mid.stop, hs.mid.it⟩, hs.mode, hs.itbuf, hs.check, hs.drFull, hs.shift, rfl⟩
  obtain ⟨m0, z1, z2, z3, z4, z5, z6⟩ := c0
  obtain ⟨s1, hs1⟩ : ∃ s1 : St α τ, s1 = writeDr A (addressByte st) s0 := ⟨_, rfl⟩
  have hsb : onSb A T s = some s1 := by
    rw [hs1, hs0, onSb, if_pos hs.mid.attached, hs.mid.trans, hst]
    simp only [address_eq]
    rfl
  have e1 : s1 = { s0 with app := (A.address (addressByte st) (A.start app)).2, mode := if (A.address (addressByte st) (A.start app)).1 then .addr (decide (st.next = .read)) else .nacked, posAck := s0.ack } := by
    rw [hs1]
    simp only [writeDr, z1, m0.app, address_dir]
  have hc1 : s1.check = .no := by rw [e1]; exact z3
  refine Leads.ev (s' := s1) ?_ ?_ ?_ ?_
  · simp [evPending, hs.mode, hs.mid.it]
  · simp [onBus, hs.mode]
  · rw [ev_of (s1 := s1) (s2 := s1) (by unfold onFlag; rw [hs.mode]; exact hsb) (if_neg (by simp [btf, hs.mode]))]
    exact onNext_no s1 (Or.inl hc1)
  have m1 : Mid s1 tf (A.address (addressByte st) (A.start app)).2 mem q d := by
    rw [e1]
    exact ⟨m0.attached, m0.trans, rfl, m0.mem, m0.queue, m0.done, m0.error, m0.stop, m0.it⟩
  cases hack : (A.address (addressByte st) (A.start app)).1
  · -- nobody answers
    rw [hack] at hi e1
    simp only [Bool.false_eq_true, if_false, Option.some.injEq, Prod.mk.injEq, true_and] at hi
    have ha : s1.address ≠ 0 := by rw [e1]; simpa [z6] using ha0
    have := nacked (A := A) (T := T) s1 tf _ mem q d m1 (by rw [e1]; rfl) (by rw [e1]; exact z5)
      (by rw [e1]; simp [z2]) (Or.inl hc1)
    rw [if_pos ha, hi] at this
    exact this
  · rw [hack] at hi e1
    simp only [if_true] at hi
    obtain ⟨app1, happ1⟩ : ∃ app1, app1 = (A.address (addressByte st) (A.start app)).2 := ⟨_, rfl⟩
    rw [← happ1] at hi m1
    have an : Answered s1 tf app1 mem q d := ⟨m1, by rw [e1]; exact z2, hc1, by rw [e1]; exact z4, by rw [e1]; exact z5⟩
    have md : s1.mode = .addr (decide (st.next = .read)) := by rw [e1]; rfl
    -- nothing to write or to read
    have empty : ∀ op, s1.mode = .addr false → s1.wlen = 0 → s1.rlen = 0 → s1.next = op → ∃ s2, onAddr A s1 = some s2 ∧ Ready s2 tf app1 mem q d ∧ s2.next = op := by
      intro op hm hw hr hn
      refine ⟨{ s1 with address := 0, check := .yes, mode := .tx, busy := none, sent := false, shift := none, rxEnd := false }, ?_, ?_, hn⟩
      · simp only [onAddr, hw, hr, clearAddr, hm, an.itbuf]
        simp
      · exact ⟨⟨m1.attached, m1.trans, m1.app, m1.mem, m1.queue, m1.done, m1.error, m1.stop, m1.it⟩, rfl, rfl, an.drFull, rfl, hw, hr, rfl, rfl⟩
    cases hop : st.next with
    | restart => exact absurd hop hn1
    | stop =>
        rw [hop] at hf md hs0
        simp only [fetch, Prod.mk.injEq] at hf
        obtain ⟨hf1, hf2⟩ := hf
        subst hf1 hf2
        obtain ⟨s2, g1, g2, g3⟩ := empty .stop (by simpa using md) (by rw [e1, hs0]) (by rw [e1, hs0]) (by rw [e1, hs0])
        obtain ⟨s3, g4, g5⟩ := hg k (by omega) .stop t1 app1 mem r q d s2 (by simp) (by simp) hI1 hi g2 g3
        exact an.ev (by simpa using md) g1 g4 g5
    | write =>
        rw [hop] at hf md hs0
        simp only [fetch, Prod.mk.injEq] at hf
        obtain ⟨hf1, hf2⟩ := hf
        subst hf1 hf2
        have hm : s1.mode = .addr false := by simpa using md
        obtain ⟨w1, w2, w3⟩ := hP.writing t1 hI1
        have hrl : s1.rlen = 0 := by rw [e1, hs0]; exact hs.rlen
        have hwl : s1.wlen = lengthOf (T.writing t1).1.buffer (T.writing t1).1.length := by rw [e1, hs0]; rfl
        have hwb : s1.wbuf = (T.writing t1).1.buffer := by rw [e1, hs0]; rfl
        have hnx : s1.next = (T.writing t1).1.next := by rw [e1, hs0]; rfl
        cases k with
        | zero => simp [ideal] at hi
        | succ k =>
            by_cases hz : s1.wlen = 0
            · obtain ⟨s2, g1, g2, g3⟩ := empty _ hm hz hrl hnx
              have hb : bytesOf mem (T.writing t1).1.buffer (T.writing t1).1.length = [] := by
                rw [← bytesOf_lengthOf, ← hwl, hz, bytesOf_zero]
              have hi' := ideal_write_ok hi (by rw [hb]; rfl)
              rw [hb] at hi'
              obtain ⟨s3, g4, g5⟩ := hg k (by omega) _ _ app1 mem r q d s2 w1 w3 w2 hi' g2 g3
              exact an.ev hm g1 g4 g5
            · obtain ⟨s2, hs2⟩ : ∃ s2 : St α τ, s2 = { s1 with address := 0, itbuf := true, mode := .tx, busy := none, sent := false, shift := none, rxEnd := false } := ⟨_, rfl⟩
              have g1 : onAddr A s1 = some s2 := by
                rw [hs2]
                simp only [onAddr, hrl, clearAddr, hm, an.itbuf]
                simp [hz]
                omega
              refine an.ev hm g1 (onNext_no s2 (Or.inl (by rw [hs2]; exact hc1))) ?_
              refine write_phase k (hg k (by omega)) (T.writing t1).1 (T.writing t1).2 app1 mem r q d s2 w2 w1 w3 hi ?_ ?_ ?_ ?_
              · rw [hs2]
                exact ⟨m1.attached, m1.trans, m1.app, m1.mem, m1.queue, m1.done, m1.error, m1.stop, m1.it⟩
              · have hwb' : ∃ p, s1.wbuf = some p := by
                  rw [hwb]
                  cases h : (T.writing t1).1.buffer with
                  | none =>
                      rw [h] at hwl
                      simp [lengthOf] at hwl
                      exact absurd hwl hz
                  | some p => exact ⟨p, rfl⟩
                rw [hs2]
                exact ⟨rfl, hrl, rfl, rfl, Or.inl hc1, fun _ => ⟨rfl, hwb'⟩, fun h => absurd h hz, fun _ => ⟨an.drFull, by simp⟩⟩
              · rw [hs2]
                simp only [pend, an.drFull, m1.mem, hwb, hwl]
                simp [bytesOf_lengthOf]
              · rw [hs2]
                exact hnx
    | read =>
        rw [hop] at hf md hs0
        simp only [fetch, Prod.mk.injEq] at hf
        obtain ⟨hf1, hf2⟩ := hf
        subst hf1 hf2
        have hm : s1.mode = .addr true := by simpa using md
        have hst := hP.reading t1 hI1
        cases k with
        | zero => simp [ideal] at hi
        | succ k =>
            simp only [ideal, hst, fetch] at hi
            cases hb : (T.reading t1).1.buffer with
            | none =>
                rw [hb] at hi
                simp at hi
            | some p =>
                rw [hb] at hi
                simp only [Option.map_eq_some_iff] at hi
                obtain ⟨⟨b, r'⟩, i1, i2⟩ := hi
                simp only [Prod.mk.injEq, Bool.and_eq_true, decide_eq_true_eq] at i2
                obtain ⟨⟨i3, _⟩, i4⟩ := i2
                subst i4
                cases k with
                | zero => simp [ideal] at i1
                | succ k =>
                    simp only [ideal, Option.some.injEq, Prod.mk.injEq] at i1
                    rw [← i1.2]
                    have hl : lengthOf (T.reading t1).1.buffer (T.reading t1).1.length = (T.reading t1).1.length := by rw [hb]; rfl
                    refine read_phase s1 _ app1 mem q d p (T.reading t1).1.length an hm ?_ ?_ ?_ ?_ i3 ?_ ?_ ?_
                    · rw [e1, hs0]; exact hs.wlen
                    · rw [e1, hs0]; exact hl
                    · rw [e1, hs0]; exact hb
                    · rw [e1, hs0]; exact hst
                    · rw [e1, hs0]; simp only [fetchReading, hl]
                    · rw [e1, hs0]; simp only [fetchReading, hl, hs.pos, Bool.false_or]
                    · rw [e1]

theorem all {I : τ → Prop} (hP : Plain T I) (k : Nat) : Begins A T I k ∧ Goes A T I k := by
  induction k using Nat.strongRecOn with
  | ind k ih =>
      have h := begins hP k (fun j hj => (ih j hj).2)
      exact ⟨h, goes hP k (fun j hj => (ih j hj).2) h⟩

/-! ## The end -/

theorem idle_run (s : St α τ) (h : Idle s) (n : Nat) : ∀ late, run A T n late s = some s := by
  have e : ∀ b, Modm.I2cStm32.step A T b s = some s := by
    intro b
    simp [Modm.I2cStm32.step, evPending, erPending, h.it, advance, h.mode]
  induction n with
  | zero => intro late; rfl
  | succ n ih => intro late; rw [run, e, Option.bind_some, ih]

/-- A transaction is over and nothing else is to be done: what the master, the object, the devices and the memory are like. -/
structure Over (s0 : St α τ) (r : Result α τ) (s : St α τ) : Prop where
  idle : Idle s
  queue : s.queue = []
  app : s.app = r.app
  mem : s.mem = r.mem
  error : s.error = r.error
  done : s.done = s0.done ++ [r.trans]

variable (A T)

/-- Whichever interrupts come late, but the critical ones: in the end this holds, and nothing happens any more. -/
def Finally (s : St α τ) (Q : St α τ → Prop) : Prop :=
  ∀ late, Fine late → ∃ n s', Q s' ∧ ∀ m, n ≤ m → run A T m late s = some s'

variable {A T}

theorem Leads.finally {s : St α τ} {Q : St α τ → Prop} (h : Leads A T s Q) (hQ : ∀ s', Q s' → Idle s') : Finally A T s Q := by
  intro late hf
  obtain ⟨n, s', h1, h2⟩ := h late hf
  refine ⟨n, s', h2, fun m hm => ?_⟩
  obtain ⟨d, rfl⟩ := Nat.exists_eq_add_of_le hm
  rw [run_add n d late s s' h1, idle_run s' (hQ s' h2)]

theorem start_idle (cap : Nat) (t : τ) (h : Option Nat) (s : St α τ) (hi : Idle s) (hq : s.queue = []) (hc : 0 < cap) (ht : (T.attaching t).1 = true) :
    (Modm.I2cStm32.start A T cap t h s).1 = true ∧ Started A (Modm.I2cStm32.start A T cap t h s).2.2 (T.attaching t).2 s.app s.mem [] s.done := by
  have e : Modm.I2cStm32.start A T cap t h s = (true, none, callStarting A { configure h s with trans := (T.attaching t).2, attached := true }) := by
    simp [Modm.I2cStm32.start, hq, hc, ht, hi.attached]
  rw [e]
  refine ⟨rfl, ?_⟩
  obtain ⟨x, y, hx⟩ := configure_same h s
  rw [hx]
  exact started_of (A := A) { s with config := x, configs := y, trans := (T.attaching t).2, attached := true } _ _ _ _ _ rfl rfl rfl hi.stop
    (by simp [onBus, hi.mode]) hi.wlen hi.rlen hi.drFull rfl rfl hq

/-! ## C224: the transaction of any object -/

/-- For any object and any devices: `start` begins a transaction, and the interrupts carry it out. -/
theorem C224_any_partial {I : τ → Prop} (hP : Plain T I) (cap k : Nat) (hc : 0 < cap) (t : τ) (h : Option Nat) (s : St α τ) (hi : Idle s) (hq : s.queue = [])
    (ht : (T.attaching t).1 = true) (hI : I (T.attaching t).2) (r : Result α τ)
    (hr : ideal A T k .restart (T.attaching t).2 s.app s.mem = some (true, r)) :
    (Modm.I2cStm32.start A T cap t h s).1 = true ∧ Finally A T (Modm.I2cStm32.start A T cap t h s).2.2 (Over s r) := by
  obtain ⟨h1, h2⟩ := start_idle (A := A) (T := T) cap t h s hi hq hc ht
  refine ⟨h1, Leads.finally (((all hP k).1 _ _ _ r [] s.done _ hI hr h2).trans ?_) (fun s' h => h.idle)⟩
  rintro s' ⟨a1, a2, a3, a4, a5, a6⟩
  exact Leads.now ⟨a1, a2, a3, a4, a5, a6⟩

/-! ## C223: the transactions of the three kinds of objects -/

variable (A T)

/-- The transaction was begun, and the devices are going to see these steps, … -/
def Ends (x : Bool × Option τ × St α τ) (steps : List Step) (s : St α τ) (p : Nat) (state : τ → State) : Prop :=
  x.1 = true ∧ ∃ r, Happened A steps s.app s.mem p state r ∧ Finally A T x.2.2 (Over s r)

variable {A T}

theorem plain_writeRead : Plain writeRead (fun t => t.address ≠ 0) := by
  refine ⟨?_, ?_, ?_⟩
  · intro t h
    refine ⟨?_, h, h⟩
    simp only [writeRead]
    split <;> split <;> simp
  · intro t h
    refine ⟨?_, h, ?_⟩
    · simp only [writeRead]
      split <;> simp
    · simp only [writeRead]
      split <;> simp
  · intro t h
    rfl

theorem plain_onlyWrite : Plain onlyWrite (fun t => t.address ≠ 0) := by
  refine ⟨?_, ?_, ?_⟩
  · intro t h
    refine ⟨?_, h, h⟩
    simp only [onlyWrite]
    split <;> simp
  · intro t h
    exact ⟨by simp [onlyWrite], h, by simp [onlyWrite]⟩
  · intro t h
    rfl

theorem plain_onlyRead : Plain onlyRead (fun t => t.address ≠ 0) := by
  refine ⟨?_, ?_, ?_⟩
  · intro t h
    refine ⟨?_, h, h⟩
    simp only [onlyRead]
    split <;> simp
  · intro t h
    exact ⟨by simp [onlyRead], h, by simp [onlyRead]⟩
  · intro t h
    rfl

variable (A)

/-- An `I2cWriteReadTransaction`. -/
theorem C223_writeRead_partial (cap : Nat) (hc : 0 < cap) (h : Option Nat) (s : St α WriteRead) (t : WriteRead) (address : Byte) (wb ws rb rs : Nat) (hi : Idle s)
    (hq : s.queue = []) (ht : t.address = address <<< 1) (h0 : address <<< 1 ≠ 0#8) (hb : t.state ≠ .busy) :
    Ends A writeRead (Modm.I2cStm32.start A writeRead cap (t.configure (if ws = 0 then none else some wb) ws (if rs = 0 then none else some rb) rs).2 h s)
      (transfer address (bytesAt s.mem wb ws) rs) s rb WriteRead.state := by
  have e1 : attachState t.state = (true, .busy) := by simp [attachState, hb]
  rw [WriteRead.configure, if_neg hb]
  obtain ⟨r, h1, h2⟩ := Lemmas.I2cMaster.ideal_writeRead A s.app s.mem
    ⟨t.address, .busy, rs, ws, if rs = 0 then none else some rb, if ws = 0 then none else some wb, decide (ws = 0)⟩ address wb ws rb rs ht rfl rfl rfl rfl rfl
  have e2 : writeRead.attaching { t with readBuffer := if rs = 0 then none else some rb, readSize := rs, writeBuffer := if ws = 0 then none else some wb, writeSize := ws, isReading := decide (ws = 0) }
      = (true, ⟨t.address, .busy, rs, ws, if rs = 0 then none else some rb, if ws = 0 then none else some wb, decide (ws = 0)⟩) := by
    simp [writeRead, e1]
  obtain ⟨h3, h4⟩ := C224_any_partial (A := A) plain_writeRead cap 5 hc _ h s hi hq (by rw [e2]) (by rw [e2]; simpa [ht] using h0) r (by rw [e2]; exact h1)
  exact ⟨h3, r, h2, h4⟩

/-- An `I2cWriteTransaction`. -/
theorem C223_write_partial (cap : Nat) (hc : 0 < cap) (h : Option Nat) (s : St α OneWay) (t : OneWay) (address : Byte) (p n : Nat) (hi : Idle s)
    (hq : s.queue = []) (ht : t.address = address <<< 1) (h0 : address <<< 1 ≠ 0#8) (hb : t.state ≠ .busy) :
    Ends A onlyWrite (Modm.I2cStm32.start A onlyWrite cap (t.configureWrite (if n = 0 then none else some p) n).2 h s)
      (transfer address (bytesAt s.mem p n) 0) s 0 OneWay.state := by
  have e1 : attachState t.state = (true, .busy) := by simp [attachState, hb]
  have e3 : lengthOf (if n = 0 then none else some p) n = n := by by_cases h : n = 0 <;> simp [h, lengthOf]
  rw [OneWay.configureWrite, if_neg hb, e3]
  obtain ⟨r, h1, h2⟩ := Lemmas.I2cMaster.ideal_onlyWrite A s.app s.mem
    ⟨t.address, .busy, n, if n = 0 then none else some p⟩ address p n ht rfl rfl
  have e2 : onlyWrite.attaching { t with buffer := if n = 0 then none else some p, size := n }
      = (true, ⟨t.address, .busy, n, if n = 0 then none else some p⟩) := by
    simp [onlyWrite, e1]
  obtain ⟨h3, h4⟩ := C224_any_partial (A := A) plain_onlyWrite cap 5 hc _ h s hi hq (by rw [e2]) (by rw [e2]; simpa [ht] using h0) r (by rw [e2]; exact h1)
  exact ⟨h3, r, h2, h4⟩

/-- An `I2cReadTransaction`. -/
theorem C223_read_partial (cap : Nat) (hc : 0 < cap) (h : Option Nat) (s : St α OneWay) (t : OneWay) (address : Byte) (p n : Nat) (hi : Idle s)
    (hq : s.queue = []) (ht : t.address = address <<< 1) (h0 : address <<< 1 ≠ 0#8) (hb : t.state ≠ .busy) :
    Ends A onlyRead (Modm.I2cStm32.start A onlyRead cap (t.configureRead (if n = 0 then none else some p) n).2 h s)
      (transfer address [] n) s p OneWay.state := by
  have e1 : attachState t.state = (true, .busy) := by simp [attachState, hb]
  rw [OneWay.configureRead, if_neg hb]
  obtain ⟨r, h1, h2⟩ := Lemmas.I2cMaster.ideal_onlyRead A s.app s.mem
    ⟨t.address, .busy, n, if n = 0 then none else some p⟩ address p n ht rfl rfl
  have e2 : onlyRead.attaching { t with buffer := if n = 0 then none else some p, size := n }
      = (true, ⟨t.address, .busy, n, if n = 0 then none else some p⟩) := by
    simp [onlyRead, e1]
  obtain ⟨h3, h4⟩ := C224_any_partial (A := A) plain_onlyRead cap 5 hc _ h s hi hq (by rw [e2]) (by rw [e2]; simpa [ht] using h0) r (by rw [e2]; exact h1)
  exact ⟨h3, r, h2, h4⟩

/-- A device with the address 0x1e: it acknowledges two bytes after each START, counts what it sends, and
keeps a record of all that happens. -/
def recorder : App (List Nat) where
  start l := 1000 :: l
  address a l := (a = 0x3c#8 || a = 0x3d#8, (2000 + a.toNat) :: l)
  write b l := (decide ((l.takeWhile (· ≠ 1000)).length < 3), (3000 + b.toNat) :: l)
  read l := (BitVec.ofNat 8 (l.length * 37), (4000 + l.length) :: l)
  acked a l := (if a then 5001 else 5000) :: l
  stop l := 6000 :: l

/-- Before the first transaction. -/
def st0 {τ : Type} (t : τ) : St (List Nat) τ :=
  { app := [], mode := .idle, busy := none, dr := 0, drFull := false, sent := false, shift := none, rxEnd := false, ack := false, pos := false, posAck := false,
    stop := false, itbuf := false, it := false, attached := false, trans := t, queue := [], config := none, next := .stop, check := .no, error := .noError,
    address := 0, wbuf := none, wlen := 0, rbuf := none, rlen := 0, mem := fun a => BitVec.ofNat 8 (a * 3), done := [], configs := [] }

theorem idle0 {τ : Type} (t : τ) : Idle (st0 t) := ⟨rfl, rfl, rfl, rfl, rfl, rfl, rfl, rfl⟩

/-- What is seen from outside. -/
def outline {τ : Type} (state : τ → State) (s : Option (St (List Nat) τ)) : Option ((Bool × Error × List State) × List Byte × List Nat) :=
  s.map fun s => ((s.attached, s.error, s.done.map state), [s.mem 100, s.mem 101, s.mem 102, s.mem 103], s.app)

/-- All interrupts are served in time. -/
def inTime {α τ : Type} : Nat → St α τ → Bool := fun _ _ => false

/-- All interrupts but the critical ones are late. -/
def lateIfFine {α τ : Type} : Nat → St α τ → Bool :=
  fun _ s => !((decide (s.mode = .tx) && decide (s.wlen = 1)) || (decide (s.mode = .rx) && decide (s.rlen = 4)))

theorem fine_inTime {α τ : Type} : Fine (inTime (α := α) (τ := τ)) := fun _ _ _ => rfl

theorem fine_late {α τ : Type} : Fine (lateIfFine (α := α) (τ := τ)) := by
  rintro _ s (⟨h1, h2⟩ | ⟨h1, h2⟩) <;> simp [lateIfFine, h1, h2]

/-- Two bytes are written, then a number is read. -/
def twoThen (n : Nat) : St (List Nat) WriteRead :=
  (Modm.I2cStm32.start recorder writeRead 8 ((WriteRead.new 0x1e).configure (some 7) 2 (some 100) n).2 none (st0 (WriteRead.new 0x1e))).2.2

example : Ends recorder writeRead (true, none, twoThen 5) (transfer 0x1e (bytesAt (fun a => BitVec.ofNat 8 (a * 3)) 7 2) 5) (st0 (WriteRead.new 0x1e)) 100 WriteRead.state :=
  C223_writeRead_partial recorder 8 (by decide) none (st0 _) (WriteRead.new 0x1e) 0x1e 7 2 100 5 (idle0 _) rfl rfl (by decide) (by decide)

/-- Two bytes written, five read, in time and not. -/
example : outline WriteRead.state (run recorder writeRead 40 inTime (twoThen 5)) = some ((false, .noError, [.idle]), [0xde#8, 0x28#8, 0x72#8, 0xbc#8],
      [6000, 5000, 4014, 5001, 4012, 5001, 4010, 5001, 4008, 5001, 4006, 2061, 1000, 3024, 3021, 2060, 1000]) ∧
    outline WriteRead.state (run recorder writeRead 40 lateIfFine (twoThen 5)) = outline WriteRead.state (run recorder writeRead 40 inTime (twoThen 5)) := by
  constructor <;> decide +kernel

/-- Two, one and no bytes are read. -/
example : outline WriteRead.state (run recorder writeRead 40 lateIfFine (twoThen 2)) = some ((false, .noError, [.idle]), [0xde#8, 0x28#8, 50#8, 53#8],
      [6000, 5000, 4008, 5001, 4006, 2061, 1000, 3024, 3021, 2060, 1000]) ∧
    outline WriteRead.state (run recorder writeRead 40 lateIfFine (twoThen 1)) = some ((false, .noError, [.idle]), [0xde#8, 47#8, 50#8, 53#8],
      [6000, 5000, 4006, 2061, 1000, 3024, 3021, 2060, 1000]) ∧
    outline WriteRead.state (run recorder writeRead 40 lateIfFine (twoThen 0)) = some ((false, .noError, [.idle]), [44#8, 47#8, 50#8, 53#8],
      [6000, 3024, 3021, 2060, 1000]) := by
  refine ⟨?_, ?_, ?_⟩ <;> decide +kernel

/-- The third byte is not acknowledged. -/
example : outline OneWay.state (run recorder onlyWrite 40 lateIfFine
      (Modm.I2cStm32.start recorder onlyWrite 8 ((OneWay.new 0x1e).configureWrite (some 7) 4).2 none (st0 (OneWay.new 0x1e))).2.2)
    = some ((false, .dataNack, [.error]), [44#8, 47#8, 50#8, 53#8], [6000, 3027, 3024, 3021, 2060, 1000]) := by decide +kernel

/-- **C223** is false if an interrupt before the last byte comes late: the last byte was not acknowledged, the master says there was no error. -/
theorem C223_write_late_counterexample :
    outline OneWay.state (run recorder onlyWrite 40 (fun _ _ => true)
      (Modm.I2cStm32.start recorder onlyWrite 8 ((OneWay.new 0x1e).configureWrite (some 7) 3).2 none (st0 (OneWay.new 0x1e))).2.2)
    = some ((false, .noError, [.idle]), [44#8, 47#8, 50#8, 53#8], [6000, 3027, 3024, 3021, 2060, 1000]) ∧
    (exec recorder (transfer 0x1e (bytesAt (fun a => BitVec.ofNat 8 (a * 3)) 7 3) 0) []).1 = .dataNack := by
  decide +kernel

/-- **C223** is false if an interrupt for the fourth last byte comes late: the last but one byte is not acknowledged. -/
theorem C223_read_late_counterexample :
    outline OneWay.state (run recorder onlyRead 7 (fun _ _ => true)
      (Modm.I2cStm32.start recorder onlyRead 8 ((OneWay.new 0x1e).configureRead (some 100) 4).2 none (st0 (OneWay.new 0x1e))).2.2)
    = some ((true, .noError, []), [74#8, 148#8, 50#8, 53#8], [5000, 4006, 5001, 4004, 5001, 4002, 2061, 1000]) ∧
    (exec recorder (transfer 0x1e [] 4) []).2.2 = [6000, 5000, 4008, 5001, 4006, 5001, 4004, 5001, 4002, 2061, 1000] := by
  decide +kernel

/-- **C223** is false for the address 0 (the general call): nobody answers, the master says that data was not acknowledged. -/
theorem C223_general_call_counterexample :
    outline OneWay.state (run recorder onlyWrite 40 inTime
      (Modm.I2cStm32.start recorder onlyWrite 8 ((OneWay.new 0).configureWrite (some 7) 1).2 none (st0 (OneWay.new 0))).2.2)
    = some ((false, .dataNack, [.error]), [44#8, 47#8, 50#8, 53#8], [6000, 2000, 1000]) ∧
    (exec recorder (transfer 0 (bytesAt (fun a => BitVec.ofNat 8 (a * 3)) 7 1) 0) []).1 = .addressNack := by
  decide +kernel

/-! ## C224, continued -/

/-- An object of a user: a number of buffers that are written one after the other (as for a display: a command, then data). -/
def chain : Transaction (List Nat) where
  attaching t := (true, t)
  starting t := (⟨0x3c, .write⟩, t)
  writing t := match t with
    | [] => (⟨none, 0, .stop⟩, [])
    | [n] => (⟨some 7, n, .stop⟩, [])
    | n :: r => (⟨some 7, n, .write⟩, r)
  reading t := (⟨none, 0, .stop⟩, t)
  detaching c t := match c with
    | .normalStop => 100 :: t
    | .errorCondition => 200 :: t
    | .failedToAttach => 300 :: t

theorem plain_chain : Plain chain (fun t => ∀ n ∈ t.tail, 2 ≤ n) := by
  refine ⟨?_, ?_, ?_⟩
  · intro t h
    exact ⟨by simp [chain], by simp [chain], h⟩
  · intro t h
    match t, h with
    | [], _ => exact ⟨by simp [chain], by simp [chain], by simp [chain]⟩
    | [n], _ => exact ⟨by simp [chain], by simp [chain], by simp [chain]⟩
    | [n, m], h =>
        refine ⟨by simp [chain], by simp [chain], fun _ => ?_⟩
        simpa [chain, lengthOf] using h m (by simp)
    | n :: m :: l :: r, h =>
        refine ⟨by simp [chain], ?_, fun _ => ?_⟩
        · intro x hx
          exact h x (by simp [chain] at hx ⊢; exact Or.inr hx)
        · simpa [chain, lengthOf] using h m (by simp)
  · intro t h
    rfl

/-- A device that acknowledges so many bytes. -/
def acks (n : Nat) : App (List Nat) :=
  { recorder with write := fun b l => (decide ((l.takeWhile (· ≠ 1000)).length < n + 1), (3000 + b.toNat) :: l) }

/-- One byte, then two, then three: the first two of the last buffer are acknowledged, the third is not. -/
example : ∃ r, ideal (acks 5) chain 5 .restart [1, 2, 3] [] (st0 [1]).mem = some (true, r) ∧
    (r.error, r.app) = (.dataNack, [6000, 3027, 3024, 3021, 3024, 3021, 3021, 2060, 1000]) ∧
    (Modm.I2cStm32.start (acks 5) chain 8 [1, 2, 3] none (st0 [1])).1 = true ∧
    Finally (acks 5) chain (Modm.I2cStm32.start (acks 5) chain 8 [1, 2, 3] none (st0 [1])).2.2 (Over (st0 [1]) r) :=
  ⟨_, rfl, rfl, C224_any_partial plain_chain 8 5 (by decide) [1, 2, 3] none (st0 [1]) (idle0 _) rfl rfl (by intro n hn; simp [chain] at hn; omega) _ rfl⟩

/-- **C224** is false for a single byte that follows another buffer: it is not acknowledged, the master says there was no error, with all interrupts in time. -/
theorem C224_one_counterexample :
    (ideal (acks 2) chain 4 .restart [2, 1] [] (st0 [1]).mem).map (fun r => (r.1, r.2.error, r.2.app)) = some (true, .dataNack, [6000, 3021, 3024, 3021, 2060, 1000]) ∧
    (run (acks 2) chain 40 inTime (Modm.I2cStm32.start (acks 2) chain 8 [2, 1] none (st0 [1])).2.2).map (fun s => (s.attached, s.error, s.done, s.app))
      = some (false, .noError, [[100]], [6000, 3021, 3024, 3021, 2060, 1000]) := by
  decide +kernel

/-- **C224** is false for an empty buffer that follows another one: the interrupt comes again and again, and nothing happens. -/
theorem C224_empty_counterexample :
    (ideal (acks 2) chain 4 .restart [1, 0] [] (st0 [1]).mem).map (fun r => r.2.app) = some [6000, 3021, 2060, 1000] ∧
    ∃ s, run (acks 2) chain 6 inTime (Modm.I2cStm32.start (acks 2) chain 8 [1, 0] none (st0 [1])).2.2 = some s ∧ s.app = [3021, 2060, 1000] ∧ s.attached = true ∧
      evPending s = true ∧ ∀ n, run (acks 2) chain n inTime s = some s := by
  refine ⟨by decide +kernel, _, rfl, rfl, rfl, rfl, ?_⟩
  intro n
  induction n with
  | zero => rfl
  | succ n ih => exact ih

/-- An object that reads one byte twice, with a restart in between. -/
def twice : Transaction Bool where
  attaching t := (true, t)
  starting t := (⟨0x3c, .read⟩, t)
  writing t := (⟨none, 0, .stop⟩, t)
  reading t := if t then (⟨some 101, 1, .stop⟩, t) else (⟨some 100, 1, .restart⟩, true)
  detaching _ t := t

/-- **C224** is false for a restart after a read: a STOP condition is sent. -/
theorem C224_restart_counterexample :
    (ideal recorder twice 6 .restart false [] (st0 false).mem).map (fun r => r.2.app) = some [6000, 5000, 4006, 2061, 1000, 5000, 4002, 2061, 1000] ∧
    (run recorder twice 40 inTime (Modm.I2cStm32.start recorder twice 8 false none (st0 false)).2.2).map (fun s => (s.attached, s.app))
      = some (false, [6000, 5000, 4007, 2061, 1000, 6000, 5000, 4002, 2061, 1000]) := by
  decide +kernel

/-! ## C225: the queue -/

variable (T)

/-- The transactions of these objects, one after the other, and what is left of each. -/
def InOrder : List τ → α → (Nat → Byte) → List (Result α τ) → Prop
  | [], _, _, rs => rs = []
  | t :: ts, app, mem, rs => ∃ k r rs', rs = r :: rs' ∧ ideal A T k .restart t app mem = some (true, r) ∧ InOrder ts r.app r.mem rs'

/-- All transactions are over. -/
structure AllOver (d : List τ) (rs : List (Result α τ)) (s : St α τ) : Prop where
  idle : Idle s
  queue : s.queue = []
  done : s.done = d ++ rs.map (·.trans)
  last : ∃ r, rs.getLast? = some r ∧ s.app = r.app ∧ s.mem = r.mem ∧ s.error = r.error

/-- `start` is called for these objects with these handlers. -/
def starts (cap : Nat) : List (τ × Option Nat) → St α τ → Bool × St α τ
  | [], s => (true, s)
  | (t, h) :: l, s =>
    let x := Modm.I2cStm32.start A T cap t h s
    let y := starts cap l x.2.2
    (x.1 && y.1, y.2)

variable {A T}

theorem queue_over {I : τ → Prop} (hP : Plain T I) : ∀ (q : List (τ × Option Nat)) (t : τ) (app : α) (mem : Nat → Byte) (d : List τ) (rs : List (Result α τ)) (s : St α τ),
    I t → (∀ x ∈ q, I x.1) → InOrder A T (t :: q.map (·.1)) app mem rs → Started A s t app mem q d → Leads A T s (AllOver d rs) := by
  intro q
  induction q with
  | nil =>
      rintro t app mem d rs s hI _ ⟨k, r, rs', rfl, hi, ho⟩ hs
      rw [List.map_nil, InOrder] at ho
      subst ho
      refine ((all hP k).1 t app mem r [] d s hI hi hs).trans ?_
      rintro s' ⟨a1, a2, a3, a4, a5, a6⟩
      exact Leads.now ⟨a1, a2, a6, r, rfl, a3, a4, a5⟩
  | cons x q ih =>
      obtain ⟨t', c⟩ := x
      rintro t app mem d rs s hI hq ⟨k, r, rs', rfl, hi, ho⟩ hs
      refine ((all hP k).1 t app mem r ((t', c) :: q) d s hI hi hs).trans ?_
      intro s' hs'
      refine (ih t' r.app r.mem (d ++ [r.trans]) rs' s' (hq (t', c) (by simp)) (fun x hx => hq x (by simp [hx])) ho hs').trans ?_
      rintro s2 ⟨a1, a2, a3, r2, a4, a5⟩
      obtain ⟨k2, r3, rs3, rfl, -⟩ := ho
      exact Leads.now ⟨a1, a2, by simp [a3], r2, by simpa using a4, a5⟩

theorem starts_queue (cap : Nat) (l : List (τ × Option Nat)) : ∀ (s : St α τ) (t : τ) (app : α) (mem : Nat → Byte) (q : List (τ × Option Nat)) (d : List τ),
    Started A s t app mem q d → q.length + l.length ≤ cap → (∀ x ∈ l, (T.attaching x.1).1 = true) →
    (starts A T cap l s).1 = true ∧ ∃ q', q'.map (·.1) = l.map (fun x => (T.attaching x.1).2) ∧ Started A (starts A T cap l s).2 t app mem (q ++ q') d := by
  induction l with
  | nil => intro s t app mem q d h _ _; exact ⟨rfl, [], rfl, by simpa [starts] using h⟩
  | cons x l ih =>
      obtain ⟨t1, h1⟩ := x
      intro s t app mem q d h hl ha
      simp only [List.length_cons] at hl
      have e : Modm.I2cStm32.start A T cap t1 h1 s = (true, none, { s with queue := q ++ [((T.attaching t1).2, s.config)] }) := by
        simp [Modm.I2cStm32.start, h.mid.queue, h.mid.attached, ha (t1, h1) (by simp)]
        omega
      simp only [starts, e]
      obtain ⟨i1, q', i2, i3⟩ := ih { s with queue := q ++ [((T.attaching t1).2, s.config)] } t app mem (q ++ [((T.attaching t1).2, s.config)]) d
        ⟨⟨h.mid.attached, h.mid.trans, h.mid.app, h.mid.mem, rfl, h.mid.done, h.mid.error, h.mid.stop, h.mid.it⟩, h.mode, h.itbuf, h.check, h.pos, h.wlen, h.rlen, h.drFull, h.shift⟩
        (by simp; omega) (fun x hx => ha x (by simp [hx]))
      refine ⟨by simp [i1], ((T.attaching t1).2, s.config) :: q', by simp [i2], ?_⟩
      simpa using i3

/-- Several objects are given to `start` one after the other, no more than the queue and the master can take: all of them are carried out in this order, each is detached
once. -/
theorem C225_queue_partial {I : τ → Prop} (hP : Plain T I) (cap : Nat) (t : τ) (h : Option Nat) (l : List (τ × Option Nat)) (s : St α τ) (hi : Idle s) (hq : s.queue = [])
    (hc : 0 < cap) (hl : l.length ≤ cap) (ha : ∀ x ∈ (t, h) :: l, (T.attaching x.1).1 = true ∧ I (T.attaching x.1).2) (rs : List (Result α τ))
    (ho : InOrder A T (((t, h) :: l).map fun x => (T.attaching x.1).2) s.app s.mem rs) :
    (starts A T cap ((t, h) :: l) s).1 = true ∧ Finally A T (starts A T cap ((t, h) :: l) s).2 (AllOver s.done rs) := by
  obtain ⟨h1, h2⟩ := start_idle (A := A) (T := T) cap t h s hi hq hc (ha (t, h) (by simp)).1
  obtain ⟨h3, q, h4, h5⟩ := starts_queue (A := A) (T := T) cap l _ _ _ _ _ _ h2 (by simpa using hl) (fun x hx => (ha x (by simp [hx])).1)
  simp only [starts, h1, h3, Bool.and_self, true_and]
  refine Leads.finally (queue_over hP q _ _ _ _ rs _ (ha (t, h) (by simp)).2 ?_ ?_ (by simpa using h5)) (fun s' h => h.idle)
  · intro x hx
    have : x.1 ∈ q.map (·.1) := List.mem_map_of_mem hx
    rw [h4] at this
    obtain ⟨y, hy, e⟩ := List.mem_map.mp this
    rw [← e]
    exact (ha y (by simp [hy])).2
  · rw [h4]
    exact ho

/-- Three objects; the second one asks for a device that is not there. -/
def three : List (OneWay × Option Nat) :=
  [(((OneWay.new 0x1e).configureWrite (some 7) 2).2, some 1), (((OneWay.new 0x22).configureWrite (some 7) 2).2, some 1), (((OneWay.new 0x1e).configureWrite (some 9) 1).2, some 1)]

example : ∃ rs, InOrder recorder onlyWrite (three.map fun x => (onlyWrite.attaching x.1).2) [] (st0 (OneWay.new 0)).mem rs ∧
    rs.map (fun r => r.error) = [.noError, .addressNack, .noError] ∧
    Finally recorder onlyWrite (starts recorder onlyWrite 8 three (st0 (OneWay.new 0))).2 (AllOver [] rs) := by
  have ho : ∃ rs, InOrder recorder onlyWrite (three.map fun x => (onlyWrite.attaching x.1).2) [] (st0 (OneWay.new 0)).mem rs ∧
      rs.map (fun r => r.error) = [.noError, .addressNack, .noError] :=
    ⟨_, ⟨5, _, _, rfl, rfl, 5, _, _, rfl, rfl, 5, _, _, rfl, rfl, rfl⟩, rfl⟩
  obtain ⟨rs, h1, h2⟩ := ho
  refine ⟨rs, h1, h2, (C225_queue_partial plain_onlyWrite 8 _ _ _ (st0 (OneWay.new 0)) (idle0 _) rfl (by decide) (by decide) ?_ rs h1).2⟩
  decide

/-- While a transaction is going on, `start` puts the object at the end of the queue, and changes nothing else. -/
theorem C225_later (cap : Nat) (t : τ) (h : Option Nat) (s : St α τ) (ha : s.attached = true) (hc : s.queue.length < cap) (ht : (T.attaching t).1 = true) :
    Modm.I2cStm32.start A T cap t h s = (true, none, { s with queue := s.queue ++ [((T.attaching t).2, s.config)] }) := by
  simp [Modm.I2cStm32.start, hc, ha, ht]

/-- If the queue is full, `start` does nothing. -/
theorem C225_full (cap : Nat) (t : τ) (h : Option Nat) (s : St α τ) (hc : cap ≤ s.queue.length) : Modm.I2cStm32.start A T cap t h s = (false, some t, s) := by
  rw [Modm.I2cStm32.start, if_neg (by omega)]

example : (Modm.I2cStm32.start recorder onlyWrite 2 (OneWay.new 0x1e) none (starts recorder onlyWrite 2 three (st0 (OneWay.new 0))).2).1 = false := by decide +kernel

/-- **C225** is false for the handlers: the one of the object that had to wait is not called before its transaction (nor later). -/
theorem C225_handler_counterexample :
    let s := (starts recorder onlyWrite 8 [(((OneWay.new 0x1e).configureWrite (some 7) 2).2, some 1), (((OneWay.new 0x1e).configureWrite (some 9) 1).2, some 2)] (st0 (OneWay.new 0))).2
    (run recorder onlyWrite 40 inTime s).map (fun s => (s.done.map OneWay.state, s.configs)) = some ([.idle, .idle], [1]) := by
  decide +kernel

/-! ## C226: the end, for any bus -/

/-- `reset` detaches the object of the transaction that is going on and all those that are waiting, each of them once and with an error, and there is none left. -/
theorem C226_reset_partial (s : St α τ) :
    (reset T s).attached = false ∧ (reset T s).queue = [] ∧ (reset T s).error = .softwareReset ∧
    (reset T s).done = s.done ++ ((if s.attached then [s.trans] else []) ++ s.queue.map (·.1)).map (T.detaching .errorCondition) := by
  cases h : s.attached <;> simp [Modm.I2cStm32.reset, Modm.I2cStm32.detach, h, Function.comp_def]

/-- Two objects, one of them waiting. -/
example : (reset onlyWrite (starts recorder onlyWrite 8 three (st0 (OneWay.new 0))).2).done.map OneWay.state = [.error, .error, .error] := by decide +kernel

/-- **C226** is false for `reset()`: the interrupts are not switched off, and the next one needs the transaction that is gone. -/
theorem C226_reset_counterexample :
    let s := (Modm.I2cStm32.start recorder onlyWrite 8 ((OneWay.new 0x1e).configureWrite (some 7) 2).2 none (st0 (OneWay.new 0x1e))).2.2
    (reset onlyWrite s).attached = false ∧ evPending (reset onlyWrite s) = true ∧ (run recorder onlyWrite 1 inTime (reset onlyWrite s)).isNone = true := by
  decide +kernel

/-- **C226** is false for an object that is busy already (it is in the queue): `start` returns `false`, but the object says that there was an error. -/
theorem C226_busy_counterexample (cap : Nat) (t : OneWay) (h : Option Nat) (s : St α OneWay) (hc : s.queue.length < cap) (hb : t.state = .busy) :
    (Modm.I2cStm32.start A onlyWrite cap t h s).1 = false ∧ ((Modm.I2cStm32.start A onlyWrite cap t h s).2.1.map OneWay.state) = some .error := by
  simp [Modm.I2cStm32.start, hc, onlyWrite, attachState, hb, detachState]

end Props.I2cStm32
