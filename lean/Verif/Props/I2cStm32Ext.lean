import Verif.Spec.I2cMaster
import Verif.Lemmas.I2cMaster
import Verif.Model.I2cStm32Ext

/-! # Properties of the I²C master of STM32 (F0, F3, F7, G0, G4, H7, L0, L4, …) -/

set_option autoImplicit false

namespace Props.I2cStm32Ext

open Modm.I2c Modm.Spec.I2c Modm.I2cStm32Ext I2cMasterSpec

variable {α τ : Type} (A : App α) (T : Transaction τ)

/-- Interrupts are served at any time, but the STOP condition after the last byte that is read does not fall into the time between the reading of `ISR` and
the clearing of `STOPF`. -/
def Fine (c : Nat → St α τ → When) : Prop := ∀ i s, s.phase = .rxAck → s.left = 0 → c i s ≠ .race

/-- Whenever interrupts are served, in the end `Q` holds. -/
def Leads (s : St α τ) (Q : St α τ → Prop) : Prop :=
  ∀ c, Fine c → ∃ n s', run A T n c s = some s' ∧ Q s'

variable {A T}

theorem Leads.now {s : St α τ} {Q : St α τ → Prop} (h : Q s) : Leads A T s Q := fun _ _ => ⟨0, s, rfl, h⟩

theorem Leads.step {s : St α τ} {Q : St α τ → Prop}
    (h : ∀ b, (s.phase = .rxAck → s.left = 0 → b ≠ .race) → ∃ s', step A T b s = some s' ∧ Leads A T s' Q) : Leads A T s Q := by
  intro c hf
  obtain ⟨s1, h1, h2⟩ := h (c 0 s) (hf 0 s)
  obtain ⟨n, s2, h3, h4⟩ := h2 (fun i => c (i + 1)) (fun i => hf (i + 1))
  exact ⟨n + 1, s2, by rw [run, h1, Option.bind_some, h3], h4⟩

theorem run_add (n m : Nat) : ∀ (c : Nat → St α τ → When) (s s' : St α τ), run A T n c s = some s' →
    run A T (n + m) c s = run A T m (fun i => c (i + n)) s' := by
  induction n with
  | zero =>
      intro c s s' h
      simp only [run, Option.some.injEq] at h
      subst h
      simp
  | succ n ih =>
      intro c s s' h
      rw [run] at h
      obtain ⟨s1, h1, h2⟩ := Option.bind_eq_some_iff.mp h
      rw [show n + 1 + m = (n + m) + 1 by omega, run, h1, Option.bind_some, ih _ _ _ h2]
      congr 1

theorem Leads.trans {s : St α τ} {P Q : St α τ → Prop} (h : Leads A T s P) (h' : ∀ s', P s' → Leads A T s' Q) : Leads A T s Q := by
  intro c hf
  obtain ⟨n, s1, h1, h2⟩ := h c hf
  obtain ⟨m, s2, h3, h4⟩ := h' s1 h2 (fun i => c (i + n)) (fun i => hf (i + n))
  exact ⟨n + m, s2, by rw [run_add n m c s s1 h1, h3], h4⟩

/-- An interrupt is to be served, and the bus is not moving. -/
theorem Leads.isr {s s' : St α τ} {Q : St α τ → Prop} (hp : pending s = true) (hb : s.phase = .idle ∨ s.phase = .wait) (he : isr A T false s = some s')
    (h : Leads A T s' Q) : Leads A T s Q := by
  have hm : moving s = false := by rcases hb with hb | hb <;> simp [moving, hb]
  have ha : advance A s = s := by rcases hb with hb | hb <;> simp [Modm.I2cStm32Ext.advance, hb]
  refine Leads.step fun b _ => ⟨s', ?_, h⟩
  unfold Modm.I2cStm32Ext.step
  rw [if_pos hp]
  cases b
  · exact he
  · simp only [hm]
    exact he
  · have : Modm.I2cStm32Ext.isr A T true s = Modm.I2cStm32Ext.isr A T false s := by
      simp [Modm.I2cStm32Ext.isr, ha]
    exact this.trans he

/-- Nothing is to be served. -/
theorem Leads.advance {s s' : St α τ} {Q : St α τ → Prop} (hp : pending s = false) (he : advance A s = s')
    (h : Leads A T s' Q) : Leads A T s Q :=
  Leads.step fun b _ => ⟨s', by unfold Modm.I2cStm32Ext.step; rw [if_neg (by simp [hp]), he], h⟩

variable (A T)

/-- No buffer follows another one. -/
def NoChain (I : τ → Prop) : Prop := ∀ t, I t → (T.writing t).1.next ≠ .write

/-- In the middle of a transaction; others are waiting in the queue `q`, others were detached. -/
structure Mid (s : St α τ) (t : τ) (app : α) (mem : Nat → Byte) (q : List (τ × Option Nat)) (d : List τ) : Prop where
  attached : s.attached = true
  trans : s.trans = t
  app : s.app = app
  mem : s.mem = mem
  queue : s.queue = q
  done : s.done = d
  error : s.error = .noError
  address : s.address ≠ 0
  stopf : s.stopf = false
  nackf : s.nackf = false
  tc : s.tc = false
  tcr : s.tcr = false

/-- Bytes are being sent, or are going to be sent after the address; `op` is what comes next. -/
structure Tx (s : St α τ) (op : Operation) : Prop where
  next : s.next = op
  rxdr : s.rxdr = none
  shift : s.shift = none
  rd : s.cmd.getLsbD 0 = false
  more : 0 < s.wlen → ∃ p, s.wbuf = some p
  chunk : ∃ c, s.left = s.txdr.toList.length + c ∧ c ≤ s.wlen ∧ (c < s.wlen → s.reload = true) ∧
    (c = s.wlen → s.reload = decide (op = .write) ∧ s.autoend = decide (op = .stop))
  rxie : s.rxie = false
  last : s.wlen = 0 → s.txie = false ∧ s.stopie = decide (op = .stop) ∧ s.tcie = decide (op ≠ .stop)
  some : 0 < s.wlen → s.txie = true ∧ s.stopie = false ∧ s.tcie = true

/-- Nothing is sent after the address. -/
structure Empty (s : St α τ) (op : Operation) : Prop where
  next : s.next = op
  left : s.left = 0
  reload : s.reload = false
  autoend : s.autoend = decide (op = .stop)
  stopie : s.stopie = decide (op = .stop)
  tcie : s.tcie = decide (op ≠ .stop)
  rxie : s.rxie = false
  txie : s.txie = false
  wlen : s.wlen = 0

/-- The bytes that were not sent yet. -/
def pend (s : St α τ) : List Byte := s.busy.toList ++ s.txdr.toList ++ bytesOf s.mem s.wbuf s.wlen

/-- Bytes are being received; `p` is where the next one is stored. -/
structure Rx (s : St α τ) (p : Nat) : Prop where
  rbuf : s.rbuf = some p
  next : s.next = .stop
  reload : s.reload = false
  autoend : s.autoend = true
  tcie : s.tcie = false
  txie : s.txie = false
  rlen : s.rlen ≤ 255
  wlen : s.wlen = 0
  some : 0 < s.rlen → s.rxie = true
  last : s.rlen = 0 → s.rxie = false ∧ s.stopie = true

/-- START and the address are being sent for this object. -/
structure Started (I : τ → Prop) (s : St α τ) (t : τ) (app : α) (mem : Nat → Byte) (q : List (τ × Option Nat)) (d : List τ) : Prop where
  mid : Mid s (fetch T (T.starting t).1.next (T.starting t).2).2 app mem q d
  phase : s.phase = .addr
  cmd : s.cmd = addressByte (T.starting t).1
  rxdr : s.rxdr = none
  shift : s.shift = none
  busy : s.busy = none
  clean : NoChain T I ∨ (q = [] ∧ ((T.starting t).1.next ≠ .read → s.rlen = 0))
  stop : (T.starting t).1.next = .stop → Empty s .stop
  empty : (T.starting t).1.next = .write → lengthOf (T.writing (T.starting t).2).1.buffer (T.writing (T.starting t).2).1.length = 0 →
    Empty s (T.writing (T.starting t).2).1.next
  write : (T.starting t).1.next = .write → 0 < lengthOf (T.writing (T.starting t).2).1.buffer (T.writing (T.starting t).2).1.length →
    Tx s (T.writing (T.starting t).2).1.next ∧ s.left ≠ 0 ∧
    s.txdr.toList ++ bytesOf s.mem s.wbuf s.wlen = bytesOf mem (T.writing (T.starting t).2).1.buffer (T.writing (T.starting t).2).1.length ∧
    s.wlen = lengthOf (T.writing (T.starting t).2).1.buffer (T.writing (T.starting t).2).1.length - 1
  read : (T.starting t).1.next = .read → ∀ p, (T.reading (T.starting t).2).1.buffer = some p → 0 < (T.reading (T.starting t).2).1.length →
    Rx s p ∧ s.rlen = (T.reading (T.starting t).2).1.length ∧ s.left = s.rlen ∧ s.stopie = true

/-- The master has nothing to do. -/
structure Idle (s : St α τ) : Prop where
  attached : s.attached = false
  phase : s.phase = .idle
  stopf : s.stopf = false
  nackf : s.nackf = false
  tc : s.tc = false
  tcr : s.tcr = false
  rxdr : s.rxdr = none
  shift : s.shift = none
  wlen : s.wlen = 0
  ie : s.stopie = false ∧ s.tcie = false ∧ s.rxie = false ∧ s.txie = false

/-- A transaction is over: the next one of the queue was started, or there is none. -/
def After (I : τ → Prop) (q : List (τ × Option Nat)) (d : List τ) (r : Result α τ) (s : St α τ) : Prop :=
  match q with
  | [] => Idle s ∧ s.queue = [] ∧ s.app = r.app ∧ s.mem = r.mem ∧ s.error = r.error ∧ s.done = d ++ [r.trans]
  | (t, _) :: q' => Started T I s t r.app r.mem q' (d ++ [r.trans])

/-- What the types of the interface allow, and besides: the address of a device is not 0, there is no restart after a read, 1 to 255 bytes are read,
and a buffer that is followed by another one is not empty.  `I` holds for the object at all times. -/
structure Plain (I : τ → Prop) : Prop where
  starting : ∀ t, I t → (T.starting t).1.next ≠ .restart ∧ (T.starting t).1.address ≠ 0 ∧ I (T.starting t).2
  writing : ∀ t, I t → (T.writing t).1.next ≠ .read ∧ I (T.writing t).2 ∧
    ((T.writing t).1.next = .write → 0 < lengthOf (T.writing t).1.buffer (T.writing t).1.length)
  reading : ∀ t, I t → (T.starting t).1.next = .read → (T.reading (T.starting t).2).1.next = .stop ∧ (T.reading (T.starting t).2).1.length ≤ 255 ∧
    0 < (T.reading (T.starting t).2).1.length ∧ ∃ p, (T.reading (T.starting t).2).1.buffer = some p

variable {A T}

theorem bytesOf_succ (mem : Nat → Byte) (p n : Nat) : bytesOf mem (some p) (n + 1) = mem p :: bytesOf mem (some (p + 1)) n := by
  simp only [bytesOf, List.range_succ_eq_map, List.map_cons, List.map_map, Nat.add_zero]
  congr 1
  apply List.map_congr_left
  intro i _
  simp only [Function.comp]
  congr 1
  omega

theorem bytesOf_zero (mem : Nat → Byte) (b : Option Nat) : bytesOf mem b 0 = [] := by
  cases b <;> rfl

theorem bytesOf_lengthOf (mem : Nat → Byte) (b : Option Nat) (n : Nat) : bytesOf mem b (lengthOf b n) = bytesOf mem b n := by
  cases b <;> simp [bytesOf, lengthOf]

theorem address_dir (st : Starting) : (addressByte st).getLsbD 0 = decide (st.next = .read) := by
  rw [addressByte]
  by_cases h : st.next = .read <;> simp [h]

theorem configure_same (c : Option Nat) (s : St α τ) : ∃ x y, configure c s = { s with config := x, configs := y } := by
  unfold configure
  cases c with
  | none => exact ⟨_, _, rfl⟩
  | some h =>
      simp only
      split
      · exact ⟨_, _, rfl⟩
      · exact ⟨_, _, rfl⟩

/-! ## The begin of an operation -/

/-- What an operation leaves alone. -/
structure Same (s s' : St α τ) : Prop where
  attached : s'.attached = s.attached
  trans : s'.trans = s.trans
  app : s'.app = s.app
  mem : s'.mem = s.mem
  queue : s'.queue = s.queue
  done : s'.done = s.done
  address : s'.address = s.address
  error : s'.error = s.error
  stopf : s'.stopf = s.stopf
  nackf : s'.nackf = s.nackf
  rxdr : s'.rxdr = s.rxdr
  shift : s'.shift = s.shift

/-- A buffer is going to be written, after START. -/
theorem callWrite_start (s : St α τ) (p : Nat) (hp : s.phase ≠ .tx) (hw : 0 < s.wlen) (hb : s.wbuf = some p) (hr : s.rxdr = none) (hs : s.shift = none) :
    ∃ s', callWrite true s = s' ∧ Tx s' s.next ∧ s'.phase = .addr ∧ s'.cmd = s.address &&& 0xfe ∧ s'.busy = none ∧ s'.wlen = s.wlen - 1 ∧ s'.left ≠ 0 ∧
      s'.txdr.toList ++ bytesOf s'.mem s'.wbuf s'.wlen = bytesOf s.mem s.wbuf s.wlen ∧ s'.tc = false ∧ s'.tcr = s.tcr ∧ s'.rlen = s.rlen ∧ Same s s' := by
  have e1 : putByte s = { s with txdr := some (s.mem p), wbuf := some (p + 1) } := by
    simp [putByte, hb, hw, writeTxdr, load, hp]
  obtain ⟨n, hn'⟩ : ∃ n, s.wlen = n + 1 := ⟨s.wlen - 1, by omega⟩
  refine ⟨_, rfl, ?_⟩
  have e2 : callWrite true s = { s with txdr := some (s.mem p), wbuf := some (p + 1), left := if 255 < n + 1 then 255 else n + 1, reload := decide (s.next = .write ∨ 255 < n + 1), autoend := !decide (s.next = .write ∨ 255 < n + 1) && decide (s.next = .stop), phase := .addr, cmd := s.address &&& 0xfe, tc := false, busy := none, wlen := n, stopie := decide (n = 0) && decide (s.next = .stop), tcie := !(decide (n = 0) && decide (s.next = .stop)), rxie := false, txie := decide (n ≠ 0) } := by
    simp only [callWrite, e1, setCr2, hn']
    by_cases h0 : n = 0
    · subst h0
      cases s.next <;> simp [enable]
    · cases s.next <;> simp [enable, h0]
  rw [e2]
  refine ⟨⟨rfl, hr, hs, ?_, fun _ => ⟨p + 1, rfl⟩, ⟨(if 255 < n + 1 then 255 else n + 1) - 1, ?_, ?_, ?_, ?_⟩, rfl, ?_, ?_⟩, rfl, rfl, rfl, ?_, ?_, ?_, rfl, rfl, rfl, ⟨rfl, rfl, rfl, rfl, rfl, rfl, rfl, rfl, rfl, rfl, rfl, rfl⟩⟩
  · simp
  · simp only [Option.toList_some, List.length_singleton]; split <;> omega
  · simp only; split <;> omega
  · simp only
    intro h
    have : 255 < n + 1 := by
      by_contra hc
      rw [if_neg hc] at h
      omega
    simp only [this, or_true, decide_true]
  · simp only
    intro h
    have : ¬ 255 < n + 1 := by
      intro hc
      rw [if_pos hc] at h
      omega
    cases s.next <;> simp [this]
  · simp only
    intro h
    subst h
    cases s.next <;> simp
  · simp only
    intro h
    have : n ≠ 0 := by omega
    simp [this]
  · simp only; omega
  · simp only; split <;> omega
  · rw [hb, hn', bytesOf_succ]; rfl

/-- Nothing is to be written, after START. -/
theorem callWrite_empty (s : St α τ) (hw : s.wlen = 0) (hn : s.next ≠ .write) :
    ∃ s', callWrite true s = s' ∧ Empty s' s.next ∧ s'.phase = .addr ∧ s'.cmd = s.address &&& 0xfe ∧ s'.busy = none ∧
      s'.tc = false ∧ s'.tcr = s.tcr ∧ s'.rlen = s.rlen ∧ Same s s' := by
  have e1 : putByte s = s := by
    rw [putByte]
    cases s.wbuf <;> simp [hw]
  refine ⟨_, rfl, ?_⟩
  have e2 : callWrite true s = { s with left := 0, reload := false, autoend := decide (s.next = .stop), phase := .addr, cmd := s.address &&& 0xfe, tc := false, busy := none, wlen := 0, stopie := decide (s.next = .stop), tcie := decide (s.next ≠ .stop), rxie := false, txie := false } := by
    simp only [callWrite, e1, setCr2, hw]
    cases h : s.next <;> simp [enable, h] at hn ⊢
  rw [e2]
  exact ⟨⟨rfl, rfl, rfl, rfl, rfl, rfl, rfl, rfl, rfl⟩, rfl, rfl, rfl, rfl, rfl, rfl, ⟨rfl, rfl, rfl, rfl, rfl, rfl, rfl, rfl, rfl, rfl, rfl, rfl⟩⟩

/-- A buffer is going to be read. -/
theorem callRead_start (s : St α τ) (p : Nat) (hl : 0 < s.rlen) (h255 : s.rlen ≤ 255) (hb : s.rbuf = some p) (hn : s.next = .stop) (hw : s.wlen = 0) :
    ∃ s', callRead true s = s' ∧ Rx s' p ∧ s'.rlen = s.rlen ∧ s'.left = s'.rlen ∧ s'.stopie = true ∧ s'.phase = .addr ∧ s'.cmd = (s.address &&& 0xfe) ||| 1 ∧ s'.busy = none ∧
      s'.tc = false ∧ s'.tcr = s.tcr ∧ Same s s' := by
  refine ⟨_, rfl, ?_⟩
  have e2 : callRead true s = { s with left := s.rlen, reload := false, autoend := true, phase := .addr, cmd := (s.address &&& 0xfe) ||| 1, tc := false, busy := none, stopie := true, tcie := false, rxie := true, txie := false } := by
    have h1 : ¬ 255 < s.rlen := by omega
    have h2 : s.rlen ≠ 0 := by omega
    simp [callRead, setCr2, hn, h1, h2, enable]
  rw [e2]
  exact ⟨⟨hb, hn, rfl, rfl, rfl, rfl, h255, hw, fun _ => rfl, fun h => absurd h (by simp only; omega)⟩, rfl, rfl, rfl, rfl, rfl, rfl, rfl, rfl,
    ⟨rfl, rfl, rfl, rfl, rfl, rfl, rfl, rfl, rfl, rfl, rfl, rfl⟩⟩

theorem callRead_same (s : St α τ) : ∃ s', callRead true s = s' ∧ s'.phase = .addr ∧ s'.cmd = (s.address &&& 0xfe) ||| 1 ∧ s'.busy = none ∧
    s'.tc = false ∧ s'.tcr = s.tcr ∧ Same s s' := by
  refine ⟨_, rfl, ?_⟩
  simp only [callRead, setCr2, enable, if_true]
  split
  · exact ⟨rfl, rfl, rfl, rfl, rfl, ⟨rfl, rfl, rfl, rfl, rfl, rfl, rfl, rfl, rfl, rfl, rfl, rfl⟩⟩
  · split
    · exact ⟨rfl, rfl, rfl, rfl, rfl, ⟨rfl, rfl, rfl, rfl, rfl, rfl, rfl, rfl, rfl, rfl, rfl, rfl⟩⟩
    · exact ⟨rfl, rfl, rfl, rfl, rfl, ⟨rfl, rfl, rfl, rfl, rfl, rfl, rfl, rfl, rfl, rfl, rfl, rfl⟩⟩

/-- Before START. -/
structure Rest (I : τ → Prop) (s : St α τ) (t : τ) (app : α) (mem : Nat → Byte) (q : List (τ × Option Nat)) (d : List τ) : Prop where
  attached : s.attached = true
  trans : s.trans = t
  app : s.app = app
  mem : s.mem = mem
  queue : s.queue = q
  done : s.done = d
  stopf : s.stopf = false
  nackf : s.nackf = false
  tcr : s.tcr = false
  phase : s.phase ≠ .tx
  rxdr : s.rxdr = none
  shift : s.shift = none
  wlen : s.wlen = 0
  clean : NoChain T I ∨ (q = [] ∧ s.rlen = 0)

theorem started_of {I : τ → Prop} (hP : Plain T I) (s : St α τ) (t : τ) (app : α) (mem : Nat → Byte) (q : List (τ × Option Nat)) (d : List τ) (hI : I t)
    (h : Rest (T := T) I s t app mem q d) : ∃ s', callStarting T s = some s' ∧ Started T I s' t app mem q d := by
  obtain ⟨h1, h2, h3⟩ := hP.starting t hI
  cases hop : (T.starting t).1.next with
  | restart => exact absurd hop h1
  | stop =>
      refine ⟨_, by rw [callStarting, if_pos h.attached], ?_⟩
      simp only [h.trans, hop, setCr2, enable, if_true]
      exact {
        mid := ⟨h.attached, by rw [hop]; rfl, h.app, h.mem, h.queue, h.done, rfl, h2, h.stopf, h.nackf, rfl, h.tcr⟩
        phase := rfl
        cmd := by rw [addressByte, hop]; rfl
        rxdr := h.rxdr
        shift := h.shift
        busy := rfl
        clean := h.clean.imp id fun x => ⟨x.1, fun _ => rfl⟩
        stop := fun _ => ⟨rfl, rfl, rfl, rfl, rfl, rfl, rfl, rfl, rfl⟩
        empty := fun x => absurd x (by simp [hop])
        write := fun x => absurd x (by simp [hop])
        read := fun x => absurd x (by simp [hop]) }
  | write =>
      have hcmd : (T.starting t).1.address &&& 0xfe = addressByte (T.starting t).1 := by
        rw [addressByte, hop]
        simp
      obtain ⟨w1, w2, w3⟩ := hP.writing _ h3
      obtain ⟨s1, hs1⟩ : ∃ s1 : St α τ, s1 = fetchWriting T { s with trans := (T.starting t).2, address := (T.starting t).1.address } := ⟨_, rfl⟩
      have e : ∀ s', callWrite true s1 = s' → callStarting T s = some { s' with error := .noError } := by
        intro s' hs'
        rw [callStarting, if_pos h.attached]
        simp only [h.trans, hop, ← hs1, hs']
      have hw : s1.wlen = lengthOf (T.writing (T.starting t).2).1.buffer (T.writing (T.starting t).2).1.length := by rw [hs1]; rfl
      have hnx : s1.next = (T.writing (T.starting t).2).1.next := by rw [hs1]; rfl
      have hbf : s1.wbuf = (T.writing (T.starting t).2).1.buffer := by rw [hs1]; rfl
      have mid : ∀ s', Same s1 s' → s'.tc = false → s'.tcr = s1.tcr →
          Mid { s' with error := .noError } (fetch T (T.starting t).1.next (T.starting t).2).2 app mem q d := by
        intro s' x x1 x2
        refine ⟨?_, ?_, ?_, ?_, ?_, ?_, rfl, ?_, ?_, ?_, x1, ?_⟩
        · rw [show ({ s' with error := .noError } : St α τ).attached = s'.attached from rfl, x.attached, hs1]; exact h.attached
        · rw [show ({ s' with error := .noError } : St α τ).trans = s'.trans from rfl, x.trans, hs1, hop]; rfl
        · rw [show ({ s' with error := .noError } : St α τ).app = s'.app from rfl, x.app, hs1]; exact h.app
        · rw [show ({ s' with error := .noError } : St α τ).mem = s'.mem from rfl, x.mem, hs1]; exact h.mem
        · rw [show ({ s' with error := .noError } : St α τ).queue = s'.queue from rfl, x.queue, hs1]; exact h.queue
        · rw [show ({ s' with error := .noError } : St α τ).done = s'.done from rfl, x.done, hs1]; exact h.done
        · rw [show ({ s' with error := .noError } : St α τ).address = s'.address from rfl, x.address, hs1]; exact h2
        · rw [show ({ s' with error := .noError } : St α τ).stopf = s'.stopf from rfl, x.stopf, hs1]; exact h.stopf
        · rw [show ({ s' with error := .noError } : St α τ).nackf = s'.nackf from rfl, x.nackf, hs1]; exact h.nackf
        · rw [show ({ s' with error := .noError } : St α τ).tcr = s'.tcr from rfl, x2, hs1]; exact h.tcr
      by_cases hz : s1.wlen = 0
      · obtain ⟨s', e1, e2, e3, e4, e5, e6, e7, e8, e9⟩ := callWrite_empty s1 hz (by rw [hnx]; intro hc; have := w3 hc; omega)
        refine ⟨_, e s' e1, ?_⟩
        exact {
          mid := mid s' e9 e6 e7
          phase := e3
          cmd := by rw [← hcmd]; rw [hs1] at e4; exact e4
          rxdr := e9.rxdr.trans (by rw [hs1]; exact h.rxdr)
          shift := e9.shift.trans (by rw [hs1]; exact h.shift)
          busy := e5
          clean := h.clean.imp id fun x => ⟨x.1, fun _ => e8.trans (by rw [hs1]; exact x.2)⟩
          stop := fun x => absurd x (by simp [hop])
          empty := fun _ _ => by
            rw [← hnx]
            obtain ⟨k1, k2, k3, k4, k5, k6, k7, k8, k9⟩ := e2
            exact ⟨k1, k2, k3, k4, k5, k6, k7, k8, k9⟩
          write := fun _ x => absurd x (by omega)
          read := fun x => absurd x (by simp [hop]) }
      · have hwb : ∃ p, s1.wbuf = some p := by
          rw [hbf]
          cases hx : (T.writing (T.starting t).2).1.buffer with
          | none => rw [hx] at hw; simp [lengthOf] at hw; exact absurd hw hz
          | some p => exact ⟨p, rfl⟩
        obtain ⟨p, hp⟩ := hwb
        obtain ⟨s', e1, e2, e3, e4, e5, e6, e7, e8, e9, e10, e11, e12⟩ := callWrite_start s1 p (by rw [hs1]; exact h.phase) (by omega) hp (by rw [hs1]; exact h.rxdr) (by rw [hs1]; exact h.shift)
        refine ⟨_, e s' e1, ?_⟩
        exact {
          mid := mid s' e12 e9 e10
          phase := e3
          cmd := by rw [← hcmd]; rw [hs1] at e4; exact e4
          rxdr := e12.rxdr.trans (by rw [hs1]; exact h.rxdr)
          shift := e12.shift.trans (by rw [hs1]; exact h.shift)
          busy := e5
          clean := h.clean.imp id fun x => ⟨x.1, fun _ => e11.trans (by rw [hs1]; exact x.2)⟩
          stop := fun x => absurd x (by simp [hop])
          empty := fun _ x => absurd x (by omega)
          write := fun _ _ => by
            rw [← hnx]
            obtain ⟨k1, k2, k3, k4, k5, k6, k7, k8, k9⟩ := e2
            refine ⟨⟨k1, k2, k3, k4, k5, k6, k7, k8, k9⟩, e7, ?_, ?_⟩
            · have : bytesOf s1.mem s1.wbuf s1.wlen = bytesOf mem (T.writing (T.starting t).2).1.buffer (T.writing (T.starting t).2).1.length := by
                rw [hw, hbf, bytesOf_lengthOf, show s1.mem = mem by rw [hs1]; exact h.mem]
              exact e8.trans this
            · rw [← hw]
              exact e6
          read := fun x => absurd x (by simp [hop]) }
  | read =>
      have hcmd : (T.starting t).1.address &&& 0xfe ||| 1 = addressByte (T.starting t).1 := by
        rw [addressByte, hop]
        simp
      obtain ⟨r1, r2, -, -⟩ := hP.reading t hI hop
      obtain ⟨s1, hs1⟩ : ∃ s1 : St α τ, s1 = fetchReading T { s with trans := (T.starting t).2, address := (T.starting t).1.address } := ⟨_, rfl⟩
      have e : ∀ s', callRead true s1 = s' → callStarting T s = some { s' with error := .noError } := by
        intro s' hs'
        rw [callStarting, if_pos h.attached]
        simp only [h.trans, hop, ← hs1, hs']
      obtain ⟨s', e1, e2, e3, e4, e5, e6, e7⟩ := callRead_same s1
      refine ⟨_, e s' e1, ?_⟩
      exact {
        mid := by
          refine ⟨?_, ?_, ?_, ?_, ?_, ?_, rfl, ?_, ?_, ?_, e5, ?_⟩
          · rw [show ({ s' with error := .noError } : St α τ).attached = s'.attached from rfl, e7.attached, hs1]; exact h.attached
          · rw [show ({ s' with error := .noError } : St α τ).trans = s'.trans from rfl, e7.trans, hs1, hop]; rfl
          · rw [show ({ s' with error := .noError } : St α τ).app = s'.app from rfl, e7.app, hs1]; exact h.app
          · rw [show ({ s' with error := .noError } : St α τ).mem = s'.mem from rfl, e7.mem, hs1]; exact h.mem
          · rw [show ({ s' with error := .noError } : St α τ).queue = s'.queue from rfl, e7.queue, hs1]; exact h.queue
          · rw [show ({ s' with error := .noError } : St α τ).done = s'.done from rfl, e7.done, hs1]; exact h.done
          · rw [show ({ s' with error := .noError } : St α τ).address = s'.address from rfl, e7.address, hs1]; exact h2
          · rw [show ({ s' with error := .noError } : St α τ).stopf = s'.stopf from rfl, e7.stopf, hs1]; exact h.stopf
          · rw [show ({ s' with error := .noError } : St α τ).nackf = s'.nackf from rfl, e7.nackf, hs1]; exact h.nackf
          · rw [show ({ s' with error := .noError } : St α τ).tcr = s'.tcr from rfl, e6, hs1]; exact h.tcr
        phase := e2
        cmd := by rw [← hcmd]; rw [hs1] at e3; exact e3
        rxdr := e7.rxdr.trans (by rw [hs1]; exact h.rxdr)
        shift := e7.shift.trans (by rw [hs1]; exact h.shift)
        busy := e4
        clean := h.clean.imp id fun x => ⟨x.1, fun x => absurd hop x⟩
        stop := fun x => absurd x (by simp [hop])
        empty := fun x => absurd x (by simp [hop])
        write := fun x => absurd x (by simp [hop])
        read := fun _ p hp hl => by
          have hl' : s1.rlen = (T.reading (T.starting t).2).1.length := by rw [hs1]; simp only [fetchReading, hp, lengthOf]
          obtain ⟨s2, f1, f2, f3, f4, f5, -⟩ := callRead_start s1 p (by omega) (by omega) (by rw [hs1]; exact hp) (by rw [hs1]; exact r1) (by rw [hs1]; exact h.wlen)
          have : s2 = s' := f1.symm.trans e1
          subst this
          obtain ⟨k1, k2, k3, k4, k5, k6, k7, k8, k9, k10⟩ := f2
          exact ⟨⟨k1, k2, k3, k4, k5, k6, k7, k8, k9, k10⟩, f3.trans hl', f4, f5⟩ }

/-! ## The end of a transaction -/

theorem after_next {I : τ → Prop} (hP : Plain T I) (s : St α τ) (q : List (τ × Option Nat)) (d : List τ) (r : Result α τ) (hi : Idle s) (hq : s.queue = q) (ha : s.app = r.app)
    (hm : s.mem = r.mem) (he : s.error = r.error) (hd : s.done = d ++ [r.trans]) (hc : NoChain T I ∨ q = []) (hI : ∀ x ∈ q, I x.1) :
    ∃ s', callNext T s = some s' ∧ After T I q d r s' := by
  cases q with
  | nil =>
      rw [callNext, hq]
      exact ⟨s, rfl, hi, hq, ha, hm, he, hd⟩
  | cons x q =>
      obtain ⟨t, c⟩ := x
      rw [callNext, hq]
      simp only
      obtain ⟨x, y, hx⟩ := configure_same c { s with queue := q }
      rw [hx]
      have hc : NoChain T I := hc.resolve_right (by simp)
      exact started_of hP { s with queue := q, config := x, configs := y, trans := t, attached := true } t r.app r.mem q (d ++ [r.trans]) (hI (t, c) (by simp))
        ⟨rfl, rfl, ha, hm, rfl, hd, hi.stopf, hi.nackf, hi.tcr, by simp [hi.phase], hi.rxdr, hi.shift, hi.wlen, Or.inl hc⟩

/-- STOP was sent. -/
structure Stopped (s : St α τ) (t : τ) (app : α) (mem : Nat → Byte) (q : List (τ × Option Nat)) (d : List τ) : Prop where
  attached : s.attached = true
  trans : s.trans = t
  app : s.app = app
  mem : s.mem = mem
  queue : s.queue = q
  done : s.done = d
  error : s.error = .noError
  address : s.address ≠ 0
  phase : s.phase = .idle
  shift : s.shift = none
  tc : s.tc = false
  tcr : s.tcr = false
  wlen : s.wlen = 0

theorem closed {I : τ → Prop} (hP : Plain T I) (s : St α τ) (c : DetachCause) (t : τ) (app : α) (mem : Nat → Byte) (q : List (τ × Option Nat)) (d : List τ) (e : Error)
    (h : Stopped s t app mem q d) (hs : s.rxdr = none) (hc : NoChain T I ∨ q = []) (hI : ∀ x ∈ q, I x.1) :
    ∃ s', callNext T (detach T c { s with stopie := false, tcie := false, rxie := false, txie := false, stopf := false, nackf := false, error := e }) = some s' ∧
      After T I q d ⟨e, T.detaching c t, app, mem⟩ s' := by
  apply after_next hP
  · rw [detach, if_pos h.attached]
    exact ⟨rfl, h.phase, rfl, rfl, h.tc, h.tcr, hs, h.shift, h.wlen, rfl, rfl, rfl, rfl⟩
  · rw [detach, if_pos h.attached]
    exact h.queue
  · rw [detach, if_pos h.attached]
    exact h.app
  · rw [detach, if_pos h.attached]
    exact h.mem
  · rw [detach, if_pos h.attached]
  · rw [detach, if_pos h.attached]
    simp [h.trans, h.done]
  · exact hc
  · exact hI

/-- The normal end. -/
theorem stop_end {I : τ → Prop} (hP : Plain T I) (s : St α τ) (t : τ) (app : α) (mem : Nat → Byte) (q : List (τ × Option Nat)) (d : List τ)
    (h : Stopped s t app mem q d) (hr : s.rxdr = none) (hs : s.stopf = true) (hi : s.stopie = true) (hn : s.nackf = false) (hx : s.next = .stop)
    (hc : NoChain T I ∨ q = []) (hI : ∀ x ∈ q, I x.1) : Leads A T s (After T I q d ⟨.noError, T.detaching .normalStop t, app, mem⟩) := by
  obtain ⟨s', h1, h2⟩ := closed hP s .normalStop t app mem q d .noError h hr hc hI
  refine Leads.isr (by simp [pending, hs, hi]) (Or.inl h.phase) (s' := s') ?_ (Leads.now h2)
  have ht : txis s = false := by simp [txis, h.phase]
  rw [← h1]
  simp only [Modm.I2cStm32Ext.isr, hr, hs, hn, h.tc, h.tcr, ht, onStopf, hx, enable]
  have : s = { s with nackf := false, error := .noError } := by rw [← hn, ← h.error]
  rw [this]
  simp [hr, hx, h.tc, h.tcr]

/-- The end after something was not acknowledged. -/
theorem nack_end {I : τ → Prop} (hP : Plain T I) (s : St α τ) (t : τ) (app : α) (mem : Nat → Byte) (q : List (τ × Option Nat)) (d : List τ)
    (h : Stopped s t app mem q d) (hr : s.rxdr = none) (hs : s.stopf = true) (hi : s.stopie = true) (hn : s.nackf = true)
    (hc : NoChain T I ∨ q = []) (hI : ∀ x ∈ q, I x.1) : Leads A T s (After T I q d ⟨.addressNack, T.detaching .errorCondition t, app, mem⟩) := by
  obtain ⟨s', h1, h2⟩ := closed hP s .errorCondition t app mem q d .addressNack h hr hc hI
  refine Leads.isr (by simp [pending, hs, hi]) (Or.inl h.phase) (s' := s') ?_ (Leads.now h2)
  have ht : txis s = false := by simp [txis, h.phase]
  have ha : s.address ≠ 0#8 := h.address
  rw [← h1]
  simp [Modm.I2cStm32Ext.isr, hr, hs, hn, h.tc, h.tcr, ht, onStopf, enable, ha]

/-! ## Writing -/

/-- All bytes were sent. -/
structure Sent (A : App α) (s : St α τ) (t : τ) (app : α) (mem : Nat → Byte) (q : List (τ × Option Nat)) (d : List τ) (op : Operation) : Prop where
  attached : s.attached = true
  trans : s.trans = t
  mem : s.mem = mem
  queue : s.queue = q
  done : s.done = d
  error : s.error = .noError
  address : s.address ≠ 0
  nackf : s.nackf = false
  rxdr : s.rxdr = none
  shift : s.shift = none
  wlen : s.wlen = 0
  next : s.next = op
  stop : op = .stop → s.phase = .idle ∧ s.app = A.stop app ∧ s.stopf = true ∧ s.stopie = true ∧ s.tc = false ∧ s.tcr = false
  restart : op = .restart → s.phase = .wait ∧ s.app = app ∧ s.tc = true ∧ s.tcie = true ∧ s.tcr = false ∧ s.stopf = false
  write : op = .write → s.phase = .wait ∧ s.app = app ∧ s.tcr = true ∧ s.tcie = true ∧ s.tc = false ∧ s.stopf = false ∧ s.cmd.getLsbD 0 = false ∧ s.busy = none

theorem ended_sent (s : St α τ) (t : τ) (app : α) (mem : Nat → Byte) (q : List (τ × Option Nat)) (d : List τ) (op : Operation) (h : Mid s t app mem q d) (hop : op ≠ .read)
    (hr : s.rxdr = none) (hs : s.shift = none) (hw : s.wlen = 0) (hn : s.next = op) (hb : s.busy = none) (hd : op = .write → s.cmd.getLsbD 0 = false)
    (h1 : s.reload = decide (op = .write)) (h2 : s.autoend = decide (op = .stop)) (h3 : s.stopie = decide (op = .stop)) (h4 : s.tcie = decide (op ≠ .stop)) :
    Sent A (ended A s) t app mem q d op ∧ (ended A s).rlen = s.rlen := by
  cases op with
  | read => exact absurd rfl hop
  | stop =>
      have e : ended A s = sendStop A s := by simp [ended, h1, h2]
      rw [e]
      exact ⟨⟨h.attached, h.trans, h.mem, h.queue, h.done, h.error, h.address, h.nackf, hr, hs, hw, hn, fun _ => ⟨rfl, by rw [← h.app]; rfl, rfl, by simpa [sendStop] using h3, h.tc, h.tcr⟩,
        fun x => absurd x (by simp), fun x => absurd x (by simp)⟩, rfl⟩
  | restart =>
      have e : ended A s = { s with phase := .wait, tc := true } := by simp [ended, h1, h2]
      rw [e]
      exact ⟨⟨h.attached, h.trans, h.mem, h.queue, h.done, h.error, h.address, h.nackf, hr, hs, hw, hn, fun x => absurd x (by simp),
        fun _ => ⟨rfl, h.app, rfl, by simpa using h4, h.tcr, h.stopf⟩, fun x => absurd x (by simp)⟩, rfl⟩
  | write =>
      have e : ended A s = { s with phase := .wait, tcr := true } := by simp [ended, h1]
      rw [e]
      exact ⟨⟨h.attached, h.trans, h.mem, h.queue, h.done, h.error, h.address, h.nackf, hr, hs, hw, hn, fun x => absurd x (by simp),
        fun x => absurd x (by simp), fun _ => ⟨rfl, h.app, rfl, by simpa using h4, h.tc, h.stopf, hd rfl, hb⟩⟩, rfl⟩

/-- More is to be written, without START. -/
theorem callWrite_cont (s : St α τ) (p : Nat) (hp : s.phase = .wait) (ht : s.tcr = true) (hd : s.cmd.getLsbD 0 = false) (hb' : s.busy = none) (hw : 0 < s.wlen) (hb : s.wbuf = some p)
    (hr : s.rxdr = none) (hs : s.shift = none) :
    ∃ s', callWrite false s = s' ∧ Tx s' s.next ∧ s'.phase = .tx ∧ s'.busy = some (s.mem p) ∧ s'.txdr = none ∧ s'.wlen = s.wlen - 1 ∧
      pend s' = bytesOf s.mem s.wbuf s.wlen ∧ s'.tc = s.tc ∧ s'.tcr = false ∧ s'.rlen = s.rlen ∧ Same s s' := by
  have e1 : putByte s = { s with txdr := some (s.mem p), wbuf := some (p + 1) } := by
    simp [putByte, hb, hw, writeTxdr, load, hp]
  obtain ⟨n, hn'⟩ : ∃ n, s.wlen = n + 1 := ⟨s.wlen - 1, by omega⟩
  refine ⟨_, rfl, ?_⟩
  have hpos : 0 < (if 255 < n + 1 then 255 else n + 1) := by split <;> omega
  obtain ⟨m, hm⟩ : ∃ m, (if 255 < n + 1 then 255 else n + 1) = m + 1 := ⟨(if 255 < n + 1 then 255 else n + 1) - 1, by omega⟩
  have hd' : s.cmd[0] = false := by simpa using hd
  have e2 : callWrite false s = { s with txdr := none, wbuf := some (p + 1), left := m, reload := decide (s.next = .write ∨ 255 < n + 1), autoend := !decide (s.next = .write ∨ 255 < n + 1) && decide (s.next = .stop), phase := .tx, tcr := false, busy := some (s.mem p), wlen := n, stopie := decide (n = 0) && decide (s.next = .stop), tcie := !(decide (n = 0) && decide (s.next = .stop)), rxie := false, txie := decide (n ≠ 0) } := by
    simp only [callWrite, e1, setCr2, hn', hm]
    by_cases h0 : n = 0
    · subst h0
      cases s.next <;> simp [enable, ht, load, hd', hb']
    · cases s.next <;> simp [enable, h0, ht, load, hd', hb']
  rw [e2]
  refine ⟨⟨rfl, hr, hs, hd, fun _ => ⟨p + 1, rfl⟩, ⟨m, ?_, ?_, ?_, ?_⟩, rfl, ?_, ?_⟩, rfl, rfl, rfl, ?_, ?_, rfl, rfl, rfl, ⟨rfl, rfl, rfl, rfl, rfl, rfl, rfl, rfl, rfl, rfl, rfl, rfl⟩⟩
  · simp
  · simp only; split at hm <;> omega
  · simp only
    intro h
    have : 255 < n + 1 := by
      by_contra hc
      rw [if_neg hc] at hm
      omega
    simp only [this, or_true, decide_true]
  · simp only
    intro h
    have : ¬ 255 < n + 1 := by
      intro hc
      rw [if_pos hc] at hm
      omega
    cases s.next <;> simp [this]
  · simp only
    intro h
    subst h
    cases s.next <;> simp
  · simp only
    intro h
    have : n ≠ 0 := by omega
    simp [this]
  · simp only; omega
  · rw [hb, hn', bytesOf_succ]; rfl

theorem isr_txis (race : Bool) (s : St α τ) (t : τ) (app : α) (mem : Nat → Byte) (q : List (τ × Option Nat)) (d : List τ) (h : Mid s t app mem q d) (hr : s.rxdr = none)
    (ht : txis s = true) : isr A T race s = some (onTxis { enable false false false false (if race then advance A s else s) with stopf := false }) := by
  simp [isr, hr, h.stopf, h.tc, h.tcr, ht]

/-- `TXIS` is served. -/
theorem served (s : St α τ) (t : τ) (app : α) (mem : Nat → Byte) (q : List (τ × Option Nat)) (d : List τ) (op : Operation) (h : Mid s t app mem q d) (hx : Tx s op) (hop : op ≠ .read)
    (hp : s.phase = .tx) (ht : s.txdr = none) (hl : 0 < s.left) :
    ∃ s', onTxis { enable false false false false s with stopf := false } = s' ∧ Mid s' t app mem q d ∧ Tx s' op ∧ s'.phase = .tx ∧ s'.busy.isSome = true ∧
      pend s' = pend s ∧ s'.rlen = s.rlen ∧ 3 * s'.wlen + 2 * s'.txdr.toList.length + s'.busy.toList.length < 3 * s.wlen + 2 * s.txdr.toList.length + s.busy.toList.length := by
  obtain ⟨c, c1, c2, c3, c4⟩ := hx.chunk
  rw [ht] at c1
  simp only [Option.toList_none, List.length_nil, Nat.zero_add] at c1
  have hw : 0 < s.wlen := by omega
  obtain ⟨p, hb⟩ := hx.more hw
  obtain ⟨n, hn'⟩ : ∃ n, s.wlen = n + 1 := ⟨s.wlen - 1, by omega⟩
  refine ⟨_, rfl, ?_⟩
  have hnx := hx.next
  have chunk : ∀ k : Nat, k + 1 = c → k ≤ n ∧ (k < n → s.reload = true) ∧ (k = n → s.reload = decide (op = .write) ∧ s.autoend = decide (op = .stop)) := by
    intro k hk
    exact ⟨by omega, fun x => c3 (by omega), fun x => c4 (by omega)⟩
  have ie : ((n = 0 → (decide (n ≠ 0)) = false ∧ (decide (n = 0) && decide (op = .stop)) = decide (op = .stop) ∧ (!(decide (n = 0) && decide (op = .stop))) = decide (op ≠ .stop))) ∧
      (0 < n → (decide (n ≠ 0)) = true ∧ (decide (n = 0) && decide (op = .stop)) = false ∧ (!(decide (n = 0) && decide (op = .stop))) = true) := by
    constructor
    · intro h0; subst h0; cases op <;> simp
    · intro h0; have : n ≠ 0 := by omega
      simp [this]
  cases hbu : s.busy with
  | none =>
      have e : onTxis { enable false false false false s with stopf := false } = { s with stopf := false, busy := some (s.mem p), txdr := none, left := s.left - 1, wbuf := some (p + 1), wlen := n, stopie := decide (n = 0) && decide (op = .stop), tcie := !(decide (n = 0) && decide (op = .stop)), rxie := false, txie := decide (n ≠ 0) } := by
        simp only [onTxis, enable, putByte, hb, hn', writeTxdr, load, hp, hbu, hl, hnx]
        by_cases h0 : n = 0
        · subst h0
          cases op <;> simp at hop ⊢
        · cases op <;> simp [h0]
      rw [e]
      refine ⟨⟨h.attached, h.trans, h.app, h.mem, h.queue, h.done, h.error, h.address, rfl, h.nackf, h.tc, h.tcr⟩,
        ⟨hnx, hx.rxdr, hx.shift, hx.rd, fun _ => ⟨p + 1, rfl⟩, ⟨c - 1, ?_, (chunk (c - 1) (by omega)).1, (chunk (c - 1) (by omega)).2.1, (chunk (c - 1) (by omega)).2.2⟩, rfl, ie.1, ie.2⟩, hp, rfl, ?_, rfl, ?_⟩
      · simp [c1]
      · simp only [pend, hbu, ht, hn', hb, bytesOf_succ]; rfl
      · simp [ht, hn']; omega
  | some b =>
      have e : onTxis { enable false false false false s with stopf := false } = { s with stopf := false, txdr := some (s.mem p), wbuf := some (p + 1), wlen := n, stopie := decide (n = 0) && decide (op = .stop), tcie := !(decide (n = 0) && decide (op = .stop)), rxie := false, txie := decide (n ≠ 0) } := by
        simp only [onTxis, enable, putByte, hb, hn', writeTxdr, load, hp, hbu, hl, hnx]
        by_cases h0 : n = 0
        · subst h0
          cases op <;> simp [hbu] at hop ⊢
        · cases op <;> simp [h0, hbu]
      rw [e]
      refine ⟨⟨h.attached, h.trans, h.app, h.mem, h.queue, h.done, h.error, h.address, rfl, h.nackf, h.tc, h.tcr⟩,
        ⟨hnx, hx.rxdr, hx.shift, hx.rd, fun _ => ⟨p + 1, rfl⟩, ⟨c - 1, ?_, (chunk (c - 1) (by omega)).1, (chunk (c - 1) (by omega)).2.1, (chunk (c - 1) (by omega)).2.2⟩, rfl, ie.1, ie.2⟩, hp, ?_, ?_, rfl, ?_⟩
      · simp [c1]; omega
      · simp [hbu]
      · simp only [pend, hbu, ht, hn', hb, bytesOf_succ]; simp
      · simp [ht, hn', hbu]; omega

theorem tx_loop (t : τ) (mem : Nat → Byte) (q : List (τ × Option Nat)) (d : List τ) (op : Operation) (hop : op ≠ .read) (Q : St α τ → Prop) (n : Nat) : ∀ (s : St α τ) (app : α),
    3 * s.wlen + 2 * s.txdr.toList.length + s.busy.toList.length ≤ n → Mid s t app mem q d → Tx s op → s.phase = .tx →
    (s.busy = none → s.txdr = none ∧ 0 < s.left) → (writes A (pend s) app).1 = true →
    (∀ s6, Sent A s6 t (writes A (pend s) app).2 mem q d op → s6.rlen = s.rlen → Leads A T s6 Q) → Leads A T s Q := by
  induction n with
  | zero =>
      intro s app hn h hx hp hb hok hQ
      have h1 : s.wlen = 0 := by omega
      have h2 : s.busy = none := by
        cases h : s.busy with
        | none => rfl
        | some b => simp [h] at hn
      obtain ⟨h3, h4⟩ := hb h2
      obtain ⟨c, c1, c2, -⟩ := hx.chunk
      simp [h3] at c1
      omega
  | succ n ih =>
      intro s app hn h hx hp hb hok hQ
      -- a byte on the bus is finished
      have hadv : ∀ b, s.busy = some b → (A.write b app).1 = true ∧
          advance A s = (if s.left = 0 then ended A { s with app := (A.write b app).2, busy := none } else load { s with app := (A.write b app).2, busy := none }) ∧
          writes A (pend s) app = writes A (s.txdr.toList ++ bytesOf s.mem s.wbuf s.wlen) (A.write b app).2 := by
        intro b hbu
        have hp' : pend s = b :: (s.txdr.toList ++ bytesOf s.mem s.wbuf s.wlen) := by simp [pend, hbu]
        have ha : (A.write b app).1 = true := by
          rw [hp', writes] at hok
          cases hh : (A.write b app).1
          · simp [hh] at hok
          · rfl
        refine ⟨ha, ?_, ?_⟩
        · simp only [advance, hp, hbu, h.app, ha, if_true]
        · rw [hp', writes]
          simp [ha]
      by_cases hx' : s.txdr = none ∧ 0 < s.left
      · obtain ⟨ht, hl⟩ := hx'
        have htx : txis s = true := by simp [txis, hp, ht, hl]
        obtain ⟨c, c1, c2, -⟩ := hx.chunk
        have hw : 0 < s.wlen := by simp [ht] at c1; omega
        have hpen : pending s = true := by simp [pending, (hx.some hw).1, htx]
        -- the interrupt is served in time
        have now : ∃ s', isr A T false s = some s' ∧ Leads A T s' Q := by
          obtain ⟨s', e1, e2, e3, e4, e5, e6, e7, e8⟩ := served s t app mem q d op h hx hop hp ht hl
          refine ⟨s', ?_, ?_⟩
          · rw [isr_txis false s t app mem q d h hx.rxdr htx]
            simp only [Bool.false_eq_true, if_false]
            rw [e1]
          · refine ih s' app (by omega) e2 e3 e4 ?_ (by rw [e6]; exact hok) (by rw [e6, e7]; exact hQ)
            intro hh
            simp [hh] at e5
        -- the byte on the bus is finished before
        have adv : ∀ b, s.busy = some b → ∃ s1, advance A s = s1 ∧ Mid s1 t (A.write b app).2 mem q d ∧ Tx s1 op ∧ s1.phase = .tx ∧ s1.txdr = none ∧ 0 < s1.left ∧ s1.busy = none ∧
            writes A (pend s) app = writes A (pend s1) (A.write b app).2 ∧ s1.wlen = s.wlen ∧ s1.rlen = s.rlen := by
          intro b hbu
          obtain ⟨ha, e1, e2⟩ := hadv b hbu
          have e3 : load { s with app := (A.write b app).2, busy := none } = { s with app := (A.write b app).2, busy := none } := by
            simp [load, ht]
          rw [if_neg (by omega), e3] at e1
          refine ⟨_, e1, ⟨h.attached, h.trans, rfl, h.mem, h.queue, h.done, h.error, h.address, h.stopf, h.nackf, h.tc, h.tcr⟩,
            ⟨hx.next, hx.rxdr, hx.shift, hx.rd, hx.more, hx.chunk, hx.rxie, hx.last, hx.some⟩, hp, ht, hl, rfl, ?_, rfl, rfl⟩
          rw [e2]
          simp [pend]
        refine Leads.step fun b _ => ?_
        unfold Modm.I2cStm32Ext.step
        rw [if_pos hpen]
        cases b with
        | inTime => exact now
        | late =>
            simp only
            cases hbu : s.busy with
            | none =>
                rw [if_neg (by simp [moving, hp, hbu])]
                exact now
            | some b =>
                rw [if_pos (by simp [moving, hp, hbu])]
                obtain ⟨s1, e1, e2, e3, e4, e5, e6, e7, e8, e9, e10⟩ := adv b hbu
                refine ⟨s1, by rw [e1], ih s1 _ ?_ e2 e3 e4 (fun _ => ⟨e5, e6⟩) (by rw [← e8]; exact hok) (by rw [← e8, e10]; exact hQ)⟩
                rw [e9, e5, e7]
                simp [ht, hbu] at hn ⊢
                omega
        | race =>
            simp only
            cases hbu : s.busy with
            | none =>
                have : isr A T true s = isr A T false s := by
                  have : advance A s = s := by simp [advance, hp, hbu]
                  simp [isr, this]
                rw [this]
                exact now
            | some b =>
                obtain ⟨s1, e1, e2, e3, e4, e5, e6, e7, e8, e9, e10⟩ := adv b hbu
                obtain ⟨s', f1, f2, f3, f4, f5, f6, f7, f8⟩ := served s1 t _ mem q d op e2 e3 hop e4 e5 e6
                refine ⟨s', ?_, ?_⟩
                · rw [isr_txis true s t app mem q d h hx.rxdr htx]
                  simp only [if_true, e1]
                  rw [f1]
                · refine ih s' _ ?_ f2 f3 f4 ?_ (by rw [f6, ← e8]; exact hok) (by rw [f6, ← e8, f7, e10]; exact hQ)
                  · rw [e9, e5, e7] at f8
                    simp [ht, hbu] at hn f8
                    omega
                  · intro hh
                    simp [hh] at f5
      · -- nothing is to be served
        have htx : txis s = false := by
          simp only [txis, Bool.and_eq_false_iff, decide_eq_false_iff_not]
          by_cases h1 : s.txdr = none
          · exact Or.inr fun h2 => hx' ⟨h1, h2⟩
          · refine Or.inl (Or.inr ?_)
            cases hh : s.txdr with
            | none => exact absurd hh h1
            | some x => rfl
        have hpen : pending s = false := by simp [pending, h.stopf, h.tc, h.tcr, hx.rxdr, htx]
        obtain ⟨b, hbu⟩ : ∃ b, s.busy = some b := by
          cases hh : s.busy with
          | none => exact absurd (hb hh) hx'
          | some b => exact ⟨b, rfl⟩
        obtain ⟨ha, e1, e2⟩ := hadv b hbu
        obtain ⟨c, c1, c2, c3, c4⟩ := hx.chunk
        by_cases hl : s.left = 0
        · rw [if_pos hl] at e1
          have ht : s.txdr = none := by
            cases hh : s.txdr with
            | none => rfl
            | some x => rw [hh] at c1; simp at c1; omega
          have hc : c = 0 := by rw [ht] at c1; simp at c1; omega
          obtain ⟨s1, hs1⟩ : ∃ s1 : St α τ, s1 = { s with app := (A.write b app).2, busy := none } := ⟨_, rfl⟩
          rw [← hs1] at e1
          have m1 : Mid s1 t (A.write b app).2 mem q d := by
            rw [hs1]
            exact ⟨h.attached, h.trans, rfl, h.mem, h.queue, h.done, h.error, h.address, h.stopf, h.nackf, h.tc, h.tcr⟩
          by_cases hw : s.wlen = 0
          · obtain ⟨d1, d2⟩ := c4 (by omega)
            obtain ⟨l1, l2, l3⟩ := hx.last hw
            have := ended_sent (A := A) s1 t _ mem q d op m1 hop (by rw [hs1]; exact hx.rxdr) (by rw [hs1]; exact hx.shift) (by rw [hs1]; exact hw) (by rw [hs1]; exact hx.next)
              (by rw [hs1]) (fun _ => by rw [hs1]; exact hx.rd) (by rw [hs1]; exact d1) (by rw [hs1]; exact d2) (by rw [hs1]; exact l2) (by rw [hs1]; exact l3)
            refine Leads.advance hpen e1 (hQ _ ?_ ?_)
            · rw [e2, ht, hw, bytesOf_zero]
              exact this.1
            · rw [this.2, hs1]
          · have hw' : 0 < s.wlen := by omega
            obtain ⟨p, hwb⟩ := hx.more hw'
            have e3 : ended A s1 = { s1 with phase := .wait, tcr := true } := by
              rw [ended, if_pos (by rw [hs1]; exact c3 (by omega))]
            rw [e3] at e1
            refine Leads.advance hpen e1 ?_
            obtain ⟨s2, hs2⟩ : ∃ s2 : St α τ, s2 = { s1 with phase := .wait, tcr := true, stopie := false, tcie := false, rxie := false, txie := false, stopf := false } := ⟨_, rfl⟩
            obtain ⟨s3, f1, f2, f3, f4, f5, f6, f7, f8, f9, f10, f11⟩ := callWrite_cont s2 p (by rw [hs2]) (by rw [hs2]) (by rw [hs2, hs1]; exact hx.rd) (by rw [hs2, hs1])
              (by rw [hs2, hs1]; exact hw') (by rw [hs2, hs1]; exact hwb) (by rw [hs2, hs1]; exact hx.rxdr) (by rw [hs2, hs1]; exact hx.shift)
            refine Leads.isr (s' := s3) ?_ (Or.inr rfl) ?_ ?_
            · simp [pending, hs1, (hx.some hw').2.2]
            · have w0 : 0 < s1.wlen := by rw [hs1]; exact hw'
              have w1 : s1.rxdr = none := by rw [hs1]; exact hx.rxdr
              have w2 : s1.stopf = false := by rw [hs1]; exact h.stopf
              have w3 : s1.tc = false := by rw [hs1]; exact h.tc
              simp only [isr, w1, w2, w3, txis, enable, onTcr]
              rw [← f1, hs2]
              simp [w0, w1, w3]
            · have hpend : pend s3 = bytesOf s.mem s.wbuf s.wlen := by
                rw [f7, hs2, hs1]
              have hnx : s2.next = op := by rw [hs2, hs1]; exact hx.next
              rw [hnx] at f2
              refine ih s3 (A.write b app).2 ?_ ?_ f2 f3 ?_ ?_ ?_
              · rw [f6, f5, f4, hs2, hs1]
                simp [ht, hbu] at hn ⊢
                omega
              · refine ⟨?_, ?_, ?_, ?_, ?_, ?_, ?_, ?_, ?_, ?_, ?_, f9⟩
                · rw [f11.attached, hs2]; exact m1.attached
                · rw [f11.trans, hs2]; exact m1.trans
                · rw [f11.app, hs2]; exact m1.app
                · rw [f11.mem, hs2]; exact m1.mem
                · rw [f11.queue, hs2]; exact m1.queue
                · rw [f11.done, hs2]; exact m1.done
                · rw [f11.error, hs2]; exact m1.error
                · rw [f11.address, hs2]; exact m1.address
                · rw [f11.stopf, hs2]
                · rw [f11.nackf, hs2]; exact m1.nackf
                · rw [f8, hs2]; exact m1.tc
              · intro hh; rw [f4] at hh; simp at hh
              · rw [hpend]
                rw [e2, ht] at hok
                exact hok
              · rw [hpend]
                rw [e2, ht] at hQ
                have : s3.rlen = s.rlen := by rw [f10, hs2, hs1]
                rw [this]
                exact hQ
        · rw [if_neg hl] at e1
          obtain ⟨x, ht⟩ : ∃ x, s.txdr = some x := by
            cases hh : s.txdr with
            | none => exact absurd ⟨hh, by omega⟩ hx'
            | some x => exact ⟨x, rfl⟩
          have e3 : load { s with app := (A.write b app).2, busy := none } = { s with app := (A.write b app).2, busy := some x, txdr := none, left := s.left - 1 } := by
            have : 0 < s.left := by omega
            simp [load, hp, ht, this]
          rw [e3] at e1
          refine Leads.advance hpen e1 (ih _ (A.write b app).2 ?_ ?_ ?_ hp ?_ ?_ ?_)
          · simp [ht, hbu] at hn ⊢
            omega
          · exact ⟨h.attached, h.trans, rfl, h.mem, h.queue, h.done, h.error, h.address, h.stopf, h.nackf, h.tc, h.tcr⟩
          · refine ⟨hx.next, hx.rxdr, hx.shift, hx.rd, hx.more, ⟨c, ?_, c2, c3, c4⟩, hx.rxie, hx.last, hx.some⟩
            rw [ht] at c1
            simp at c1 ⊢
            omega
          · simp
          · rw [e2, ht] at hok
            exact hok
          · rw [e2, ht] at hQ
            exact hQ

/-! ## Reading -/

/-- The bytes that were received and not yet stored. -/
def got (s : St α τ) : List Byte := s.rxdr.toList ++ s.shift.toList

/-- What is going to be received, and the devices after that. -/
def rest (A : App α) (s : St α τ) : List Byte × α :=
  if s.phase = .rxByte then readN A s.left s.app else readN A s.left (A.acked (decide (s.left ≠ 0)) s.app)

/-- Where the bus is. -/
structure Where (s : St α τ) : Prop where
  phase : s.phase = .rxByte ∨ s.phase = .rxAck ∨ s.phase = .rxHold
  len : s.rlen = s.left + (got s).length
  byte : s.phase = .rxByte → 0 < s.left
  shift : s.phase ≠ .rxHold → s.shift = none
  hold : s.phase = .rxHold → s.rxdr.isSome = true ∧ s.shift.isSome = true

theorem rx_advance (s : St α τ) (t : τ) (app : α) (mem : Nat → Byte) (q : List (τ × Option Nat)) (d : List τ) (p : Nat) (h : Mid s t app mem q d) (hx : Rx s p) (hw : Where s)
    (hp : s.phase ≠ .rxHold) (hl : ¬ (s.phase = .rxAck ∧ s.left = 0)) :
    ∃ s' app', advance A s = s' ∧ Mid s' t app' mem q d ∧ Rx s' p ∧ Where s' ∧ s'.rlen = s.rlen ∧ (s.rxdr.isSome = true → s'.rxdr.isSome = true) ∧
      (got s' ++ (rest A s').1, (rest A s').2) = (got s ++ (rest A s).1, (rest A s).2) ∧
      2 * s'.left + (if s'.phase = .rxByte then 0 else 1) < 2 * s.left + (if s.phase = .rxByte then 0 else 1) := by
  have hsh := hw.shift hp
  rcases hw.phase with hph | hph | hph
  · obtain ⟨n, hn⟩ : ∃ n, s.left = n + 1 := ⟨s.left - 1, by have := hw.byte hph; omega⟩
    have hlen := hw.len
    cases hr : s.rxdr with
    | none =>
        have e : advance A s = { s with app := (A.read app).2, left := n, rxdr := some (A.read app).1, phase := .rxAck } := by
          simp [advance, hph, h.app, hn, hr]
        refine ⟨_, (A.read app).2, e, ⟨h.attached, h.trans, rfl, h.mem, h.queue, h.done, h.error, h.address, h.stopf, h.nackf, h.tc, h.tcr⟩,
          ⟨hx.rbuf, hx.next, hx.reload, hx.autoend, hx.tcie, hx.txie, hx.rlen, hx.wlen, hx.some, hx.last⟩, ⟨Or.inr (Or.inl rfl), ?_, by simp, fun _ => hsh, by simp⟩, rfl, by simp, ?_, ?_⟩
        · simp [got, hr, hsh, hn] at hlen ⊢
          omega
        · simp [got, rest, hr, hsh, hn, hph, h.app, readN]
        · simp [hph, hn]
          omega
    | some x =>
        have e : advance A s = { s with app := (A.read app).2, left := n, shift := some (A.read app).1, phase := .rxHold } := by
          simp [advance, hph, h.app, hn, hr]
        refine ⟨_, (A.read app).2, e, ⟨h.attached, h.trans, rfl, h.mem, h.queue, h.done, h.error, h.address, h.stopf, h.nackf, h.tc, h.tcr⟩,
          ⟨hx.rbuf, hx.next, hx.reload, hx.autoend, hx.tcie, hx.txie, hx.rlen, hx.wlen, hx.some, hx.last⟩, ⟨Or.inr (Or.inr rfl), ?_, by simp, by simp, by simp [hr]⟩, rfl, by simp [hr], ?_, ?_⟩
        · simp [got, hr, hsh, hn] at hlen ⊢
          omega
        · simp [got, rest, hr, hsh, hn, hph, h.app, readN]
        · simp [hph, hn]
          omega
  · have hl' : s.left ≠ 0 := fun x => hl ⟨hph, x⟩
    have e : advance A s = { s with app := A.acked true app, phase := .rxByte } := by
      simp [advance, hph, h.app, hl']
    refine ⟨_, A.acked true app, e, ⟨h.attached, h.trans, rfl, h.mem, h.queue, h.done, h.error, h.address, h.stopf, h.nackf, h.tc, h.tcr⟩,
      ⟨hx.rbuf, hx.next, hx.reload, hx.autoend, hx.tcie, hx.txie, hx.rlen, hx.wlen, hx.some, hx.last⟩,
      ⟨Or.inl rfl, hw.len, fun _ => by simp only; omega, fun _ => hsh, by simp⟩, rfl, id, ?_, ?_⟩
    · simp [got, rest, hph, h.app, hl']
    · simp [hph]
  · exact absurd hph hp

theorem rx_served (s : St α τ) (t : τ) (app : α) (mem : Nat → Byte) (q : List (τ × Option Nat)) (d : List τ) (p : Nat) (h : Mid s t app mem q d) (hx : Rx s p) (hw : Where s)
    (hr : s.rxdr.isSome = true) :
    ∃ s' mem' b r, onRxne false { enable false false false false s with stopf := false } = some s' ∧ Mid s' t app mem' q d ∧ Rx s' (p + 1) ∧ Where s' ∧ s.rlen = s'.rlen + 1 ∧
      got s = b :: r ∧ got s' = r ∧ mem' = Function.update mem p b ∧ rest A s' = rest A s ∧
      2 * s'.left + (if s'.phase = .rxByte then 0 else 1) = 2 * s.left + (if s.phase = .rxByte then 0 else 1) := by
  obtain ⟨b, hb⟩ := Option.isSome_iff_exists.mp hr
  have hlen := hw.len
  have h255 := hx.rlen
  obtain ⟨n, hn⟩ : ∃ n, s.rlen = n + 1 := ⟨s.rlen - 1, by simp [got, hb] at hlen; omega⟩
  have h01 : s.rlen ≠ 0 := by omega
  have hmod : s.rlen - 1 = n := by omega
  cases hs : s.shift with
  | none =>
      have hp : s.phase ≠ .rxHold := by
        intro hc
        have := (hw.hold hc).2
        simp [hs] at this
      have e : onRxne false { enable false false false false s with stopf := false } =
          some { s with stopf := false, mem := Function.update s.mem p b, rxdr := none, rbuf := some (p + 1), rlen := n, rxie := decide (n ≠ 0), stopie := decide (n = 0), tcie := false, txie := false } := by
        simp only [onRxne, enable, hx.rbuf, hb, readRxdr, hs, h01, if_false, hmod, hx.next]
        by_cases h0 : n = 0
        · subst h0
          simp
        · have : 0 < n := by omega
          simp [h0, this]
      refine ⟨_, Function.update mem p b, b, [], e, ⟨h.attached, h.trans, h.app, by simp only [h.mem], h.queue, h.done, h.error, h.address, rfl, h.nackf, h.tc, h.tcr⟩,
        ⟨rfl, hx.next, hx.reload, hx.autoend, rfl, rfl, by simp only; omega, hx.wlen, fun x => by simp only at x ⊢; simp; omega, fun x => by simp only at x ⊢; simp [x]⟩,
        ⟨hw.phase, ?_, hw.byte, fun x => hs, fun x => absurd x hp⟩, hn, ?_, ?_, rfl, rfl, rfl⟩
      · simp [got, hb, hs] at hlen ⊢
        omega
      · simp [got, hb, hs]
      · simp [got, hs]
  | some y =>
      have hp : s.phase = .rxHold := by
        by_contra hc
        have := hw.shift hc
        simp [hs] at this
      have e : onRxne false { enable false false false false s with stopf := false } =
          some { s with stopf := false, mem := Function.update s.mem p b, rxdr := some y, shift := none, phase := .rxAck, rbuf := some (p + 1), rlen := n, rxie := decide (n ≠ 0), stopie := decide (n = 0), tcie := false, txie := false } := by
        simp only [onRxne, enable, hx.rbuf, hb, readRxdr, hs, h01, if_false, hmod, hx.next]
        by_cases h0 : n = 0
        · subst h0
          simp
        · have : 0 < n := by omega
          simp [h0, this]
      refine ⟨_, Function.update mem p b, b, [y], e, ⟨h.attached, h.trans, h.app, by simp only [h.mem], h.queue, h.done, h.error, h.address, rfl, h.nackf, h.tc, h.tcr⟩,
        ⟨rfl, hx.next, hx.reload, hx.autoend, rfl, rfl, by simp only; omega, hx.wlen, fun x => by simp only at x ⊢; simp; omega, fun x => by simp only at x ⊢; simp [x]⟩,
        ⟨Or.inr (Or.inl rfl), ?_, by simp, fun x => rfl, by simp⟩, hn, ?_, ?_, rfl, ?_, ?_⟩
      · simp [got, hb, hs] at hlen ⊢
        omega
      · simp [got, hb, hs]
      · simp [got]
      · simp [rest, hp]
      · simp [hp]

/-- The last byte comes with the STOP condition. -/
theorem rx_end {I : τ → Prop} (hP : Plain T I) (s : St α τ) (t : τ) (app : α) (mem : Nat → Byte) (q : List (τ × Option Nat)) (d : List τ) (p : Nat) (b : Byte)
    (h : Stopped s t app mem q d) (hx : Rx s p) (hr : s.rxdr = some b) (hl : s.rlen = 1) (hs : s.stopf = true) (hn : s.nackf = false)
    (hc : NoChain T I ∨ q = []) (hI : ∀ x ∈ q, I x.1) : Leads A T s (After T I q d ⟨.noError, T.detaching .normalStop t, app, Function.update mem p b⟩) := by
  obtain ⟨s1, hs1⟩ : ∃ s1 : St α τ, s1 = { s with mem := Function.update mem p b, rxdr := none, rbuf := some (p + 1), rlen := 0 } := ⟨_, rfl⟩
  obtain ⟨s', h1, h2⟩ := closed hP s1 .normalStop t app (Function.update mem p b) q d .noError
    (by rw [hs1]; exact ⟨h.attached, h.trans, h.app, rfl, h.queue, h.done, h.error, h.address, h.phase, h.shift, h.tc, h.tcr, h.wlen⟩) (by rw [hs1]) hc hI
  refine Leads.isr (by simp [pending, hx.some (by omega), hr]) (Or.inl h.phase) (s' := s') ?_ (Leads.now h2)
  have ht : txis s = false := by simp [txis, h.phase]
  have h01 : s.rlen ≠ 0 := by omega
  have h11 : s.rlen - 1 = 0 := by omega
  have e1 : onRxne true { enable false false false false s with stopf := false } =
      some { s1 with stopie := false, tcie := false, rxie := false, txie := false, stopf := false, nackf := false, error := .noError } := by
    rw [hs1]
    simp only [onRxne, enable, hx.rbuf, hr, readRxdr, h.shift, h01, if_false, h11, hx.next, h.mem, hn, h.error]
    simp
  have e2 : Modm.I2cStm32Ext.isr A T false s = (onRxne true { enable false false false false s with stopf := false }).bind (onStopf T false) := by
    simp [Modm.I2cStm32Ext.isr, hr, hs, hn, h.tc, h.tcr, ht]
  rw [e2, e1, Option.bind_some, onStopf, if_neg (by simp), if_pos (by rw [hs1]; exact hx.next), h1]

theorem rx_loop {I : τ → Prop} (hP : Plain T I) (t : τ) (q : List (τ × Option Nat)) (d : List τ) (hc : NoChain T I ∨ q = []) (hI : ∀ x ∈ q, I x.1) (n : Nat) :
    ∀ (s : St α τ) (app : α) (mem : Nat → Byte) (p : Nat), 2 * s.left + (if s.phase = .rxByte then 0 else 1) + s.rlen ≤ n → Mid s t app mem q d → Rx s p → Where s →
    Leads A T s (After T I q d ⟨.noError, T.detaching .normalStop t, A.stop (rest A s).2, stored mem p (got s ++ (rest A s).1)⟩) := by
  induction n with
  | zero =>
      intro s app mem p hn h hx hw
      rcases hw.phase with hp | hp | hp
      · have := hw.byte hp
        omega
      · simp [hp] at hn
      · simp [hp] at hn
  | succ n ih =>
      intro s app mem p hn h hx hw
      have ht : txis s = false := by
        rcases hw.phase with hp | hp | hp <;> simp [txis, hp]
      -- STOP after the last byte
      have last : s.phase = .rxAck → s.left = 0 → ∃ s1, advance A s = s1 ∧ Stopped s1 t (A.stop (rest A s).2) mem q d ∧ Rx s1 p ∧ s1.rxdr = s.rxdr ∧ s1.rlen = s.rlen ∧
          s1.stopf = true ∧ s1.nackf = false ∧ (rest A s).1 = [] := by
        intro hp hl
        have e : advance A s = { s with app := A.stop (A.acked false app), phase := .idle, busy := none, stopf := true } := by
          simp [advance, hp, hl, hx.reload, ended, hx.autoend, sendStop, h.app]
        refine ⟨_, e, ⟨h.attached, h.trans, ?_, h.mem, h.queue, h.done, h.error, h.address, rfl, ?_, h.tc, h.tcr, hx.wlen⟩,
          ⟨hx.rbuf, hx.next, hx.reload, hx.autoend, hx.tcie, hx.txie, hx.rlen, hx.wlen, hx.some, hx.last⟩, rfl, rfl, rfl, h.nackf, ?_⟩
        · simp [rest, hp, hl, readN, h.app]
        · exact hw.shift (by simp [hp])
        · simp [rest, hp, hl, readN]
      by_cases hr : s.rxdr.isSome = true
      · have hpos : 0 < s.rlen := by
          have := hw.len
          obtain ⟨b, hb⟩ := Option.isSome_iff_exists.mp hr
          simp [got, hb] at this
          omega
        have hpen : pending s = true := by simp [pending, hx.some hpos, hr]
        have eisr : ∀ race, isr A T race s = onRxne false { enable false false false false (if race then advance A s else s) with stopf := false } := by
          intro race
          simp [isr, hr, h.stopf, h.tc, h.tcr, ht]
        have now : ∃ s', isr A T false s = some s' ∧ Leads A T s' (After T I q d ⟨.noError, T.detaching .normalStop t, A.stop (rest A s).2, stored mem p (got s ++ (rest A s).1)⟩) := by
          obtain ⟨s', mem', b, r, e1, e2, e3, e4, e5, e6, e7, e8, e9, e10⟩ := rx_served (A := A) s t app mem q d p h hx hw hr
          refine ⟨s', by rw [eisr]; exact e1, ?_⟩
          have := ih s' app mem' (p + 1) (by omega) e2 e3 e4
          rw [e9, e7, e8] at this
          rw [e6, List.cons_append, Lemmas.I2cMaster.stored_cons]
          exact this
        refine Leads.step fun c hfine => ?_
        unfold Modm.I2cStm32Ext.step
        rw [if_pos hpen]
        cases c with
        | inTime => exact now
        | late =>
            simp only
            by_cases hhold : s.phase = .rxHold
            · rw [if_neg (by simp [moving, hhold])]
              exact now
            · rw [if_pos (by rcases hw.phase with hp | hp | hp <;> simp [moving, hp] at hhold ⊢)]
              by_cases hlast : s.phase = .rxAck ∧ s.left = 0
              · obtain ⟨s1, e1, e2, e3, e4, e5, e6, e7, e8⟩ := last hlast.1 hlast.2
                obtain ⟨b, hb⟩ := Option.isSome_iff_exists.mp hr
                have hlen := hw.len
                have hsh := hw.shift hhold
                have := rx_end (A := A) hP s1 t _ mem q d p b e2 e3 (by rw [e4, hb]) (by rw [e5, hlen]; simp [got, hb, hsh, hlast.2]) e6 e7 hc hI
                refine ⟨s1, by rw [e1], ?_⟩
                rw [e8, List.append_nil]
                have hg : got s = [b] := by simp [got, hb, hsh]
                rw [hg, Lemmas.I2cMaster.stored_cons, Lemmas.I2cMaster.stored_nil]
                exact this
              · obtain ⟨s1, app', e1, e2, e3, e4, e5, e6, e7, e8⟩ := rx_advance (A := A) s t app mem q d p h hx hw hhold hlast
                refine ⟨s1, by rw [e1], ?_⟩
                have := ih s1 app' mem p (by omega) e2 e3 e4
                simp only [Prod.mk.injEq] at e7
                rw [e7.1, e7.2] at this
                exact this
        | race =>
            simp only
            by_cases hhold : s.phase = .rxHold
            · have : isr A T true s = isr A T false s := by
                have : advance A s = s := by simp [advance, hhold]
                simp [isr, this]
              rw [this]
              exact now
            · have hlast : ¬ (s.phase = .rxAck ∧ s.left = 0) := fun x => hfine x.1 x.2 rfl
              obtain ⟨s1, app', e1, e2, e3, e4, e5, e6, e7, e8⟩ := rx_advance (A := A) s t app mem q d p h hx hw hhold hlast
              obtain ⟨s', mem', b, r, f1, f2, f3, f4, f5, f6, f7, f8, f9, f10⟩ := rx_served (A := A) s1 t app' mem q d p e2 e3 e4 (e6 hr)
              refine ⟨s', by rw [eisr, if_pos rfl, e1]; exact f1, ?_⟩
              have := ih s' app' mem' (p + 1) (by omega) f2 f3 f4
              simp only [Prod.mk.injEq] at e7
              rw [← e7.1, ← e7.2, f6, List.cons_append, Lemmas.I2cMaster.stored_cons]
              rw [f9, f7, f8] at this
              exact this
      · have hr' : s.rxdr = none := by simpa using hr
        have hpen : pending s = false := by simp [pending, h.stopf, h.tc, h.tcr, hr', ht]
        have hhold : s.phase ≠ .rxHold := fun x => hr (hw.hold x).1
        by_cases hlast : s.phase = .rxAck ∧ s.left = 0
        · obtain ⟨s1, e1, e2, e3, e4, e5, e6, e7, e8⟩ := last hlast.1 hlast.2
          have hlen := hw.len
          have hsh := hw.shift hhold
          have hg : got s = [] := by simp [got, hr', hsh]
          have h0 : s1.rlen = 0 := by rw [e5, hlen, hlast.2, hg]; rfl
          refine Leads.advance hpen e1 ?_
          rw [e8, hg, List.append_nil, Lemmas.I2cMaster.stored_nil]
          exact stop_end hP s1 t _ mem q d e2 (by rw [e4, hr']) e6 (e3.last h0).2 e7 e3.next hc hI
        · obtain ⟨s1, app', e1, e2, e3, e4, e5, e6, e7, e8⟩ := rx_advance (A := A) s t app mem q d p h hx hw hhold hlast
          refine Leads.advance hpen e1 ?_
          have := ih s1 app' mem p (by omega) e2 e3 e4
          simp only [Prod.mk.injEq] at e7
          rw [e7.1, e7.2] at this
          exact this

/-! ## Whole transactions -/

/-- A transaction begins with no more than one byte that is written. -/
def Quiet (T : Transaction τ) (I : τ → Prop) : Prop := ∀ t, I t → (T.starting t).1.next = .write →
  lengthOf (T.writing (T.starting t).2).1.buffer (T.writing (T.starting t).2).1.length ≤ 1 ∧ (T.writing (T.starting t).2).1.next = .stop

/-- How a transaction may end. -/
def Good (T : Transaction τ) (I : τ → Prop) (e : Error) : Prop := e = .noError ∨ (e = .addressNack ∧ Quiet T I)

/-- From the next operation on. -/
def Goes (A : App α) (T : Transaction τ) (I : τ → Prop) (k : Nat) : Prop :=
  ∀ op t app mem r q d (s : St α τ), op ≠ .read → (op = .write → 0 < lengthOf (T.writing t).1.buffer (T.writing t).1.length ∧ s.rlen = 0) → I t →
    ideal A T k (fetch T op t).1 (fetch T op t).2 app mem = some (true, r) → Good T I r.error → Sent A s t app mem q d op → (NoChain T I ∨ (q = [] ∧ s.rlen = 0)) →
    (∀ x ∈ q, I x.1) → Leads A T s (After T I q d r)

/-- From a START condition on. -/
def Begins (A : App α) (T : Transaction τ) (I : τ → Prop) (k : Nat) : Prop :=
  ∀ t app mem r q d (s : St α τ), I t → ideal A T k .restart t app mem = some (true, r) → Good T I r.error → Started T I s t app mem q d →
    (∀ x ∈ q, I x.1) → Leads A T s (After T I q d r)

theorem ideal_write_ok {k : Nat} {w : Writing} {t : τ} {app : α} {mem : Nat → Byte} {r : Result α τ}
    (h : ideal A T (k + 1) (.write w) t app mem = some (true, r)) (hw : (writes A (bytesOf mem w.buffer w.length) app).1 = true) :
    ideal A T k (fetch T w.next t).1 (fetch T w.next t).2 (writes A (bytesOf mem w.buffer w.length) app).2 mem = some (true, r) ∧
      (w.next = .write → bytesOf mem (T.writing t).1.buffer (T.writing t).1.length ≠ []) := by
  simp only [ideal, hw, if_true, Option.map_eq_some_iff] at h
  obtain ⟨⟨b, r'⟩, h1, h2⟩ := h
  simp only [Prod.mk.injEq, Bool.and_eq_true] at h2
  obtain ⟨⟨h5, h3⟩, h4⟩ := h2
  subst h3 h4
  refine ⟨h1, fun hn => ?_⟩
  rw [hn] at h5
  simpa [fetch] using h5

theorem ideal_write_good {I : τ → Prop} {k : Nat} {w : Writing} {t : τ} {app : α} {mem : Nat → Byte} {r : Result α τ}
    (h : ideal A T (k + 1) (.write w) t app mem = some (true, r)) (hg : Good T I r.error) : (writes A (bytesOf mem w.buffer w.length) app).1 = true := by
  by_contra hw
  simp only [ideal, hw] at h
  simp only [Bool.false_eq_true, if_false, Option.some.injEq, Prod.mk.injEq, true_and] at h
  rw [← h] at hg
  rcases hg with hg | hg <;> simp at hg

theorem bytesOf_length (mem : Nat → Byte) (b : Option Nat) (n : Nat) : (bytesOf mem b n).length = lengthOf b n := by
  cases b <;> simp [bytesOf, lengthOf]

/-- A buffer is being written. -/
theorem write_phase {I : τ → Prop} (hP : Plain T I) (k : Nat) (hg : ∀ j, j < k → Goes A T I j) (u : τ) (hI : I u) (w : Writing) (hw : w = (T.writing u).1) (app : α) (mem : Nat → Byte) (r : Result α τ)
    (q : List (τ × Option Nat)) (d : List τ) (s : St α τ) (hr : ideal A T k (.write w) (T.writing u).2 app mem = some (true, r)) (hgd : Good T I r.error)
    (h : Mid s (T.writing u).2 app mem q d) (hx : Tx s w.next) (hp : s.phase = .tx) (hb : s.busy.isSome = true) (hpend : pend s = bytesOf mem w.buffer w.length)
    (hc : NoChain T I ∨ (q = [] ∧ s.rlen = 0)) (hq : ∀ x ∈ q, I x.1) : Leads A T s (After T I q d r) := by
  obtain ⟨w1, w2, w3⟩ := hP.writing u hI
  rw [← hw] at w1 w3
  cases k with
  | zero => simp [ideal] at hr
  | succ k =>
      have ok := ideal_write_good hr hgd
      obtain ⟨h1, h2⟩ := ideal_write_ok hr ok
      refine tx_loop _ mem q d w.next w1 _ _ s app (Nat.le_refl _) h hx hp (fun hh => by simp [hh] at hb) (by rw [hpend]; exact ok) ?_
      intro s6 hs6 hl6
      rw [hpend] at hs6
      refine hg k (by omega) w.next _ _ mem r q d s6 w1 ?_ w2 h1 hgd hs6 (by rw [hl6]; exact hc) hq
      intro hn
      refine ⟨?_, ?_⟩
      · have := h2 hn
        rw [← bytesOf_length mem]
        exact List.length_pos_iff.mpr this
      · rw [hl6]
        refine (hc.resolve_left fun x => x u hI ?_).2
        rw [← hw]
        exact hn

theorem goes {I : τ → Prop} (hP : Plain T I) (k : Nat) (hg : ∀ j, j < k → Goes A T I j) (hb : Begins A T I k) : Goes A T I k := by
  intro op t app mem r q d s hop hw hI hr hgd hs hc hq
  have hc' : NoChain T I ∨ q = [] := hc.imp id fun x => x.1
  cases op with
  | read => exact absurd rfl hop
  | stop =>
      cases k with
      | zero => simp [ideal] at hr
      | succ k =>
          simp only [fetch, ideal, Option.some.injEq, Prod.mk.injEq, true_and] at hr
          obtain ⟨h1, h2, h3, h4, h5, h6⟩ := hs.stop rfl
          rw [← hr]
          exact stop_end hP s t _ mem q d ⟨hs.attached, hs.trans, h2, hs.mem, hs.queue, hs.done, hs.error, hs.address, h1, hs.shift, h5, h6, hs.wlen⟩ hs.rxdr h3 h4 hs.nackf hs.next hc' hq
  | restart =>
      obtain ⟨h1, h2, h3, h4, h5, h6⟩ := hs.restart rfl
      obtain ⟨s', e1, e2⟩ := started_of hP { s with stopie := false, tcie := false, rxie := false, txie := false, stopf := false } t app mem q d hI
        ⟨hs.attached, hs.trans, h2, hs.mem, hs.queue, hs.done, rfl, hs.nackf, h5, by simp [h1], hs.rxdr, hs.shift, hs.wlen, hc⟩
      refine Leads.isr (s' := s') (by simp [pending, h3, h4]) (Or.inr h1) ?_ (hb t app mem r q d s' hI hr hgd e2 hq)
      have ht : txis s = false := by simp [txis, h1]
      have hn : s.next = .restart := hs.next
      rw [← e1]
      simp [isr, hs.rxdr, h6, h5, h3, ht, enable, onTc, hn]
  | write =>
      obtain ⟨h1, h2, h3, h4, h5, h6, h7, h8⟩ := hs.write rfl
      obtain ⟨w1, w2⟩ := hw rfl
      have hn : s.next = .write := hs.next
      obtain ⟨s1, hs1⟩ : ∃ s1 : St α τ, s1 = fetchWriting T { s with stopie := false, tcie := false, rxie := false, txie := false, stopf := false } := ⟨_, rfl⟩
      have k1 : s1.wlen = lengthOf (T.writing t).1.buffer (T.writing t).1.length := by rw [hs1]; simp only [fetchWriting, hs.trans]
      have k2 : s1.wbuf = (T.writing t).1.buffer := by rw [hs1]; simp only [fetchWriting, hs.trans]
      have k3 : s1.next = (T.writing t).1.next := by rw [hs1]; simp only [fetchWriting, hs.trans]
      have k4 : s1.trans = (T.writing t).2 := by rw [hs1]; simp only [fetchWriting, hs.trans]
      obtain ⟨p, hp⟩ : ∃ p, (T.writing t).1.buffer = some p := by
        cases hh : (T.writing t).1.buffer with
        | none => simp [hh, lengthOf] at w1
        | some p => exact ⟨p, rfl⟩
      obtain ⟨s3, f1, f2, f3, f4, f5, f6, f7, f8, f9, f10, f11⟩ := callWrite_cont s1 p (by rw [hs1]; exact h1) (by rw [hs1]; exact h3) (by rw [hs1]; exact h7) (by rw [hs1]; exact h8)
        (by rw [k1]; exact w1) (by rw [k2, hp]) (by rw [hs1]; exact hs.rxdr) (by rw [hs1]; exact hs.shift)
      have ht : txis s = false := by simp [txis, h1]
      refine Leads.isr (s' := s3) (by simp [pending, h3, h4]) (Or.inr h1) ?_ ?_
      · rw [← f1, hs1]
        simp [isr, hs.rxdr, h6, h3, h5, ht, enable, onTcr, hs.wlen, w2, hn, hs.attached]
      · rw [k3] at f2
        refine write_phase hP k hg t hI _ rfl app mem r q d s3 hr hgd ?_ f2 f3 (by rw [f4]; rfl) ?_ (by rw [f10, hs1]; exact hc) hq
        · refine ⟨?_, ?_, ?_, ?_, ?_, ?_, ?_, ?_, ?_, ?_, ?_, f9⟩
          · rw [f11.attached, hs1]; exact hs.attached
          · rw [f11.trans, k4]
          · rw [f11.app, hs1]; exact h2
          · rw [f11.mem, hs1]; exact hs.mem
          · rw [f11.queue, hs1]; exact hs.queue
          · rw [f11.done, hs1]; exact hs.done
          · rw [f11.error, hs1]; exact hs.error
          · rw [f11.address, hs1]; exact hs.address
          · rw [f11.stopf, hs1]; rfl
          · rw [f11.nackf, hs1]; exact hs.nackf
          · rw [f8, hs1]; exact h5
        · have k5 : s1.mem = mem := by rw [hs1]; exact hs.mem
          rw [f7, k1, k2, k5, bytesOf_lengthOf]

theorem begins {I : τ → Prop} (hP : Plain T I) (k : Nat) (hg : ∀ j, j < k → Goes A T I j) : Begins A T I k := by
  intro t app mem r q d s hI hr hgd hs hq
  have hm := hs.mid
  have hc' : NoChain T I ∨ q = [] := hs.clean.imp id fun x => x.1
  obtain ⟨p1, p2, p3⟩ := hP.starting t hI
  cases k with
  | zero => simp [ideal] at hr
  | succ k =>
      have ht : txis s = false := by simp [txis, hs.phase]
      have hpen : pending s = false := by simp [pending, hm.stopf, hm.tc, hm.tcr, hs.rxdr, ht]
      rw [ideal] at hr
      obtain ⟨app1, happ1⟩ : ∃ app1, app1 = (A.address (addressByte (T.starting t).1) (A.start app)).2 := ⟨_, rfl⟩
      cases hx : (A.address (addressByte (T.starting t).1) (A.start app)).1 with
      | false =>
          rw [hx] at hr
          simp only [Bool.false_eq_true, if_false, Option.some.injEq, Prod.mk.injEq, true_and, ← happ1] at hr
          have hqt : Quiet T I := by
            rw [← hr] at hgd
            rcases hgd with hgd | hgd
            · simp at hgd
            · exact hgd.2
          have hrest : s.wlen = 0 ∧ s.stopie = true := by
            cases hop : (T.starting t).1.next with
            | restart => exact absurd hop p1
            | stop => exact ⟨(hs.stop hop).wlen, by simpa using (hs.stop hop).stopie⟩
            | read =>
                obtain ⟨r1, r2, r3, p, r4⟩ := hP.reading t hI hop
                obtain ⟨a1, a2, a3, a4⟩ := hs.read hop p r4 r3
                exact ⟨a1.wlen, a4⟩
            | write =>
                obtain ⟨q1, q2⟩ := hqt t hI hop
                by_cases h0 : lengthOf (T.writing (T.starting t).2).1.buffer (T.writing (T.starting t).2).1.length = 0
                · have := hs.empty hop h0
                  refine ⟨this.wlen, ?_⟩
                  rw [this.stopie, q2]
                  rfl
                · obtain ⟨a1, a2, a3, a4⟩ := hs.write hop (by omega)
                  have hw0 : s.wlen = 0 := by omega
                  refine ⟨hw0, ?_⟩
                  rw [(a1.last hw0).2.1, q2]
                  rfl
          have e : advance A s = sendStop A { s with app := app1, nackf := true } := by
            simp only [advance, hs.phase, hs.cmd, hm.app, hx, ← happ1]
            simp
          refine Leads.advance hpen e ?_
          rw [← hr]
          exact nack_end hP _ _ _ mem q d ⟨hm.attached, hm.trans, rfl, hm.mem, hm.queue, hm.done, hm.error, hm.address, rfl, hs.shift, hm.tc, hm.tcr, hrest.1⟩ hs.rxdr rfl hrest.2 rfl hc' hq
      | true =>
          rw [hx] at hr
          simp only [if_true, ← happ1] at hr
          obtain ⟨s1, hs1⟩ : ∃ s1 : St α τ, s1 = { s with app := app1 } := ⟨_, rfl⟩
          have e : advance A s = (if s1.left = 0 then (if s1.reload then { s1 with phase := .stuck } else ended A s1)
              else load { s1 with phase := if s1.cmd.getLsbD 0 then .rxByte else .tx }) := by
            simp only [advance, hs.phase, hs.cmd, hm.app, hx, ← happ1, if_true, hs1]
          have hdir : s1.cmd.getLsbD 0 = decide ((T.starting t).1.next = .read) := by
            rw [← address_dir, ← hs.cmd, hs1]
          have m1 : Mid s1 (fetch T (T.starting t).1.next (T.starting t).2).2 app1 mem q d := by
            rw [hs1]
            exact ⟨hm.attached, hm.trans, rfl, hm.mem, hm.queue, hm.done, hm.error, hm.address, hm.stopf, hm.nackf, hm.tc, hm.tcr⟩
          have empty : ∀ op, op ≠ .read → op ≠ .write → Empty s op → Sent A (ended A s1) (fetch T (T.starting t).1.next (T.starting t).2).2 app1 mem q d op ∧ (ended A s1).rlen = s.rlen ∧ advance A s = ended A s1 := by
            intro op ho1 ho2 he
            have := ended_sent (A := A) s1 _ app1 mem q d op m1 ho1 (by rw [hs1]; exact hs.rxdr) (by rw [hs1]; exact hs.shift) (by rw [hs1]; exact he.wlen) (by rw [hs1]; exact he.next)
              (by rw [hs1]; exact hs.busy) (fun x => absurd x ho2) (by rw [hs1]; simp [he.reload, ho2]) (by rw [hs1]; exact he.autoend) (by rw [hs1]; exact he.stopie) (by rw [hs1]; exact he.tcie)
            refine ⟨this.1, by rw [this.2, hs1], ?_⟩
            rw [e, if_pos (by rw [hs1]; exact he.left), if_neg (by rw [hs1]; simp [he.reload])]
          cases hop : (T.starting t).1.next with
          | restart => exact absurd hop p1
          | stop =>
              obtain ⟨a1, a2, a3⟩ := empty .stop (by simp) (by simp) (hs.stop hop)
              rw [hop] at hr a1
              refine Leads.advance hpen a3 (hg k (by omega) .stop _ _ mem r q d _ (by simp) (by simp) p3 hr hgd a1 ?_ hq)
              rw [a2]
              exact hs.clean.imp id fun x => ⟨x.1, x.2 (by simp [hop])⟩
          | write =>
              rw [hop] at hr m1
              have hcl : NoChain T I ∨ (q = [] ∧ s.rlen = 0) := hs.clean.imp id fun x => ⟨x.1, x.2 (by simp [hop])⟩
              obtain ⟨w1, w2, w3⟩ := hP.writing _ p3
              by_cases h0 : lengthOf (T.writing (T.starting t).2).1.buffer (T.writing (T.starting t).2).1.length = 0
              · have hnw : (T.writing (T.starting t).2).1.next ≠ .write := fun x => by have := w3 x; omega
                obtain ⟨a1, a2, a3⟩ := empty _ w1 hnw (hs.empty hop h0)
                rw [hop] at a1
                cases k with
                | zero => simp [ideal] at hr
                | succ k =>
                    have hnil : bytesOf mem (T.writing (T.starting t).2).1.buffer (T.writing (T.starting t).2).1.length = [] := by
                      rw [← List.length_eq_zero_iff, bytesOf_length, h0]
                    obtain ⟨i1, -⟩ := ideal_write_ok hr (by rw [hnil]; rfl)
                    rw [hnil] at i1
                    exact Leads.advance hpen a3 (hg k (by omega) _ _ _ mem r q d _ w1 (fun x => absurd x hnw) w2 i1 hgd a1 (by rw [a2]; exact hcl) hq)
              · obtain ⟨a1, a2, a3, a4⟩ := hs.write hop (by omega)
                obtain ⟨b, hb⟩ : ∃ b, s.txdr = some b := by
                  cases hh : s.txdr with
                  | some b => exact ⟨b, rfl⟩
                  | none =>
                      exfalso
                      have := congrArg List.length a3
                      rw [hh] at this
                      simp only [Option.toList_none, List.nil_append, bytesOf_length] at this
                      have h5 : lengthOf s.wbuf s.wlen ≤ s.wlen := by cases s.wbuf <;> simp [lengthOf]
                      omega
                rw [hop] at hdir
                have e2 : advance A s = { s with app := app1, phase := .tx, busy := some b, txdr := none, left := s.left - 1 } := by
                  have : 0 < s.left := by omega
                  rw [e, if_neg (by rw [hs1]; exact a2), hdir, hs1]
                  simp [load, hs.busy, hb, this]
                obtain ⟨c, c1, c2, c3, c4⟩ := a1.chunk
                refine Leads.advance hpen e2 (write_phase hP k (fun j hj => hg j (by omega)) (T.starting t).2 p3 _ rfl app1 mem r q d _ hr hgd ?_ ?_ rfl rfl ?_ hcl hq)
                · exact ⟨hm.attached, by have := hm.trans; rw [hop] at this; exact this, rfl, hm.mem, hm.queue, hm.done, hm.error, hm.address, hm.stopf, hm.nackf, hm.tc, hm.tcr⟩
                · refine ⟨a1.next, a1.rxdr, a1.shift, a1.rd, a1.more, ⟨c, ?_, c2, c3, c4⟩, a1.rxie, a1.last, a1.some⟩
                  rw [hb] at c1
                  simp at c1 ⊢
                  omega
                · rw [← a3, hb]
                  simp [pend]
          | read =>
              rw [hop] at hr m1 hdir
              obtain ⟨r1, r2, r3, p, r4⟩ := hP.reading t hI hop
              obtain ⟨a1, a2, a3, a4⟩ := hs.read hop p r4 r3
              have e2 : advance A s = { s with app := app1, phase := .rxByte } := by
                rw [e, if_neg (by rw [hs1]; simp only; omega), hdir, hs1]
                simp [load]
              cases k with
              | zero => simp [ideal] at hr
              | succ k =>
                  simp only [fetch, ideal, r1, r4] at hr
                  simp only [Option.map_eq_some_iff] at hr
                  obtain ⟨⟨b, r'⟩, i1, i2⟩ := hr
                  simp only [Prod.mk.injEq] at i2
                  obtain ⟨i3, i4⟩ := i2
                  subst i4
                  cases k with
                  | zero => simp [ideal] at i1
                  | succ k =>
                      simp only [ideal, Option.some.injEq, Prod.mk.injEq] at i1
                      rw [← i1.2]
                      refine Leads.advance hpen e2 ?_
                      have hw : Where { s with app := app1, phase := .rxByte } :=
                        ⟨Or.inl rfl, by simp [got, hs.rxdr, hs.shift, a3], fun _ => by simp only; omega, fun _ => hs.shift, by simp⟩
                      have := rx_loop (A := A) hP (T.reading (T.starting t).2).2 q d hc' hq _ { s with app := app1, phase := .rxByte } app1 mem p (Nat.le_refl _)
                        ⟨hm.attached, by have := hm.trans; rw [hop] at this; exact this, rfl, hm.mem, hm.queue, hm.done, hm.error, hm.address, hm.stopf, hm.nackf, hm.tc, hm.tcr⟩
                        ⟨a1.rbuf, a1.next, a1.reload, a1.autoend, a1.tcie, a1.txie, a1.rlen, a1.wlen, a1.some, a1.last⟩ hw
                      simpa only [got, rest, hs.rxdr, hs.shift, Option.toList_none, List.nil_append, if_true, a3, a2] using this

theorem all {I : τ → Prop} (hP : Plain T I) (k : Nat) : Begins A T I k ∧ Goes A T I k := by
  induction k using Nat.strongRecOn with
  | ind k ih =>
      have h := begins hP k (fun j hj => (ih j hj).2)
      exact ⟨h, goes hP k (fun j hj => (ih j hj).2) h⟩

/-! ## The end -/

/-- Nothing is to be served, and the bus does not move. -/
def Still (s : St α τ) : Prop := pending s = false ∧ (s.phase = .idle ∨ s.phase = .wait ∨ s.phase = .stuck)

theorem still_run (s : St α τ) (h : Still s) (n : Nat) : ∀ c, run A T n c s = some s := by
  have e : ∀ b, Modm.I2cStm32Ext.step A T b s = some s := by
    intro b
    unfold Modm.I2cStm32Ext.step
    rw [if_neg (by simp [h.1])]
    rcases h.2 with hp | hp | hp <;> simp [advance, hp]
  induction n with
  | zero => intro c; rfl
  | succ n ih => intro c; rw [run, e, Option.bind_some, ih]

theorem Idle.still {s : St α τ} (h : Idle s) : Still s := by
  refine ⟨?_, Or.inl h.phase⟩
  simp [pending, h.ie]

/-- A transaction is over and nothing else is to be done: what the master, the object, the devices and the memory are like. -/
structure Over (s0 : St α τ) (r : Result α τ) (s : St α τ) : Prop where
  idle : Idle s
  queue : s.queue = []
  app : s.app = r.app
  mem : s.mem = r.mem
  error : s.error = r.error
  done : s.done = s0.done ++ [r.trans]

variable (A T)

/-- Whenever interrupts are served (but for the critical moment): in the end this holds, and nothing happens any more. -/
def Finally (s : St α τ) (Q : St α τ → Prop) : Prop :=
  ∀ c, Fine c → ∃ n s', Q s' ∧ ∀ m, n ≤ m → run A T m c s = some s'

variable {A T}

theorem Leads.finally {s : St α τ} {Q : St α τ → Prop} (h : Leads A T s Q) (hQ : ∀ s', Q s' → Idle s') : Finally A T s Q := by
  intro c hf
  obtain ⟨n, s', h1, h2⟩ := h c hf
  refine ⟨n, s', h2, fun m hm => ?_⟩
  obtain ⟨d, rfl⟩ := Nat.exists_eq_add_of_le hm
  rw [run_add n d c s s' h1, still_run s' (hQ s' h2).still]

theorem start_idle {I : τ → Prop} (hP : Plain T I) (cap : Nat) (t : τ) (h : Option Nat) (s : St α τ) (hi : Idle s) (hq : s.queue = []) (hc : 0 < cap)
    (ht : (T.attaching (T.starting t).2).1 = true) (hI : I (T.attaching (T.starting t).2).2) (hcl : NoChain T I ∨ s.rlen = 0) :
    ∃ s', Modm.I2cStm32Ext.start T cap (some t) h s = some (true, none, s') ∧ Started T I s' (T.attaching (T.starting t).2).2 s.app s.mem [] s.done := by
  obtain ⟨x, y, hx⟩ := configure_same h { s with address := (T.starting t).1.address }
  obtain ⟨s', e1, e2⟩ := started_of hP { s with address := (T.starting t).1.address, config := x, configs := y, trans := (T.attaching (T.starting t).2).2, attached := true } _ s.app s.mem [] s.done hI
    ⟨rfl, rfl, rfl, rfl, hq, rfl, hi.stopf, hi.nackf, hi.tcr, by simp [hi.phase], hi.rxdr, hi.shift, hi.wlen, hcl.imp id fun x => ⟨rfl, x⟩⟩
  refine ⟨s', ?_, e2⟩
  have hl : s.queue.length < cap := by rw [hq]; exact hc
  simp only [Modm.I2cStm32Ext.start]
  rw [if_pos hl, if_pos ht, if_pos hi.attached, hx, e1]
  rfl

/-! ## C228: the transaction of any object -/

/-- For any object and any devices: `start` begins a transaction, and the interrupts carry it out. -/
theorem C228_any_partial {I : τ → Prop} (hP : Plain T I) (cap k : Nat) (hc : 0 < cap) (t : τ) (h : Option Nat) (s : St α τ) (hi : Idle s) (hq : s.queue = [])
    (ht : (T.attaching (T.starting t).2).1 = true) (hI : I (T.attaching (T.starting t).2).2) (hcl : NoChain T I ∨ s.rlen = 0) (r : Result α τ)
    (hr : ideal A T k .restart (T.attaching (T.starting t).2).2 s.app s.mem = some (true, r)) (hg : Good T I r.error) :
    ∃ s', Modm.I2cStm32Ext.start T cap (some t) h s = some (true, none, s') ∧ Finally A T s' (Over s r) := by
  obtain ⟨s', h1, h2⟩ := start_idle hP cap t h s hi hq hc ht hI hcl
  refine ⟨s', h1, Leads.finally (((all hP k).1 _ _ _ r [] s.done _ hI hr hg h2 (by simp)).trans ?_) (fun s' h => h.idle)⟩
  rintro s' ⟨a1, a2, a3, a4, a5, a6⟩
  exact Leads.now ⟨a1, a2, a3, a4, a5, a6⟩

/-! ## C227: the transactions of the three kinds of objects -/

variable (A T)

/-- The transaction was begun, and the devices are going to see these steps, … -/
def Ends (x : Option (Bool × Option τ × St α τ)) (steps : List Step) (s : St α τ) (p : Nat) (state : τ → State) : Prop :=
  ∃ s', x = some (true, none, s') ∧ ∃ r, Happened A steps s.app s.mem p state r ∧ Finally A T s' (Over s r)

variable {A T}

theorem good_done {I : τ → Prop} {r : Result α τ} {o : Outcome} (h : r.error = errorOf o) (h' : o = .done ∨ (o = .addressNack ∧ Quiet T I)) : Good T I r.error := by
  rcases h' with h' | ⟨h', hq⟩
  · exact Or.inl (by rw [h, h']; rfl)
  · exact Or.inr ⟨by rw [h, h']; rfl, hq⟩

theorem plain_writeRead (rs : Nat) (rb : Nat) (h : rs ≤ 255) :
    Plain writeRead (fun t => t.address ≠ 0 ∧ t.readSize = rs ∧ t.readBuffer = if rs = 0 then none else some rb) := by
  refine ⟨?_, ?_, ?_⟩
  · intro t h
    refine ⟨?_, h.1, h⟩
    simp only [writeRead]
    split <;> split <;> simp
  · intro t h
    refine ⟨?_, h, ?_⟩
    · simp only [writeRead]
      split <;> simp
    · simp only [writeRead]
      split <;> simp
  · rintro t ⟨h1, h2, h3⟩ hop
    have h0 : rs ≠ 0 := by
      simp only [writeRead] at hop
      split at hop
      · split at hop
        · rename_i h4; rw [← h2]; exact h4
        · simp at hop
      · split at hop <;> simp at hop
    rw [if_neg h0] at h3
    refine ⟨rfl, ?_, ?_, rb, h3⟩
    · simp only [writeRead, h3, lengthOf, h2]; exact h
    · simp only [writeRead, h3, lengthOf, h2]; omega

theorem noChain_writeRead (I : WriteRead → Prop) : NoChain writeRead I := by
  intro t _
  simp only [writeRead]
  split <;> simp

theorem plain_onlyWrite (n : Nat) : Plain onlyWrite (fun t => t.address ≠ 0 ∧ t.size = n) := by
  refine ⟨?_, ?_, ?_⟩
  · intro t h
    refine ⟨?_, h.1, h⟩
    simp only [onlyWrite]
    split <;> simp
  · intro t h
    exact ⟨by simp [onlyWrite], h, by simp [onlyWrite]⟩
  · intro t h hop
    simp only [onlyWrite] at hop
    split at hop <;> simp at hop

theorem plain_onlyRead (n p : Nat) (h : n ≤ 255) : Plain onlyRead (fun t => t.address ≠ 0 ∧ t.size = n ∧ t.buffer = if n = 0 then none else some p) := by
  refine ⟨?_, ?_, ?_⟩
  · intro t h
    refine ⟨?_, h.1, h⟩
    simp only [onlyRead]
    split <;> simp
  · intro t h
    exact ⟨by simp [onlyRead], h, by simp [onlyRead]⟩
  · rintro t ⟨h1, h2, h3⟩ hop
    have h0 : n ≠ 0 := by
      simp only [onlyRead] at hop
      split at hop
      · rename_i h4; rw [← h2]; exact h4
      · simp at hop
    rw [if_neg h0] at h3
    refine ⟨rfl, ?_, ?_, p, h3⟩
    · simp only [onlyRead, h2, h3, lengthOf]; exact h
    · simp only [onlyRead, h2, h3, lengthOf]; omega

variable (A)

/-- An `I2cWriteReadTransaction`: if everything is acknowledged; or the address is not, and there is no more than one byte in all that is written, and not both. -/
theorem C227_writeRead_partial (cap : Nat) (hc : 0 < cap) (h : Option Nat) (s : St α WriteRead) (t : WriteRead) (address : Byte) (wb ws rb rs : Nat) (hi : Idle s)
    (hq : s.queue = []) (ht : t.address = address <<< 1) (h0 : address <<< 1 ≠ 0#8) (hb : t.state ≠ .busy) (hrs : rs ≤ 255)
    (ho : (exec A (transfer address (bytesAt s.mem wb ws) rs) s.app).1 = .done ∨
      ((exec A (transfer address (bytesAt s.mem wb ws) rs) s.app).1 = .addressNack ∧ ws ≤ 1 ∧ (ws = 0 ∨ rs = 0))) :
    Ends A writeRead (Modm.I2cStm32Ext.start writeRead cap (some (t.configure (if ws = 0 then none else some wb) ws (if rs = 0 then none else some rb) rs).2) h s)
      (transfer address (bytesAt s.mem wb ws) rs) s rb WriteRead.state := by
  have e1 : attachState t.state = (true, .busy) := by simp [attachState, hb]
  rw [WriteRead.configure, if_neg hb]
  obtain ⟨r, h1, h2⟩ := Lemmas.I2cMaster.ideal_writeRead A s.app s.mem
    ⟨t.address, .busy, rs, ws, if rs = 0 then none else some rb, if ws = 0 then none else some wb, decide (ws = 0)⟩ address wb ws rb rs ht rfl rfl rfl rfl rfl
  have e2 : writeRead.attaching { t with readBuffer := if rs = 0 then none else some rb, readSize := rs, writeBuffer := if ws = 0 then none else some wb, writeSize := ws, isReading := decide (ws = 0) }
      = (true, ⟨t.address, .busy, rs, ws, if rs = 0 then none else some rb, if ws = 0 then none else some wb, decide (ws = 0)⟩) := by
    simp [writeRead, e1]
  have e3 : ∀ t, (writeRead.starting t).2 = t := fun t => rfl
  have hP0 := plain_writeRead rs rb hrs
  have hP : Plain writeRead (fun t => (t.address ≠ 0 ∧ t.readSize = rs ∧ t.readBuffer = if rs = 0 then none else some rb) ∧ t.writeSize = ws) :=
    ⟨fun t ht => ⟨(hP0.starting t ht.1).1, (hP0.starting t ht.1).2.1, ht⟩, fun t ht => ⟨(hP0.writing t ht.1).1, ⟨(hP0.writing t ht.1).2.1, ht.2⟩, (hP0.writing t ht.1).2.2⟩,
      fun t ht => hP0.reading t ht.1⟩
  have hg : Good writeRead (fun t => (t.address ≠ 0 ∧ t.readSize = rs ∧ t.readBuffer = if rs = 0 then none else some rb) ∧ t.writeSize = ws) r.error := by
    refine good_done h2.error (ho.imp id ?_)
    rintro ⟨o1, o2, o3⟩
    refine ⟨o1, ?_⟩
    rintro t ⟨⟨t1, t2, t3⟩, t4⟩ hop
    have hw0 : ws ≠ 0 := by
      intro h0
      simp only [writeRead, t4, h0] at hop
      split at hop
      · split at hop <;> simp at hop
      · simp at hop
    have hr0 : rs = 0 := o3.resolve_left hw0
    refine ⟨?_, by simp [writeRead, t2, hr0]⟩
    rw [e3]
    simp only [writeRead, t4, lengthOf]
    split
    · omega
    · split <;> omega
  obtain ⟨s', h3, h4⟩ := C228_any_partial (A := A) hP cap 5 hc _ h s hi hq (by rw [e3, e2]) (by rw [e3, e2]; exact ⟨⟨by simpa [ht] using h0, rfl, rfl⟩, rfl⟩) (Or.inl (noChain_writeRead _)) r
    (by rw [e3, e2]; exact h1) hg
  exact ⟨s', h3, r, h2, h4⟩

/-- An `I2cWriteTransaction`: if everything is acknowledged; or the address is not, and there is no more than one byte. -/
theorem C227_write_partial (cap : Nat) (hc : 0 < cap) (h : Option Nat) (s : St α OneWay) (t : OneWay) (address : Byte) (p n : Nat) (hi : Idle s)
    (hq : s.queue = []) (ht : t.address = address <<< 1) (h0 : address <<< 1 ≠ 0#8) (hb : t.state ≠ .busy)
    (ho : (exec A (transfer address (bytesAt s.mem p n) 0) s.app).1 = .done ∨
      ((exec A (transfer address (bytesAt s.mem p n) 0) s.app).1 = .addressNack ∧ n ≤ 1)) :
    Ends A onlyWrite (Modm.I2cStm32Ext.start onlyWrite cap (some (t.configureWrite (if n = 0 then none else some p) n).2) h s)
      (transfer address (bytesAt s.mem p n) 0) s 0 OneWay.state := by
  have e1 : attachState t.state = (true, .busy) := by simp [attachState, hb]
  have e3 : lengthOf (if n = 0 then none else some p) n = n := by by_cases h : n = 0 <;> simp [h, lengthOf]
  rw [OneWay.configureWrite, if_neg hb, e3]
  obtain ⟨r, h1, h2⟩ := Lemmas.I2cMaster.ideal_onlyWrite A s.app s.mem
    ⟨t.address, .busy, n, if n = 0 then none else some p⟩ address p n ht rfl rfl
  have e2 : onlyWrite.attaching { t with buffer := if n = 0 then none else some p, size := n }
      = (true, ⟨t.address, .busy, n, if n = 0 then none else some p⟩) := by
    simp [onlyWrite, e1]
  have e4 : ∀ t, (onlyWrite.starting t).2 = t := fun t => rfl
  have hg : Good onlyWrite (fun t => t.address ≠ 0 ∧ t.size = n) r.error := by
    refine good_done h2.error (ho.imp id ?_)
    rintro ⟨o1, o2⟩
    refine ⟨o1, ?_⟩
    rintro t ⟨t1, t2⟩ -
    refine ⟨?_, rfl⟩
    rw [e4]
    simp only [onlyWrite, t2, lengthOf]
    split
    · omega
    · split <;> omega
  obtain ⟨s', h3, h4⟩ := C228_any_partial (A := A) (plain_onlyWrite n) cap 5 hc _ h s hi hq (by rw [e4, e2]) (by rw [e4, e2]; exact ⟨by simpa [ht] using h0, rfl⟩)
    (Or.inl fun t _ => by simp [onlyWrite]) r (by rw [e4, e2]; exact h1) hg
  exact ⟨s', h3, r, h2, h4⟩

theorem exec_read_ok (l : List Step) (s : α) (h : ∀ x ∈ l, ∃ a, x = .read a) : (exec A (l ++ [.stop]) s).1 = .done := by
  induction l generalizing s with
  | nil => rfl
  | cons x l ih =>
      obtain ⟨a, rfl⟩ := h x (by simp)
      exact ih _ (fun y hy => h y (by simp [hy]))

/-- An `I2cReadTransaction`, whatever is acknowledged. -/
theorem C227_read_partial (cap : Nat) (hc : 0 < cap) (h : Option Nat) (s : St α OneWay) (t : OneWay) (address : Byte) (p n : Nat) (hi : Idle s)
    (hq : s.queue = []) (ht : t.address = address <<< 1) (h0 : address <<< 1 ≠ 0#8) (hb : t.state ≠ .busy) (hn : n ≤ 255) :
    Ends A onlyRead (Modm.I2cStm32Ext.start onlyRead cap (some (t.configureRead (if n = 0 then none else some p) n).2) h s)
      (transfer address [] n) s p OneWay.state := by
  have e1 : attachState t.state = (true, .busy) := by simp [attachState, hb]
  rw [OneWay.configureRead, if_neg hb]
  obtain ⟨r, h1, h2⟩ := Lemmas.I2cMaster.ideal_onlyRead A s.app s.mem
    ⟨t.address, .busy, n, if n = 0 then none else some p⟩ address p n ht rfl rfl
  have e2 : onlyRead.attaching { t with buffer := if n = 0 then none else some p, size := n }
      = (true, ⟨t.address, .busy, n, if n = 0 then none else some p⟩) := by
    simp [onlyRead, e1]
  have e4 : ∀ t, (onlyRead.starting t).2 = t := fun t => rfl
  have hg : Good onlyRead (fun t => t.address ≠ 0 ∧ t.size = n ∧ t.buffer = if n = 0 then none else some p) r.error := by
    refine good_done (o := (exec A (transfer address [] n) s.app).1) h2.error ?_
    have hqt : Quiet onlyRead (fun t => t.address ≠ 0 ∧ t.size = n ∧ t.buffer = if n = 0 then none else some p) := by
      intro t _ hop
      simp only [onlyRead] at hop
      split at hop <;> simp at hop
    suffices hd : (exec A (transfer address [] n) s.app).1 = .done ∨ (exec A (transfer address [] n) s.app).1 = .addressNack from hd.imp id fun x => ⟨x, hqt⟩
    by_cases hn0 : n = 0
    · subst hn0
      have e : transfer address [] 0 = [.start (address <<< 1), .stop] := by simp [transfer]
      rw [e, exec]
      split
      · exact Or.inl rfl
      · exact Or.inr rfl
    · have e : transfer address [] n = .start (address <<< 1 ||| 1#8) :: (reads n ++ [.stop]) := by simp [transfer, hn0]
      rw [e, exec]
      split
      · refine Or.inl (exec_read_ok A _ _ ?_)
        intro x hx
        simp only [reads, List.mem_append, List.mem_replicate, List.mem_singleton] at hx
        rcases hx with hx | hx
        · exact ⟨_, hx.2⟩
        · exact ⟨_, hx⟩
      · exact Or.inr rfl
  obtain ⟨s', h3, h4⟩ := C228_any_partial (A := A) (plain_onlyRead n p hn) cap 5 hc _ h s hi hq (by rw [e4, e2]) (by rw [e4, e2]; exact ⟨by simpa [ht] using h0, rfl, rfl⟩)
    (Or.inl fun t _ => by simp [onlyRead]) r (by rw [e4, e2]; exact h1) hg
  exact ⟨s', h3, r, h2, h4⟩

/-- A device with the address 0x1e: it acknowledges `n` bytes after each START, counts what it sends, and keeps a record of all that happens. -/
def recorder (n : Nat) : App (List Nat) where
  start l := 1000 :: l
  address a l := (a = 0x3c#8 || a = 0x3d#8, (2000 + a.toNat) :: l)
  write b l := (decide ((l.takeWhile (· ≠ 1000)).length < n + 1), (3000 + b.toNat) :: l)
  read l := (BitVec.ofNat 8 (l.length * 37), (4000 + l.length) :: l)
  acked a l := (if a then 5001 else 5000) :: l
  stop l := 6000 :: l

/-- Before the first transaction. -/
def st0 {τ : Type} (t : τ) : St (List Nat) τ :=
  { app := [], phase := .idle, cmd := 0, left := 0, reload := false, autoend := false, busy := none, txdr := none, rxdr := none, shift := none, stopf := false, nackf := false,
    tc := false, tcr := false, stopie := false, tcie := false, rxie := false, txie := false, attached := false, trans := t, queue := [], config := none, next := .stop,
    error := .noError, address := 0, wbuf := none, wlen := 0, rbuf := none, rlen := 0, mem := fun a => BitVec.ofNat 8 (a * 3), done := [], configs := [] }

theorem idle0 {τ : Type} (t : τ) : Idle (st0 t) := ⟨rfl, rfl, rfl, rfl, rfl, rfl, rfl, rfl, rfl, rfl, rfl, rfl, rfl⟩

/-- What is seen from outside. -/
def outline {τ : Type} (state : τ → State) (s : Option (St (List Nat) τ)) : Option ((Bool × Error × List State) × List Byte × List Nat) :=
  s.map fun s => ((s.attached, s.error, s.done.map state), [s.mem 100, s.mem 101, s.mem 102, s.mem 103], s.app)

/-- `start`, then so many steps. -/
def runs {τ : Type} (A : App (List Nat)) (T : Transaction τ) (n : Nat) (c : When) (t : τ) (s : St (List Nat) τ) : Option (St (List Nat) τ) :=
  (Modm.I2cStm32Ext.start T 8 (some t) none s).bind fun x => run A T n (fun _ _ => c) x.2.2

/-- Two bytes are written, then a number is read. -/
def twoThen (n : Nat) : WriteRead := ((WriteRead.new 0x1e).configure (some 7) 2 (some 100) n).2

example : Ends (recorder 2) writeRead (Modm.I2cStm32Ext.start writeRead 8 (some (twoThen 5)) none (st0 (WriteRead.new 0x1e)))
    (transfer 0x1e (bytesAt (fun a => BitVec.ofNat 8 (a * 3)) 7 2) 5) (st0 (WriteRead.new 0x1e)) 100 WriteRead.state :=
  C227_writeRead_partial (recorder 2) 8 (by decide) none (st0 _) (WriteRead.new 0x1e) 0x1e 7 2 100 5 (idle0 _) rfl rfl (by decide) (by decide) (by decide) (Or.inl (by decide +kernel))

/-- Two bytes written, five read, in time and not. -/
example : outline WriteRead.state (runs (recorder 2) writeRead 50 .inTime (twoThen 5) (st0 (twoThen 0))) = some ((false, .noError, [.idle]), [0xde#8, 0x28#8, 0x72#8, 0xbc#8],
      [6000, 5000, 4014, 5001, 4012, 5001, 4010, 5001, 4008, 5001, 4006, 2061, 1000, 3024, 3021, 2060, 1000]) ∧
    outline WriteRead.state (runs (recorder 2) writeRead 50 .late (twoThen 5) (st0 (twoThen 0))) = outline WriteRead.state (runs (recorder 2) writeRead 50 .inTime (twoThen 5) (st0 (twoThen 0))) := by
  constructor <;> decide +kernel

/-- A device that is not there is asked for three bytes. -/
example : outline OneWay.state (runs (recorder 2) onlyRead 50 .late ((OneWay.new 0x22).configureRead (some 100) 3).2 (st0 (OneWay.new 0))) =
    some ((false, .addressNack, [.error]), [44#8, 47#8, 50#8, 53#8], [6000, 2069, 1000]) := by
  decide +kernel

variable {A}

/-- The master waits for ever. -/
def Hangs {τ : Type} (A : App (List Nat)) (T : Transaction τ) (s : Option (St (List Nat) τ)) (app : List Nat) : Prop :=
  ∃ s', s = some s' ∧ s'.attached = true ∧ s'.app = app ∧ s'.done = [] ∧ ∀ n c, run A T n c s' = some s'

theorem hangs_of {τ : Type} {A : App (List Nat)} {T : Transaction τ} {s : Option (St (List Nat) τ)} {app : List Nat}
    (h : s.map (fun s => ((s.attached, s.app, s.done.length), pending s, s.phase)) = some ((true, app, 0), false, .idle) ∨
      s.map (fun s => ((s.attached, s.app, s.done.length), pending s, s.phase)) = some ((true, app, 0), false, .wait) ∨
      s.map (fun s => ((s.attached, s.app, s.done.length), pending s, s.phase)) = some ((true, app, 0), false, .stuck)) : Hangs A T s app := by
  cases s with
  | none => simp at h
  | some s' =>
      simp only [Option.map_some, Option.some.injEq, Prod.mk.injEq] at h
      have h' : (s'.attached = true ∧ s'.app = app ∧ s'.done.length = 0) ∧ Still s' := by
        rcases h with ⟨h1, h2, h3⟩ | ⟨h1, h2, h3⟩ | ⟨h1, h2, h3⟩
        · exact ⟨h1, h2, Or.inl h3⟩
        · exact ⟨h1, h2, Or.inr (Or.inl h3)⟩
        · exact ⟨h1, h2, Or.inr (Or.inr h3)⟩
      exact ⟨s', rfl, h'.1.1, h'.1.2.1, List.length_eq_zero_iff.mp h'.1.2.2, fun n c => still_run s' h'.2 n c⟩

/-- **C227** is false for two bytes and a device that is not there: the master waits for ever. -/
theorem C227_address_counterexample :
    Hangs (recorder 2) onlyWrite (runs (recorder 2) onlyWrite 3 .inTime ((OneWay.new 0x22).configureWrite (some 7) 2).2 (st0 (OneWay.new 0))) [6000, 2068, 1000] ∧
    (exec (recorder 2) (transfer 0x22 (bytesAt (fun a => BitVec.ofNat 8 (a * 3)) 7 2) 0) []).1 = .addressNack :=
  ⟨hangs_of (Or.inl (by decide +kernel)), by decide +kernel⟩

/-- **C227** is false for one byte that is written and one that is read, and a device that is not there. -/
theorem C227_address_read_counterexample :
    Hangs (recorder 2) writeRead (runs (recorder 2) writeRead 3 .inTime ((WriteRead.new 0x22).configure (some 7) 1 (some 100) 1).2 (st0 (twoThen 0))) [6000, 2068, 1000] ∧
    (exec (recorder 2) (transfer 0x22 (bytesAt (fun a => BitVec.ofNat 8 (a * 3)) 7 1) 1) []).1 = .addressNack :=
  ⟨hangs_of (Or.inl (by decide +kernel)), by decide +kernel⟩

/-- **C227** is false for a byte that is not acknowledged: the master says that the address was not acknowledged, … -/
theorem C227_data_counterexample :
    outline OneWay.state (runs (recorder 2) onlyWrite 40 .inTime ((OneWay.new 0x1e).configureWrite (some 7) 3).2 (st0 (OneWay.new 0))) =
      some ((false, .addressNack, [.error]), [44#8, 47#8, 50#8, 53#8], [6000, 3027, 3024, 3021, 2060, 1000]) ∧
    (exec (recorder 2) (transfer 0x1e (bytesAt (fun a => BitVec.ofNat 8 (a * 3)) 7 3) 0) []).1 = .dataNack := by
  decide +kernel

/-- … or waits for ever if it is not one of the last two. -/
theorem C227_data_more_counterexample :
    Hangs (recorder 2) onlyWrite (runs (recorder 2) onlyWrite 40 .inTime ((OneWay.new 0x1e).configureWrite (some 7) 5).2 (st0 (OneWay.new 0))) [6000, 3027, 3024, 3021, 2060, 1000] ∧
    (exec (recorder 2) (transfer 0x1e (bytesAt (fun a => BitVec.ofNat 8 (a * 3)) 7 5) 0) []).1 = .dataNack :=
  ⟨hangs_of (Or.inl (by decide +kernel)), by decide +kernel⟩

/-- **C227** is false if the STOP condition after a byte that is read comes while the interrupt is being served: the master waits for ever. -/
theorem C227_race_counterexample :
    Hangs (recorder 2) onlyRead (runs (recorder 2) onlyRead 40 .race ((OneWay.new 0x1e).configureRead (some 100) 1).2 (st0 (OneWay.new 0))) [6000, 5000, 4002, 2061, 1000] ∧
    (exec (recorder 2) (transfer 0x1e [] 1) []).1 = .done :=
  ⟨hangs_of (Or.inl (by decide +kernel)), by decide +kernel⟩

/-- A device that is always there, sends always the same, and counts what it sends. -/
def counter : App (List Nat) where
  start l := l
  address _ l := (true, l)
  write _ l := (true, l)
  read l := (0, [l.headD 0 + 1])
  acked _ l := l
  stop l := l ++ [6000]

/-- **C227** is false for 256 bytes that are read: after 255 of them the master waits for ever. -/
theorem C227_long_counterexample :
    Hangs counter onlyRead (runs counter onlyRead 800 .inTime ((OneWay.new 0x1e).configureRead (some 100) 256).2 (st0 (OneWay.new 0))) [255] ∧
    (exec counter (transfer 0x1e [] 256) []).2.2 = [256, 6000] :=
  ⟨hangs_of (Or.inr (Or.inl (by decide +kernel))), by decide +kernel⟩

/-! ## C228, continued -/

/-- An object of a user: a number of buffers that are written one after the other (as for a display: a command, then data). -/
def chain : Transaction (List Nat) where
  attaching t := (true, t)
  starting t := (⟨0x3c, .write⟩, t)
  writing t := match t with
    | [] => (⟨none, 0, .stop⟩, [])
    | [n] => (⟨some 7, n, .stop⟩, [])
    | n :: r => (⟨some 7, n, .write⟩, r)
  reading t := (⟨none, 0, .stop⟩, t)
  detaching c t := match c with
    | .normalStop => 100 :: t
    | .errorCondition => 200 :: t
    | .failedToAttach => 300 :: t

theorem plain_chain : Plain chain (fun t => ∀ n ∈ t, 0 < n) := by
  refine ⟨?_, ?_, ?_⟩
  · intro t h
    exact ⟨by simp [chain], by simp [chain], h⟩
  · intro t h
    match t, h with
    | [], _ => exact ⟨by simp [chain], by simp [chain], by simp [chain]⟩
    | [n], _ => exact ⟨by simp [chain], by simp [chain], by simp [chain]⟩
    | n :: m :: r, h =>
        refine ⟨by simp [chain], ?_, fun _ => ?_⟩
        · intro x hx
          exact h x (by simp [chain] at hx ⊢; exact Or.inr hx)
        · simpa [chain, lengthOf] using h n (by simp)
  · intro t h hop
    simp [chain] at hop

/-- One byte, then 300, then three. -/
example : ∃ r, ideal counter chain 5 .restart [1, 300, 3] [] (st0 [1]).mem = some (true, r) ∧
    ∃ s', Modm.I2cStm32Ext.start chain 8 (some [1, 300, 3]) none (st0 [1]) = some (true, none, s') ∧ Finally counter chain s' (Over (st0 [1]) r) := by
  have : ∃ r, ideal counter chain 5 .restart [1, 300, 3] [] (st0 [1]).mem = some (true, r) ∧ r.error = .noError := by
    have h : ((ideal counter chain 5 .restart [1, 300, 3] [] (st0 [1]).mem).map fun x => (x.1, x.2.error)) = some (true, .noError) := by decide +kernel
    cases hh : ideal counter chain 5 .restart [1, 300, 3] [] (st0 [1]).mem with
    | none => rw [hh] at h; simp at h
    | some x =>
        rw [hh] at h
        simp only [Option.map_some, Option.some.injEq, Prod.mk.injEq] at h
        exact ⟨x.2, by rw [← h.1], h.2⟩
  obtain ⟨r, h1, h2⟩ := this
  exact ⟨r, h1, C228_any_partial plain_chain 8 5 (by decide) [1, 300, 3] none (st0 [1]) (idle0 _) rfl rfl (by intro n hn; simp [chain] at hn; omega) (Or.inr rfl) r h1 (Or.inl h2)⟩

/-- Three buffers as the device sees them. -/
example : (runs (recorder 9) chain 40 .late [1, 2, 3] (st0 [1])).map (fun s => (s.attached, s.error, s.done, s.app)) =
    some (false, .noError, [[100]], [6000, 3027, 3024, 3021, 3024, 3021, 3021, 2060, 1000]) := by
  decide +kernel

/-- **C228** is false for an empty buffer that follows another one: the interrupt comes again and again, and nothing happens. -/
theorem C228_empty_counterexample :
    (ideal (recorder 2) chain 4 .restart [1, 0] [] (st0 [1]).mem).map (fun r => r.2.app) = some [6000, 3021, 2060, 1000] ∧
    Hangs (recorder 2) chain (runs (recorder 2) chain 8 .inTime [1, 0] (st0 [1])) [3021, 2060, 1000] :=
  ⟨by decide +kernel, hangs_of (Or.inr (Or.inl (by decide +kernel)))⟩

/-- An object that reads one byte twice, with a restart in between. -/
def twice : Transaction Bool where
  attaching t := (true, t)
  starting t := (⟨0x3c, .read⟩, t)
  writing t := (⟨none, 0, .stop⟩, t)
  reading t := if t then (⟨some 101, 1, .stop⟩, t) else (⟨some 100, 1, .restart⟩, true)
  detaching _ t := t

/-- **C228** is false for a restart after a read: the master waits for ever. -/
theorem C228_restart_counterexample :
    (ideal (recorder 2) twice 6 .restart false [] (st0 false).mem).map (fun r => r.2.app) = some [6000, 5000, 4006, 2061, 1000, 5000, 4002, 2061, 1000] ∧
    Hangs (recorder 2) twice (runs (recorder 2) twice 10 .inTime false (st0 false)) [5001, 4002, 2061, 1000] :=
  ⟨by decide +kernel, hangs_of (Or.inr (Or.inl (by decide +kernel)))⟩

/-- An object that counts how often `starting` was called, as a user's may: the first time it writes, the second time it reads. -/
def counts : Transaction Nat where
  attaching t := (true, t)
  starting t := (⟨0x3c, if t = 0 then .write else .read⟩, t + 1)
  writing t := (⟨some 7, 1, .restart⟩, t)
  reading t := (⟨some 100, 1, .stop⟩, t)
  detaching _ t := t

/-- **C228** is false for an object that changes in `starting`: it is asked twice, nothing is written. -/
theorem C228_starting_counterexample :
    (ideal (recorder 2) counts 6 .restart 0 [] (st0 0).mem).map (fun r => r.2.app) = some [6000, 5000, 4005, 2061, 1000, 3021, 2060, 1000] ∧
    (runs (recorder 2) counts 40 .inTime 0 (st0 0)).map (fun s => (s.attached, s.app)) = some (false, [6000, 5000, 4002, 2061, 1000]) := by
  decide +kernel

/-- An object that reads three bytes from a device that is not there, or writes two buffers. -/
def either : Transaction Nat where
  attaching t := (true, t)
  starting t := if t = 0 then (⟨0x44, .read⟩, t) else (⟨0x3c, .write⟩, t)
  writing t := (⟨some 7, 1, if t = 1 then .write else .stop⟩, t + 1)
  reading t := (⟨some 100, 3, .stop⟩, t)
  detaching _ t := t + 10

/-- **C228** is false for buffers that follow another after a read that was not acknowledged: the length of that read is still there, and the second buffer is not written. -/
theorem C228_after_counterexample :
    (ideal (recorder 2) either 6 .restart 1 [] (st0 0).mem).map (fun r => (r.2.app, r.2.trans)) = some ([6000, 3021, 3021, 2060, 1000], 13) ∧
    (runs (recorder 2) either 40 .inTime 1 (st0 0)).map (fun s => (s.app, s.done)) = some ([6000, 3021, 3021, 2060, 1000], [13]) ∧
    ((runs (recorder 2) either 40 .inTime 0 (st0 0)).bind fun s => (runs (recorder 2) either 60 .inTime 1 { s with app := [] }).map fun s => ((s.attached, pending s, s.phase), s.app, s.done)) =
      some ((true, false, .tx), [3021, 2060, 1000], [10]) := by
  refine ⟨?_, ?_, ?_⟩ <;> decide +kernel

/-! ## C229: the queue -/

variable (A T)

/-- The transactions of these objects, one after the other, and what is left of each. -/
def InOrder (I : τ → Prop) : List τ → α → (Nat → Byte) → List (Result α τ) → Prop
  | [], _, _, rs => rs = []
  | t :: ts, app, mem, rs => ∃ k r rs', rs = r :: rs' ∧ ideal A T k .restart t app mem = some (true, r) ∧ Good T I r.error ∧ InOrder I ts r.app r.mem rs'

/-- All transactions are over. -/
structure AllOver (d : List τ) (rs : List (Result α τ)) (s : St α τ) : Prop where
  idle : Idle s
  queue : s.queue = []
  done : s.done = d ++ rs.map (·.trans)
  last : ∃ r, rs.getLast? = some r ∧ s.app = r.app ∧ s.mem = r.mem ∧ s.error = r.error

/-- `start` is called for these objects with these handlers, and accepts all of them. -/
def starts (cap : Nat) : List (τ × Option Nat) → St α τ → Option (St α τ)
  | [], s => some s
  | (t, h) :: l, s => (Modm.I2cStm32Ext.start T cap (some t) h s).bind fun x => if x.1 then starts cap l x.2.2 else none

variable {A T}

theorem queue_over {I : τ → Prop} (hP : Plain T I) : ∀ (q : List (τ × Option Nat)) (t : τ) (app : α) (mem : Nat → Byte) (d : List τ) (rs : List (Result α τ)) (s : St α τ),
    I t → (∀ x ∈ q, I x.1) → InOrder A T I (t :: q.map (·.1)) app mem rs → Started T I s t app mem q d → Leads A T s (AllOver d rs) := by
  intro q
  induction q with
  | nil =>
      rintro t app mem d rs s hI _ ⟨k, r, rs', rfl, hi, hg, ho⟩ hs
      rw [List.map_nil, InOrder] at ho
      subst ho
      refine ((all hP k).1 t app mem r [] d s hI hi hg hs (by simp)).trans ?_
      rintro s' ⟨a1, a2, a3, a4, a5, a6⟩
      exact Leads.now ⟨a1, a2, a6, r, rfl, a3, a4, a5⟩
  | cons x q ih =>
      obtain ⟨t', c⟩ := x
      rintro t app mem d rs s hI hq ⟨k, r, rs', rfl, hi, hg, ho⟩ hs
      refine ((all hP k).1 t app mem r ((t', c) :: q) d s hI hi hg hs hq).trans ?_
      intro s' hs'
      refine (ih t' r.app r.mem (d ++ [r.trans]) rs' s' (hq (t', c) (by simp)) (fun x hx => hq x (by simp [hx])) ho hs').trans ?_
      rintro s2 ⟨a1, a2, a3, r2, a4, a5⟩
      obtain ⟨k2, r3, rs3, rfl, -⟩ := ho
      exact Leads.now ⟨a1, a2, by simp [a3], r2, by simpa using a4, a5⟩

/-- `start` for another object, in the middle of the address. -/
theorem started_more {I : τ → Prop} (s : St α τ) (t : τ) (app : α) (mem : Nat → Byte) (q q' : List (τ × Option Nat)) (d : List τ) (a : Byte) (hn : NoChain T I) (ha : a ≠ 0)
    (h : Started T I s t app mem q d) : Started T I { s with address := a, queue := q' } t app mem q' d where
  mid := ⟨h.mid.attached, h.mid.trans, h.mid.app, h.mid.mem, rfl, h.mid.done, h.mid.error, ha, h.mid.stopf, h.mid.nackf, h.mid.tc, h.mid.tcr⟩
  phase := h.phase
  cmd := h.cmd
  rxdr := h.rxdr
  shift := h.shift
  busy := h.busy
  clean := Or.inl hn
  stop := fun x => by
    obtain ⟨a1, a2, a3, a4, a5, a6, a7, a8, a9⟩ := h.stop x
    exact ⟨a1, a2, a3, a4, a5, a6, a7, a8, a9⟩
  empty := fun x y => by
    obtain ⟨a1, a2, a3, a4, a5, a6, a7, a8, a9⟩ := h.empty x y
    exact ⟨a1, a2, a3, a4, a5, a6, a7, a8, a9⟩
  write := fun x y => by
    obtain ⟨⟨a1, a2, a3, a4, a5, a6, a7, a8, a9⟩, b⟩ := h.write x y
    exact ⟨⟨a1, a2, a3, a4, a5, a6, a7, a8, a9⟩, b⟩
  read := fun x p y z => by
    obtain ⟨⟨a1, a2, a3, a4, a5, a6, a7, a8, a9, a10⟩, b⟩ := h.read x p y z
    exact ⟨⟨a1, a2, a3, a4, a5, a6, a7, a8, a9, a10⟩, b⟩

theorem starts_queue {I : τ → Prop} (hn : NoChain T I) (cap : Nat) (l : List (τ × Option Nat)) : ∀ (s : St α τ) (t : τ) (app : α) (mem : Nat → Byte) (q : List (τ × Option Nat)) (d : List τ),
    Started T I s t app mem q d → q.length + l.length ≤ cap → (∀ x ∈ l, (T.attaching (T.starting x.1).2).1 = true ∧ (T.starting x.1).1.address ≠ 0) →
    ∃ s', starts T cap l s = some s' ∧ ∃ q', q'.map (·.1) = l.map (fun x => (T.attaching (T.starting x.1).2).2) ∧ Started T I s' t app mem (q ++ q') d := by
  induction l with
  | nil => intro s t app mem q d h _ _; exact ⟨s, rfl, [], rfl, by simpa using h⟩
  | cons x l ih =>
      obtain ⟨t1, h1⟩ := x
      intro s t app mem q d h hl ha
      simp only [List.length_cons] at hl
      obtain ⟨ha1, ha2⟩ := ha (t1, h1) (by simp)
      obtain ⟨s1, hs1⟩ : ∃ s1 : St α τ, s1 = { s with address := (T.starting t1).1.address, queue := q ++ [((T.attaching (T.starting t1).2).2, s.config)] } := ⟨_, rfl⟩
      have e : Modm.I2cStm32Ext.start T cap (some t1) h1 s = some (true, none, s1) := by
        have : q.length < cap := by omega
        rw [hs1]
        simp [Modm.I2cStm32Ext.start, h.mid.queue, h.mid.attached, ha1, this]
      obtain ⟨s', i1, q', i2, i3⟩ := ih s1 t app mem (q ++ [((T.attaching (T.starting t1).2).2, s.config)]) d (by rw [hs1]; exact started_more s t app mem q _ d _ hn ha2 h)
        (by simp; omega) (fun x hx => ha x (by simp [hx]))
      refine ⟨s', ?_, ((T.attaching (T.starting t1).2).2, s.config) :: q', by simp [i2], ?_⟩
      · rw [starts, e, Option.bind_some, if_pos rfl]
        exact i1
      · simpa using i3

/-- Several objects are given to `start` one after the other, no more than the queue and the master can take: all of them are carried out in this order, each is detached
once. -/
theorem C229_queue_partial {I : τ → Prop} (hP : Plain T I) (hn : NoChain T I) (cap : Nat) (t : τ) (h : Option Nat) (l : List (τ × Option Nat)) (s : St α τ) (hi : Idle s) (hq : s.queue = [])
    (hc : 0 < cap) (hl : l.length ≤ cap)
    (ha : ∀ x ∈ (t, h) :: l, (T.attaching (T.starting x.1).2).1 = true ∧ (T.starting x.1).1.address ≠ 0 ∧ I (T.attaching (T.starting x.1).2).2) (rs : List (Result α τ))
    (ho : InOrder A T I (((t, h) :: l).map fun x => (T.attaching (T.starting x.1).2).2) s.app s.mem rs) :
    ∃ s', starts T cap ((t, h) :: l) s = some s' ∧ Finally A T s' (AllOver s.done rs) := by
  obtain ⟨s1, h1, h2⟩ := start_idle hP cap t h s hi hq hc (ha (t, h) (by simp)).1 (ha (t, h) (by simp)).2.2 (Or.inl hn)
  obtain ⟨s2, h3, q, h4, h5⟩ := starts_queue hn cap l _ _ _ _ _ _ h2 (by simpa using hl) (fun x hx => ⟨(ha x (by simp [hx])).1, (ha x (by simp [hx])).2.1⟩)
  refine ⟨s2, by rw [starts, h1, Option.bind_some, if_pos rfl]; exact h3, ?_⟩
  refine Leads.finally (queue_over hP q _ _ _ _ rs _ (ha (t, h) (by simp)).2.2 ?_ ?_ (by simpa using h5)) (fun s' h => h.idle)
  · intro x hx
    have : x.1 ∈ q.map (·.1) := List.mem_map_of_mem hx
    rw [h4] at this
    obtain ⟨y, hy, e⟩ := List.mem_map.mp this
    rw [← e]
    exact (ha y (by simp [hy])).2.2
  · rw [h4]
    exact ho

/-- Three objects; the second one asks for a device that is not there. -/
def three : List (OneWay × Option Nat) :=
  [(((OneWay.new 0x1e).configureWrite (some 7) 1).2, some 1), (((OneWay.new 0x22).configureWrite (some 8) 1).2, some 1), (((OneWay.new 0x1e).configureWrite (some 9) 1).2, some 1)]

example : ∃ rs s', InOrder (recorder 2) onlyWrite (fun t => t.address ≠ 0 ∧ t.size = 1) (three.map fun x => (onlyWrite.attaching (onlyWrite.starting x.1).2).2) [] (st0 (OneWay.new 0)).mem rs ∧
    rs.map (fun r => r.error) = [.noError, .addressNack, .noError] ∧ starts onlyWrite 8 three (st0 (OneWay.new 0)) = some s' ∧
    Finally (recorder 2) onlyWrite s' (AllOver [] rs) := by
  have hqt : Quiet onlyWrite (fun t => t.address ≠ 0 ∧ t.size = 1) := by
    rintro t ⟨t1, t2⟩ -
    refine ⟨?_, rfl⟩
    simp only [onlyWrite, t2, lengthOf]
    split
    · omega
    · split <;> omega
  have ho : ∃ rs, InOrder (recorder 2) onlyWrite (fun t => t.address ≠ 0 ∧ t.size = 1) (three.map fun x => (onlyWrite.attaching (onlyWrite.starting x.1).2).2) [] (st0 (OneWay.new 0)).mem rs ∧
      rs.map (fun r => r.error) = [.noError, .addressNack, .noError] :=
    ⟨_, ⟨5, _, _, rfl, rfl, Or.inl rfl, 5, _, _, rfl, rfl, Or.inr ⟨rfl, hqt⟩, 5, _, _, rfl, rfl, Or.inl rfl, rfl⟩, rfl⟩
  obtain ⟨rs, h1, h2⟩ := ho
  obtain ⟨s', h3, h4⟩ := C229_queue_partial (plain_onlyWrite 1) (fun t _ => by simp [onlyWrite]) 8 _ _ _ (st0 (OneWay.new 0)) (idle0 _) rfl (by decide) (by decide) (by decide) rs h1
  exact ⟨rs, s', h1, h2, h3, h4⟩

/-- If the queue is full, `start` does nothing but ask the object for its address. -/
theorem C229_full (cap : Nat) (t : τ) (h : Option Nat) (s : St α τ) (hc : cap ≤ s.queue.length) :
    Modm.I2cStm32Ext.start T cap (some t) h s = some (false, some (T.starting t).2, { s with address := (T.starting t).1.address }) := by
  simp only [Modm.I2cStm32Ext.start]
  rw [if_neg (by omega)]

example : ((starts onlyWrite 2 three (st0 (OneWay.new 0))).bind fun s => (Modm.I2cStm32Ext.start onlyWrite 2 (some (OneWay.new 0x1e)) none s).map fun x => (x.1, x.2.2.queue.length)) = some (false, 2) := by
  decide +kernel

/-- **C229** is false for the handlers: the one of the object that had to wait is not called before its transaction (nor later). -/
theorem C229_handler_counterexample :
    ((starts onlyWrite 8 [(((OneWay.new 0x1e).configureWrite (some 7) 1).2, some 1), (((OneWay.new 0x1e).configureWrite (some 9) 1).2, some 2)] (st0 (OneWay.new 0))).bind
      fun s => run (recorder 2) onlyWrite 40 (fun _ _ => .inTime) s).map (fun s => (s.done.map OneWay.state, s.configs)) = some ([.idle, .idle], [1]) := by
  decide +kernel

/-- **C229** is false if the first of two objects is not acknowledged: both of them wait for ever. -/
theorem C229_wait_counterexample :
    Hangs (recorder 2) onlyWrite ((starts onlyWrite 8 [(((OneWay.new 0x22).configureWrite (some 7) 2).2, none), (((OneWay.new 0x1e).configureWrite (some 9) 1).2, none)] (st0 (OneWay.new 0))).bind
      fun s => run (recorder 2) onlyWrite 40 (fun _ _ => .inTime) s) [6000, 2068, 1000] :=
  hangs_of (Or.inl (by decide +kernel))

/-! ## C230: `reset` and `start` -/

/-- `reset` detaches the object of the transaction that is going on and all those that are waiting, each of them once and with an error, and there is none left. -/
theorem C230_reset_partial (s : St α τ) :
    (reset T s).attached = false ∧ (reset T s).queue = [] ∧ (reset T s).error = .softwareReset ∧
    (reset T s).done = s.done ++ ((if s.attached then [s.trans] else []) ++ s.queue.map (·.1)).map (T.detaching .errorCondition) := by
  cases h : s.attached <;> simp [Modm.I2cStm32Ext.reset, Modm.I2cStm32Ext.detach, h, Function.comp_def]

/-- Three objects, two of them waiting. -/
example : (starts onlyWrite 8 three (st0 (OneWay.new 0))).map (fun s => (reset onlyWrite s).done.map OneWay.state) = some [.error, .error, .error] := by decide +kernel

/-- **C230** is false for `reset()`: the interrupts are not switched off, and the next one needs the transaction that is gone. -/
theorem C230_reset_counterexample :
    ((runs (recorder 2) writeRead 2 .inTime (twoThen 2) (st0 (twoThen 0))).map fun s =>
      ((reset writeRead s).attached, (run (recorder 2) writeRead 4 (fun _ _ => .inTime) (reset writeRead s)).isNone)) = some (false, true) := by
  decide +kernel

/-- **C230** is false for `reset()` while bytes are read: they are still written to the memory of the object that was told that the transaction is over. -/
theorem C230_memory_counterexample :
    ((runs (recorder 2) onlyRead 3 .inTime ((OneWay.new 0x1e).configureRead (some 100) 3).2 (st0 (OneWay.new 0))).map fun s =>
      ((reset onlyRead s).done.map OneWay.state, [s.mem 100, s.mem 101, s.mem 102], (run (recorder 2) onlyRead 20 (fun _ _ => .inTime) (reset onlyRead s)).map fun s => [s.mem 100, s.mem 101, s.mem 102])) =
      some ([.error], [74#8, 47#8, 50#8], some [74#8, 148#8, 222#8]) := by
  decide +kernel

/-- **C230** is false for a null pointer: `start` is meant to refuse it, but asks it for the address first. -/
theorem C230_null_counterexample (cap : Nat) (h : Option Nat) (s : St α τ) : Modm.I2cStm32Ext.start T cap none h s = none := rfl

/-- **C230** is false for an object that is busy already (it is in the queue): `start` returns `false`, but the object says that there was an error. -/
theorem C230_busy_counterexample (cap : Nat) (t : OneWay) (h : Option Nat) (s : St α OneWay) (hc : s.queue.length < cap) (hb : t.state = .busy) :
    (Modm.I2cStm32Ext.start onlyWrite cap (some t) h s).map (fun x => (x.1, x.2.1.map OneWay.state)) = some (false, some .error) := by
  simp [Modm.I2cStm32Ext.start, hc, onlyWrite, attachState, hb, detachState]

end Props.I2cStm32Ext
