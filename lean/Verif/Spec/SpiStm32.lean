import Verif.Model.SpiStm32

set_option autoImplicit false

/-!
What a transfer of an SPI master has to do, in terms of the bytes on the wire and of the memory.
-/

namespace Spec.SpiStm32

open Model.SpiStm32

/-- The bytes to be sent: those at `tx` when the transfer begins, zeros without `tx`. -/
def want (a : Args) (mem : Nat → Byte) : List Byte :=
  (List.range a.length).map fun i => match a.tx with
    | none => 0
    | some p => mem (p + i)

/-- What the device returns with byte `i`: it has seen what was sent before the transfer and the
first `i` bytes of it. -/
def answer (ans : List Byte → Byte) (before w : List Byte) (i : Nat) : Byte := ans (before ++ w.take i)

/-- A received byte never falls on a byte that is still to be sent (in particular `rx = tx` is allowed). -/
def Apart (a : Args) : Prop :=
  ∀ p q, a.tx = some p → a.rx = some q → ∀ i < a.length, ∀ j < i, q + j ≠ p + i

/-- Nothing in the peripheral, no transfer under way. -/
structure Quiet (s : St) : Prop where
  tx : s.hw.tx = []
  shift : s.hw.shift = none
  rx : s.hw.rx = []
  txDma : s.hw.txDma = false
  rxDma : s.hw.rxDma = false
  clock : s.hw.clock = true
  ct : s.hw.ct.en = false ∧ s.hw.ct.tc = false ∧ s.hw.ct.te = false
  cr : s.hw.cr.en = false ∧ s.hw.cr.tc = false ∧ s.hw.cr.te = false
  bit0 : s.sw.bit0 = false
  bit1 : s.sw.bit1 = false

/-- All bytes were sent, in order and once. -/
def Sent (a : Args) (s0 s1 : St) : Prop := s1.hw.sent = s0.hw.sent ++ want a s0.hw.mem

/-- Every answer is in its place. -/
def Received (c : Cfg) (a : Args) (s0 s1 : St) : Prop :=
  ∀ q, a.rx = some q → ∀ i < a.length,
    s1.hw.mem (q + i) = answer c.ans s0.hw.sent (want a s0.hw.mem) i

/-- No other memory is changed. -/
def Frame (a : Args) (s0 s1 : St) : Prop :=
  ∀ x, (∀ q, a.rx = some q → ∀ i < a.length, x ≠ q + i) → s1.hw.mem x = s0.hw.mem x

/-- The same, but the byte for transfers without buffer may change. -/
def FrameDummy (c : Cfg) (a : Args) (s0 s1 : St) : Prop :=
  ∀ x, x ≠ c.dummy → (∀ q, a.rx = some q → ∀ i < a.length, x ≠ q + i) → s1.hw.mem x = s0.hw.mem x

/-- No bus error. -/
def NoFault : Ev → Prop
  | .faultTx => False
  | .faultRx => False
  | _ => True

def ActOk : Act → Prop
  | .hw e => NoFault e
  | .call m0 m1 m2 => (∀ e ∈ m0, NoFault e) ∧ (∀ e ∈ m1, NoFault e) ∧ ∀ e ∈ m2, NoFault e

/-- The buffers do not contain the byte for transfers without buffer; if it is sent, it is zero and
nothing is received into it. -/
structure Usable (c : Cfg) (a : Args) (mem : Nat → Byte) : Prop where
  pos : 0 < a.length
  short : a.length < 65536
  apart : Apart a
  tx : ∀ p, a.tx = some p → ∀ i < a.length, p + i ≠ c.dummy
  rx : ∀ q, a.rx = some q → ∀ i < a.length, q + i ≠ c.dummy
  zero : a.tx = none → mem c.dummy = 0 ∧ a.rx ≠ none

end Spec.SpiStm32
