import Mathlib.Logic.Function.Basic

set_option autoImplicit false

/-!
Model of the real time transfer, src/modm/platform/uart/rtt/rtt.cpp.in: ring buffers in the memory of the microcontroller that a debugger
reads and writes in the background, while the program runs.

Every access to a member that the other side changes is a step of its own; the two sides take turns in any order.  `none` is undefined
behaviour: a division by zero or an index outside of the buffer.  The debugger follows the protocol of RTT (module.md:3-8): it changes only
`tail` of a transmit buffer and only `head` of a receive buffer, it looks at the other index, moves any number of bytes with an index of its
own, and then stores this index.  Simplified: the accesses to the bytes of the buffer, which are not volatile, take place in the order
of the source; `size` is below 2^32 - 1, so that `rhead + 1` does not wrap (the options allow up to 64 Ki).
-/

namespace Modm.Rtt

abbrev Byte := BitVec 8

/-- `RttBuffer`, rtt.cpp.in:19-26 -/
structure Ring where
  size : Nat
  head : Nat
  tail : Nat
  buffer : Nat → Byte

/-- `RttBuffer::write`, rtt.cpp.in:28-37, without steps of the other side -/
def Ring.write (r : Ring) (data : Byte) : Option (Bool × Ring) :=
  if r.size = 0 then none
  else if (r.head + 1) % r.size = r.tail then some (false, r)
  else if r.head < r.size then some (true, { r with buffer := Function.update r.buffer r.head data, head := (r.head + 1) % r.size })
  else none

/-- `RttBuffer::read`, rtt.cpp.in:38-46, without steps of the other side -/
def Ring.read (r : Ring) : Option (Option Byte × Ring) :=
  if r.size = 0 ∨ r.tail = r.head then some (none, r)
  else if r.tail < r.size then some (some (r.buffer r.tail), { r with tail := (r.tail + 1) % r.size })
  else none

/-- `RttBuffer::isEmpty`, rtt.cpp.in:47 -/
def Ring.isEmpty (r : Ring) : Bool := decide (r.head = r.tail)

/-- `RttBuffer::getSize`, rtt.cpp.in:48-53; the calculation has 32 bits -/
def Ring.getSize (r : Ring) : Nat := ((if r.head > r.tail then 0 else r.size) + r.head + 2 ^ 32 - r.tail) % 2 ^ 32

/-- `Rtt::write` of a block, rtt.cpp.in:107-115: the number of bytes and the buffer -/
def Ring.writeMany (r : Ring) : List Byte → Option (Nat × Ring)
  | [] => some (0, r)
  | d :: l =>
    match r.write d with
    | none => none
    | some (false, r') => some (0, r')
    | some (true, r') => (r'.writeMany l).map fun q => (q.1 + 1, q.2)

/-- `Rtt::read` of a block, rtt.cpp.in:135-143: the bytes and the buffer -/
def Ring.readMany (r : Ring) : Nat → Option (List Byte × Ring)
  | 0 => some ([], r)
  | n + 1 =>
    match r.read with
    | none => none
    | some (none, r') => some ([], r')
    | some (some d, r') => (r'.readMany n).map fun q => (d :: q.1, q.2)

/-! ## The transmit buffer: the program writes, the debugger reads -/

/-- Where the program is in `write(d)` -/
inductive WPc where
  | idle
  | start (d : Byte)          -- before line 30
  | loaded (d : Byte) (h : Nat) -- `rhead` is loaded, line 30
  | room (d : Byte) (h : Nat)   -- the test of line 33 found room
  | stored (d : Byte) (h : Nat) -- the byte is stored, line 34

/-- The buffer, both sides, and the history: the finished calls with their results, and the bytes that the debugger has read -/
structure Tx where
  ring : Ring
  pc : WPc
  seen : Nat
  cursor : Nat
  log : List (Byte × Bool)
  got : List Byte
  acked : Nat

inductive TxAct where
  | call (d : Byte) -- the program calls `write(d)`
  | prog            -- the next access of the program
  | look            -- the debugger loads `head`
  | take            -- the debugger reads one byte
  | ack             -- the debugger stores `tail`

/-- One access of the program in `RttBuffer::write`, rtt.cpp.in:28-37; line 31 and the test of line 33 are one step -/
def Tx.prog (s : Tx) : Option Tx :=
  match s.pc with
  | .idle => some s
  | .start d => some { s with pc := .loaded d s.ring.head }
  | .loaded d h =>
    if s.ring.size = 0 then none
    else if (h + 1) % s.ring.size = s.ring.tail then some { s with pc := .idle, log := s.log ++ [(d, false)] }
    else some { s with pc := .room d h }
  | .room d h =>
    if h < s.ring.size then some { s with pc := .stored d h, ring := { s.ring with buffer := Function.update s.ring.buffer h d } } else none
  | .stored d h => some { s with pc := .idle, ring := { s.ring with head := (h + 1) % s.ring.size }, log := s.log ++ [(d, true)] }

/-- One step of either side -/
def Tx.step (s : Tx) : TxAct → Option Tx
  | .call d => match s.pc with
    | .idle => some { s with pc := .start d }
    | _ => some s
  | .prog => s.prog
  | .look => some { s with seen := s.ring.head }
  | .take =>
    if s.cursor = s.seen then some s
    else some { s with got := s.got ++ [s.ring.buffer s.cursor], cursor := (s.cursor + 1) % s.ring.size }
  | .ack => some { s with ring := { s.ring with tail := s.cursor }, acked := s.got.length }

def Tx.run (s : Tx) : List TxAct → Option Tx
  | [] => some s
  | a :: l => (s.step a).bind fun s' => s'.run l

/-- The control block at the start, rtt.cpp.in:79-92: both indices are 0 -/
def Tx.init (size : Nat) (buffer : Nat → Byte) : Tx := ⟨⟨size, 0, 0, buffer⟩, .idle, 0, 0, [], [], 0⟩

/-- The bytes whose `write` returned true -/
def accepted (log : List (Byte × Bool)) : List Byte := (log.filter fun q => q.2).map fun q => q.1

/-! ## The receive buffer: the debugger writes, the program reads -/

/-- Where the program is in `read` -/
inductive RPc where
  | idle
  | start                       -- before line 40
  | loaded (h : Nat)            -- `rhead` is loaded, line 40
  | some (t : Nat)              -- the test of line 42 found a byte
  | taken (d : Byte) (t : Nat)  -- the byte is read, line 43

structure Rx where
  ring : Ring
  pc : RPc
  seen : Nat
  cursor : Nat
  put : List Byte
  shown : Nat
  log : List (Option Byte)

inductive RxAct where
  | call           -- the program calls `read`
  | prog           -- the next access of the program
  | look           -- the debugger loads `tail`
  | put (b : Byte) -- the debugger stores one byte, if it sees room for it
  | show           -- the debugger stores `head`

/-- One access of the program in `RttBuffer::read`, rtt.cpp.in:38-46; line 41 and the test of line 42 are one step -/
def Rx.prog (s : Rx) : Option Rx :=
  match s.pc with
  | .idle => .some s
  | .start => .some { s with pc := .loaded s.ring.head }
  | .loaded h =>
    if s.ring.size = 0 ∨ s.ring.tail = h then .some { s with pc := .idle, log := s.log ++ [none] }
    else .some { s with pc := .some s.ring.tail }
  | .some t => if t < s.ring.size then .some { s with pc := .taken (s.ring.buffer t) t } else none
  | .taken d t => .some { s with pc := .idle, ring := { s.ring with tail := (t + 1) % s.ring.size }, log := s.log ++ [Option.some d] }

/-- One step of either side; a debugger does not write to a buffer without places -/
def Rx.step (s : Rx) : RxAct → Option Rx
  | .call => match s.pc with
    | .idle => some { s with pc := .start }
    | _ => some s
  | .prog => s.prog
  | .look => some { s with seen := s.ring.tail }
  | .put b =>
    if s.ring.size = 0 ∨ (s.cursor + 1) % s.ring.size = s.seen then some s
    else some { s with put := s.put ++ [b], ring := { s.ring with buffer := Function.update s.ring.buffer s.cursor b }, cursor := (s.cursor + 1) % s.ring.size }
  | .show => some { s with ring := { s.ring with head := s.cursor }, shown := s.put.length }

def Rx.run (s : Rx) : List RxAct → Option Rx
  | [] => some s
  | a :: l => (s.step a).bind fun s' => s'.run l

def Rx.init (size : Nat) (buffer : Nat → Byte) : Rx := ⟨⟨size, 0, 0, buffer⟩, .idle, 0, 0, [], 0, []⟩

/-- The bytes that `read` returned -/
def received (log : List (Option Byte)) : List Byte := log.filterMap id

end Modm.Rtt
