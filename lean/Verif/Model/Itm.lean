/-!
The instrumentation trace macrocell as a serial output with a buffer.

Models `/repo/src/modm/platform/uart/cortex/itm.cpp.in:82-205` with `buffer.tx`.  The queue is a list with a capacity (its own model
is `AtomicQueue`).  Whether the port is free is given from outside for each access; a debugger gets the bytes of each access to the port
from the lowest to the highest.
-/

set_option autoImplicit false

namespace Model.Itm

structure State where
  cap : Nat
  txBuffer : List (BitVec 8)
  buffer : BitVec 32
  size : Nat
  out : List (BitVec 8)
deriving DecidableEq

def init (cap : Nat) : State := ⟨cap, [], 0#32, 0, []⟩

/-- itm.cpp.in:143-170: `write_itm()`: the result and the bytes put out. -/
def writeItm (enabled ready : Bool) (data : BitVec 32) (size : Nat) : Bool × List (BitVec 8) :=
  if enabled then
    if !ready then (false, [])
    else match size with
      | 1 => (true, [(data >>> 24).setWidth 8])
      | 2 => (true, [(data >>> 16).setWidth 8, (data >>> 24).setWidth 8])
      | 4 => (true, [data.setWidth 8, (data >>> 8).setWidth 8, (data >>> 16).setWidth 8, (data >>> 24).setWidth 8])
      | _ => (false, [])
  else (true, [])

/-- itm.cpp.in:183-191: the loop over the queue. -/
def fill : List (BitVec 8) → BitVec 32 → Nat → List (BitVec 8) × BitVec 32 × Nat
  | [], buffer, size => ([], buffer, size)
  | d :: r, buffer, size =>
    if size < 4 then fill r ((buffer >>> 8) ||| (d.setWidth 32 <<< 24)) (size + 1)
    else (d :: r, buffer, size)

/-- itm.cpp.in:176-203: `update()`. -/
def update (s : State) (enabled ready : Bool) : State :=
  let (q, buffer, size) := fill s.txBuffer s.buffer s.size
  if size = 3 then
    let (ok, bytes) := writeItm enabled ready (buffer <<< 8) 2
    if ok then { s with txBuffer := q, buffer := buffer &&& (0xff#32 <<< 24), size := 1, out := s.out ++ bytes }
    else { s with txBuffer := q, buffer := buffer, size := size }
  else
    let (ok, bytes) := writeItm enabled ready buffer size
    if ok then { s with txBuffer := q, buffer := 0#32, size := 0, out := s.out ++ bytes }
    else { s with txBuffer := q, buffer := buffer, size := size }

/-- itm.cpp.in:92-102: `write()`. -/
def write (s : State) (enabled ready : Bool) (data : BitVec 8) : State × Bool :=
  if s.txBuffer.length < s.cap then ({ s with txBuffer := s.txBuffer ++ [data] }, true)
  else
    let s := update s enabled ready
    if s.txBuffer.length < s.cap then ({ s with txBuffer := s.txBuffer ++ [data] }, true) else (s, false)

/-- itm.cpp.in:115-123: `isWriteFinished()`. -/
def isWriteFinished (s : State) : Bool := s.txBuffer.isEmpty

/-- itm.cpp.in:82-90: `flushWriteBuffer()`; the list says when the port is free; `none`: does not return by then. -/
def flushWriteBuffer (s : State) (enabled : Bool) : List Bool → Option State
  | [] => if isWriteFinished s then some s else none
  | r :: rs => if isWriteFinished s then some s else flushWriteBuffer (update s enabled r) enabled rs

end Model.Itm
