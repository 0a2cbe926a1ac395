/-!
The driver for the USB FIFO FT245.

Models `/repo/src/modm/driver/usb/ft245_impl.hpp`.
-/

set_option autoImplicit false

namespace Model.Ft245

/-- ft245_impl.hpp:60-86: the loop of `read(buffer, n)`.  Each poll of `RXF` finds nothing (`none`) or a byte that is
taken from the FIFO.  `delay` and `rcvd` have eight bits.  A byte behind the end of the buffer, and polls that do not
suffice for the loop to end, are `none`; the result has the bytes and the polls that are left. -/
def readLoop (n : Nat) : List (Option (BitVec 8)) → Nat → Nat → List (BitVec 8) → Option (List (BitVec 8) × List (Option (BitVec 8)))
  | [], _, _, _ => none
  | none :: ps, delay, rcvd, acc =>
    if delay - 1 = 0 then some (acc, ps) else readLoop n ps (delay - 1) rcvd acc
  | some b :: ps, _, rcvd, acc =>
    if n ≤ acc.length then none
    else if (rcvd + 1) % 256 = n then some (acc ++ [b], ps)
    else readLoop n ps 20 ((rcvd + 1) % 256) (acc ++ [b])

/-- ft245_impl.hpp:57-60: `read(buffer, n)`. -/
def read (n : Nat) (polls : List (Option (BitVec 8))) : Option (List (BitVec 8) × List (Option (BitVec 8))) :=
  readLoop n polls 20 0 []

/-- The chip and the port: `busy` is how many polls of `TXE` are still high, `waits` the ones after further bytes. -/
structure Chip where
  fifo : List (BitVec 8)
  busy : Nat
  waits : List Nat
  wr : Bool
  port : BitVec 8
  output : Bool
  lost : Bool

/-- `wr.reset()`: on the falling edge the chip takes the byte of the port, unless it is busy. -/
def wrReset (c : Chip) : Chip :=
  if c.wr then
    if c.busy = 0 ∧ c.output = true then { c with wr := false, fifo := c.fifo ++ [c.port], busy := c.waits.headD 0, waits := c.waits.tail }
    else { c with wr := false, lost := true }
  else c

/-- ft245_impl.hpp:95-97,120-122: `while (txe.read());`. -/
def wait : Nat → Chip → Chip
  | 0, c => c
  | n + 1, c => if c.busy = 0 then c else wait n { c with busy := c.busy - 1 }

/-- ft245_impl.hpp:92-106: `write(c)`. -/
def writeByte (c : Chip) (b : BitVec 8) : Chip :=
  let c := wait c.busy c
  let c := { c with wr := true }
  let c := { c with output := true }
  let c := { c with port := b }
  let c := wrReset c
  { c with output := false }

/-- ft245_impl.hpp:114-126: the loop of `write(buffer, n)`. -/
def writeLoop : List (BitVec 8) → Chip → Chip
  | [], c => c
  | b :: bs, c =>
    let c := { c with wr := true }
    let c := { c with port := b }
    let c := wait c.busy c
    writeLoop bs (wrReset c)

/-- ft245_impl.hpp:110-128: `write(buffer, n)`. -/
def write (c : Chip) (bs : List (BitVec 8)) : Chip :=
  { writeLoop bs { c with output := true } with output := false }

end Model.Ft245
