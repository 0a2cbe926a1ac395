/-!
Configuring an FPGA of the family Spartan 6.

Models `/repo/src/modm/driver/fpga/xilinx_spartan6_impl.hpp:26-195`: `configure()` with `writePage()` and `writeWord()`.  The pins
INIT_B and DONE are inputs: what is read while waiting, and after each word.  Left out: LEDs, log and delays.
-/

set_option autoImplicit false

namespace Model.Spartan6

abbrev Byte := BitVec 8

inductive PageState where
  | ongoing
  | done
  | crcError
  deriving DecidableEq, Repr

/-- What is read at the pins (`true` is high) and the memory with the configuration. -/
structure Env where
  mem : Nat → Byte
  /-- INIT_B and DONE are both low, at each poll after PROG_B went low. -/
  cleared : Nat → Bool
  /-- INIT_B is high, at each poll after PROG_B went high. -/
  ready : Nat → Bool
  /-- DONE after each word. -/
  doneAfter : Nat → Bool
  /-- INIT_B after each word. -/
  initAfter : Nat → Bool

/-- xilinx_spartan6_impl.hpp:52-66,81-92: waiting, at the poll `i`; `left` bounds the polls. -/
def wait (f : Nat → Bool) : (left i : Nat) → Bool
  | 0, _ => false
  | left + 1, i => if f i then true else if i > 1000 then false else wait f left (i + 1)

/-- xilinx_spartan6_impl.hpp:150-195: `writePage()` from word `w` of the memory on, with `left` words still to write: the bytes
clocked out and the state. -/
def writePage (e : Env) : (left w : Nat) → PageState → List Byte × PageState
  | 0, _, st => ([], st)
  | left + 1, w, st =>
    let word := [e.mem (2 * w), e.mem (2 * w + 1)]
    if e.doneAfter w then (word, .done)
    else
      let r := writePage e left (w + 1) (if e.initAfter w then st else .crcError)
      (word ++ r.1, r.2)

/-- xilinx_spartan6_impl.hpp:105-118: the loop over pages of 256 bytes from page `p` on, with `left` pages that may be written. -/
def pages (e : Env) : (left p : Nat) → List Byte × PageState
  | 0, _ => ([], .ongoing)
  | left + 1, p =>
    let r := writePage e 128 (128 * p) .ongoing
    if r.2 = .ongoing then
      let q := pages e left (p + 1)
      (r.1 ++ q.1, q.2)
    else r

/-- xilinx_spartan6_impl.hpp:26-148: `configure()` for a bit stream of `size` bytes: the bytes clocked out, the cycles without
data that follow, and the result.  A page at `pos` is written if `pos ≤ size`. -/
def configure (e : Env) (size : Nat) : List Byte × Nat × Bool :=
  if wait e.cleared 1002 0 = false then ([], 0, false)
  else if wait e.ready 1002 0 = false then ([], 0, false)
  else
    let r := pages e (size / 256 + 1) 0
    if r.2 = .done then (r.1, 8, true) else (r.1, 0, false)

end Model.Spartan6
