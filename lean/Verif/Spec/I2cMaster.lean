import Verif.Model.I2c
import Verif.Spec.I2c

/-!
# What users expect of an I²C master that works in the background

The transaction object tells what to do (`i2c_transaction.hpp`), the devices on the bus are an `App`
(`Spec/I2c.lean`).  `ideal` is the whole transaction, without any hardware or interrupts.
-/

set_option autoImplicit false

namespace I2cMasterSpec

open Modm.I2c Modm.Spec.I2c

/-- What is left in the end: the error state of the master, the object, the devices, the memory. -/
structure Result (α τ : Type) where
  error : Error
  trans : τ
  app : α
  mem : Nat → Byte

variable {α τ : Type} (A : App α) (T : Transaction τ)

/-- Bytes are written until one is not acknowledged. -/
def writes : List Byte → α → Bool × α
  | [], s => (true, s)
  | b :: r, s =>
    let x := A.write b s
    if x.1 then writes r x.2 else (false, x.2)

/-- `n` bytes are read, all but the last one are acknowledged. -/
def readN : Nat → α → List Byte × α
  | 0, s => ([], s)
  | n + 1, s =>
    let x := A.read s
    let y := readN n (A.acked (decide (n ≠ 0)) x.2)
    (x.1 :: y.1, y.2)

/-- The bytes of a buffer. -/
def bytesOf (mem : Nat → Byte) (buffer : Option Nat) (length : Nat) : List Byte :=
  match buffer with
  | none => []
  | some p => (List.range length).map fun i => mem (p + i)

/-- What comes next, with the buffer. -/
inductive Next where
  | stop
  | restart
  | write (w : Writing)
  | read (r : Reading)

/-- The object is asked for a buffer if there is something to write or to read. -/
def fetch (op : Operation) (t : τ) : Next × τ :=
  match op with
  | .stop => (.stop, t)
  | .restart => (.restart, t)
  | .write => (.write (T.writing t).1, (T.writing t).2)
  | .read => (.read (T.reading t).1, (T.reading t).2)

/-- The byte with the address and the direction. -/
def addressByte (s : Starting) : Byte := (s.address &&& 0xfe) ||| (if s.next = .read then 1 else 0)

/-- A transaction from some point on, at most `k` operations.  The `Bool` tells whether everything that follows a
write and everything that is read has at least one byte. -/
def ideal : Nat → Next → τ → α → (Nat → Byte) → Option (Bool × Result α τ)
  | 0, _, _, _, _ => none
  | _ + 1, .stop, t, s, mem => some (true, ⟨.noError, T.detaching .normalStop t, A.stop s, mem⟩)
  | k + 1, .restart, t, s, mem =>
    let st := T.starting t
    let f := fetch T st.1.next st.2
    let x := A.address (addressByte st.1) (A.start s)
    if x.1 then ideal k f.1 f.2 x.2 mem
    else some (true, ⟨.addressNack, T.detaching .errorCondition f.2, A.stop x.2, mem⟩)
  | k + 1, .write w, t, s, mem =>
    let x := writes A (bytesOf mem w.buffer w.length) s
    if x.1 then
      let f := fetch T w.next t
      let ok := match f.1 with
        | .write w' => decide (bytesOf mem w'.buffer w'.length ≠ [])
        | _ => true
      (ideal k f.1 f.2 x.2 mem).map fun r => (ok && r.1, r.2)
    else some (true, ⟨.dataNack, T.detaching .errorCondition t, A.stop x.2, mem⟩)
  | k + 1, .read r, t, s, mem =>
    match r.buffer with
    | none => (ideal k (fetch T r.next t).1 (fetch T r.next t).2 s mem).map fun r => (false, r.2)
    | some p =>
      let x := readN A r.length s
      (ideal k (fetch T r.next t).1 (fetch T r.next t).2 x.2 (stored mem p x.1)).map fun q =>
        (decide (r.length ≠ 0) && q.1, q.2)

/-- The sizes of all buffers are values of `size_t` with this many bits, and after a write or a read comes only what the
types allow: `OperationAfterWrite` has no `Read`, `OperationAfterRead` neither `Read` nor `Write`, `OperationAfterStart` no `Restart`.
`I` holds for the object at all times. -/
structure Typed (I : τ → Prop) (bits : Nat) : Prop where
  starting : ∀ t, I t → (T.starting t).1.next ≠ .restart ∧ I (T.starting t).2
  writing : ∀ t, I t → (T.writing t).1.next ≠ .read ∧ (T.writing t).1.length < 2 ^ bits ∧ I (T.writing t).2
  reading : ∀ t, I t → (T.reading t).1.next ≠ .read ∧ (T.reading t).1.next ≠ .write ∧ (T.reading t).1.length < 2 ^ bits ∧ I (T.reading t).2

/-- What the master says in the end. -/
def errorOf : Outcome → Error
  | .done => .noError
  | .addressNack => .addressNack
  | .dataNack => .dataNack

/-- The devices saw these steps, the bytes read are at `p`, the master and the object know the outcome. -/
structure Happened (steps : List Step) (s : α) (mem : Nat → Byte) (p : Nat) (state : τ → State) (r : Result α τ) : Prop where
  app : r.app = (exec A steps s).2.2
  state : state r.trans = if (exec A steps s).1 = .done then .idle else .error
  error : r.error = errorOf (exec A steps s).1
  mem : r.mem = stored mem p (exec A steps s).2.1

/-- The bytes at an address. -/
def bytesAt (mem : Nat → Byte) (p n : Nat) : List Byte := (List.range n).map fun i => mem (p + i)

end I2cMasterSpec
