import Mathlib.Logic.Function.Basic
set_option autoImplicit false

/-!
# Fault storage and heap table of Cortex-M

Model of `/repo/src/modm/platform/fault/crashcatcher/fault_storage.cpp` and
`/repo/src/modm/platform/core/cortex/heap_table.cpp.in` (with
`with_fault_storage`; without it `heapStart` is never set).

Addresses are natural numbers, 0 is the null pointer; the table of the heap
regions comes from the linker script.  The memory is kept by a reset, and so
are the two markers in `.noinit`; the other variables are initialised again.

`extern "C" uint8_t *g_crashCatcherStack` is a *symbol* of the linker script
(`ram.ld.in:39`): the comparison in `fault_storage.cpp:159` reads the word
stored at this place, not the place.  This word is a parameter `w`, for writing
and reading separately.  Reading past the end of the table is `none`.
-/

namespace Model.HeapTable

/-- `table_pool_t`, `heap_table.cpp.in:16-21`, `fault_storage.cpp:16-21`. -/
structure Region where
  traits : Nat
  start : Nat
  stop : Nat
  deriving DecidableEq, Repr

/-! ## Fault storage -/

/-- `magic_start`, `fault_storage.cpp:26`. -/
def magicStart : Nat := 0xBAADC0DE

/-- The bytes of `magic_end`, `fault_storage.cpp:27`, in memory. -/
def magicEnd : List (BitVec 8) := [0xEE, 0xEE, 0xFF, 0xC0]

/-- Memory, the markers of `.noinit`, `report_end` and
`fault_storage_heap_start` (`fault_storage.cpp:28-37`). -/
structure St where
  mem : Nat → BitVec 8
  markerStart : Nat
  markerEnd : Nat
  reportEnd : Nat
  heapStart : Nat

/-- `FaultStorage::Iterator`, `fault_storage.hpp:28-52`: index into the table
and position. -/
structure It where
  idx : Nat
  pos : Nat
  deriving DecidableEq, Repr

/-- `Iterator::operator++`, `fault_storage.cpp:155-169`. -/
def It.next (tbl : List Region) (w : Nat) (i : It) : Option It :=
  match tbl[i.idx]? with
  | none => none
  | some t =>
    if i.pos ≥ t.stop ∨ i.pos + 1 = w then
      match tbl[i.idx + 1]? with
      | none => none
      | some t' => some ⟨i.idx + 1, t'.start⟩
    else some ⟨i.idx, i.pos + 1⟩

/-- `FaultStorage::begin`, `fault_storage.cpp:134-138`. -/
def begin_ (tbl : List Region) : Option It :=
  match tbl[0]? with
  | none => none
  | some t => some ⟨0, t.start⟩

/-- `FaultStorage::write` of bytes, `fault_storage.cpp:116-125`. -/
def writeBytes (tbl : List Region) (w : Nat) : List (BitVec 8) → St × It → Option (St × It)
  | [], x => some x
  | b :: l, (s, i) =>
    match i.next tbl w with
    | none => none
    | some i' => writeBytes tbl w l ({ s with mem := Function.update s.mem i.pos b }, i')

/-- `FaultStorage::write` of elements, `fault_storage.cpp:86-114`: `data` are
the bytes of all the elements.  The result is false for other sizes. -/
def write (tbl : List Region) (w : Nat) (size : Nat) (data : List (BitVec 8)) (x : St × It) : Option (Bool × (St × It)) :=
  if data = [] then some (true, x)
  else if size = 1 ∨ size = 2 ∨ size = 4 then (writeBytes tbl w data x).map (fun y => (true, y))
  else some (false, x)

/-- `FaultStorage::openWrite`, `fault_storage.cpp:78-84`. -/
def openWrite (tbl : List Region) (s : St) : Option (St × It) :=
  match begin_ tbl with
  | none => none
  | some i => some ({ s with markerStart := magicStart, markerEnd := 0 }, i)

/-- `FaultStorage::closeWrite`, `fault_storage.cpp:127-132`. -/
def closeWrite (tbl : List Region) (w : Nat) (x : St × It) : Option (St × It) :=
  writeBytes tbl w magicEnd ({ x.1 with markerEnd := x.2.pos }, x.2)

/-- `FaultStorage::closeRead`, `fault_storage.cpp:71-76`. -/
def closeRead (s : St) : St := { s with markerStart := 0, markerEnd := 0 }

/-- Four bytes of the memory. -/
def word (m : Nat → BitVec 8) (a : Nat) : List (BitVec 8) := [m a, m (a + 1), m (a + 2), m (a + 3)]

/-- The loop of `openRead`, `fault_storage.cpp:49-66`; `none` if it ends without
a report. -/
def findReport (s : St) : List Region → Nat → Option Nat
  | [], _ => none
  | t :: l, size =>
    if t.start ≤ s.markerEnd ∧ s.markerEnd < t.stop then
      if word s.mem s.markerEnd = magicEnd then some (size + (s.markerEnd - t.start)) else none
    else findReport s l (size + (t.stop - t.start))

/-- `FaultStorage::openRead`, `fault_storage.cpp:41-69`. -/
def openRead (tbl : List Region) (s : St) : Option (Nat × St) :=
  match tbl[0]? with
  | none => none
  | some t0 =>
    let s := { s with reportEnd := t0.start }
    match (if s.markerStart = magicStart ∧ s.markerEnd ≠ 0 then findReport s tbl 0 else none) with
    | some n => some (n, { s with reportEnd := s.markerEnd, heapStart := (s.markerEnd + 4 + 3) / 4 * 4 })
    | none => some (0, closeRead s)

/-- A reset: what `.noinit` and the heap contain is kept. -/
def reboot (s : St) : St := { s with reportEnd := 0, heapStart := 0 }

/-- The loop of a user over the report, `for (uint8_t b : FaultReporter())`,
with at most `n` turns; `begin` and `end` of `fault.hpp:57-58`. -/
def readFrom (tbl : List Region) (w : Nat) (s : St) : Nat → It → Option (List (BitVec 8))
  | 0, _ => none
  | n + 1, i =>
    if i.pos = s.reportEnd then some []
    else
      match i.next tbl w with
      | none => none
      | some i' => (readFrom tbl w s n i').map (s.mem i.pos :: ·)

/-- The whole report. -/
def readAll (tbl : List Region) (w : Nat) (s : St) (n : Nat) : Option (List (BitVec 8)) :=
  match begin_ tbl with
  | none => none
  | some i => readFrom tbl w s n i

/-- What `CrashCatcher_DumpStart`, `_DumpMemory`, `_DumpEnd` do
(`crashcatcher_dump.cpp:34-56`): a list of calls with size and bytes. -/
def dump (tbl : List Region) (w : Nat) (calls : List (Nat × List (BitVec 8))) (s : St) : Option St :=
  match openWrite tbl s with
  | none => none
  | some x =>
    match calls.foldl (fun (y : Option (St × It)) c =>
        y.bind fun z => (write tbl w c.1 c.2 z).map Prod.snd) (some x) with
    | none => none
    | some y => (closeWrite tbl w y).map Prod.fst

/-! ## Heap table -/

/-- An element of the iteration, `heap_table.cpp.in:63-73`: traits, start, end
and size. -/
structure Entry where
  traits : Nat
  start : Nat
  stop : Nat
  size : Nat
  deriving DecidableEq, Repr

/-- Difference of two addresses as `size_t`. -/
def diff (stop start : Nat) : Nat := if start ≤ stop then stop - start else 4294967296 + stop - start

/-- Index and offset of the first element, `heap_table.cpp.in:34-52`. -/
def first (hs : Nat) : List Region → Nat → Option (Nat × Nat)
  | [], _ => none
  | t :: l, k => if t.start ≤ hs ∧ hs < t.stop then some (k, hs - t.start) else first hs l (k + 1)

/-- All elements of `HeapTable`, `heap_table.cpp.in:34-95`: `operator++` moves
on to the next region but keeps the offset. -/
def entries (tbl : List Region) (hs : Nat) : List Entry :=
  match (if hs ≠ 0 then first hs tbl 0 else none) with
  | some (k, off) => (tbl.drop k).map fun t => ⟨t.traits, t.start + off, t.stop, diff t.stop (t.start + off)⟩
  | none => tbl.map fun t => ⟨t.traits, t.start, t.stop, diff t.stop t.start⟩

/-- A step of the loop of `find_largest`, `heap_table.cpp.in:107-124`. -/
def pick (mask : Nat) (x : Nat × Nat × Nat) (e : Entry) : Nat × Nat × Nat :=
  if e.traits &&& mask ≠ 0 then
    if e.start = x.2.1 then (x.1, e.stop, x.2.2 + e.size)
    else if e.size ≥ x.2.2 then (e.start, e.stop, e.size)
    else x
  else x

/-- `HeapTable::find_largest`, `heap_table.cpp.in:97-126`: result, `*start` and
`*end`. -/
def findLargest (mask : Nat) (l : List Entry) : Bool × Nat × Nat :=
  let x := l.foldl (pick mask) (0, 0, 0)
  (decide (x.1 ≠ 0), x.1, x.2.1)

end Model.HeapTable
