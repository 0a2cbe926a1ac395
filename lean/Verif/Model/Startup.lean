import Mathlib.Logic.Function.Basic
import Verif.Model.AvrHeap

set_option autoImplicit false

/-!
# Startup of Cortex-M, `_sbrk_r` and `operator new`

Model of `/repo/src/modm/platform/core/cortex/startup.c.in`, of
`/repo/src/modm/platform/heap/cortex/heap_newlib.cpp` and of `/repo/ext/gcc/new_delete.cpp.in`.

The memory is counted in words: the linker script aligns the starts and the ends of the sections
to four bytes (linker.macros: section_ram, section_load, section_heap). A table is the list of
its entries. What the hooks, the heap and the constructors do is given by functions on the memory.
The registers of the core (caches, vector table offset, traps) are left out.
-/

namespace Model.Startup

abbrev Mem := Nat → BitVec 32

/-- `while (dest < table[2]) *(dest++) = *(src++);` for `n` words, startup.c.in:70-71. -/
def copyWords (m : Mem) (src dst : Nat) : Nat → Mem
  | 0 => m
  | n + 1 => copyWords (Function.update m dst (m src)) (src + 1) (dst + 1) n

/-- `table_copy`, startup.c.in:61-74; an entry is load address, start and end. -/
def tableCopy (m : Mem) : List (Nat × Nat × Nat) → Mem
  | [] => m
  | (src, dst, stop) :: t => tableCopy (copyWords m src dst (stop - dst)) t

/-- `while (dest < table[1]) *(dest++) = 0;`, startup.c.in:84-85. -/
def zeroWords (m : Mem) (dst : Nat) : Nat → Mem
  | 0 => m
  | n + 1 => zeroWords (Function.update m dst 0) (dst + 1) n

/-- `table_zero`, startup.c.in:77-88. -/
def tableZero (m : Mem) : List (Nat × Nat) → Mem
  | [] => m
  | (dst, stop) :: t => tableZero (zeroWords m dst (stop - dst)) t

/-- `table_call`, startup.c.in:53-58. -/
def tableCall (m : Mem) : List (Mem → Mem) → Mem
  | [] => m
  | f :: t => tableCall (f m) t

structure Layout where
  copyIntern : List (Nat × Nat × Nat)
  zeroIntern : List (Nat × Nat)
  copyExtern : List (Nat × Nat × Nat)
  zeroExtern : List (Nat × Nat)

/-- `__modm_startup` up to the hooks, startup.c.in:95-97. -/
def beforeHooks (l : Layout) (m : Mem) : Mem := tableZero (tableCopy m l.copyIntern) l.zeroIntern

/-- `__modm_startup` up to the constructors, startup.c.in:114-123. -/
def beforeConstructors (l : Layout) (hooks : List (Mem → Mem)) (heap : Mem → Mem) (m : Mem) : Mem :=
  heap (tableZero (tableCopy (tableCall (beforeHooks l m) hooks) l.copyExtern) l.zeroExtern)

/-- `__modm_startup` up to `main`, startup.c.in:126-130. -/
def beforeMain (l : Layout) (hooks : List (Mem → Mem)) (heap : Mem → Mem) (constructors : List (Mem → Mem)) (m : Mem) : Mem :=
  tableCall (beforeConstructors l hooks heap m) constructors

/-! ## `_sbrk_r` -/

/-- `heap_top` and `heap_end`, as addresses, heap_newlib.cpp:23-24. -/
structure Brk where
  top : Nat
  stop : Nat
  deriving DecidableEq

/-- `_sbrk_r`, heap_newlib.cpp:42-49; `none` is the failed assertion. -/
def sbrk (b : Brk) (size : Int) : Option (Brk × Nat) :=
  let t := ((b.top : Int) + size) % 2 ^ 32
  if t.toNat < b.stop then some ({ b with top := t.toNat }, b.top) else none

/-! ## `operator new` -/

/-- What is around `operator new`: `malloc`, and the new handler that is installed. -/
structure Env (S : Type) where
  malloc : S → Nat → S × Nat
  handler : S → Option (S → S)

inductive New
  | memory (p : Nat)
  /-- `std::bad_alloc`, or the failed assertion -/
  | failed
  deriving DecidableEq

/-- `new_assert`, new_delete.cpp.in:34-76, without the loop on AVR; `none`: the loop does not end
within `fuel` turns. -/
def newAssert {S : Type} (e : Env S) (avr : Bool) (size : Nat) : Nat → S → Option (S × New)
  | 0, _ => none
  | fuel + 1, s =>
    let r := e.malloc s size
    if r.2 ≠ 0 then some (r.1, .memory r.2)
    else if avr then some (r.1, .failed)
    else
      match e.handler r.1 with
      | some f => newAssert e avr size fuel (f r.1)
      | none => some (r.1, .failed)

/-- `operator new(size, std::nothrow)`, new_delete.cpp.in:84-87. -/
def newNothrow {S : Type} (e : Env S) (size : Nat) (s : S) : S × Nat := e.malloc s size

/-- `malloc` of AVR. -/
def avrEnv : Env Model.AvrHeap.Heap :=
  ⟨fun h size => (Model.AvrHeap.allocate h size).getD (h, 0), fun _ => none⟩

end Model.Startup
