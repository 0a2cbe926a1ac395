import Verif.Model.HeapTable
set_option autoImplicit false

/-!
# Heap of Cortex-M with TLSF allocators

Model of `/repo/src/modm/platform/heap/cortex/heap_tlsf.cpp`.

Of the TLSF library (`ext/tlsf`, see `Model.Tlsf`) only the interface is modelled here: creating an allocator in a piece of memory and
adding a piece may fail (`ok`), an allocation yields an address or null
(`alloc`, by the address of the allocator).  Locks are left out.
Undefined behaviour (use of `mem_pools[-1]`, an allocator at null) is `none`.
-/

namespace Model.HeapTlsf
open Model.HeapTable (Entry)

/-- `MODM_TLSF_MAX_MEM_POOL_COUNT`, `heap_tlsf.cpp:24-26`. -/
def maxPools : Nat := 6

/-- `mem_pool_t`, `heap_tlsf.cpp:28-33`; `tlsf` is the address of the allocator,
which lies at the begin of its memory. -/
structure Pool where
  traits : Nat
  tlsf : Nat
  stop : Nat
  deriving DecidableEq, Repr

/-- Those of `mem_pools` that are in use, in reverse order (the last one first),
and the pieces of memory given to the allocators: allocator, start, size. -/
structure St where
  pools : List Pool
  areas : List (Nat × Nat × Nat)
  deriving DecidableEq, Repr

/-- `current_traits`, `heap_tlsf.cpp:43,57`: those of the last pool. -/
def St.traits (s : St) : Nat := match s.pools with
  | [] => 0
  | p :: _ => p.traits

/-- A turn of the loop of `__modm_initialize_memory`, `heap_tlsf.cpp:47-71`. -/
def initStep (ok : Entry → Bool) (s : St) (e : Entry) : Option St :=
  if s.pools.length ≥ maxPools then some s
  else
    match s.pools with
    | [] =>
      if e.traits ≠ 0 then
        some (if ok e then ⟨[⟨e.traits, e.start, e.stop⟩], [(e.start, e.start, e.size)]⟩ else s)
      else none
    | p :: l =>
      if e.traits ≠ p.traits ∨ e.start ≠ p.stop then
        some (if ok e then ⟨⟨e.traits, e.start, e.stop⟩ :: p :: l, (e.start, e.start, e.size) :: s.areas⟩ else s)
      else
        some (if ok e then ⟨{ p with stop := e.stop } :: l, (p.tlsf, e.start, e.size) :: s.areas⟩ else s)

/-- `__modm_initialize_memory`, `heap_tlsf.cpp:40-72`. -/
def init (ok : Entry → Bool) (l : List Entry) : Option St :=
  l.foldl (fun s e => s.bind fun s => initStep ok s e) (some ⟨[], []⟩)

/-- The table `mem_pools` from its begin, with the entries that are not in use. -/
def table (s : St) : List Pool := s.pools.reverse ++ List.replicate (maxPools - s.pools.length) ⟨0, 0, 0⟩

/-- `get_tlsf_for_ptr`, `heap_tlsf.cpp:74-89`; 0 if there is none. -/
def getTlsf (s : St) (p : Nat) : Nat :=
  match (table s).find? fun q => q.tlsf < p && p < q.stop with
  | some q => q.tlsf
  | none => 0

/-- The loop of `malloc_traits`, `heap_tlsf.cpp:97-108`: pool and address. -/
def tryPools (alloc : Nat → Option Nat) (traits : Nat) : List Pool → Option (Option (Pool × Nat))
  | [] => some none
  | q :: l =>
    if q.traits &&& traits = traits then
      if q.tlsf = 0 then none
      else
        match alloc q.tlsf with
        | some p => some (some (q, p))
        | none => tryPools alloc traits l
    else tryPools alloc traits l

/-- `clear_mask`, `heap_tlsf.cpp:111-112`. -/
def clearMask : Nat := 0xA000

/-- `malloc_traits`, `heap_tlsf.cpp:94-127`, with the jumps to `try_again`:
first with all traits, then without `TypeExternal` and `TypeCoreCoupled`, then
with `AccessSBus`. -/
def mallocTraits (s : St) (alloc : Nat → Option Nat) (traits : Nat) : Option (Option (Pool × Nat)) :=
  (tryPools alloc traits (table s)).bind fun r =>
  if r.isSome then some r
  else
    let t1 := if traits &&& clearMask ≠ 0 then traits &&& (0xFFFFFFFF ^^^ clearMask) else traits
    (if traits &&& clearMask ≠ 0 then tryPools alloc t1 (table s) else some none).bind fun r =>
    if r.isSome then some r
    else if t1 &&& 1 = 0 then tryPools alloc (t1 ||| 1) (table s)
    else some none

/-- `malloc` (`__wrap__malloc_r`, `heap_tlsf.cpp:129-134`): `AccessSBus` and
`AccessDMA`. -/
def malloc (s : St) (alloc : Nat → Nat → Option Nat) (size : Nat) : Option (Option (Pool × Nat)) :=
  mallocTraits s (alloc size) 9

/-- `calloc(n, size)`: the C library calls `_calloc_r(r, n, size)`; the wrapped
function (`heap_tlsf.cpp:136-141`) has two parameters only, the second is `n`.
The result is the address and the number of bytes allocated and cleared. -/
def calloc (s : St) (alloc : Nat → Nat → Option Nat) (n _size : Nat) : Option (Option (Nat × Nat)) :=
  (malloc s alloc n).map fun r => r.map fun q => (q.2, n)

/-- `free` (`__wrap__free_r`, `heap_tlsf.cpp:160-170`): the allocator the block
is given back to, if any. -/
def free (s : St) (p : Nat) : Option Nat :=
  if p = 0 then none else if getTlsf s p ≠ 0 then some (getTlsf s p) else none

end Model.HeapTlsf
