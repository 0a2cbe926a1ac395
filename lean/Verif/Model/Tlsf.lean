import Mathlib.Logic.Function.Basic
import Mathlib.Data.Nat.Log

set_option autoImplicit false

/-!
# Two-level segregated fit allocator

Model of `/repo/ext/tlsf/tlsf.c.in` for 32-bit targets: `tlsf_create_with_pool`, `tlsf_malloc`,
`tlsf_free` and `tlsf_realloc`.

The memory is counted in words of four bytes, so an address is a word number; the allocator
aligns all addresses to words. A block at address `b` is `block_header_t`: `mem b` is
`prev_phys_block`, `mem (b + 1)` is `size`, `mem (b + 2)` is `next_free` and `mem (b + 3)` is
`prev_free`. The control structure begins with `block_null`, which is at address 0; the bitmaps and
the heads of the lists behind it are fields of their own. `tlsf_assert` is empty
(tlsf.c.in:22). Access to a list whose index is out of range is undefined: `none`.
Sizes are bytes, as in the code. There is one pool.
-/

namespace Model.Tlsf

/-- `SL_INDEX_COUNT_LOG2` and `FL_INDEX_MAX`, tlsf.c.in:15-16. -/
structure Cfg where
  slLog2 : Nat
  flMax : Nat

/-- `FL_INDEX_COUNT`, tlsf.c.in:266; `ALIGN_SIZE_LOG2` is 2. -/
def Cfg.flCount (c : Cfg) : Nat := c.flMax - (c.slLog2 + 2) + 1

/-- `control_t`, tlsf.c.in:350-361, and the memory. -/
structure Heap where
  mem : Nat → Nat
  fl : BitVec 32
  sl : Nat → BitVec 32
  heads : Nat → Nat → Nat

def Heap.put (h : Heap) (p v : Nat) : Heap := { h with mem := Function.update h.mem p v }

/-! ## The size field, tlsf.c.in:370-424 -/

/-- `block_size` -/
def sizeOf (x : Nat) : Nat := x - x % 4
def isFree (x : Nat) : Bool := x % 2 == 1
def isPrevFree (x : Nat) : Bool := x / 2 % 2 == 1
/-- `block_set_size`; the size is a multiple of four. -/
def withSize (x size : Nat) : Nat := size + x % 4
def asFree (x : Nat) : Nat := x - x % 2 + 1
def asUsed (x : Nat) : Nat := x - x % 2
def asPrevFree (x : Nat) : Nat := x - x / 2 % 2 * 2 + 2
def asPrevUsed (x : Nat) : Nat := x - x / 2 % 2 * 2

def setSize (h : Heap) (b size : Nat) : Heap := h.put (b + 1) (withSize (h.mem (b + 1)) size)
def setFree (h : Heap) (b : Nat) : Heap := h.put (b + 1) (asFree (h.mem (b + 1)))
def setUsed (h : Heap) (b : Nat) : Heap := h.put (b + 1) (asUsed (h.mem (b + 1)))
def setPrevFree (h : Heap) (b : Nat) : Heap := h.put (b + 1) (asPrevFree (h.mem (b + 1)))
def setPrevUsed (h : Heap) (b : Nat) : Heap := h.put (b + 1) (asPrevUsed (h.mem (b + 1)))

def blockSize (h : Heap) (b : Nat) : Nat := sizeOf (h.mem (b + 1))

/-- `block_next`, tlsf.c.in:454-461: `block_to_ptr(block) + size - 4`. -/
def next (h : Heap) (b : Nat) : Nat := b + 1 + blockSize h b / 4

/-- `block_link_next`, tlsf.c.in:464-469. -/
def linkNext (h : Heap) (b : Nat) : Heap := h.put (next h b) b

/-- `block_mark_as_free`, tlsf.c.in:471-477. -/
def markFree (h : Heap) (b : Nat) : Heap :=
  let n := next h b
  setFree (setPrevFree (linkNext h b) n) b

/-- `block_mark_as_used`, tlsf.c.in:479-484. -/
def markUsed (h : Heap) (b : Nat) : Heap := setUsed (setPrevUsed h (next h b)) b

/-- `adjust_request_size` with `ALIGN_SIZE`, tlsf.c.in:511-520; `block_size_min` is 12. -/
def adjust (c : Cfg) (size : Nat) : Nat :=
  if size ≠ 0 ∧ size < 2 ^ c.flMax then max ((size + 3) / 4 * 4) 12 else 0

/-! ## Lists -/

/-- `mapping_insert`, tlsf.c.in:527-544. -/
def mapping (c : Cfg) (size : Nat) : Nat × Nat :=
  if size < 2 ^ (c.slLog2 + 2) then (0, size / 4)
  else (Nat.log2 size - (c.slLog2 + 1), size >>> (Nat.log2 size - c.slLog2) ^^^ 1 <<< c.slLog2)

/-- `mapping_search`, tlsf.c.in:547-555. -/
def mappingSearch (c : Cfg) (size : Nat) : Nat × Nat :=
  mapping c (if 2 ^ (c.slLog2 + 2) ≤ size then size + (2 ^ (Nat.log2 size - c.slLog2) - 1) else size)

/-- `tlsf_ffs` of a word that is not zero. -/
def ffs (x : BitVec 32) : Nat := ((List.range 32).find? fun i => x.getLsbD i).getD 32

/-- `search_suitable_block`, tlsf.c.in:557-587: the list, if there is one. -/
def search (c : Cfg) (h : Heap) (fl sl : Nat) : Option (Option (Nat × Nat)) :=
  if fl < c.flCount then
    let slMap := h.sl fl &&& (BitVec.allOnes 32 <<< sl)
    if slMap ≠ 0 then some (some (fl, ffs slMap))
    else
      let flMap := h.fl &&& (BitVec.allOnes 32 <<< (fl + 1))
      if flMap = 0 then some none
      else some (some (ffs flMap, ffs (h.sl (ffs flMap))))
  else none

/-- `remove_free_block`, tlsf.c.in:590-616. -/
def removeFree (h : Heap) (b fl sl : Nat) : Heap :=
  let prev := h.mem (b + 3)
  let nxt := h.mem (b + 2)
  let h := (h.put (nxt + 3) prev).put (prev + 2) nxt
  if h.heads fl sl = b then
    let h := { h with heads := Function.update h.heads fl (Function.update (h.heads fl) sl nxt) }
    if nxt = 0 then
      let h := { h with sl := Function.update h.sl fl (h.sl fl &&& ~~~(1#32 <<< sl)) }
      if h.sl fl = 0 then { h with fl := h.fl &&& ~~~(1#32 <<< fl) } else h
    else h
  else h

/-- `insert_free_block`, tlsf.c.in:619-638. -/
def insertFree (h : Heap) (b fl sl : Nat) : Heap :=
  let current := h.heads fl sl
  let h := ((h.put (b + 2) current).put (b + 3) 0).put (current + 3) b
  { h with
    heads := Function.update h.heads fl (Function.update (h.heads fl) sl b)
    fl := h.fl ||| 1#32 <<< fl
    sl := Function.update h.sl fl (h.sl fl ||| 1#32 <<< sl) }

/-- `block_remove`, tlsf.c.in:641-646. -/
def blockRemove (c : Cfg) (h : Heap) (b : Nat) : Option Heap :=
  let m := mapping c (blockSize h b)
  if m.1 < c.flCount then some (removeFree h b m.1 m.2) else none

/-- `block_insert`, tlsf.c.in:649-654. -/
def blockInsert (c : Cfg) (h : Heap) (b : Nat) : Option Heap :=
  let m := mapping c (blockSize h b)
  if m.1 < c.flCount then some (insertFree h b m.1 m.2) else none

/-! ## Blocks -/

/-- `block_can_split`, tlsf.c.in:656-659. -/
def canSplit (h : Heap) (b size : Nat) : Bool := 16 + size ≤ blockSize h b

/-- `block_split`, tlsf.c.in:662-682: the heap and the remaining block. -/
def split (h : Heap) (b size : Nat) : Heap × Nat :=
  let r := b + 1 + size / 4
  let remain := blockSize h b - (size + 4)
  let h := setSize h r remain
  let h := setSize h b size
  (markFree h r, r)

/-- `block_absorb`, tlsf.c.in:685-692. -/
def absorb (h : Heap) (p b : Nat) : Heap :=
  linkNext (h.put (p + 1) (h.mem (p + 1) + (blockSize h b + 4))) p

/-- `block_merge_prev`, tlsf.c.in:695-707. -/
def mergePrev (c : Cfg) (h : Heap) (b : Nat) : Option (Heap × Nat) :=
  if isPrevFree (h.mem (b + 1)) then
    let p := h.mem b
    match blockRemove c h p with
    | none => none
    | some h => some (absorb h p b, p)
  else some (h, b)

/-- `block_merge_next`, tlsf.c.in:710-723. -/
def mergeNext (c : Cfg) (h : Heap) (b : Nat) : Option Heap :=
  let n := next h b
  if isFree (h.mem (n + 1)) then
    match blockRemove c h n with
    | none => none
    | some h => some (absorb h b n)
  else some h

/-- `block_trim_free`, tlsf.c.in:726-736. -/
def trimFree (c : Cfg) (h : Heap) (b size : Nat) : Option Heap :=
  if canSplit h b size then
    let s := split h b size
    let h := linkNext s.1 b
    let h := setPrevFree h s.2
    blockInsert c h s.2
  else some h

/-- `block_trim_used`, tlsf.c.in:739-751. -/
def trimUsed (c : Cfg) (h : Heap) (b size : Nat) : Option Heap :=
  if canSplit h b size then
    let s := split h b size
    let h := setPrevUsed s.1 s.2
    match mergeNext c h s.2 with
    | none => none
    | some h => blockInsert c h s.2
  else some h

/-- `tlsf_malloc`, tlsf.c.in:1092-1098, with `block_locate_free` and `block_prepare_used`,
tlsf.c.in:770-802: the pointer, or none. -/
def malloc (c : Cfg) (h : Heap) (size : Nat) : Option (Heap × Option Nat) :=
  let a := adjust c size
  if a = 0 then some (h, none)
  else
    match search c h (mappingSearch c a).1 (mappingSearch c a).2 with
    | none => none
    | some none => some (h, none)
    | some (some (fl, sl)) =>
      let b := h.heads fl sl
      match trimFree c (removeFree h b fl sl) b a with
      | none => none
      | some h => some (markUsed h b, some (b + 2))

/-- `tlsf_free`, tlsf.c.in:1161-1174, of a pointer that is not null. -/
def free (c : Cfg) (h : Heap) (ptr : Nat) : Option Heap :=
  match mergePrev c (markFree h (ptr - 2)) (ptr - 2) with
  | none => none
  | some (h, b) =>
    match mergeNext c h b with
    | none => none
    | some h => blockInsert c h b

/-- `memcpy` of `n` bytes, as words; a part of a word at the end is taken whole. -/
def copy (h : Heap) (dst src n : Nat) : Heap :=
  { h with mem := fun i => if dst ≤ i ∧ i < dst + (n + 3) / 4 then h.mem (src + (i - dst)) else h.mem i }

/-- `tlsf_realloc`, tlsf.c.in:1189-1247, of a pointer that is not null and a size that is not 0. -/
def realloc (c : Cfg) (h : Heap) (ptr size : Nat) : Option (Heap × Option Nat) :=
  let b := ptr - 2
  let n := next h b
  let cur := blockSize h b
  let combined := cur + blockSize h n + 4
  let a := adjust c size
  if cur < a ∧ (isFree (h.mem (n + 1)) = false ∨ combined < a) then
    match malloc c h size with
    | none => none
    | some (h, none) => some (h, none)
    | some (h, some p) => (free c (copy h p ptr (min cur size)) ptr).map fun h => (h, some p)
  else
    match (if cur < a then (mergeNext c h b).map fun h => markUsed h b else some h) with
    | none => none
    | some h => (trimUsed c h b a).map fun h => (h, some ptr)

/-- `tlsf_create_with_pool`, tlsf.c.in:1075-1080, with `control_construct` and `tlsf_add_pool`,
tlsf.c.in:805-823, 972-1023, for a pool of `words` words at the address `pool`; null if the size
does not fit. `raw` is what the memory holds. -/
def create (c : Cfg) (raw : Nat → Nat) (pool words : Nat) : Option (Option Heap) :=
  let h : Heap := ⟨Function.update (Function.update raw 2 0) 3 0, 0, fun _ => 0, fun _ _ => 0⟩
  let bytes := 4 * (words - 2)
  if bytes < 12 ∨ 2 ^ c.flMax < bytes then some none
  else
    let b := pool - 1
    let h := setPrevUsed (setFree (setSize h b bytes) b) b
    match blockInsert c h b with
    | none => none
    | some h =>
      let n := next h b
      some (some (setPrevFree (setUsed (setSize (linkNext h b) n 0) n) n))

end Model.Tlsf
