import Verif.Model.Dataflash

set_option autoImplicit false

/-!
A data flash as its user sees it: pages of 256 bytes and two buffers, no time, no opcodes.
-/

namespace Spec.Dataflash

open Model.Dataflash (Byte Op Out)

structure Store where
  page : Nat → Nat → Byte
  buf : Bool → Nat → Byte

/-- Byte `k` of the buffer after `data` was written from `a` on: the last byte that falls on it. -/
def overwrite (f : Nat → Byte) (a : Nat) (data : List Byte) (k : Nat) : Byte :=
  match (List.range data.length).reverse.find? fun i => (a + i) % 256 == k with
  | none => f k
  | some i => data.getD i 0

/-- The effect of an operation on a store of `n` pages. -/
def effect (n : Nat) (s : Store) : Op → Out × Store
  | .toBuffer p b => (.nothing, { s with buf := fun c => if c = b then s.page p.toNat else s.buf c })
  | .compare p b => (.equal ((List.range 256).all fun i => s.page p.toNat i == s.buf b i), s)
  | .toPage b p => (.nothing, { s with page := fun q => if q = p.toNat then s.buf b else s.page q })
  | .toPageNoErase b p => (.nothing, { s with page := fun q i => if q = p.toNat then s.page q i &&& s.buf b i else s.page q i })
  | .readBuf b a k => (.bytes ((List.range k).map fun i => s.buf b ((a.toNat + i) % 256)), s)
  | .writeBuf b a data => (.nothing, { s with buf := fun c => if c = b then overwrite (s.buf b) a.toNat data else s.buf c })
  | .read a k => (.bytes ((List.range k).map fun i => s.page ((a.toNat + i) / 256 % n) ((a.toNat + i) % 256)), s)
  | .readPage a k => (.bytes ((List.range k).map fun i => s.page (a.toNat / 256) ((a.toNat + i) % 256)), s)
  | .rewrite p b => (.nothing, { s with buf := fun c => if c = b then s.page p.toNat else s.buf c })
  | .chipErase => (.nothing, { s with page := fun _ _ => 0xff })

def effects (n : Nat) : List Op → Store → List Out × Store
  | [], s => ([], s)
  | o :: os, s =>
    let r := effect n s o
    let t := effects n os r.2
    (r.1 :: t.1, t.2)

/-- The page of an operation exists. -/
def Valid (n : Nat) : Op → Prop
  | .toBuffer p _ => p.toNat < n
  | .compare p _ => p.toNat < n
  | .toPage _ p => p.toNat < n
  | .toPageNoErase _ p => p.toNat < n
  | .read a _ => a.toNat < 256 * n
  | .readPage a _ => a.toNat < 256 * n
  | .rewrite p _ => p.toNat < n
  | _ => True

end Spec.Dataflash
