import Verif.Model.FdcanFilter
/-
What the message RAM means to the controller (reference manual RM0440, 44.3.6 message RAM, 44.3.7 and 44.3.8 filters, 44.4.22 RXGFC),
and what the user of the driver asks for.
-/
set_option autoImplicit false
namespace Spec.FdcanFilter
open Modm.FdcanFilter (Ram Call FilterConfig FilterType)

/-- What becomes of a frame: it is put into a queue, with the number of the filter, or rejected. -/
inductive Fate
  | queue (fifo1 : Bool) (filter : Nat)
  | rejected
  deriving DecidableEq

/-! ## The controller -/

/-- A filter without its range of identifiers. -/
inductive Kind
  | range | dual | classic
  deriving DecidableEq

/-- What to do with a frame that matches. -/
inductive Action
  | queue0 | queue1 | reject
  deriving DecidableEq

/-- A filter of identifiers of `n` bits. -/
structure Filter (n : Nat) where
  action : Action
  kind : Kind
  a : BitVec n
  b : BitVec n
  deriving DecidableEq

/-- Does the identifier match? -/
def Filter.hits {n : Nat} (f : Filter n) (id : BitVec n) : Bool :=
  match f.kind with
  | .range => f.a.ule id && id.ule f.b
  | .dual => id == f.a || id == f.b
  | .classic => id &&& f.b == f.a &&& f.b

def Action.fate (i : Nat) : Action → Fate
  | .queue0 => .queue false i
  | .queue1 => .queue true i
  | .reject => .rejected

/-- `SFEC` and `EFEC`: the actions of the controller which store at once (4 to 7 also raise interrupts and are not used by the driver). -/
def actionOf (c : BitVec 3) : Option Action :=
  if c = 1 then some .queue0 else if c = 2 then some .queue1 else if c = 3 then some .reject else none

/-- `SFT`; 3 is a filter that is switched off -/
def standardKind (t : BitVec 2) : Option Kind :=
  if t = 0 then some .range else if t = 1 then some .dual else if t = 2 then some .classic else none

/-- `EFT`; the mask `XIDAM`, which is not used for 3, is all ones unless changed -/
def extendedKind (t : BitVec 2) : Kind :=
  if t = 1 then .dual else if t = 2 then .classic else .range

/-- A standard filter: `SFT[31:30] SFEC[29:27] SFID1[26:16] SFID2[10:0]` -/
def standardElement (w : BitVec 32) : Option (Filter 11) :=
  match actionOf (w.extractLsb' 27 3), standardKind (w.extractLsb' 30 2) with
  | some a, some k => some ⟨a, k, w.extractLsb' 16 11, w.extractLsb' 0 11⟩
  | _, _ => none

/-- An extended filter: `EFEC[31:29] EFID1[28:0]`, `EFT[31:30] EFID2[28:0]` -/
def extendedElement (w0 w1 : BitVec 32) : Option (Filter 29) :=
  (actionOf (w0.extractLsb' 29 3)).map fun a => ⟨a, extendedKind (w1.extractLsb' 30 2), w0.extractLsb' 0 29, w1.extractLsb' 0 29⟩

/-- The first of the filters that matches decides. -/
def decideBy {n : Nat} (filters : List (Option (Filter n))) (id : BitVec n) (i : Nat) : Option Fate :=
  match filters with
  | [] => none
  | none :: fs => decideBy fs id (i + 1)
  | some f :: fs => if f.hits id then some (f.action.fate i) else decideBy fs id (i + 1)

/-- Frames that match no filter: 0 and 1 are the queues, others are rejected. -/
def nonMatching (an : BitVec 2) : Fate := if an = 0 then .queue false 0 else if an = 1 then .queue true 0 else .rejected

/-- The size of the RAM of a controller and the places in it. -/
def size : Nat := 0x350
def FLSSA : Nat := 0x000
def FLESA : Nat := 0x070
def F0SA : Nat := 0x0b0
def F1SA : Nat := 0x188
def EFSA : Nat := 0x260
def TBSA : Nat := 0x278

/-- The fate of a frame with a standard identifier in controller `k`; more than 28 filters are 28. -/
def standardFate (base k : Nat) (rxgfc : BitVec 32) (ram : Ram) (id : BitVec 11) : Fate :=
  let n := min 28 (rxgfc.extractLsb' 16 5).toNat
  (decideBy ((List.range n).map fun i => standardElement (ram (base + size * k + FLSSA + 4 * i))) id 0).getD
    (nonMatching (rxgfc.extractLsb' 4 2))

/-- The fate of a frame with an extended identifier; more than 8 filters are 8. -/
def extendedFate (base k : Nat) (rxgfc : BitVec 32) (ram : Ram) (id : BitVec 29) : Fate :=
  let n := min 8 (rxgfc.extractLsb' 24 4).toNat
  (decideBy ((List.range n).map fun i =>
      extendedElement (ram (base + size * k + FLESA + 8 * i)) (ram (base + size * k + FLESA + 8 * i + 4))) id 0).getD
    (nonMatching (rxgfc.extractLsb' 2 2))

/-! ## The user -/

/-- What the user has asked for: the filters that are set. -/
structure Wish where
  standard : List (Option (Filter 11))
  extended : List (Option (Filter 29))

/-- no filters -/
def nothing : Wish := ⟨List.replicate 28 none, List.replicate 8 none⟩

def kindOf : FilterType → Kind
  | .range => .range
  | .dual => .dual
  | .classic => .classic

/-- a filter that is `Disabled` is no filter -/
def filterOf {n : Nat} (c : FilterConfig) (t : FilterType) (a b : BitVec n) : Option (Filter n) :=
  match c with
  | .disabled => none
  | .fifo0 => some ⟨.queue0, kindOf t, a, b⟩
  | .fifo1 => some ⟨.queue1, kindOf t, a, b⟩
  | .reject => some ⟨.reject, kindOf t, a, b⟩

/-- A call sets one filter or takes all of a kind away.  "The upper bits are ignored" (can_filter.hpp:20, 32, 44, 56). -/
def Wish.call (w : Wish) : Call → Wish
  | .standard i c t a b => { w with standard := w.standard.set i.toNat (filterOf c t (a.setWidth 11) (b.setWidth 11)) }
  | .extended i c t a b => { w with extended := w.extended.set i.toNat (filterOf c t (a.setWidth 29) (b.setWidth 29)) }
  | .clearStandard => { w with standard := List.replicate 28 none }
  | .clearExtended => { w with extended := List.replicate 8 none }

def Wish.calls (w : Wish) (cs : List Call) : Wish := cs.foldl Wish.call w

/-- The answer of a call. -/
def answer : Call → Bool
  | .standard i _ _ _ _ => i.toNat < 28
  | .extended i _ _ _ _ => i.toNat < 8
  | _ => true

/-- The first filter that matches decides, and a frame that matches none is rejected. -/
def Wish.standardFate (w : Wish) (id : BitVec 11) : Fate := (decideBy w.standard id 0).getD .rejected
def Wish.extendedFate (w : Wish) (id : BitVec 29) : Fate := (decideBy w.extended id 0).getD .rejected

end Spec.FdcanFilter
