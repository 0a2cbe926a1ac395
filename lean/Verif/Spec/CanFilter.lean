import Verif.Model.CanFilter
/-
What the filter registers mean (reference manual RM0008, 24.7.4 and figure 230), and what a user asks for.
-/
set_option autoImplicit false
namespace Spec.CanFilter
open Modm.CanFilter (Regs)

/-- The part of a frame which the filters see.  An extended identifier has 29 bits, `base` are the first 11 of them;
a standard identifier is `base`. -/
structure Frame where
  extended : Bool
  base : BitVec 11
  ext : BitVec 18
  rtr : Bool
  deriving DecidableEq

/-- A standard frame has no further bits. -/
def Frame.Valid (f : Frame) : Prop := f.extended = false → f.ext = 0

/-- the identifier of an extended frame -/
def Frame.id29 (f : Frame) : BitVec 29 := f.base ++ f.ext

/-- the first 14 bits of it -/
def top14 (id : BitVec 29) : BitVec 14 := id.extractLsb' 15 14

/-- `STID[10:0] EXID[17:0] IDE RTR 0` -/
def Frame.word32 (f : Frame) : BitVec 32 := f.base ++ f.ext ++ BitVec.ofBool f.extended ++ BitVec.ofBool f.rtr ++ 0#1

/-- `STID[10:0] RTR IDE EXID[17:15]` -/
def Frame.word16 (f : Frame) : BitVec 16 := f.base ++ BitVec.ofBool f.rtr ++ BitVec.ofBool f.extended ++ f.ext.extractLsb' 15 3

/-- The filter bank lets the frame pass. -/
def accepts (r : Regs) (b : Nat) (f : Frame) : Bool :=
  r.fa1r.getLsbD b &&
  (if r.fs1r.getLsbD b then
    if r.fm1r.getLsbD b then f.word32 == r.fr1 b || f.word32 == r.fr2 b
    else f.word32 &&& r.fr2 b == r.fr1 b &&& r.fr2 b
  else
    if r.fm1r.getLsbD b then
      f.word16 == (r.fr1 b).setWidth 16 || f.word16 == (r.fr1 b >>> 16).setWidth 16 ||
      f.word16 == (r.fr2 b).setWidth 16 || f.word16 == (r.fr2 b >>> 16).setWidth 16
    else
      f.word16 &&& (r.fr1 b >>> 16).setWidth 16 == (r.fr1 b).setWidth 16 &&& (r.fr1 b >>> 16).setWidth 16 ||
      f.word16 &&& (r.fr2 b >>> 16).setWidth 16 == (r.fr2 b).setWidth 16 &&& (r.fr2 b >>> 16).setWidth 16)

/-- The queue which gets the frames that pass: `true` is `FIFO1`. -/
def fifoOf (r : Regs) (b : Nat) : Bool := r.ffa1r.getLsbD b

/-- The first bank of the second controller. -/
def startBank (r : Regs) : Nat := ((r.fmr >>> 8) &&& 0x3f#32).toNat

/-- The filters work. -/
def ready (r : Regs) : Bool := !r.fmr.getLsbD 0

/-- Nothing but bank `b` has changed. -/
def OthersKept (r r' : Regs) (b : Nat) : Prop :=
  startBank r' = startBank r ∧ ∀ b', b' ≠ b → b' < 28 → (∀ f, accepts r' b' f = accepts r b' f) ∧ fifoOf r' b' = fifoOf r b'

/-- The remote flag is as asked for. -/
def rtrOk (check want : Bool) (f : Frame) : Prop := check = true → f.rtr = want

/-- A number of 29 bits in 32, with arbitrary other bits (the controller has no room for them). -/
def low29 (id : BitVec 32) : BitVec 29 := id.setWidth 29
def low11 (id : BitVec 16) : BitVec 11 := id.setWidth 11

end Spec.CanFilter
