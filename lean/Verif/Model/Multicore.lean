import Mathlib.Logic.Function.Basic
set_option autoImplicit false

/-!
# Two cores: locks and the start of the second core

Model of `/repo/src/modm/platform/core/rp/multicore.hpp.in`, of `Lock` in
`/repo/src/modm/platform/core/cortex/atomic_lock_impl.hpp.in` with
`with_multicore`, and of the stack of
`/repo/src/modm/platform/core/rp/multicore.cpp`.

Programs run on both cores at the same time and are interleaved access by
access; on each core an interrupt may be taken while `PRIMASK` is clear, its
handler is a program too (priorities are left out: any interrupt may be nested).
A spin lock of the SIO block: reading it claims it, unless it is claimed
already; writing it releases it.  A core that waits for the lock takes no step
(but may be interrupted).
-/

namespace Model.Multicore

/-- A program: work, a section with `modm::atomic::Lock`, a section with
`SystemSpinLockGuard`; `k` is what follows. -/
inductive Prog where
  | nil
  | work (k : Prog)
  | lock (b k : Prog)
  | guard (b k : Prog)

/-- Single accesses: claim and release the spin lock, read `PRIMASK`, disable
interrupts, write `PRIMASK`. -/
inductive Op where
  | acq
  | rel
  | rd
  | cpsid
  | wr
  | work
  deriving DecidableEq, Repr

/-- `Lock()`: the base class `CoreLock` first (`multicore.hpp.in:104-108`), then
the member and the body (`atomic_lock_impl.hpp.in:27-36`). -/
def lockIn : List Op := [.acq, .rd, .cpsid]
/-- `~Lock()`: the body first, then the base class. -/
def lockOut : List Op := [.wr, .rel]
/-- `SpinLockBlocking::lock`, `multicore.hpp.in:119-125`, called by the guard
(`153-163`). -/
def guardIn : List Op := [.rd, .cpsid, .acq]
/-- `SpinLockBlocking::unlock`, `multicore.hpp.in:126-130`. -/
def guardOut : List Op := [.rel, .wr]

/-- The accesses of a program. -/
def compile : Prog → List Op
  | .nil => []
  | .work k => .work :: compile k
  | .lock b k => lockIn ++ (compile b ++ (lockOut ++ compile k))
  | .guard b k => guardIn ++ (compile b ++ (guardOut ++ compile k))

/-- The main program or a handler: remaining accesses, saved values of
`PRIMASK`, and in how many sections it is (for the theorems only). -/
structure Frame where
  ops : List Op
  saved : List Bool
  secs : Nat
  deriving DecidableEq, Repr

/-- A core: `PRIMASK` and what runs, the innermost handler first. -/
structure Core where
  pri : Bool
  frames : List Frame
  deriving DecidableEq, Repr

/-- Both cores, and whether the spin lock is claimed. -/
structure St where
  held : Bool
  core : Bool → Core

/-- One access of core `i`; `none` if it waits. -/
def exec (i : Bool) (o : Op) (r : List Op) (f : Frame) (l : List Frame) (s : St) : Option St :=
  match o with
  | .acq => if s.held then none
    else some ⟨true, Function.update s.core i ⟨(s.core i).pri, { f with ops := r, secs := f.secs + 1 } :: l⟩⟩
  | .rel => some ⟨false, Function.update s.core i ⟨(s.core i).pri, { f with ops := r, secs := f.secs - 1 } :: l⟩⟩
  | .rd => some { s with core := Function.update s.core i ⟨(s.core i).pri, { f with ops := r, saved := (s.core i).pri :: f.saved } :: l⟩ }
  | .cpsid => some { s with core := Function.update s.core i ⟨true, { f with ops := r } :: l⟩ }
  | .wr => some { s with core := Function.update s.core i ⟨f.saved.headD false, { f with ops := r, saved := f.saved.tail } :: l⟩ }
  | .work => some { s with core := Function.update s.core i ⟨(s.core i).pri, { f with ops := r } :: l⟩ }

/-- Steps of a core; the handlers are programs for which `H` holds. -/
inductive Step (H : Prog → Prop) : St → St → Prop where
  | exec (s s' : St) (i : Bool) (f : Frame) (l : List Frame) (o : Op) (r : List Op)
      (hf : (s.core i).frames = f :: l) (ho : f.ops = o :: r) (hs : exec i o r f l s = some s') : Step H s s'
  | irq (s : St) (i : Bool) (p : Prog) (hp : H p) (hi : (s.core i).pri = false) :
      Step H s { s with core := Function.update s.core i ⟨false, ⟨compile p, [], 0⟩ :: (s.core i).frames⟩ }
  | ret (s : St) (i : Bool) (f : Frame) (l : List Frame) (hf : (s.core i).frames = f :: l) (hl : l ≠ []) (ho : f.ops = []) :
      Step H s { s with core := Function.update s.core i ⟨(s.core i).pri, l⟩ }

/-- What can be reached. -/
inductive Reach (H : Prog → Prop) (s0 : St) : St → Prop where
  | refl : Reach H s0 s0
  | step {s s' : St} : Reach H s0 s → Step H s s' → Reach H s0 s'

/-- Both cores begin with a program, the lock is free, interrupts are enabled. -/
def boot (p : Bool → Prog) : St := ⟨false, fun i => ⟨false, [⟨compile (p i), [], 0⟩]⟩⟩

/-! ## Mutex -/

/-- Where a core is: outside, before the attempt of `Mutex::lock`, before `WFE`,
between `lock` and `unlock`, in `unlock`, before `SEV`
(`multicore.hpp.in:168-205`).  The sections with `SystemSpinLockGuard` are single
steps. -/
inductive Mpc where
  | out
  | try_
  | wfe
  | crit
  | rel
  | sev
  deriving DecidableEq, Repr

/-- `locked`, the place of the cores and their event registers. -/
structure Mst where
  locked : Bool
  pc : Bool → Mpc
  ev : Bool → Bool

/-- One step of core `i`; `none` if it sleeps. -/
def mexec (i : Bool) (s : Mst) : Option Mst :=
  match s.pc i with
  | .out => some { s with pc := Function.update s.pc i .try_ }
  | .try_ => if s.locked then some { s with pc := Function.update s.pc i .wfe }
    else some { s with locked := true, pc := Function.update s.pc i .crit }
  | .wfe => if s.ev i then some { s with ev := Function.update s.ev i false, pc := Function.update s.pc i .try_ } else none
  | .crit => some { s with pc := Function.update s.pc i .rel }
  | .rel => some { s with locked := false, pc := Function.update s.pc i .sev }
  | .sev => some { s with ev := fun _ => true, pc := Function.update s.pc i .out }

/-- Steps: of a core, or an event from elsewhere (an interrupt). -/
inductive Mstep : Mst → Mst → Prop where
  | exec (s s' : Mst) (i : Bool) (h : mexec i s = some s') : Mstep s s'
  | event (s : Mst) (i : Bool) : Mstep s { s with ev := Function.update s.ev i true }

/-- What can be reached. -/
inductive Mreach : Mst → Prop where
  | init (ev : Bool → Bool) : Mreach ⟨false, fun _ => .out, ev⟩
  | step {s s' : Mst} : Mreach s → Mstep s s' → Mreach s'

/-! ## Stack of the second core -/

/-- `stack_ptr` in `runCore1`, `multicore.cpp:36-40`, as an address. -/
def runCore1 (bottom size : Nat) : Nat := bottom + size / 4 * 4 - 2 * 4

/-- `Core1::run`, `multicore.cpp:82-87`; `start` and `top` are the symbols
`__stack1_start` and `__main1_stack_top` of the linker script
(`linker.macros:73-88`). -/
def core1Run (start top : Nat) : Nat := runCore1 top ((top - start) / 4 * 4)

end Model.Multicore
