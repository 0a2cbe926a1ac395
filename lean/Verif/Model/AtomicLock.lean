set_option autoImplicit false

/-!
# Critical sections and atomic operations of Cortex-M

Model of `/repo/src/modm/platform/core/cortex/atomic_lock_impl.hpp.in` (without
multicore, for which see `Model.Multicore`) and
`/repo/ext/gcc/atomics_c11_cortex.cpp.in`.

A program is a nesting of C++ scopes; it is compiled to the single accesses to
the registers `PRIMASK` and `BASEPRI` and to the memory.  Between any two of
them an interrupt may be taken if the registers (and the priority of what is
running) allow it; its handler is an arbitrary program.  NMI and HardFault are
left out, priority grouping as well (all priority bits preempt).  `Lock` and
`Unlock` of AVRs (`/repo/src/modm/platform/core/avr/atomic_lock_impl.hpp`) are
the same accesses to the flag I of `SREG` (with the opposite sense).

One object of 64 bits in two words stands for the memory that is accessed by
atomic operations; other work of a program has no effect in the model.
-/

namespace Model.AtomicLock

/-- The core: number of priority bits (`__NVIC_PRIO_BITS`), and whether it has
`BASEPRI` (not on Cortex-M0). -/
structure Cfg where
  bits : Nat
  m0 : Bool
  deriving DecidableEq, Repr

/-- The object of the atomic operations: two words. -/
abbrev Val := Nat × Nat

/-- A program: a sequence of work, atomic operations, and scopes with an object
`Lock`, `Unlock` or `LockPriority`; `k` is what follows. -/
inductive Prog where
  | nil
  | work (k : Prog)
  | rmw (f : Val → Val) (k : Prog)
  | lock (b k : Prog)
  | unlock (b k : Prog)
  | prio (q : Nat) (b k : Prog)

/-- Single accesses. -/
inductive Op where
  | rdPri
  | cpsid
  | cpsie
  | wrPri
  | rdBase
  | maxBase (q v : Nat)
  | wrBase
  | work
  | ldLo
  | ldHi
  | stLo (f : Val → Val)
  | stHi (f : Val → Val)

/-- `Lock()`, `atomic_lock_impl.hpp.in:33-36`. -/
def lockIn : List Op := [.rdPri, .cpsid]
/-- `~Lock()` and `~Unlock()`, `atomic_lock_impl.hpp.in:39-42,59-62`. -/
def lockOut : List Op := [.wrPri]
/-- `Unlock()`, `atomic_lock_impl.hpp.in:53-56`. -/
def unlockIn : List Op := [.rdPri, .cpsie]
/-- `LockPriority(q)`, `atomic_lock_impl.hpp.in:69-74` and `80-84`; `BASEPRI` has
eight bits. -/
def prioIn (c : Cfg) (q : Nat) : List Op :=
  if c.m0 then lockIn else [.rdBase, .maxBase q ((q <<< (8 - c.bits)) % 256)]
/-- `~LockPriority()`, `atomic_lock_impl.hpp.in:87-90`. -/
def prioOut (c : Cfg) : List Op := if c.m0 then lockOut else [.wrBase]

/-- The functions of `atomics_c11_cortex.cpp.in:30-134`: in a lock the value is
loaded (it is the result) and another one stored.  For `__atomic_load` the value
is not changed, for `__atomic_store` it does not depend on the old one. -/
def rmwOps (f : Val → Val) : List Op := lockIn ++ [.ldLo, .ldHi, .stLo f, .stHi f] ++ lockOut

/-- The accesses of a program. -/
def compile (c : Cfg) : Prog → List Op
  | .nil => []
  | .work k => .work :: compile c k
  | .rmw f k => rmwOps f ++ compile c k
  | .lock b k => lockIn ++ (compile c b ++ (lockOut ++ compile c k))
  | .unlock b k => unlockIn ++ (compile c b ++ (lockOut ++ compile c k))
  | .prio q b k => prioIn c q ++ (compile c b ++ (prioOut c ++ compile c k))

/-- An object that is alive (for the statements of theorems; nothing depends on
it). -/
inductive Obj where
  | lock
  | unlock
  | prio (q : Nat)
  deriving DecidableEq, Repr

/-- The registers. -/
structure Regs where
  pri : Nat
  base : Nat
  deriving DecidableEq, Repr

/-- What runs: the main program or a handler.  Its remaining accesses, the
members of its objects (`cpsr`, `basepri`), the objects, the value last loaded,
its priority, and the registers when it began. -/
structure Frame where
  ops : List Op
  saved : List Nat
  objs : List Obj
  r : Val
  level : Nat
  entry : Regs

/-- State: registers, memory, what runs (the innermost handler first), and a
record of the atomic operations with their results, the last one first. -/
structure St where
  regs : Regs
  mem : Val
  frames : List Frame
  log : List ((Val → Val) × Val)

/-- Writing `BASEPRI_MAX`: only an increase of the protection has an effect
(ARMv7-M, B5.2.3). -/
def setMax (base v : Nat) : Nat := if v ≠ 0 ∧ (v < base ∨ base = 0) then v else base

/-- One access of the frame that runs. -/
def exec (o : Op) (r : List Op) (s : St) (f : Frame) (l : List Frame) : St :=
  match o with
  | .rdPri => { s with frames := { f with ops := r, saved := s.regs.pri :: f.saved } :: l }
  | .cpsid => { s with regs := { s.regs with pri := 1 }, frames := { f with ops := r, objs := .lock :: f.objs } :: l }
  | .cpsie => { s with regs := { s.regs with pri := 0 }, frames := { f with ops := r, objs := .unlock :: f.objs } :: l }
  | .wrPri => { s with regs := { s.regs with pri := f.saved.headD 0 }, frames := { f with ops := r, saved := f.saved.tail, objs := f.objs.tail } :: l }
  | .rdBase => { s with frames := { f with ops := r, saved := s.regs.base :: f.saved } :: l }
  | .maxBase q v => { s with regs := { s.regs with base := setMax s.regs.base v }, frames := { f with ops := r, objs := .prio q :: f.objs } :: l }
  | .wrBase => { s with regs := { s.regs with base := f.saved.headD 0 }, frames := { f with ops := r, saved := f.saved.tail, objs := f.objs.tail } :: l }
  | .work => { s with frames := { f with ops := r } :: l }
  | .ldLo => { s with frames := { f with ops := r, r := (s.mem.1, f.r.2) } :: l }
  | .ldHi => { s with frames := { f with ops := r, r := (f.r.1, s.mem.2) } :: l }
  | .stLo g => { s with mem := ((g f.r).1, s.mem.2), frames := { f with ops := r } :: l }
  | .stHi g => { s with mem := (s.mem.1, (g f.r).2), frames := { f with ops := r } :: l, log := (g, f.r) :: s.log }

/-- An interrupt of priority `p` is taken now: `PRIMASK`, `BASEPRI` and the
priority of what runs allow it. -/
def CanTake (c : Cfg) (s : St) (level p : Nat) : Prop :=
  s.regs.pri = 0 ∧ (s.regs.base = 0 ∨ p <<< (8 - c.bits) < s.regs.base) ∧ p < level

/-- Steps: an access, an interrupt, the end of a handler. -/
inductive Step (c : Cfg) : St → St → Prop where
  | exec (s : St) (f : Frame) (l : List Frame) (o : Op) (r : List Op) (hf : s.frames = f :: l) (ho : f.ops = o :: r) :
      Step c s (exec o r s f l)
  | irq (s : St) (f : Frame) (l : List Frame) (p : Nat) (h : Prog) (hf : s.frames = f :: l) (hp : CanTake c s f.level p) :
      Step c s { s with frames := ⟨compile c h, [], [], (0, 0), p, s.regs⟩ :: f :: l }
  | ret (s : St) (f f' : Frame) (l : List Frame) (hf : s.frames = f :: f' :: l) (ho : f.ops = []) :
      Step c s { s with frames := f' :: l }

/-- What can be reached. -/
inductive Reach (c : Cfg) (s0 : St) : St → Prop where
  | refl : Reach c s0 s0
  | step {s s' : St} : Reach c s0 s → Step c s s' → Reach c s0 s'

/-- The begin of a program in thread mode (lower than all interrupts). -/
def boot (c : Cfg) (p : Prog) (regs : Regs) (mem : Val) : St :=
  ⟨regs, mem, [⟨compile c p, [], [], (0, 0), 256, regs⟩], []⟩

end Model.AtomicLock
