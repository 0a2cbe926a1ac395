import Verif.Model.AtomicQueue
/-
Small-step model of one producer calling `push` and one consumer polling
`if (not isEmpty()) { v = get(); pop(); }` on the same `modm::atomic::Queue<T, N>`
(queue_impl.hpp:50-53, 91-94, 98-123). Every read or write of a shared member is one step, in
source order; the two sides interleave arbitrarily (this includes interrupt-style schedules, where one
side runs to completion inside the other). `head`/`tail` are `volatile` (queue.hpp:97-98).
Simplification: the non-volatile accesses to `buffer` are taken in source order too (compiler
reordering is not modelled), and an index is read or written atomically.
-/
namespace Modm.AtomicQueue.Conc
open Modm.AtomicQueue (Q next)

variable {α : Type}

/-- Program counter of the producer inside `push` (queue_impl.hpp:98-112). -/
inductive Prod (α : Type) where
  | idle
  | haveTmp (x : α) (tmp : Nat)    -- after line 100-103: `tmphead` computed from `head`
  | write (x : α) (tmp : Nat)      -- after line 104: saw `tmphead != tail`
  | publish (x : α) (tmp : Nat)    -- after line 108: slot written, `head` not yet stored
deriving Repr, DecidableEq

/-- Program counter of the consumer. -/
inductive Cons (α : Type) where
  | idle
  | haveHead (h : Nat)             -- inside isEmpty (line 52): `head` read
  | nonEmpty                       -- isEmpty returned false
  | haveTail (t : Nat)             -- inside get (line 93): `tail` read
  | holding                        -- value copied out, before pop
  | haveNext (t : Nat)             -- inside pop (118-121): new tail computed, not yet stored
deriving Repr, DecidableEq

/-- Shared memory plus both program counters. -/
structure S (α : Type) where
  q : Q α
  p : Prod α
  c : Cons α
deriving Repr, DecidableEq

/-- Observable events. -/
inductive Ev (α : Type) where
  | pushed (x : α)      -- `push` made the element visible (returns true)
  | refused (x : α)     -- `push` decides to return false
  | took (v : α)        -- the consumer copied `get()`
  | freed               -- the consumer's `pop` took effect
deriving Repr, DecidableEq

/-- Scheduler choices. -/
inductive Act (α : Type) where
  | startPush (x : α)   -- producer enters `push(x)` if idle (reads `head`)
  | prod                -- producer performs its next access
  | startPoll           -- consumer enters `isEmpty` if idle (reads `head`)
  | cons                -- consumer performs its next access
deriving Repr, DecidableEq

/-- One scheduler step; `none` is an out-of-bounds buffer access. Choices that do not apply leave the state
unchanged. -/
def step (N : Nat) (s : S α) : Act α → Option (S α × List (Ev α))
  | .startPush x => match s.p with
    | .idle => some ({ s with p := .haveTmp x (next N s.q.head) }, [])
    | _ => some (s, [])
  | .prod => match s.p with
    | .idle => some (s, [])
    | .haveTmp x tmp =>
      if tmp == s.q.tail then some ({ s with p := .idle }, [.refused x])
      else some ({ s with p := .write x tmp }, [])
    | .write x tmp =>
      if s.q.head < s.q.buf.length then
        some ({ s with q := { s.q with buf := s.q.buf.set s.q.head x }, p := .publish x tmp }, [])
      else none
    | .publish x tmp => some ({ s with q := { s.q with head := tmp }, p := .idle }, [.pushed x])
  | .startPoll => match s.c with
    | .idle => some ({ s with c := .haveHead s.q.head }, [])
    | _ => some (s, [])
  | .cons => match s.c with
    | .idle => some (s, [])
    | .haveHead h => if h == s.q.tail then some ({ s with c := .idle }, []) else some ({ s with c := .nonEmpty }, [])
    | .nonEmpty => some ({ s with c := .haveTail s.q.tail }, [])
    | .haveTail t => match s.q.buf[t]? with
      | none => none
      | some v => some ({ s with c := .holding }, [.took v])
    | .holding => some ({ s with c := .haveNext (next N s.q.tail) }, [])
    | .haveNext t => some ({ s with q := { s.q with tail := t }, c := .idle }, [.freed])

/-- A whole schedule with the events it produces. -/
def run (N : Nat) (s : S α) : List (Act α) → Option (S α × List (Ev α))
  | [] => some (s, [])
  | a :: as => do
    let (s', e) ← step N s a
    let (s'', es) ← run N s' as
    pure (s'', e ++ es)

/-- Both sides idle on a fresh queue. -/
def init (mem : List α) : S α := { q := Modm.AtomicQueue.init mem, p := .idle, c := .idle }

end Modm.AtomicQueue.Conc
