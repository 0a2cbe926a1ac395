import Verif.Model.Resumable

set_option autoImplicit false

/-!
# What the macros mean: fibers

The same body run by a fiber, which keeps its position by itself
(`src/modm/processing/resumable/macros_fiber.hpp`, and the documentation in
`src/modm/processing/resumable/module.md`, "Using Fibers"):

    RF_YIELD()            yield()
    RF_WAIT_WHILE(cond)   while (cond) { yield(); }
    RF_CALL(func)         func
    RF_RETURN(value)      return value

When a fiber gives up the processor, what is left of its program (`Rest`) is kept; the next time it
is run it continues with that.  There are no labels, states, levels or memory here.
-/

namespace Modm.Spec.Resumable

open Modm.Resumable (Src Prog Stuck)

variable {S V : Type}

/-- What is left to do of a body. -/
inductive Rest (S V : Type) where
  /-- a statement not begun -/
  | src (s : Src S V)
  /-- the rest of a statement, then another one -/
  | seq (r : Rest S V) (b : Src S V)
  /-- inside of a call of `g` with argument `x`, of which `r` is left; then the result is used -/
  | inCall (g : Nat) (x : V) (r : Rest S V) (use : V → Option V → S → S)
  /-- inside of a call whose result is returned -/
  | inRetCall (g : Nat) (x : V) (r : Rest S V)

/-- How the execution of a statement ends for now. -/
inductive Ends (S V : Type) where
  | done (s : S)
  | ret (v : Option V) (s : S)
  | susp (r : Rest S V) (s : S)
  | restart (s : S)

/-- How a call ends for now: with a result, or suspended. -/
inductive Reply (S V : Type) where
  | fin (v : Option V) (s : S)
  | susp (r : Rest S V) (s : S)

/-- `while (c) body`, at most `n` rounds. -/
def iter (c : S → Bool) (run : S → Except Stuck (Ends S V)) :
    Nat → S → Except Stuck (Ends S V)
  | 0, s => if c s then .error .bound else .ok (.done s)
  | n + 1, s =>
    if c s then
      match run s with
      | .ok (.done s') => iter c run n s'
      | r => r
    else .ok (.done s)

/-- Run a statement from its beginning. -/
def eval (callee : Nat → V → S → Except Stuck (Reply S V)) (n : Nat) (a : V) :
    Src S V → S → Except Stuck (Ends S V)
  | .skip, s => .ok (.done s)
  | .act f, s => .ok (.done (f a s))
  | .seq x y, s =>
    match eval callee n a x s with
    | .ok (.done s') => eval callee n a y s'
    | .ok (.susp r s') => .ok (.susp (.seq r y) s')
    | r => r
  | .ite c x y, s => if c a s then eval callee n a x s else eval callee n a y s
  | .loop c x, s =>
    iter (c a) (fun s =>
      match eval callee n a x s with
      | .ok (.susp r s') => .ok (.susp (.seq r (.loop c x)) s')
      | r => r) n s
  | .yield _, s => .ok (.susp (.src .skip) s)
  | .waitWhile pos c, s =>
    if (c a s).1 then .ok (.susp (.src (.waitWhile pos c)) (c a s).2) else .ok (.done (c a s).2)
  | .call _ g arg use, s =>
    match callee g (arg a s) s with
    | .ok (.fin v s') => .ok (.done (use a v s'))
    | .ok (.susp r s') => .ok (.susp (.inCall g (arg a s) r use) s')
    | .error e => .error e
  | .ret v, s => .ok (.ret (some (v a s)) s)
  | .exit, s => .ok (.ret none s)
  | .retCall _ g arg, s =>
    match callee g (arg a s) s with
    | .ok (.fin v s') => .ok (.ret v s')
    | .ok (.susp r s') => .ok (.susp (.inRetCall g (arg a s) r) s')
    | .error e => .error e
  | .restart, s => .ok (.restart s)

/-- The function has reached its end, returned or been suspended; `restart` begins anew at the next
run. -/
def close (P : Prog S V) (g : Nat) : Except Stuck (Ends S V) → Except Stuck (Reply S V)
  | .ok (.done s) => .ok (.fin none s)
  | .ok (.ret v s) => .ok (.fin v s)
  | .ok (.susp r s) => .ok (.susp r s)
  | .ok (.restart s) => .ok (.susp (.src (P.fn g).body) s)
  | .error e => .error e

/-- Call a function; functions call each other at most `d` deep. -/
def start (P : Prog S V) (n : Nat) : Nat → Nat → V → S → Except Stuck (Reply S V)
  | 0, _, _, _ => .error .bound
  | d + 1, g, a, s => close P g (eval (start P n d) n a (P.fn g).body s)

/-- Continue with what is left of a body. -/
def resume (P : Prog S V) (n : Nat) : Nat → V → Rest S V → S → Except Stuck (Ends S V)
  | d, a, .src b, s => eval (start P n d) n a b s
  | d, a, .seq r b, s =>
    match resume P n d a r s with
    | .ok (.done s') => eval (start P n d) n a b s'
    | .ok (.susp r' s') => .ok (.susp (.seq r' b) s')
    | e => e
  | 0, _, .inCall _ _ _ _, _ => .error .bound
  | d + 1, a, .inCall g x r use, s =>
    match close P g (resume P n d x r s) with
    | .ok (.fin v s') => .ok (.done (use a v s'))
    | .ok (.susp r' s') => .ok (.susp (.inCall g x r' use) s')
    | .error e => .error e
  | 0, _, .inRetCall _ _ _, _ => .error .bound
  | d + 1, _, .inRetCall g x r, s =>
    match close P g (resume P n d x r s) with
    | .ok (.fin v s') => .ok (.ret v s')
    | .ok (.susp r' s') => .ok (.susp (.inRetCall g x r') s')
    | .error e => .error e

/-- Run the fiber of function `g` once more, `r` being left of it. -/
def again (P : Prog S V) (n d g : Nat) (a : V) (r : Rest S V) (s : S) :
    Except Stuck (Reply S V) :=
  close P g (resume P n d a r s)

/-! ## What can be observed over several runs -/

/-- What is seen of one run: the state of the program, and whether the function ended (with which
result) or goes on. -/
inductive Seen (S V : Type) where
  | going (s : S)
  | ended (v : Option V) (s : S)
  | stuck (e : Stuck)

/-- The fiber is run once for every element of the list, until it ends; each element tells what the
rest of the program does to the state in the meantime. -/
def trace (P : Prog S V) (n d g : Nat) (a : V) : List (S → S) → Rest S V → S → List (Seen S V)
  | [], _, _ => []
  | env :: envs, r, s =>
    match again P n d g a r (env s) with
    | .ok (.fin v s') => [.ended v s']
    | .ok (.susp r' s') => .going s' :: trace P n d g a envs r' s'
    | .error e => [.stuck e]

/-- The same for the resumable function: it is called once for every element of the list. -/
def traceRf (P : Prog S V) (n d g : Nat) (a : V) :
    List (S → S) → Modm.Resumable.Mem → S → List (Seen S V)
  | [], _, _ => []
  | env :: envs, m, s =>
    match Modm.Resumable.callFn P n d g a m (env s) with
    | .ok r =>
      if r.code ≤ Modm.Resumable.codeNestingError then [.ended r.value r.st]
      else .going r.st :: traceRf P n d g a envs r.mem r.st
    | .error e => [.stuck e]

/-- The memory after these calls, and whether the function has ended. -/
def memAfter (P : Prog S V) (n d g : Nat) (a : V) :
    List (S → S) → Modm.Resumable.Mem → S → Except Stuck (Bool × Modm.Resumable.Mem)
  | [], m, _ => .ok (false, m)
  | env :: envs, m, s =>
    match Modm.Resumable.callFn P n d g a m (env s) with
    | .ok r =>
      if r.code ≤ Modm.Resumable.codeNestingError then .ok (true, r.mem)
      else memAfter P n d g a envs r.mem r.st
    | .error e => .error e

/-- Run the fiber until it ends, at most `k` times. -/
def untilDone (P : Prog S V) (n d g : Nat) (a : V) (env : Nat → S → S) :
    Nat → Rest S V → S → Except Stuck (Option V × S)
  | 0, _, _ => .error .bound
  | k + 1, r, s =>
    match again P n d g a r s with
    | .ok (.fin v s') => .ok (v, s')
    | .ok (.susp r' s') => untilDone P n d g a env k r' (env k s')
    | .error e => .error e

/-! ## What a program must keep to -/

/-- The functions called in a body. -/
def callees : Src S V → List Nat
  | .seq a b => callees a ++ callees b
  | .ite _ a b => callees a ++ callees b
  | .loop _ b => callees b
  | .call _ g _ _ => [g]
  | .retCall _ g _ => [g]
  | _ => []

/-- The positions of the macros with a `case` in a body. -/
def positions : Src S V → List Nat
  | .seq a b => positions a ++ positions b
  | .ite _ a b => positions a ++ positions b
  | .loop _ b => positions b
  | .yield p => [p]
  | .waitWhile p _ => [p]
  | .call p _ _ _ => [p]
  | .retCall p _ _ => [p]
  | _ => []

/-- The arguments of calls do not change while the call is running: they depend on the argument of
the calling function only. -/
def Steady : Src S V → Prop
  | .seq a b => Steady a ∧ Steady b
  | .ite _ a b => Steady a ∧ Steady b
  | .loop _ b => Steady b
  | .call _ _ arg _ => ∀ a s s', arg a s = arg a s'
  | .retCall _ _ arg => ∀ a s s', arg a s = arg a s'
  | _ => True

/-- The `case` labels of a function are distinct (otherwise it does not compile).  The lines of a
protothread are not 65535. -/
def Compiles (f : Modm.Resumable.Fun S V) : Prop :=
  match f.place.kind with
  | .thread =>
    (0 :: (positions f.body).map (Modm.Resumable.label .thread)).Nodup ∧ 65535 ∉ positions f.body
  | k => (0 :: Modm.Resumable.label k f.begin :: (positions f.body).map (Modm.Resumable.label k)).Nodup

/-- The chains of calls that begin with `f`; the function called last comes first. -/
inductive Calls (P : Prog S V) (f : Nat) : List Nat → Prop where
  | top : Calls P f [f]
  | call (g h : Nat) (l : List Nat) : Calls P f (g :: l) → h ∈ callees (P.fn g).body →
      Calls P f (h :: g :: l)

/-- A chain of calls is allowed: a class of nested functions has enough levels, an indexed function
is not called by itself, and a protothread is run from outside only. -/
def Allowed (P : Prog S V) : List Nat → Prop
  | [] => True
  | h :: l =>
    match (P.fn h).place.kind with
    | .nested levels =>
      (l.filter (fun g => (P.fn g).place.obj = (P.fn h).place.obj)).length < levels ∧ levels < 256
    | .indexed functions =>
      (P.fn h).place.index < functions ∧
        ∀ g ∈ l, (P.fn g).place.obj = (P.fn h).place.obj →
          (P.fn g).place.index ≠ (P.fn h).place.index
    | .thread => l = []

/-- Functions of the same object belong to the same class. -/
def Coherent (P : Prog S V) : Prop :=
  ∀ g h, (P.fn g).place.obj = (P.fn h).place.obj → (P.fn g).place.kind = (P.fn h).place.kind

/-- The objects that `f` and the functions called by it belong to are idle: nothing is running in
them (of `Resumable` objects: none of these functions is running). -/
def Idle (P : Prog S V) (f : Nat) (m : Modm.Resumable.Mem) : Prop :=
  ∀ h l, Calls P f (h :: l) →
    match (P.fn h).place.kind with
    | .nested levels =>
      m.level (P.fn h).place.obj = 0 ∧ ∀ i < levels, m.state (P.fn h).place.obj i = 0
    | .indexed _ => m.state (P.fn h).place.obj (P.fn h).place.index = 0
    | .thread => m.state (P.fn h).place.obj 0 = 0

end Modm.Spec.Resumable
