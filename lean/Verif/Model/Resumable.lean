import Mathlib.Logic.Function.Basic

set_option autoImplicit false

/-!
# Resumable functions and protothreads

Model of `modm::Resumable`, `modm::NestedResumable`, `modm::pt::Protothread` and of the
`RF_` and `PT_` macros:

* `src/modm/processing/resumable/macros.hpp`
* `src/modm/processing/resumable/resumable.hpp`
* `src/modm/processing/resumable/nested_resumable.hpp.in`
* `src/modm/processing/protothread/macros.hpp`
* `src/modm/processing/protothread/protothread.hpp`

The body of a resumable function is written in a small language (`Src`): plain statements, `if`,
`while` and the macros.  `expand` is the preprocessor, its result (`Cpp`) is the body of the
`switch` statement with its `case` labels inside of loops and branches.  `exec` runs it as C++
does: it first looks for the `case` to jump to and goes on from there.

Simplified: `for`, `do`, `break`, `continue` and nested `switch` statements are not in the
language; the result of `RF_CALL` is stored in the state of the program (`use`) before it is looked
at; a function has one argument, of the same type `V` as the results.  Local variables other than
the argument are not modelled (they do not survive a suspension, the documentation forbids them).
Objects of the classes are numbered, so are the functions.
-/

namespace Modm.Resumable

/-! ## The classes -/

/-- `rf::Stop`, `resumable.hpp:34` (a protothread returns `false`). -/
def codeStop : Nat := 0
/-- `rf::NestingError`, `resumable.hpp:35`. -/
def codeNestingError : Nat := 1
/-- `rf::WrongState`, `resumable.hpp:38`. -/
def codeWrongState : Nat := 127
/-- `rf::Running`, `resumable.hpp:41` (a protothread returns `true`). -/
def codeRunning : Nat := 255
/-- `rf::Stopped`, `resumable.hpp:48`; also the initial `ptState`, `protothread.hpp:49`. -/
def stopped : Nat := 0
/-- `Protothread::Invalid`, `protothread.hpp:117`. -/
def invalid : Nat := 65535

/-- What an object is: `NestedResumable<Levels>`, `Resumable<Functions>` or a `Protothread`. -/
inductive Kind where
  | nested (levels : Nat)
  | indexed (functions : Nat)
  | thread
  deriving DecidableEq, Repr

/-- The members `rfLevel` and `rfStateArray` (or `ptState`, as element 0) of every object. -/
structure Mem where
  level : Nat → Nat
  state : Nat → Nat → Nat

/-- Write one state. -/
def Mem.write (m : Mem) (o i v : Nat) : Mem :=
  { m with state := Function.update m.state o (Function.update (m.state o) i v) }

/-- Change one nesting level. -/
def Mem.setLevel (m : Mem) (o l : Nat) : Mem :=
  { m with level := Function.update m.level o l }

/-- Why an execution gives no result: it takes longer than the given bounds, or it runs into
undefined behaviour (an access outside of `rfStateArray`). -/
inductive Stuck where
  | bound
  | undefined
  deriving DecidableEq, Repr

/-- Where a function lives: the object, the kind of its class and the index of `RF_BEGIN(index)`. -/
structure Place where
  obj : Nat
  kind : Kind
  index : Nat

/-- `nestingOkRf`, `nested_resumable.hpp.in:121`, `resumable.hpp:238`; `check` is the option
`check_nesting_depth`.  A protothread has no such check. -/
def nestingOk (check : Bool) (p : Place) (m : Mem) : Bool :=
  match p.kind with
  | .nested levels => !check || decide (m.level p.obj < levels)
  | .indexed _ => true
  | .thread => true

/-- `pushRf`, `nested_resumable.hpp.in:89`, `resumable.hpp:210`; the `switch` of a protothread reads
`ptState`, `protothread/macros.hpp:29`. -/
def pushRf (p : Place) (m : Mem) : Except Stuck (Nat × Mem) :=
  match p.kind with
  | .nested levels =>
    if m.level p.obj < levels then
      .ok (m.state p.obj (m.level p.obj), m.setLevel p.obj (m.level p.obj + 1))
    else .error .undefined
  | .indexed functions =>
    if p.index < functions then .ok (m.state p.obj p.index, m) else .error .undefined
  | .thread => .ok (m.state p.obj 0, m)

/-- `popRf`, `nested_resumable.hpp.in:97` (`uint_fast8_t`), `resumable.hpp:218`. -/
def popRf (p : Place) (m : Mem) : Mem :=
  match p.kind with
  | .nested _ => m.setLevel p.obj ((m.level p.obj + 255) % 256)
  | .indexed _ => m
  | .thread => m

/-- `setRf`, `nested_resumable.hpp.in:113`, `resumable.hpp:232`; `this->ptState = …`,
`protothread/macros.hpp:48`. -/
def setRf (p : Place) (v : Nat) (m : Mem) : Except Stuck Mem :=
  match p.kind with
  | .nested levels =>
    if 0 < m.level p.obj ∧ m.level p.obj - 1 < levels then
      .ok (m.write p.obj (m.level p.obj - 1) v)
    else .error .undefined
  | .indexed functions =>
    if p.index < functions then .ok (m.write p.obj p.index v) else .error .undefined
  | .thread => .ok (m.write p.obj 0 v)

/-- The state of a function that has ended: `rf::Stopped` (`stopRf`, `nested_resumable.hpp.in:105`,
`resumable.hpp:224`) or `Invalid` (`stop`, `protothread.hpp:67`). -/
def endState (k : Kind) : Nat :=
  match k with
  | .nested _ => stopped
  | .indexed _ => stopped
  | .thread => invalid

/-! ## The language of the bodies -/

/-- The body of a resumable function (or of `run()` of a protothread).  `pos` is the value of
`__COUNTER__` (of `__LINE__` for a protothread) at the macro. -/
inductive Src (S V : Type) where
  | skip
  | act (f : V → S → S)
  | seq (a b : Src S V)
  | ite (c : V → S → Bool) (a b : Src S V)
  | loop (c : V → S → Bool) (b : Src S V)
  | yield (pos : Nat)
  | waitWhile (pos : Nat) (c : V → S → Bool × S)
  | call (pos : Nat) (g : Nat) (arg : V → S → V) (use : V → Option V → S → S)
  | ret (v : V → S → V)
  | exit
  | retCall (pos : Nat) (g : Nat) (arg : V → S → V)
  | restart

/-- What the preprocessor makes of it. -/
inductive Cpp (S V : Type) where
  | skip
  | act (f : V → S → S)
  | seq (a b : Cpp S V)
  | ite (c : V → S → Bool) (a b : Cpp S V)
  | loop (c : V → S → Bool) (b : Cpp S V)
  /-- `if (c) …` with a condition that may change the state -/
  | when (c : V → S → Bool × S) (a : Cpp S V)
  /-- `this->setRf(v, rfIndex);` or `this->ptState = v;` -/
  | set (v : Nat)
  /-- `this->popRf();` -/
  | pop
  /-- `case v: ;` -/
  | case (v : Nat)
  /-- `return {code, v};` -/
  | ret (code : Nat) (v : V → S → Option V)
  /-- `auto rfResult = g(arg); if (rfResult.getState() > modm::rf::NestingError) busy;`
  and then `rfResult.getResult();` -/
  | call (g : Nat) (arg : V → S → V) (busy : Cpp S V) (use : V → Option V → S → S)
  /-- the same, and then `fin` and `return {modm::rf::Stop, rfResult.getResult()};` -/
  | callRet (g : Nat) (arg : V → S → V) (busy fin : Cpp S V)

/-- A function: where it lives, the position of its `RF_BEGIN` and its body. -/
structure Fun (S V : Type) where
  place : Place
  begin : Nat
  body : Src S V

/-- The program: the option `check_nesting_depth` and the functions. -/
structure Prog (S V : Type) where
  check : Bool
  fn : Nat → Fun S V

/-- The number of a `case`: `(counter % 255) + 1` (`macros.hpp:154`) or `__LINE__`
(`protothread/macros.hpp:50`). -/
def label (k : Kind) (pos : Nat) : Nat :=
  match k with
  | .nested _ => pos % 255 + 1
  | .indexed _ => pos % 255 + 1
  | .thread => pos

/-- The `static_assert` of `RF_INTERNAL_END`, `macros.hpp:169`; `rfCounter` and `last` are the values
of `__COUNTER__` at `RF_BEGIN` and here. -/
def staticAssert (rfCounter last : Nat) : Bool :=
  decide (((last % 65536 : Nat) : Int) - ((rfCounter % 65536 : Nat) : Int) < 256)

section

variable {S V : Type}

/-- `this->popRf(); return {modm::rf::Running};`, `macros.hpp:87`, `macros.hpp:104`; `return true`
in a protothread. -/
def suspend : Cpp S V := .seq .pop (.ret codeRunning (fun _ _ => none))

/-- `this->stopRf(rfIndex); this->popRf();`, `macros.hpp:174`; `this->stop()`,
`protothread/macros.hpp:116`. -/
def finish (k : Kind) : Cpp S V := .seq (.set (endState k)) .pop

/-- The macros, by line: `RF_YIELD` `macros.hpp:74, 159`, `RF_WAIT_WHILE` `macros.hpp:83`,
`RF_CALL` `macros.hpp:99`, `RF_RETURN` `macros.hpp:172, 179`, `RF_RETURN_CALL` `macros.hpp:126`;
`PT_YIELD` `protothread/macros.hpp:46`, `PT_WAIT_WHILE` `:55`, `PT_CALL` `:87`, `PT_RESTART` `:106`,
`PT_EXIT` `:114`.  The macros of protothreads have no `popRf`, which does nothing for them. -/
def expand (k : Kind) : Src S V → Cpp S V
  | .skip => .skip
  | .act f => .act f
  | .seq a b => .seq (expand k a) (expand k b)
  | .ite c a b => .ite c (expand k a) (expand k b)
  | .loop c b => .loop c (expand k b)
  | .yield pos => .seq (.set (label k pos)) (.seq suspend (.case (label k pos)))
  | .waitWhile pos c => .seq (.set (label k pos)) (.seq (.case (label k pos)) (.when c suspend))
  | .call pos g arg use =>
    .seq (.set (label k pos)) (.seq (.case (label k pos)) (.call g arg suspend use))
  | .ret v => .seq (finish k) (.ret codeStop (fun a s => some (v a s)))
  | .exit => .seq (finish k) (.ret codeStop (fun _ _ => none))
  | .retCall pos g arg =>
    .seq (.set (label k pos)) (.seq (.case (label k pos)) (.callRet g arg suspend (finish k)))
  | .restart => .seq (.set stopped) suspend

/-- `RF_BEGIN` up to the end of the `switch`: `macros.hpp:187-206` and `RF_END`, `macros.hpp:55`;
`PT_BEGIN`, `PT_END`, `protothread/macros.hpp:28-42`.  (`RF_END_RETURN(v)` is `RF_RETURN(v)` at the
end, the code behind it is not reached.) -/
def whole (f : Fun S V) : Cpp S V :=
  match f.place.kind with
  | .thread =>
    .seq (.case stopped) (.seq (expand .thread f.body)
      (.seq (finish .thread) (.ret codeStop (fun _ _ => none))))
  | k =>
    .seq (.case stopped) (.seq (.seq (.set (label k f.begin)) (.case (label k f.begin)))
      (.seq (expand k f.body) (.seq (finish k) (.ret codeStop (fun _ _ => none)))))

/-! ## Execution -/

/-- The `case` labels in a statement. -/
def Cpp.labels : Cpp S V → List Nat
  | .skip => []
  | .act _ => []
  | .seq a b => a.labels ++ b.labels
  | .ite _ a b => a.labels ++ b.labels
  | .loop _ b => b.labels
  | .when _ a => a.labels
  | .set _ => []
  | .pop => []
  | .case v => [v]
  | .ret _ _ => []
  | .call _ _ b _ => b.labels
  | .callRet _ _ b f => b.labels ++ f.labels

/-- How a statement ends: it runs to its end (`seek` is the label still looked for, if any), or the
function returns. -/
inductive Out (S V : Type) where
  | next (seek : Option Nat) (m : Mem) (s : S)
  | ret (code : Nat) (v : Option V) (m : Mem) (s : S)

/-- What a call returns: the state and the result (`none`: not initialised), and what it leaves. -/
structure Reply (S V : Type) where
  code : Nat
  value : Option V
  mem : Mem
  st : S

/-- `while (c) body`, at most `n` rounds. -/
def iter (c : S → Bool) (body : Mem → S → Except Stuck (Out S V)) :
    Nat → Mem → S → Except Stuck (Out S V)
  | 0, m, s => if c s then .error .bound else .ok (.next none m s)
  | n + 1, m, s =>
    if c s then
      match body m s with
      | .ok (.next _ m' s') => iter c body n m' s'
      | r => r
    else .ok (.next none m s)

/-- Execution of a statement in the function at `p` with the argument `a`.  `callee` runs other
functions, every loop makes at most `n` rounds.  `seek` is the label of the `switch` while it has
not been reached. -/
def exec (callee : Nat → V → Mem → S → Except Stuck (Reply S V)) (n : Nat) (p : Place) (a : V) :
    Cpp S V → Option Nat → Mem → S → Except Stuck (Out S V)
  | .skip, seek, m, s => .ok (.next seek m s)
  | .act f, none, m, s => .ok (.next none m (f a s))
  | .act _, some l, m, s => .ok (.next (some l) m s)
  | .seq x y, seek, m, s =>
    match exec callee n p a x seek m s with
    | .ok (.next seek' m' s') => exec callee n p a y seek' m' s'
    | r => r
  | .ite c x y, none, m, s =>
    if c a s then exec callee n p a x none m s else exec callee n p a y none m s
  | .ite _ x y, some l, m, s =>
    if l ∈ x.labels then exec callee n p a x (some l) m s
    else exec callee n p a y (some l) m s
  | .loop c x, none, m, s => iter (c a) (fun m s => exec callee n p a x none m s) n m s
  | .loop c x, some l, m, s =>
    if l ∈ x.labels then
      match exec callee n p a x (some l) m s with
      | .ok (.next _ m' s') => iter (c a) (fun m s => exec callee n p a x none m s) n m' s'
      | r => r
    else .ok (.next (some l) m s)
  | .when c x, none, m, s =>
    if (c a s).1 then exec callee n p a x none m (c a s).2 else .ok (.next none m (c a s).2)
  | .when _ x, some l, m, s => exec callee n p a x (some l) m s
  | .set v, none, m, s =>
    match setRf p v m with
    | .ok m' => .ok (.next none m' s)
    | .error e => .error e
  | .set _, some l, m, s => .ok (.next (some l) m s)
  | .pop, none, m, s => .ok (.next none (popRf p m) s)
  | .pop, some l, m, s => .ok (.next (some l) m s)
  | .case _, none, m, s => .ok (.next none m s)
  | .case v, some l, m, s => .ok (.next (if l = v then none else some l) m s)
  | .ret code v, none, m, s => .ok (.ret code (v a s) m s)
  | .ret _ _, some l, m, s => .ok (.next (some l) m s)
  | .call g arg busy use, none, m, s =>
    match callee g (arg a s) m s with
    | .ok r =>
      if r.code > codeNestingError then exec callee n p a busy none r.mem r.st
      else .ok (.next none r.mem (use a r.value r.st))
    | .error e => .error e
  | .call _ _ _ _, some l, m, s => .ok (.next (some l) m s)
  | .callRet g arg busy fin, none, m, s =>
    match callee g (arg a s) m s with
    | .ok r =>
      if r.code > codeNestingError then exec callee n p a busy none r.mem r.st
      else
        match exec callee n p a fin none r.mem r.st with
        | .ok (.next _ m' s') => .ok (.ret codeStop r.value m' s')
        | x => x
    | .error e => .error e
  | .callRet _ _ _ _, some l, m, s => .ok (.next (some l) m s)

/-- The end of the `switch` when no `case` has matched: `RF_INTERNAL_END`, `macros.hpp:165`;
`PT_END`, `protothread/macros.hpp:38`. -/
def otherwise (p : Place) (m : Mem) (s : S) : Except Stuck (Reply S V) :=
  match p.kind with
  | .thread =>
    match setRf p (endState .thread) m with
    | .ok m' => .ok ⟨codeStop, none, m', s⟩
    | .error e => .error e
  | _ => .ok ⟨codeWrongState, none, popRf p m, s⟩

/-- One call of function `g`: `RF_BEGIN`, `macros.hpp:187-206`.  Functions call each other at most
`d` deep. -/
def callFn (P : Prog S V) (n : Nat) : Nat → Nat → V → Mem → S → Except Stuck (Reply S V)
  | 0, _, _, _, _ => .error .bound
  | d + 1, g, a, m, s =>
    if nestingOk P.check (P.fn g).place m then
      match pushRf (P.fn g).place m with
      | .error e => .error e
      | .ok (st, m') =>
        match exec (callFn P n d) n (P.fn g).place a (whole (P.fn g)) (some st) m' s with
        | .error e => .error e
        | .ok (.ret code v m'' s'') => .ok ⟨code, v, m'', s''⟩
        | .ok (.next _ m'' s'') => otherwise (P.fn g).place m'' s''
    else .ok ⟨codeNestingError, none, m, s⟩

/-- `RF_CALL_BLOCKING`, `macros.hpp:116`: at most `k` calls; `env` is what else happens to the
state between two calls (interrupts). -/
def blocking (P : Prog S V) (n d g : Nat) (a : V) (env : Nat → S → S) :
    Nat → Mem → S → Except Stuck (Reply S V)
  | 0, _, _ => .error .bound
  | k + 1, m, s =>
    match callFn P n d g a m s with
    | .ok r => if r.code > codeNestingError then blocking P n d g a env k r.mem (env k r.st) else .ok r
    | .error e => .error e

end

/-! ## The other member functions -/

/-- A new object: `Resumable()`, `resumable.hpp:108`; `NestedResumable()`,
`nested_resumable.hpp.in:36`; `Protothread()`, `protothread.hpp:48`. -/
def fresh : Mem := ⟨fun _ => 0, fun _ _ => stopped⟩

/-- `NestedResumable::stopResumable`, `nested_resumable.hpp.in:48`: the states of the levels from
`level` on. -/
def stopFrom (levels o : Nat) : Nat → Nat → Mem → Mem
  | 0, _, m => m
  | k + 1, level, m =>
    if level < levels then stopFrom levels o k (level + 1) (m.write o level stopped) else m

def nestedStop (levels o : Nat) (m : Mem) : Mem := stopFrom levels o levels (m.level o) m

/-- `NestedResumable::isResumableRunning`, `nested_resumable.hpp.in:59, 133`. -/
def nestedRunning (levels o : Nat) (m : Mem) : Except Stuck Bool :=
  if m.level o < levels then .ok (decide (m.state o (m.level o) ≠ stopped)) else .error .undefined

/-- A value converted to `int8_t`. -/
def i8 (x : Int) : Int := (x + 128) % 256 - 128

/-- `NestedResumable::getResumableDepth`, `nested_resumable.hpp.in:66`. -/
def nestedDepth (o : Nat) (m : Mem) : Int := i8 (i8 (m.level o) - 1)

/-- `Resumable::stopAllResumables`, `resumable.hpp:119`. -/
def stopAll (functions o : Nat) (m : Mem) : Mem :=
  (List.range functions).foldl (fun m i => m.write o i stopped) m

/-- `Resumable::stopResumable`, `resumable.hpp:130`. -/
def stopOne (functions o id : Nat) (m : Mem) : Bool × Mem :=
  if id < functions then (true, m.write o id stopped) else (false, m)

/-- `Resumable::isResumableRunning`, `resumable.hpp:141`. -/
def isRunning (functions o id : Nat) (m : Mem) : Bool :=
  decide (id < functions) && decide (m.state o id ≠ stopped)

/-- `Resumable::areAnyResumablesRunning()`, `resumable.hpp:148`. -/
def anyRunning (functions o : Nat) (m : Mem) : Bool :=
  (List.range functions).any (fun i => decide (m.state o i ≠ stopped))

/-- `Resumable::areAnyResumablesRunning(ids)`, `resumable.hpp:160`. -/
def anyOf (functions o : Nat) (m : Mem) (ids : List Nat) : Bool :=
  ids.any (fun id => isRunning functions o id m)

/-- `Resumable::areAllResumablesRunning(ids)`, `resumable.hpp:172`. -/
def allOf (functions o : Nat) (m : Mem) : List Nat → Bool
  | [] => true
  | id :: ids =>
    if functions ≤ id ∨ m.state o id = stopped then false else allOf functions o m ids

/-- `Resumable::joinResumables`, `resumable.hpp:185`. -/
def join (functions o : Nat) (m : Mem) (ids : List Nat) : Bool := !anyOf functions o m ids

/-- `Protothread::restart`, `protothread.hpp:55`. -/
def ptRestart (o : Nat) (m : Mem) : Mem := m.write o 0 stopped

/-- `Protothread::stop`, `protothread.hpp:67`. -/
def ptStop (o : Nat) (m : Mem) : Mem := m.write o 0 invalid

/-- `Protothread::isRunning`, `protothread.hpp:79`. -/
def ptRunning (o : Nat) (m : Mem) : Bool := decide (m.state o 0 ≠ invalid)

/-! ## The specialisation `NestedResumable<1>` -/

/-- `rfLevel` and `rfState`, `nested_resumable.hpp.in:243-244`. -/
structure Single where
  level : Int
  state : Nat
  deriving DecidableEq, Repr

/-- `nested_resumable.hpp.in:164`. -/
def Single.fresh : Single := ⟨-1, stopped⟩
/-- `nested_resumable.hpp.in:209`. -/
def Single.nestingOk (check : Bool) (x : Single) : Bool := !check || decide (x.level ≠ 0)
/-- `nested_resumable.hpp.in:190`. -/
def Single.push (x : Single) : Nat × Single := (x.state, { x with level := 0 })
/-- `nested_resumable.hpp.in:197`. -/
def Single.pop (x : Single) : Single := { x with level := -1 }
/-- `nested_resumable.hpp.in:219`, and `stopRf`, `nested_resumable.hpp.in:203`. -/
def Single.set (x : Single) (v : Nat) : Single := { x with state := v }
/-- `nested_resumable.hpp.in:171`. -/
def Single.stop (x : Single) : Single := { x with state := stopped }
/-- `nested_resumable.hpp.in:177, 225`. -/
def Single.running (x : Single) : Bool := decide (x.state ≠ stopped)
/-- `nested_resumable.hpp.in:183`. -/
def Single.depth (x : Single) : Int := x.level

end Modm.Resumable
