import Verif.Model.Deque
/- Independent specification: a list of at most `N` elements, front first. -/
set_option autoImplicit false
namespace Spec.Deque
open Modm.Deque (Op Out AOp)
variable {α : Type}

/-- `none`: the caller breaks the contract (removal/access on empty, index out of range). -/
def step (N : Nat) (l : List α) : Op α → Option (List α × Out α)
  | .append x => if l.length < N then some (l ++ [x], .bool true) else some (l, .bool false)
  | .prepend x => if l.length < N then some (x :: l, .bool true) else some (l, .bool false)
  | .appendOverwrite x => some (if l.length < N then l ++ [x] else l.tail ++ [x], .unit)
  | .prependOverwrite x => some (if l.length < N then x :: l else x :: l.dropLast, .unit)
  | .removeFront => if l = [] then none else some (l.tail, .unit)
  | .removeBack => if l = [] then none else some (l.dropLast, .unit)
  | .clear => some ([], .unit)
  | .getFront => l.head?.map fun v => (l, .val v)
  | .getBack => l.getLast?.map fun v => (l, .val v)
  | .get n => l[n]?.map fun v => (l, .val v)
  | .rget n => l.reverse[n]?.map fun v => (l, .val v)
  | .isEmpty => some (l, .bool l.isEmpty)
  | .isFull => some (l, .bool (l.length == N))
  | .getSize => some (l, .num l.length)

def run (N : Nat) (l : List α) : List (Op α) → Option (List α × List (Out α))
  | [] => some (l, [])
  | o :: os => do
    let (l', r) ← step N l o
    let (l'', rs) ← run N l' os
    pure (l'', r :: rs)

/-- bounded FIFO: `l` oldest first -/
def qstep (N : Nat) (l : List α) : AOp α → Option (List α × Out α)
  | .push x => if l.length < N then some (l ++ [x], .bool true) else some (l, .bool false)
  | .pop => match l with | [] => none | _ :: t => some (t, .unit)
  | .get => match l with | [] => none | h :: t => some (h :: t, .val h)
  | .isEmpty => some (l, .bool l.isEmpty)
  | .isFull => some (l, .bool (l.length == N))
  | .getSize => some (l, .num l.length)

/-- bounded LIFO: `l` newest first -/
def sstep (N : Nat) (l : List α) : AOp α → Option (List α × Out α)
  | .push x => if l.length < N then some (x :: l, .bool true) else some (l, .bool false)
  | .pop => match l with | [] => none | _ :: t => some (t, .unit)
  | .get => match l with | [] => none | h :: t => some (h :: t, .val h)
  | .isEmpty => some (l, .bool l.isEmpty)
  | .isFull => some (l, .bool (l.length == N))
  | .getSize => some (l, .num l.length)

def runWith (f : List α → AOp α → Option (List α × Out α)) (l : List α) :
    List (AOp α) → Option (List α × List (Out α))
  | [] => some (l, [])
  | o :: os => do
    let (l', r) ← f l o
    let (l'', rs) ← runWith f l' os
    pure (l'', r :: rs)

end Spec.Deque
