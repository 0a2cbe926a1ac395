/-
What a stack of views is for, in terms of what the user does: which views are on it, which of their functions are called, and what the display shows.
-/
import Verif.Model.ViewStack
set_option autoImplicit false
namespace Spec.ViewStack
open Modm.ViewStack (Event Act Op)

/-- The views on the stack, top first, and whether they were asked to be removed; `made`: number of views made; `told`: what the views were told. -/
structure Stack where
  views : List (Nat × Bool) := []
  made : Nat := 0
  told : List Event := []

/-- A view is asked to be removed. -/
def Stack.mark (s : Stack) (v : Nat) : Stack := { s with views := s.views.map (fun p => if p.1 = v then (v, true) else p) }

/-- The view on top is told something. -/
def Stack.tell (s : Stack) (f : Nat → Event) : Stack :=
  match s.views with
  | [] => s
  | p :: _ => { s with told := s.told ++ [f p.1] }

/-- The view on top is deleted. -/
def Stack.drop (s : Stack) : Stack := { s.tell .delete with views := s.views.tail }

def Stack.act (s : Stack) : Act → Stack
  | .push => { s with views := (s.made, false) :: s.views, made := s.made + 1 }
  | .remove v => s.mark v
  | .pop => s.drop

def Stack.acts (s : Stack) (l : List Act) : Stack := l.foldl Stack.act s

/-- An update: the view on top is told, and if it was asked to be removed by then, it goes, and the view below is told. -/
def Stack.op (s : Stack) : Op → Stack
  | .act a => s.act a
  | .button l => (s.tell .button).acts l
  | .update now _ removing after =>
    let s := (s.tell .update).acts now
    match s.views with
    | (_, true) :: _ => (((s.tell .onRemove).acts removing).drop.tell .update).acts after
    | _ => s

def Stack.ops (s : Stack) (l : List Op) : Stack := l.foldl Stack.op s

/-- What is in the memory of the display and what is seen of it: the views drawn since it was cleared, the last one over the others. -/
def seen (log : List Event) : List Nat × List Nat :=
  log.foldl (fun d e => match e with | .clear => ([], d.2) | .draw v => (v :: d.1, d.2) | .show => (d.1, d.1) | _ => d) ([], [])

/-- The display shows a view and nothing else. -/
def Shows (log : List Event) (v : Nat) : Prop := v ∈ (seen log).2 ∧ ∀ u ∈ (seen log).2, u = v

/-- What views were told. -/
def told (log : List Event) : List Event := log.filter (fun e => match e with | .clear => false | .draw _ => false | .show => false | _ => true)

/-- The views that are on the stack -/
def Stack.ids (s : Stack) : List Nat := s.views.map Prod.fst

/-- Only views on the stack are asked to be removed, and nothing is popped when there is nothing. -/
def GoodAct (s : Stack) : Act → Prop
  | .push => True
  | .remove v => v ∈ s.ids
  | .pop => s.views ≠ []

def GoodActs : Stack → List Act → Prop
  | _, [] => True
  | s, a :: l => GoodAct s a ∧ GoodActs (s.act a) l

/-- Only views on the stack are asked to be removed, and nothing else is done. -/
def OnlyRemoves (ids : List Nat) (l : List Act) : Prop := ∀ a ∈ l, ∃ v, a = .remove v ∧ v ∈ ids

/-- The stack is used in a way it can cope with: `update` and `onRemove` of a view push and pop nothing, and neither updates nor buttons meet an empty stack. -/
def Good (s : Stack) : Op → Prop
  | .act a => GoodAct s a
  | .button l => s.views ≠ [] ∧ GoodActs s l
  | .update now c removing after => s.views ≠ [] ∧ OnlyRemoves s.ids now ∧ OnlyRemoves s.ids removing ∧ OnlyRemoves s.ids.tail after
      ∧ (s.op (.update now c removing after)).views ≠ []

def GoodAll : Stack → List Op → Prop
  | _, [] => True
  | s, o :: l => Good s o ∧ GoodAll (s.op o) l

/-- Views are removed by `remove` and not with `pop`. -/
def NoPop : Op → Prop
  | .act a => a ≠ .pop
  | .button l => Act.pop ∉ l
  | .update .. => True

end Spec.ViewStack
