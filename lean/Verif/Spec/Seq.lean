/-
Sequences whose elements carry an identity, so that iterators can name them: the reference for both linked lists.
-/
set_option autoImplicit false
namespace Spec.Seq
variable {T : Type}

/-- operations; `id` is the identity given to a new element, 0 is the end iterator -/
inductive Op (T : Type)
  | prepend (id : Nat) (v : T)
  | append (id : Nat) (v : T)
  | insert (pos id : Nat) (v : T)
  | removeFront
  | removeBack
  | removeAll
  | remove (it : Nat)

/-- insert behind the element named `pos` -/
def insertAfter (pos : Nat) (x : Nat × T) : List (Nat × T) → List (Nat × T)
  | [] => []
  | y :: l => if y.1 = pos then y :: x :: l else y :: insertAfter pos x l

def apply (l : List (Nat × T)) : Op T → List (Nat × T)
  | .prepend id v => (id, v) :: l
  | .append id v => l ++ [(id, v)]
  | .insert pos id v => if pos = 0 then l ++ [(id, v)] else insertAfter pos (id, v) l
  | .removeFront => l.drop 1
  | .removeBack => l.dropLast
  | .removeAll => []
  | .remove it => l.filter (fun x => x.1 ≠ it)

def ids (l : List (Nat × T)) : List Nat := l.map (·.1)
def values (l : List (Nat × T)) : List T := l.map (·.2)

/-- an identity no element has -/
def Fresh (l : List (Nat × T)) (id : Nat) : Prop := id ≠ 0 ∧ id ∉ ids l

/-- the identity of the element behind the one named `it`, 0 at the end -/
def successor (it : Nat) : List (Nat × T) → Nat
  | [] => 0
  | y :: l => if y.1 = it then ((ids l).headD 0) else successor it l

/-- what caller and allocator of a singly linked list guarantee: new elements get fresh identities, insert positions are in the
list or the end, something is there to be removed -/
def OkSingle (l : List (Nat × T)) : Op T → Prop
  | .prepend id _ => Fresh l id
  | .append id _ => Fresh l id
  | .insert pos id _ => Fresh l id ∧ (pos = 0 ∨ pos ∈ ids l)
  | .removeFront => l ≠ []
  | .removeBack => False
  | .removeAll => True
  | .remove _ => True

/-- the same for a doubly linked list, which has other operations -/
def OkDouble (l : List (Nat × T)) : Op T → Prop
  | .prepend id _ => Fresh l id
  | .append id _ => Fresh l id
  | .insert _ _ _ => False
  | .removeFront => l ≠ []
  | .removeBack => l ≠ []
  | .removeAll => False
  | .remove it => it ∈ ids l

/-- the sequence after a history from `l`, which has to be allowed at every step -/
inductive History (ok : List (Nat × T) → Op T → Prop) : List (Nat × T) → List (Op T) → List (Nat × T) → Prop
  | nil (l : List (Nat × T)) : History ok l [] l
  | cons (l : List (Nat × T)) (op : Op T) (ops : List (Op T)) (l' : List (Nat × T)) :
      ok l op → History ok (apply l op) ops l' → History ok l (op :: ops) l'

end Spec.Seq
