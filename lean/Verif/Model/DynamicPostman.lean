/-!
The postman of XPCC for which handlers are registered at run time.

Models `/repo/src/modm/communication/xpcc/postman/dynamic_postman/dynamic_postman.cpp:25-127`, `dynamic_postman.hpp` and
`dynamic_postman_impl.hpp`.  `std::multimap` and `std::map` are lists sorted by key; equal keys of the multimap are in the order of
insertion (C++11).  A callback is a number together with the size of its payload type, if it has a payload parameter; it
reads its whole parameter.
-/

set_option autoImplicit false

namespace Model.DynamicPostman

/-- dynamic_postman.hpp:79-107: `EventListener` and `ActionHandler`. -/
structure Callback where
  id : Nat
  payload : Option Nat
deriving DecidableEq

/-- postman.hpp:36-46: `DeliverInfo` (the values that are returned here). -/
inductive DeliverInfo where
  | OK
  | NO_COMPONENT
  | NO_ACTION
  | NO_EVENT
deriving DecidableEq

/-- `std::multimap::insert`: behind all elements with the same key. -/
def insertBehind {α : Type} : List (Nat × α) → Nat → α → List (Nat × α)
  | [], k, v => [(k, v)]
  | e :: r, k, v => if e.1 ≤ k then e :: insertBehind r k v else (k, v) :: e :: r

/-- `std::multimap`: from `lower_bound()` to `upper_bound()`. -/
def range {α : Type} (m : List (Nat × α)) (k : Nat) : List (Nat × α) := (m.dropWhile (fun e => e.1 < k)).takeWhile (fun e => e.1 ≤ k)

/-- `std::map::operator[]` and an assignment. -/
def assign {α : Type} : List (Nat × α) → Nat → α → List (Nat × α)
  | [], k, v => [(k, v)]
  | e :: r, k, v => if e.1 < k then e :: assign r k v else if e.1 = k then (k, v) :: r else (k, v) :: e :: r

/-- `std::map::find()`: the lower bound, if it has the key. -/
def find {α : Type} (m : List (Nat × α)) (k : Nat) : Option α :=
  match m.dropWhile (fun e => e.1 < k) with
  | [] => none
  | e :: _ => if e.1 = k then some e.2 else none

/-- dynamic_postman.hpp:109-119. -/
structure Postman where
  eventMap : List (Nat × Callback)
  actionMap : List (Nat × List (Nat × Callback))

def empty : Postman := ⟨[], []⟩

/-- dynamic_postman_impl.hpp:18-63: `registerEventListener()`. -/
def registerEventListener (p : Postman) (eventId : BitVec 8) (c : Callback) : Postman :=
  { p with eventMap := insertBehind p.eventMap eventId.toNat c }

/-- dynamic_postman_impl.hpp:65-102: `registerActionHandler()`: `actionMap[componentId][actionId] = …`. -/
def registerActionHandler (p : Postman) (componentId actionId : BitVec 8) (c : Callback) : Postman :=
  let callbacks := (find p.actionMap componentId.toNat).getD []
  { p with actionMap := assign p.actionMap componentId.toNat (assign callbacks actionId.toNat c) }

/-- A call: which callback, and the payload that it gets.  -/
structure Call where
  id : Nat
  payload : List (BitVec 8)
deriving DecidableEq

/-- dynamic_postman.cpp:89-99,117-127: the call operator; `none`: reads behind the payload. -/
def call (c : Callback) (payload : List (BitVec 8)) : Option Call :=
  match c.payload with
  | none => some ⟨c.id, []⟩
  | some n => if n ≤ payload.length then some ⟨c.id, payload.take n⟩ else none

/-- dynamic_postman.cpp:34-38: the loop over the listeners. -/
def callAll : List (Nat × Callback) → List (BitVec 8) → Option (List Call)
  | [], _ => some []
  | e :: r, payload => do
    let c ← call e.2 payload
    let cs ← callAll r payload
    pure (c :: cs)

/-- dynamic_postman.cpp:25-64: `deliverPacket()`. -/
def deliverPacket (p : Postman) (destination packetIdentifier : BitVec 8) (payload : List (BitVec 8)) : Option (DeliverInfo × List Call) :=
  if destination = 0#8 then
    match range p.eventMap packetIdentifier.toNat with
    | [] => some (.NO_EVENT, [])
    | ls => (callAll ls payload).map (fun cs => (.OK, cs))
  else
    match find p.actionMap destination.toNat with
    | some callbacks =>
      match find callbacks packetIdentifier.toNat with
      | some c => (call c payload).map (fun c => (.OK, [c]))
      | none => some (.NO_ACTION, [])
    | none => some (.NO_COMPONENT, [])

/-- dynamic_postman.cpp:67-71: `isComponentAvailable()`. -/
def isComponentAvailable (p : Postman) (component : BitVec 8) : Bool := (find p.actionMap component.toNat).isSome

end Model.DynamicPostman
