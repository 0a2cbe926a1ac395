import Mathlib.Data.Nat.Notation
import Mathlib.Data.List.Count

set_option autoImplicit false

/-!
# What can be observed of the communication of components

A board runs components, which call actions of other components, publish events and answer action
calls (`src/modm/communication/xpcc/communicator.hpp:36-105`).  The observations are what the
components do, what arrives from and is sent to the network, and what the components are told.
Nothing here refers to how the dispatcher works.
-/

namespace Modm.Spec.Dispatcher

abbrev Byte := BitVec 8

abbrev Payload := List Byte

/-- The type of a packet. -/
inductive Kind where
  | request | response | negativeResponse | timeout
  deriving DecidableEq, Repr

/-- The header of a packet. -/
structure Header where
  kind : Kind
  ack : Bool
  destination : Byte
  source : Byte
  packet : Byte
  deriving DecidableEq, Repr

/-- What a component can do.  A callback is a number. -/
inductive Command where
  | callAction (own receiver action : Byte) (payload : Payload) (callback : Option ℕ)
  | publishEvent (own event : Byte) (payload : Payload)
  | sendResponse (own destination packet : Byte) (payload : Payload)
  | sendNegativeResponse (own destination packet : Byte) (payload : Payload)
  deriving DecidableEq, Repr

/-- What can be observed. -/
inductive Obs where
  /-- a component does something -/
  | issued (c : Command)
  /-- a packet arrives from the network -/
  | received (h : Header) (p : Payload)
  /-- a packet is sent to the network, at a time in milliseconds -/
  | sent (time : ℕ) (h : Header) (p : Payload)
  /-- the components are told of an action call or an event -/
  | delivered (h : Header) (p : Payload)
  /-- a callback is called -/
  | called (k : ℕ) (h : Header) (p : Payload)
  deriving DecidableEq, Repr

/-- The packet a command stands for. -/
def message : Command → Header × Payload
  | .callAction own receiver action p _ => (⟨.request, false, receiver, own, action⟩, p)
  | .publishEvent own event p => (⟨.request, false, 0, own, event⟩, p)
  | .sendResponse own destination packet p => (⟨.response, false, destination, own, packet⟩, p)
  | .sendNegativeResponse own destination packet p => (⟨.negativeResponse, false, destination, own, packet⟩, p)

/-- The callback of a command. -/
def callbackOf : Command → Option ℕ
  | .callAction _ _ _ _ k => k
  | _ => none

/-- The acknowledge of a packet. -/
def ackOf (h : Header) : Header := ⟨h.kind, true, h.source, h.destination, h.packet⟩

/-- `h` is an answer to `q`: from its receiver to its sender, with the same number. -/
def answers (h q : Header) : Prop :=
  h.source = q.destination ∧ h.destination = q.source ∧ h.packet = q.packet

instance (h q : Header) : Decidable (answers h q) := by unfold answers; infer_instance

/-! ## Numbers of observations -/

/-- How often a packet was ordered. -/
def ordered (h : Header) (p : Payload) (log : List Obs) : ℕ :=
  log.countP fun o => match o with | .issued c => message c = (h, p) | _ => false

/-- How often a packet was sent. -/
def sendings (h : Header) (p : Payload) (log : List Obs) : ℕ :=
  log.countP fun o => match o with | .sent _ h' p' => h' = h ∧ p' = p | _ => false

/-- How often an action call or an event was delivered. -/
def deliveries (h : Header) (p : Payload) (log : List Obs) : ℕ :=
  log.countP fun o => match o with | .delivered h' p' => h' = h ∧ p' = p | _ => false

/-- How often a packet arrived. -/
def arrivals (h : Header) (p : Payload) (log : List Obs) : ℕ :=
  log.countP fun o => match o with | .received h' p' => h' = h ∧ p' = p | _ => false

/-- How often an action was called with the callback `k`. -/
def calls (k : ℕ) (log : List Obs) : ℕ :=
  log.countP fun o => match o with | .issued c => callbackOf c = some k | _ => false

/-- How often the callback `k` was called. -/
def results (k : ℕ) (log : List Obs) : ℕ :=
  log.countP fun o => match o with | .called k' _ _ => k' = k | _ => false

/-- The times at which a packet was sent. -/
def sendTimes (h : Header) (p : Payload) (log : List Obs) : List ℕ :=
  log.filterMap fun o => match o with | .sent t h' p' => if h' = h ∧ p' = p then some t else none | _ => none

/-- How often a packet arrived, with any payload. -/
def arrivalsOf (h : Header) (log : List Obs) : ℕ :=
  log.countP fun o => match o with | .received h' _ => h' = h | _ => false

/-- How often a header was sent, with any payload. -/
def sendingsOf (h : Header) (log : List Obs) : ℕ :=
  log.countP fun o => match o with | .sent _ h' _ => h' = h | _ => false

/-- How often a packet with this header was ordered. -/
def orderedOf (h : Header) (log : List Obs) : ℕ :=
  log.countP fun o => match o with | .issued c => (message c).1 = h | _ => false

/-- The transmissions of packets with this header, and the calls of this callback. -/
def story (h : Header) (cb : Option ℕ) (log : List Obs) : List Obs :=
  log.filter fun o => match o with | .sent _ h' _ => h' = h | .called k _ _ => some k = cb | _ => false

/-- The header with which a callback is told that there was no acknowledge. -/
def timeoutOf (h : Header) : Header := ⟨.timeout, h.ack, h.destination, h.source, h.packet⟩

/-- What is to be expected of a packet sent at the time `last`, which may be sent `n` times more, if it is looked at at the
times `us` and is never acknowledged. -/
def resend (T : ℕ) (h : Header) (p : Payload) (cb : Option ℕ) : ℕ → ℕ → List ℕ → List Obs
  | _, _, [] => []
  | last, n, u :: us =>
    if last + T ≤ u then
      match n with
      | 0 => cb.toList.map fun k => .called k (timeoutOf h) p
      | n + 1 => .sent u h p :: resend T h p cb u n us
    else resend T h p cb last n us

/-- What is to be expected of a call: it is sent at once, and twice more when the time `T` has passed without an
acknowledge; then the callback is told. -/
def timeline (T : ℕ) (h : Header) (p : Payload) (cb : Option ℕ) : List ℕ → List Obs
  | [] => []
  | u :: us => .sent u h p :: resend T h p cb u 2 us

/-- The events published, in order. -/
def published (log : List Obs) : List (Header × Payload) :=
  log.filterMap fun o => match o with
    | .issued c => if (message c).1.destination = 0 ∧ (message c).1.kind = .request then some (message c) else none
    | _ => none

/-- The events sent, in order. -/
def broadcast (log : List Obs) : List (Header × Payload) :=
  log.filterMap fun o => match o with
    | .sent _ h p => if h.destination = 0 ∧ h.kind = .request ∧ h.ack = false then some (h, p) else none
    | _ => none

end Modm.Spec.Dispatcher
