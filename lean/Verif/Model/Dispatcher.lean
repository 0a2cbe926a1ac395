import Verif.Spec.Dispatcher
import Verif.Model.Timer

set_option autoImplicit false

/-!
# XPCC dispatcher

Model of `src/modm/communication/xpcc/{dispatcher.cpp, dispatcher.hpp.in, communicator.cpp,
communicator_impl.hpp}`.  The vocabulary of commands and observations is that of
`Verif.Spec.Dispatcher`.

The components are arbitrary: a function of their state, which gives the new state, the result of
`deliverPacket` and the commands executed meanwhile.  They may do anything but call `update`.

The list of entries is a list with a place in the middle, which is where the loop over the entries
is.  `prepend` and `append` do not move this place (C06 is about the list itself; its iterators are
pointers to nodes).

Simplifications: a payload is its list of bytes.  Time does not advance during an `update`.
-/

namespace Modm.Dispatcher

open Modm.Spec.Dispatcher

/-- `Entry::State`, `dispatcher.hpp.in:75-81`. -/
inductive Phase where
  | transmissionPending | waitForAck | waitForResponse
  deriving DecidableEq, Repr

/-- `Entry`, `dispatcher.hpp.in:64-139`.  `callback` is `none` for `Type::Default`. -/
structure Entry where
  callback : Option ℕ
  header : Header
  payload : Payload
  phase : Phase
  time : Timer.T
  tries : ℕ
  deriving DecidableEq, Repr

/-- The components on the board: `Postman::deliverPacket` (the flag is whether the result is `OK`),
`Postman::isComponentAvailable` (`postman.hpp:47-63`) and `ResponseCallback::call`
(`response_callback.hpp:80-89`). -/
structure App (σ : Type) where
  deliver : σ → Header → Payload → σ × Bool × List Command
  available : Byte → Bool
  callback : σ → ℕ → Header → Payload → σ × List Command

/-- The options `timeout.acknowledge` and `timeout.response`, `dispatcher.hpp.in:42-43`. -/
structure Config where
  acknowledgeTimeout : ℕ
  responseTimeout : ℕ

/-- The dispatcher, the components and what was observed.  The entries are `before` followed by
`after`. -/
structure State (σ : Type) where
  before : List Entry
  after : List Entry
  app : σ
  log : List Obs
  deriving DecidableEq

variable {σ : Type}

/-- The constructor, `dispatcher.cpp:23-26`. -/
def init (x : σ) : State σ := ⟨[], [], x, []⟩

/-- A new entry, `dispatcher.hpp.in:95-117`, `130-136`; `time` is a stopped timeout. -/
def entry (h : Header) (p : Payload) (k : Option ℕ) : Entry :=
  ⟨k, h, p, .transmissionPending, Timer.init, 0⟩

def observe (o : Obs) (s : State σ) : State σ := ⟨s.before, s.after, s.app, s.log ++ [o]⟩

/-- `addMessage`, `dispatcher.cpp:285-298`. -/
def addMessage (h : Header) (p : Payload) (k : Option ℕ) (s : State σ) : State σ :=
  ⟨s.before, s.after ++ [entry h p k], s.app, s.log⟩

/-- `addResponse`, `dispatcher.cpp:300-316`. -/
def addResponse (h : Header) (p : Payload) (s : State σ) : State σ :=
  ⟨entry h p none :: s.before, s.after, s.app, s.log⟩

/-- The functions of `Communicator`, `communicator.cpp:25-86` and `communicator_impl.hpp:21-92`. -/
def execute (s : State σ) (c : Command) : State σ :=
  let s := observe (.issued c) s
  match c with
  | .callAction own receiver action p k => addMessage ⟨.request, false, receiver, own, action⟩ p k s
  | .publishEvent own event p => addMessage ⟨.request, false, 0, own, event⟩ p none s
  | .sendResponse own destination packet p =>
    addResponse ⟨.response, false, destination, own, packet⟩ p s
  | .sendNegativeResponse own destination packet p =>
    addResponse ⟨.negativeResponse, false, destination, own, packet⟩ p s

/-- Several commands. -/
def executeAll (s : State σ) (cs : List Command) : State σ := cs.foldl execute s

/-- `backend->sendPacket` at the time `now`. -/
def send (now : ℕ) (h : Header) (p : Payload) (s : State σ) : State σ := observe (.sent now h p) s

/-- `postman->deliverPacket`. -/
def deliver (a : App σ) (h : Header) (p : Payload) (s : State σ) : State σ × Bool :=
  let r := a.deliver s.app h p
  (executeAll ⟨s.before, s.after, r.1, s.log ++ [.delivered h p]⟩ r.2.2, r.2.1)

/-- `callbackResponse`, `dispatcher.hpp.in:126-130`; the callback of a `Type::Default` entry is not
callable (`response_callback.hpp:42`, `73-77`). -/
def callbackResponse (a : App σ) (k : Option ℕ) (h : Header) (p : Payload) (s : State σ) : State σ :=
  match k with
  | none => s
  | some k =>
    let r := a.callback s.app k h p
    executeAll ⟨s.before, s.after, r.1, s.log ++ [.called k h p]⟩ r.2

/-- `sendAcknowledge`, `dispatcher.cpp:86-95`. -/
def sendAcknowledge (now : ℕ) (h : Header) (s : State σ) : State σ :=
  send now ⟨h.kind, true, h.source, h.destination, h.packet⟩ [] s

/-- `Entry::headerFits`, `dispatcher.cpp:97-103`. -/
def Entry.headerFits (e : Entry) (h : Header) : Bool :=
  h.source == e.header.destination && h.destination == e.header.source && h.packet == e.header.packet

/-- The loop of `handlePacket`, `dispatcher.cpp:110-151`, at the place between `before` and
`after`. -/
def handleFrom (a : App σ) (h : Header) (p : Payload) (x : σ) (log : List Obs) (before : List Entry) :
    List Entry → State σ × Bool
  | [] => (⟨before, [], x, log⟩, false)
  | e :: rest =>
    if e.headerFits h then
      match e.callback with
      | none => (⟨before, rest, x, log⟩, false)
      | some k =>
        if h.kind = .request then
          if h.ack then
            (⟨before, ⟨e.callback, e.header, e.payload, .waitForResponse, e.time, e.tries⟩ :: rest, x, log⟩, false)
          else (⟨before, e :: rest, x, log⟩, false)
        else if h.ack then (⟨before, rest, x, log⟩, false)
        else
          let s := callbackResponse a (some k) h p ⟨before, e :: rest, x, log⟩
          (⟨s.before, s.after.tail, s.app, s.log⟩, true)
    else handleFrom a h p x log (before ++ [e]) rest

/-- `handlePacket`, `dispatcher.cpp:105-152`. -/
def handlePacket (a : App σ) (h : Header) (p : Payload) (s : State σ) : State σ × Bool :=
  handleFrom a h p s.app s.log [] (s.before ++ s.after)

/-- `updateOnceRx` for a packet and `handleActionCall`, `dispatcher.cpp:46-84`. -/
def updateOnceRx (a : App σ) (now : ℕ) (h : Header) (p : Payload) (s : State σ) : State σ :=
  let s := observe (.received h p) s
  if h.kind = .request ∧ h.ack = false then
    let r := deliver a h p s
    if r.2 = true ∧ h.destination ≠ 0 then sendAcknowledge now h r.1 else r.1
  else
    let r := handlePacket a h p s
    if h.ack = false ∧ h.destination ≠ 0 then
      if r.2 = true ∨ a.available h.destination = true then sendAcknowledge now h r.1 else r.1
    else r.1

/-- `remove` of the entry at which the loop is. -/
def removeCurrent (s : State σ) : State σ := ⟨s.before, s.after.tail, s.app, s.log⟩

/-- `++entry`, having changed the entry to `e`. -/
def advance (e : Entry) (s : State σ) : State σ := ⟨s.before ++ [e], s.after.tail, s.app, s.log⟩

/-- The condition of the search in `sendMessageToInnerComponent`, `dispatcher.cpp:190-193`. -/
def Entry.isWaitingFor (h : Header) (q : Entry) : Bool :=
  q.header.kind == .request && q.phase != .transmissionPending && q.headerFits h

/-- `sendMessageToInnerComponent`, `dispatcher.cpp:154-209`, for the entry `e`, which is the first of
`after`. -/
def sendMessageToInnerComponent (a : App σ) (cfg : Config) (now : ℕ) (e : Entry) (s : State σ) : State σ :=
  let s := send now e.header e.payload s
  if e.header.kind = .request then
    let s := (deliver a e.header e.payload s).1
    match e.callback with
    | some _ =>
      ⟨s.before, ⟨e.callback, e.header, e.payload, .waitForResponse,
        Timer.restart 65536 now cfg.responseTimeout e.time, e.tries⟩ :: s.after.tail, s.app, s.log⟩
    | none => removeCurrent s
  else
    match s.after.tail.findIdx? (Entry.isWaitingFor e.header) with
    | some i =>
      let q := s.after.tail[i]?
      let s := callbackResponse a (q.bind Entry.callback) e.header e.payload s
      removeCurrent ⟨s.before, s.after.eraseIdx (i + 1), s.app, s.log⟩
    | none => removeCurrent s

/-- The body of the loop of `handleWaitingMessages`, `dispatcher.cpp:217-280`, for the entry `e`,
which is the first of `after`. -/
def visit (a : App σ) (cfg : Config) (now : ℕ) (e : Entry) (s : State σ) : State σ :=
  match e.phase with
  | .transmissionPending =>
    if e.header.destination = 0 then
      removeCurrent (send now e.header e.payload (deliver a e.header e.payload s).1)
    else if a.available e.header.destination then sendMessageToInnerComponent a cfg now e s
    else
      advance ⟨e.callback, e.header, e.payload, .waitForAck,
          Timer.restart 65536 now cfg.acknowledgeTimeout e.time, e.tries⟩
        (send now e.header e.payload s)
  | .waitForAck =>
    let r := Timer.isExpired 65536 now e.time
    if r.2 then
      if e.tries ≥ 2 then
        removeCurrent (callbackResponse a e.callback
          ⟨.timeout, e.header.ack, e.header.destination, e.header.source, e.header.packet⟩ e.payload s)
      else
        advance ⟨e.callback, e.header, e.payload, .waitForAck,
            Timer.restart 65536 now cfg.acknowledgeTimeout r.1, e.tries + 1⟩
          (send now e.header e.payload s)
    else advance ⟨e.callback, e.header, e.payload, e.phase, r.1, e.tries⟩ s
  | .waitForResponse => advance e s

/-- The loop of `handleWaitingMessages`, `dispatcher.cpp:214-281`; `none` if it does not end within
`fuel` rounds. -/
def visitAll (a : App σ) (cfg : Config) (now : ℕ) : ℕ → State σ → Option (State σ)
  | 0, _ => none
  | fuel + 1, s =>
    match s.after with
    | [] => some s
    | e :: _ => visitAll a cfg now fuel (visit a cfg now e s)

/-- `handleWaitingMessages`, `dispatcher.cpp:211-282`. -/
def handleWaitingMessages (a : App σ) (cfg : Config) (now fuel : ℕ) (s : State σ) : Option (State σ) :=
  visitAll a cfg now fuel ⟨[], s.before ++ s.after, s.app, s.log⟩

/-- `update`, `dispatcher.cpp:28-44`: the backend has received these packets. -/
def update (a : App σ) (cfg : Config) (now fuel : ℕ) (packets : List (Header × Payload)) (s : State σ) :
    Option (State σ) :=
  handleWaitingMessages a cfg now fuel
    (packets.foldl (fun s hp => updateOnceRx a now hp.1 hp.2 s) s)

/-- What happens on a board: a component does something, or `update` is called at some time when some
packets have arrived. -/
inductive Step where
  | command (c : Command)
  | update (now : ℕ) (packets : List (Header × Payload))
  deriving Repr

/-- One step. -/
def step (a : App σ) (cfg : Config) (fuel : ℕ) (s : State σ) : Step → Option (State σ)
  | .command c => some (execute s c)
  | .update now packets => update a cfg now fuel packets s

/-- Several steps; `none` if an `update` does not return within `fuel` rounds. -/
def run (a : App σ) (cfg : Config) (fuel : ℕ) : State σ → List Step → Option (State σ)
  | s, [] => some s
  | s, x :: xs => (step a cfg fuel s x).bind fun s => run a cfg fuel s xs

end Modm.Dispatcher
