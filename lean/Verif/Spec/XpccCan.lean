import Verif.Model.XpccCan

set_option autoImplicit false

/-!
The wire format of long XPCC packets on CAN, and the view of the users of a connector: packets
handed to one connector, packets delivered by another.
-/

namespace Spec.XpccCan

open Modm.XpccCan

/-- Fragment `k` of a packet: index and counter, the size of the packet, six bytes of it. -/
def fragment (h : Header) (c : Byte) (payload : List Byte) (k : Nat) : Frame :=
  ⟨toIdentifier h true,
    (BitVec.ofNat 8 k ||| c) :: BitVec.ofNat 8 payload.length :: (payload.drop (6 * k)).take 6⟩

def fragments (h : Header) (c : Byte) (payload : List Byte) : List Frame :=
  (List.range ((payload.length + 5) / 6)).map (fragment h c payload)

/-- The frame is a fragment with this header and counter. -/
def concerns (h : Header) (c : Byte) (f : Frame) : Bool :=
  isFragment f.identifier && decide (toHeader f.identifier = h) &&
    decide (f.data.getD 0 0 &&& 0xf0 = c)

/-- All the fragments with the same header and counter that pass the format checks announce the
same size. -/
def Consistent (fs : List Frame) : Prop :=
  ∀ f ∈ fs, ∀ g ∈ fs, ∀ h c, concerns h c f → concerns h c g →
    (legal f.data).isSome → (legal g.data).isSome → f.data.getD 1 0 = g.data.getD 1 0

/-- The fragments that follow agree about the size with the packets received in part. -/
def Fits (rx : Rx) (fs : List Frame) : Prop :=
  ∀ p ∈ rx.pending, ∀ f ∈ fs, concerns p.header p.counter f → (legal f.data).isSome →
    (f.data.getD 1 0).toNat = p.payload.length

/-- Nothing of a packet with this header and counter was received so far. -/
def Fresh (rx : Rx) (h : Header) (c : Byte) : Prop :=
  ∀ p ∈ rx.pending, ¬ (p.header = h ∧ p.counter = c)

/-! ## Two connectors on a bus that loses nothing -/

inductive Op where
  /-- `sendPacket` of the sender, with the answers of the driver -/
  | send (h : Header) (payload : List Byte) (ready accepted : Bool)
  /-- `update` of the sender; `accepted` is the answer of the driver -/
  | update (accepted : Bool)

structure Link where
  tx : Tx
  rx : Rx
  /-- everything ever handed to `sendPacket` -/
  sent : List (Header × List Byte)

/-- One operation of the sender; the frames sent are received at once. -/
def step (l : Link) : Op → Option Link
  | .send h payload ready accepted =>
    let r := sendPacket ready accepted l.tx h payload
    (receiveAll l.rx r.2).map fun rx => ⟨r.1, rx, l.sent ++ [(h, payload)]⟩
  | .update accepted =>
    let r := sendWaiting true accepted l.tx
    (receiveAll l.rx r.2).map fun rx => ⟨r.1, rx, l.sent⟩

def run : Link → List Op → Option Link
  | l, [] => some l
  | l, op :: ops => (step l op).bind fun l => run l ops

/-- The packets that fit the protocol. -/
def Op.Small : Op → Prop
  | .send _ payload _ _ => payload.length ≤ 48
  | .update _ => True

/-- What is waiting in the send list. -/
def waiting (l : Link) : List (Header × List Byte) :=
  l.tx.queue.map fun i => (toHeader i.identifier, i.payload)

/-- What was delivered. -/
def delivered (l : Link) : List (Header × List (Option Byte)) :=
  l.rx.received.map fun p => (p.header, p.payload)

/-- A packet as delivered. -/
def asDelivered (p : Header × List Byte) : Header × List (Option Byte) := (p.1, p.2.map some)

/-- No short packet is handed over while the driver is ready and older packets are waiting. -/
def Polite : Link → List Op → Prop
  | _, [] => True
  | l, op :: ops =>
    (∀ h payload, op = .send h payload true true → l.tx.queue = [] ∨ 8 < payload.length) ∧
      ∀ l', step l op = some l' → Polite l' ops

end Spec.XpccCan
