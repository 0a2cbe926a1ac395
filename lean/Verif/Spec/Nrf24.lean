import Verif.Model.Nrf24

set_option autoImplicit false

/-! # What the user of the radio may expect -/

namespace Modm.Nrf24.Spec

/-- The address of a station: the four upper bytes of the network, then its own. -/
def station (base : BitVec 64) (a : Byte) : List Byte :=
  [a, base.extractLsb' 8 8, base.extractLsb' 16 8, base.extractLsb' 24 8, base.extractLsb' 32 8]

/-- The address that the driver gives to pipe 0 until the first packet is sent: no station of the network. -/
def nobody (base : BitVec 64) : List Byte := (station base 0x55).map fun b => ~~~b

/-- A device and a driver as after switching on: no flag set, pipes 3 to 5 off. -/
structure Fresh (s : St) : Prop where
  mode : s.mode = .invalid
  rxDr : s.dev.rxDr = false
  txDs : s.dev.txDs = false
  maxRt : s.dev.maxRt = false
  p3 : (s.dev.regs 0x02).getLsbD 3 = false
  p4 : (s.dev.regs 0x02).getLsbD 4 = false
  p5 : (s.dev.regs 0x02).getLsbD 5 = false

/-- The world after `initialize`. -/
def start (base : BitVec 64) (own bcast : Byte) (s : St) : World := ⟨init base own bcast s, none, 0, .pending, [], []⟩

/-- Packets have 32 bytes, of which 30 are payload. -/
def Sized : Act → Prop
  | .send _ p => p.length = 30
  | .arrive _ p => p.length = 32
  | _ => True

/-- The timeout does not expire. -/
def InTime : Act → Prop
  | .finish e => e = false
  | _ => True

/-- Nothing is sent. -/
def Listens : Act → Prop
  | .send _ _ => False
  | _ => True

end Modm.Nrf24.Spec
