import Verif.Model.Sab
/-
Model of `modm::can::Message` (src/modm/architecture/interface/can_message.hpp.in) and of the Lawicel text format
(src/modm/driver/can/can_lawicel_formatter.cpp). `none` is undefined behaviour (an access outside an array).
-/
set_option autoImplicit false
namespace Modm.Can
open Modm.Sab (Byte)

/-- `can::Message` (can_message.hpp.in:158-173); `data` has `capacity` elements. `uint8_t` members are naturals below 256. -/
structure Message where
  identifier : BitVec 32
  fd : Bool
  brs : Bool
  rtr : Bool
  extended : Bool
  dlc : Nat
  length : Nat
  data : List Byte
  deriving DecidableEq, Repr

/-- `dlcConversionTable` (line 156) -/
def dlcConversionTable : List Nat := [0, 1, 2, 3, 4, 5, 6, 7, 8, 12, 16, 20, 24, 32, 48, 64]

/-- the loop in line 120; reading entry 16 or higher is undefined -/
def shrink (capacity : Nat) : Nat → Option Nat
  | 0 => some 0
  | d + 1 => if h : d + 1 < dlcConversionTable.length then
      (if dlcConversionTable[d + 1] > capacity then shrink capacity d else some (d + 1))
    else none

/-- `setDataLengthCode` (lines 117-125) -/
def setDataLengthCode (capacity : Nat) (m : Message) (inDlc : Nat) : Option Message :=
  (shrink capacity inDlc).map fun d =>
    { m with dlc := d, length := dlcConversionTable.getD d 0, fd := if d > 8 then true else m.fd }

/-- the loop in line 137: the argument list is the table from entry `inDlc` on -/
def grow (n : Nat) : List Nat → (inDlc : Nat) → Option Nat
  | [], _ => none
  | x :: xs, inDlc => if x < n then grow n xs (inDlc + 1) else some inDlc

/-- `setLength` (lines 127-140) -/
def setLength (capacity : Nat) (m : Message) (inLength : Nat) : Option Message :=
  if capacity ≤ 8 then some { m with length := min inLength capacity, dlc := min inLength capacity }
  else (grow (min inLength capacity) dlcConversionTable 0).bind (setDataLengthCode capacity m)

/-- members before `setLength` in the constructor (lines 29-33, 161-164, 173) -/
def Message.blank (capacity : Nat) (identifier : BitVec 32) : Message :=
  { identifier := identifier, fd := false, brs := false, rtr := false, extended := true, dlc := 0, length := 0,
    data := List.replicate capacity 0#8 }

/-- `Message(uint32_t, uint8_t)` (lines 29-33) -/
def Message.make (capacity : Nat) (identifier : BitVec 32) (inLength : Nat) : Option Message :=
  setLength capacity (Message.blank capacity identifier) inLength

/-- the loop in lines 39-40 -/
def fill (length : Nat) (inData : BitVec 64) (data : List Byte) : List Byte :=
  (List.range length).foldl (fun d ii => d.set ii ((inData >>> ((7 - ii - (8 - length)) * 8)).setWidth 8)) data

/-- `Message(uint32_t, uint8_t, uint64_t, bool)` (lines 35-41) -/
def Message.make64 (capacity : Nat) (identifier : BitVec 32) (inLength : Nat) (inData : BitVec 64) (extended : Bool) : Option Message :=
  (Message.make capacity identifier (min inLength 8)).map fun m =>
    { m with extended := extended, data := fill m.length inData m.data }

/-- `operator ==` (lines 176-187) -/
def Message.eq (a b : Message) : Bool :=
  a.identifier = b.identifier && a.dlc = b.dlc && a.length = b.length && a.fd = b.fd && a.brs = b.brs && a.rtr = b.rtr &&
    a.extended = b.extended && decide (a.data.take a.length = b.data.take a.length)

/-- `operator <` (lines 203-208) -/
def Message.lt (a b : Message) : Bool :=
  decide ((a.identifier <<< (if a.extended then 0 else 18)).toNat < (b.identifier <<< (if b.extended then 0 else 18)).toNat)

/-! ### Lawicel -/

/-- reading `in[i]` of a zero-terminated string -/
def charAt (s : List Byte) (i : Nat) : Option Byte := if h : i < s.length then some s[i] else if i = s.length then some 0#8 else none

/-- `charToByte` (can_lawicel_formatter.cpp:163-176): value and error flag -/
def charToByte (cc : Byte) (error : Bool) : Byte × Bool :=
  if 0x30#8 ≤ cc ∧ cc ≤ 0x39#8 then (cc - 0x30#8, error)
  else if 0x41#8 ≤ cc ∧ cc ≤ 0x46#8 then (cc - 0x41#8 + 10#8, error)
  else if 0x61#8 ≤ cc ∧ cc ≤ 0x66#8 then (cc - 0x61#8 + 10#8, error)
  else (0#8, true)

/-- `hexToByte(&in[i], error)` (can_lawicel_formatter.hpp:35-39) -/
def hexToByte (s : List Byte) (i : Nat) (error : Bool) : Option (Byte × Bool) :=
  (charAt s i).bind fun a => (charAt s (i + 1)).map fun b =>
    (((charToByte a error).1 <<< 4) ||| (charToByte b (charToByte a error).2).1, (charToByte b (charToByte a error).2).2)

/-- lines 94-98, reading from `in[pos]`, writing `data[i]` -/
def readData (s : List Byte) (length : Nat) : (n : Nat) → (i pos : Nat) → List Byte → Bool → Option (List Byte × Bool)
  | 0, _, _, data, error => some (data, error)
  | n + 1, i, pos, data, error => (hexToByte s pos error).bind fun x =>
      if i < data.length then readData s length n (i + 1) (pos + 2) (data.set i x.1) x.2 else none

/-- identifier of an extended frame (lines 60-69) -/
def readExtended (s : List Byte) (error : Bool) : Option (BitVec 32 × Bool) :=
  (hexToByte s 1 error).bind fun a => (hexToByte s 3 a.2).bind fun b => (hexToByte s 5 b.2).bind fun c => (hexToByte s 7 c.2).map fun d =>
    (((((a.1.setWidth 16 <<< 8) ||| b.1.setWidth 16 : BitVec 16).setWidth 32) <<< 16) |||
      ((c.1.setWidth 16 <<< 8) ||| d.1.setWidth 16 : BitVec 16).setWidth 32, d.2)

/-- identifier of a standard frame (lines 76-81) -/
def readStandard (s : List Byte) (error : Bool) : Option (BitVec 32 × Bool) :=
  (charAt s 1).bind fun a => (hexToByte s 2 (charToByte a error).2).map fun b =>
    (((((charToByte a error).1.setWidth 16 <<< 8) ||| b.1.setWidth 16 : BitVec 16)).setWidth 32, b.2)

/-- lines 88-100 -/
def finish (s : List Byte) (dlcPos : Nat) (m : Message) (error : Bool) : Option (Message × Bool) :=
  if m.rtr then some (m, !error)
  else (readData s m.length m.length 0 (dlcPos + 1) m.data error).map fun x => ({ m with data := x.1 }, !x.2)

/-- lines 57-86 and the rest -/
def readIdentifier (s : List Byte) (dlcPos : Nat) (m : Message) : Option (Message × Bool) :=
  if m.extended then (readExtended s false).bind fun x =>
    if x.1.toNat > 0x1fffffff then some ({ m with identifier := x.1 }, false)
    else finish s dlcPos { m with identifier := x.1 } x.2
  else (readStandard s false).bind fun x =>
    if x.1.toNat > 0x7ff then some ({ m with identifier := x.1 }, false)
    else finish s dlcPos { m with identifier := x.1 } x.2

/-- lines 46-55 and the rest -/
def readKind (s : List Byte) (c0 : Byte) (dlcPos : Nat) (m : Message) : Option (Message × Bool) :=
  if c0 = 0x72#8 ∨ c0 = 0x52#8 then
    (if s.length ≠ dlcPos + 1 then some ({ m with rtr := true }, false) else readIdentifier s dlcPos { m with rtr := true })
  else
    (if s.length ≠ m.length * 2 + dlcPos + 1 then some ({ m with rtr := false }, false)
     else readIdentifier s dlcPos { m with rtr := false })

/-- lines 37-44 and the rest -/
def readLength (s : List Byte) (c0 : Byte) (dlcPos : Nat) (m : Message) : Option (Message × Bool) :=
  if s.length < dlcPos + 1 then some (m, false)
  else (charAt s dlcPos).bind fun l =>
    if (l - 0x30#8).toNat > 8 then some ({ m with length := (l - 0x30#8).toNat, dlc := (l - 0x30#8).toNat }, false)
    else readKind s c0 dlcPos { m with length := (l - 0x30#8).toNat, dlc := (l - 0x30#8).toNat }

/-- `convertToCanMessage` (lines 22-101): the message afterwards and the result -/
def convertToCanMessage (s : List Byte) (out : Message) : Option (Message × Bool) :=
  (charAt s 0).bind fun c0 =>
    if c0 = 0x52#8 ∨ c0 = 0x54#8 then readLength s c0 9 { out with extended := true }
    else readLength s c0 4 { out with extended := false }

/-- `byteToHex` (lines 178-186) -/
def byteToHex (num : Byte) : Byte := if (num &&& 0x0f#8).toNat < 10 then 0x30#8 + (num &&& 0x0f#8) else 0x41#8 + ((num &&& 0x0f#8) - 10#8)

/-- writing `out[i]` -/
def put (out : List Byte) (i : Nat) (v : Byte) : Option (List Byte) := if i < out.length then some (out.set i v) else none

/-- byte `i` of the identifier in memory (line 124), little-endian target -/
def idByte (m : Message) (i : Nat) : Byte := (m.identifier >>> (8 * i)).setWidth 8

/-- lines 128-132: round `k` writes byte `k` of the identifier, `i = 3 - k` -/
def putId (m : Message) (out : List Byte) (k : Nat) : Option (List Byte) :=
  (put out (2 * (3 - k) + 1) (byteToHex (idByte m k >>> 4))).bind fun out => put out (2 * (3 - k) + 2) (byteToHex (idByte m k))

/-- lines 151-155: byte `i` of the data; reading past the data is undefined -/
def putByte (m : Message) (dataBegin : Nat) (out : List Byte) (i : Nat) : Option (List Byte) :=
  if h : i < m.data.length then
    (put out (dataBegin + 2 * i) (byteToHex (m.data[i] >>> 4))).bind fun out => put out (dataBegin + 2 * i + 1) (byteToHex m.data[i])
  else none

/-- lines 148-157 -/
def putData (m : Message) (dataBegin : Nat) (out : List Byte) : Option (List Byte) :=
  if m.rtr then some out
  else ((List.range m.length).foldlM (putByte m dataBegin) out).bind fun out => put out (dataBegin + 2 * m.length) 0#8

/-- first character (lines 107-122) -/
def kindChar (m : Message) : Byte := if m.extended then (if m.rtr then 0x52#8 else 0x54#8) else (if m.rtr then 0x72#8 else 0x74#8)

/-- `convertToString` (lines 104-160): the buffer afterwards (the result is always `true`) -/
def convertToString (m : Message) (out : List Byte) : Option (List Byte) :=
  (put out 0 (kindChar m)).bind fun out =>
    if m.extended then
      ((List.range 4).foldlM (putId m) out).bind fun out => (put out 9 (byteToHex (BitVec.ofNat 8 m.length))).bind fun out =>
        (put out 10 0#8).bind fun out => putData m 10 out
    else
      (put out 1 (byteToHex (idByte m 1))).bind fun out => (put out 2 (byteToHex (idByte m 0 >>> 4))).bind fun out =>
        (put out 3 (byteToHex (idByte m 0))).bind fun out => (put out 4 (byteToHex (BitVec.ofNat 8 m.length))).bind fun out =>
          (put out 5 0#8).bind fun out => putData m 5 out

end Modm.Can
