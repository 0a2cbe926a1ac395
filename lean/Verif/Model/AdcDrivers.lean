import Verif.Model.BitOps
set_option autoImplicit false

/-!
# Drivers of analogue converters

Model of `/repo/src/modm/driver/adc/`: AD7280A (`ad7280a_impl.hpp`), ADS101x
(`ads101x.hpp`, `ads101x_impl.hpp`), ADS7828 (`ads7828.hpp`), MCP3008
(`mcp3008_impl.hpp`), HX711 (`hx711_impl.hpp`), AD7928 (`ad7928_impl.hpp`), and of
`/repo/src/modm/driver/dac/mcp4922_impl.hpp`.

The device is a function from its state and the word that is shifted in to its next
state and the word that is shifted out at the same time. Delays, and resumable
functions waiting for the bus, are left out.
-/

namespace Model.AdcDrivers

/-! ## AD7280A -/

/-- One turn of the loop, `ad7280a_impl.hpp:358-363`. -/
def crcStep (d : BitVec 8) : BitVec 8 := if (d &&& 0x80#8) ≠ 0#8 then (d <<< 1) ^^^ 0x2f#8 else d <<< 1

def crcSteps : Nat → BitVec 8 → BitVec 8
  | 0, d => d
  | n + 1, d => crcSteps n (crcStep d)

/-- `updateCrc`, `ad7280a_impl.hpp:355-367`. -/
def updateCrc (d : BitVec 8) : BitVec 8 := crcSteps 8 d

/-- `calculateCrc`, `ad7280a_impl.hpp:371-380`. -/
def calculateCrc (d : BitVec 32) : BitVec 8 :=
  let crc := updateCrc ((d >>> 16).setWidth 8)
  let crc := updateCrc (crc ^^^ (d >>> 8).setWidth 8)
  crc ^^^ d.setWidth 8

/-- The word `write` sends, `ad7280a_impl.hpp:384-395`. -/
def frame (device reg : BitVec 8) (all : Bool) (value : BitVec 8) : BitVec 32 :=
  let a := Modm.BitOps.bitReverse8 device
  let t := a.setWidth 32 <<< 24 ||| reg.setWidth 32 <<< 21 ||| value.setWidth 32 <<< 13 ||| (if all then 1#32 else 0#32) <<< 12
  t ||| ((calculateCrc (t >>> 11)).setWidth 32 <<< 3 ||| 0x2#32)

/-- The word that is sent while reading, `ad7280a_impl.hpp:414-417`. -/
def readWord : BitVec 32 := 0xF800030A#32

/-- The check of `read`, `ad7280a_impl.hpp:422-429`. -/
def accepted (v : BitVec 32) : Bool := calculateCrc (v >>> 10) == (v >>> 2).setWidth 8

variable {σ : Type}

/-- `read`: `none` if it returns false, `ad7280a_impl.hpp:411-430`. -/
def read (x : σ → BitVec 32 → σ × BitVec 32) (s : σ) : σ × Option (BitVec 32) :=
  let (s, v) := x s readWord
  (s, if accepted v then some v else none)

/-- `readConversionResult`: device, channel and value, `ad7280a_impl.hpp:454-468`. -/
def conversion (v : BitVec 32) : BitVec 8 × BitVec 8 × BitVec 16 :=
  (Modm.BitOps.bitReverse8 ((v >>> 24).setWidth 8) &&& 0x1f#8, (v >>> 23).setWidth 8 &&& 0x0f#8, (v >>> 11).setWidth 16 &&& 0xfff#16)

def write (x : σ → BitVec 32 → σ × BitVec 32) (s : σ) (device reg : BitVec 8) (all : Bool) (value : BitVec 8) : σ :=
  (x s (frame device reg all value)).1

/-- `CTRL_HB`, `CTRL_LB`, `READ`, `ad7280a.hpp:75-105`. -/
def CTRL_HB : BitVec 8 := 0x0d#8
def CTRL_LB : BitVec 8 := 0x0e#8
def READ : BitVec 8 := 0x1c#8

/-- `readChannel`, `ad7280a_impl.hpp:280-309`. -/
def readChannel (x : σ → BitVec 32 → σ × BitVec 32) (s : σ) (device channel : BitVec 8) : σ × Option (BitVec 16) :=
  let s := write x s 0#8 CTRL_HB true 0x30#8
  let s := write x s device CTRL_HB false 0x08#8
  let s := write x s device READ false channel
  match read x s with
  | (s, none) => (s, none)
  | (s, some v) =>
    if (conversion v).1 = device ∧ (conversion v).2.1 = channel then (s, some (conversion v).2.2) else (s, none)

/-- The loop of `readAllChannels`, `ad7280a_impl.hpp:334-346`: success and values. -/
def readLoop (x : σ → BitVec 32 → σ × BitVec 32) : Nat → σ → σ × Bool × List (BitVec 16)
  | 0, s => (s, true, [])
  | n + 1, s =>
    match read x s with
    | (s, some v) =>
      let (s, ok, l) := readLoop x n s
      (s, ok, (conversion v).2.2 :: l)
    | (s, none) =>
      let (s, _, l) := readLoop x n s
      (s, false, 0#16 :: l)

/-- `readAllChannels` with the static `controlHighByte` of `initialize(average)`, which
it does not use, `ad7280a_impl.hpp:140-148,313-349`. -/
def readAllChannels (x : σ → BitVec 32 → σ × BitVec 32) (_controlHighByte : BitVec 8) (s : σ) : σ × Bool × List (BitVec 16) :=
  let s := write x s 0#8 READ true 0#8
  let s := write x s 0#8 CTRL_HB true 0xa8#8
  readLoop x 6 s

/-- `performSelftest`, `ad7280a_impl.hpp:214-257`. -/
def performSelftest (x : σ → BitVec 32 → σ × BitVec 32) (s : σ) : σ × Bool :=
  let s := write x s 0#8 CTRL_LB true 0x15#8
  let s := write x s 0#8 CTRL_HB true 0xc8#8
  let s := write x s 0#8 READ true 0x30#8
  match read x s with
  | (s, none) => (s, false)
  | (s, some v) => (s, 970 < (conversion v).2.2.toNat && (conversion v).2.2.toNat < 990)

/-- `chainSetup`: the result of the reading is not looked at, `ad7280a_impl.hpp:153-202`. -/
def chainSetup (x : σ → BitVec 32 → σ × BitVec 32) (s : σ) : σ × Bool :=
  let s := write x s 0#8 CTRL_LB true 0x95#8
  let s := write x s 0#8 CTRL_LB true 0x15#8
  let s := write x s 0#8 READ true 0x38#8
  ((read x s).1, true)

/-! ## ADS101x

`Configuration::set` is `(value & ~mask) | v`, `register.hpp:586-587`. -/

def cset (mask : BitVec 16) (cfg v : BitVec 16) : BitVec 16 := (cfg &&& ~~~ mask) ||| v

/-- Driver: `config`, `lsbSizeIndex`. -/
structure Ads where
  config : BitVec 16
  lsb : Nat

/-- Calls; each writes a word to the register `Config`, `ads101x_impl.hpp:28-190`. -/
inductive AdsOp
  | init
  | single (input : BitVec 3)
  | continuous (input : BitVec 3) (rate : BitVec 3)
  | range (r : BitVec 3)
  | comparator (window high latch : Bool) (queue : BitVec 2)
  | ready

/-- Masks, `ads101x.hpp:58-141`; that of the queue is `Bit4`, `ads101x.hpp:141`. -/
def maskInput : BitVec 16 := 0x7000#16
def maskRange : BitVec 16 := 0x0e00#16
def maskMode : BitVec 16 := 0x0100#16
def maskRate : BitVec 16 := 0x00e0#16
def maskComp : BitVec 16 := 0x0010#16
def maskPol : BitVec 16 := 0x0008#16
def maskLat : BitVec 16 := 0x0004#16
def maskQueue : BitVec 16 := 0x0010#16

/-- A call: the driver and the word written to `Config`. -/
def adsOp (a : Ads) : AdsOp → Ads × BitVec 16
  | .init =>
    let c := cset maskInput a.config 0#16
    let c := cset maskRange c 0x0400#16
    let c := cset maskMode c 0x0100#16
    let c := cset maskRate c 0x0080#16
    let c := cset maskQueue c 0x0003#16
    (⟨c, 2⟩, c)
  | .single i =>
    let c := cset maskInput a.config (i.setWidth 16 <<< 12)
    let c := cset maskMode c 0x0100#16
    (⟨c, a.lsb⟩, 0x8000#16 ||| c)
  | .continuous i r =>
    let c := cset maskRate a.config (r.setWidth 16 <<< 5)
    let c := cset maskInput c (i.setWidth 16 <<< 12)
    let c := cset maskMode c 0#16
    (⟨c, a.lsb⟩, c)
  | .range r =>
    let c := cset maskRange a.config (r.setWidth 16 <<< 9)
    (⟨c, r.toNat⟩, c)
  | .comparator w h l q =>
    let c := cset maskComp a.config (if w then 0x0010#16 else 0#16)
    let c := cset maskPol c (if h then 0x0008#16 else 0#16)
    let c := cset maskLat c (if l then 0x0004#16 else 0#16)
    let c := cset maskQueue c (q.setWidth 16)
    (⟨c, a.lsb⟩, c)
  | .ready =>
    let c := cset maskQueue a.config 0#16
    (⟨c, a.lsb⟩, c)

/-- Calls one after the other; driver and last word written. -/
def adsRun (a : Ads) (w : BitVec 16) : List AdsOp → Ads × BitVec 16
  | [] => (a, w)
  | o :: l => adsRun (adsOp a o).1 (adsOp a o).2 l

/-- `Data::getValue`, `ads101x.hpp:147-150`. -/
def adsValue (d0 d1 : BitVec 8) : Int := Int.tdiv (d0 ++ d1).toInt 16

/-- `lsbSizeTable` in units of 0.000125 V, `ads101x.hpp:164-171`. -/
def lsbTable : List Nat := [24, 16, 8, 4, 2, 1]

/-! ## ADS7828, MCP3008, HX711, MCP4922 -/

/-- `startMeasurement`, `setPowerDownSelection`: the command byte, which is sent,
`ads7828_impl.hpp:30-48`. -/
def ads7828Channel (cmd ch : BitVec 8) : BitVec 8 := (cmd &&& ~~~ 0xf0#8) ||| ch
def ads7828Power (cmd pd : BitVec 8) : BitVec 8 := (cmd &&& ~~~ 0x0c#8) ||| pd

/-- `InputChannel` of the single-ended inputs 0 … 7 and of the pairs (+, −),
`ads7828.hpp:40-63`. -/
def ads7828Single : List (BitVec 8) := [0x80#8, 0xc0#8, 0x90#8, 0xd0#8, 0xa0#8, 0xe0#8, 0xb0#8, 0xf0#8]
def ads7828Pair : List ((Nat × Nat) × BitVec 8) :=
  [((0, 1), 0x00#8), ((2, 3), 0x10#8), ((4, 5), 0x20#8), ((6, 7), 0x30#8), ((1, 0), 0x40#8), ((3, 2), 0x50#8), ((5, 4), 0x60#8), ((7, 6), 0x70#8)]

/-- `Mcp3008::read`: the bytes sent, and the value from the bytes received,
`mcp3008_impl.hpp:33-48`. -/
def mcp3008Tx (channel : BitVec 4) : List (BitVec 8) := [1#8, channel.setWidth 8 <<< 4, 0#8]
def mcp3008Value (rx : List (BitVec 8)) : Nat := (rx.getD 1 0#8 &&& 0x03#8).toNat * 256 + (rx.getD 2 0#8).toNat

/-- `Hx711::singleConversion`: the bits on the data pin at the first 24 pulses; the
result and the number of pulses, `hx711_impl.hpp:21-54`. -/
def hx711 (mode : Nat) (bits : List Bool) : BitVec 32 × Nat :=
  let data : BitVec 32 := bits.foldl (fun (d : BitVec 32) b => (d <<< 1) ||| (if b then 1#32 else 0#32)) 0#32
  (if (data &&& 0x800000#32) ≠ 0#32 then data ||| 0xff000000#32 else data, bits.length + mode)

/-- `setChannelA`, `setChannelB` of MCP4922: the word, `mcp4922_impl.hpp:32-54`. -/
def mcp4922 (b : Bool) (value : BitVec 16) (doubleGain : Bool) : BitVec 16 :=
  (if b then 0x8000#16 else 0#16) ||| (if doubleGain then 0#16 else 0x2000#16) ||| 0x4000#16 ||| 0x1000#16 ||| (value &&& 0x0fff#16)

/-! ## AD7928 -/

/-- Driver: `config`, `currentPowerMode` (3 normal, 2 full shutdown, 1 auto shutdown). -/
structure Ad where
  config : BitVec 16
  power : BitVec 2

/-- The constructor, `ad7928_impl.hpp:23-31`. -/
def adNew : Ad := ⟨0x8330#16, 3#2⟩

/-- `Configuration::set` for sequence mode, power mode and channel, `ad7928.hpp:77,94,104`. -/
def setSeq (c v : BitVec 16) : BitVec 16 := (c &&& ~~~ 0x4080#16) ||| v
def setPower (c : BitVec 16) (p : BitVec 2) : BitVec 16 := (c &&& ~~~ 0x0300#16) ||| (p.setWidth 16 <<< 8)
def setChannel (c : BitVec 16) (ch : BitVec 3) : BitVec 16 := (c &&& ~~~ 0x1c00#16) ||| (ch.setWidth 16 <<< 10)
def getPower (c : BitVec 16) : BitVec 2 := (c >>> 8).setWidth 2

/-- Calls, `ad7928_impl.hpp:35-213`: the driver afterwards and the words sent. -/
inductive AdOp
  | init
  | single (ch : BitVec 3)
  | start (s1 s2 : BitVec 8)
  | next
  | range (ext : Bool)
  | auto (on : Bool)
  | shutdown
  | wakeup

def adOp (a : Ad) : AdOp → Ad × List (BitVec 16)
  | .init =>
    let c := a.config ||| 0x8010#16
    let c := setChannel (setPower (setSeq c 0#16) 3#2) 0#3
    (⟨c, 3#2⟩, [0x00ff#16, 0x00ff#16, c])
  | .single ch =>
    let c := setSeq a.config 0#16
    if a.power = 2#2 then
      let c := setPower (setSeq c 0#16) 3#2
      let t := setChannel c ch
      (⟨setChannel t 0#3, getPower (setChannel t 0#3)⟩, [c, t])
    else if a.power = 1#2 then
      let t := setChannel c ch
      (⟨setChannel t 0#3, getPower (setChannel t 0#3)⟩, [0#16, t])
    else
      let t := setChannel c ch
      (⟨setChannel t 0#3, getPower (setChannel t 0#3)⟩, [t])
  | .start s1 s2 =>
    let c := a.config
    if a.power = 2#2 then
      let w := setPower (setSeq c 0#16) 3#2
      let c := setSeq (setPower w 3#2) 0x0080#16
      (⟨c, 3#2⟩, [w, c, s1 ++ s2])
    else if a.power = 1#2 then
      let c := setSeq (setPower c 3#2) 0x0080#16
      (⟨c, 3#2⟩, [0#16, c, s1 ++ s2])
    else
      let c := setSeq (setPower c 3#2) 0x0080#16
      (⟨c, 3#2⟩, [c, s1 ++ s2])
  | .next =>
    let c := setSeq a.config 0x4000#16
    if a.power ≠ 3#2 then (⟨c, a.power⟩, [])
    else (⟨c, getPower c⟩, [c])
  | .range ext => (⟨if ext then a.config &&& ~~~ 0x0020#16 else a.config ||| 0x0020#16, a.power⟩, [])
  | .auto on => (⟨setPower a.config (if on then 1#2 else 3#2), a.power⟩, [])
  | .shutdown =>
    let c := setSeq a.config 0#16
    (⟨c, 2#2⟩, [setPower c 2#2])
  | .wakeup =>
    let c := setPower (setSeq a.config 0#16) 3#2
    (⟨c, 3#2⟩, [c])

end Model.AdcDrivers
