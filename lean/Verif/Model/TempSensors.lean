import Mathlib.Data.Rat.Floor
set_option autoImplicit false

/-!
# Temperature sensors

Model of the drivers in `/repo/src/modm/driver/temperature/`: `lm75`, `tmp102`,
`tmp175`, `ds1631`, `ds18b20`, `tmp12x`, `max31855`, `max31865`, `mcp990x` and
`stts22h`.  Bytes read from a device are `BitVec 8`.

A `float` is a rational number here.  That is exact for the getters and limits
modelled: 16-bit integers, and their products and quotients with powers of two, are
`float`s without rounding (underflow of a tiny limit gives 0 as well).  Two getters
divide by 100 or by a parameter (`stts22h::Data::getTemperature`,
`max31865::Data::getTemperatureFast`); for those the model is the value before
rounding.
-/

namespace Model.TempSensors

/-- Conversion to `int16_t`: modulo 2^16. -/
def wrap16 (x : Int) : Int := (x + 32768) % 65536 - 32768

/-- The integer two bytes represent, most significant byte first
(`fromBigEndian` of the two bytes, as in `lm75.hpp:101-102`). -/
def be16 (d0 d1 : BitVec 8) : Int := wrap16 (d0.toNat * 256 + d1.toNat)

/-- Conversion of a `float` to an integer: towards zero. -/
def trunc (q : ℚ) : Int := if 0 ≤ q then ⌊q⌋ else ⌈q⌉

/-- Conversion of a `float` to `int16_t`; undefined outside of the range. -/
def toInt16 (q : ℚ) : Option Int :=
  if -32768 ≤ trunc q ∧ trunc q ≤ 32767 then some (trunc q) else none

/-! ## Readings -/

/-- `lm75::Data::getTemperature`, `lm75.hpp:97-104`. -/
def lm75Temp (d0 d1 : BitVec 8) : ℚ := be16 d0 d1 / 256

/-- `lm75::Data::getTemperatureInteger`, `lm75.hpp:106-111`. -/
def lm75Int (d0 _d1 : BitVec 8) : Int := d0.toInt

/-- `tmp102::Data::getTemperature`, `tmp102.hpp:77-89`. -/
def tmp102Temp (d0 d1 : BitVec 8) : ℚ :=
  if (d1 &&& 0x01#8) ≠ 0#8 then be16 d0 d1 / 128 else be16 d0 d1 / 256

/-- `tmp102::Data::getTemperatureInteger`, `tmp102.hpp:92-101`. -/
def tmp102Int (d0 d1 : BitVec 8) : Int :=
  if (d1 &&& 0x01#8) ≠ 0#8
  then (((d0.setWidth 16) <<< 1) ||| ((d1 >>> 7).setWidth 16)).toInt
  else (d0.setWidth 16).toInt

/-- Constructor of `Tmp12xTemperature<N, O, …>`, `tmp12x.hpp:49-58`. -/
def tmp12xRaw (N O : Nat) (s : BitVec 16) : Int :=
  let mask : BitVec 16 := (((1#32 <<< N) - 1#32) <<< O).setWidth 16
  let raw := s &&& mask
  wrap16 ((raw.setWidth 32 <<< (16 - O - N)).toNat : Int) / 2 ^ (16 - N)

/-- `getTemperatureFloat`, `tmp12x.hpp:60-64`; `den` is the denominator. -/
def tmp12xTemp (N O den : Nat) (s : BitVec 16) : ℚ := tmp12xRaw N O s * (1 / den)

/-- `getTemperatureInteger`, `tmp12x.hpp:66-70`. -/
def tmp12xInt (N O den : Nat) (s : BitVec 16) : Int := Int.tdiv (tmp12xRaw N O s) den

/-- `getThermocoupleTemperature`, `max31855.hpp:45-51`. -/
def max31855Thermo (d0 d1 : BitVec 8) : ℚ :=
  (1 / 4) * (Int.tdiv (be16 d0 (d1 &&& 0xfc#8)) 4 : Int)

/-- `getReferenceJunctionTemperature`, `max31855.hpp:54-60`. -/
def max31855Ref (d2 d3 : BitVec 8) : ℚ :=
  (1 / 16) * (Int.tdiv (be16 d2 (d3 &&& 0xf0#8)) 16 : Int)

/-- `stts22h::Data::getTemperatureFractional`, `stts22h.hpp:79-84`. -/
def stts22hFrac (d0 d1 : BitVec 8) : Int :=
  (((d1.setWidth 16) <<< 8) ||| (d0.setWidth 16)).toInt

/-- `stts22h::Data::getTemperature`, `stts22h.hpp:86-91`. -/
def stts22hTemp (d0 d1 : BitVec 8) : ℚ := stts22hFrac d0 d1 / 100

/-- `mcp990x::Data::getTemperatureFractional`, `mcp990x.hpp:73-78`. -/
def mcp990xFrac (d0 d1 : BitVec 8) : Int :=
  ((((d1.setWidth 32) <<< 3) ||| ((d0 >>> 5).setWidth 32)).toNat : Int) - 64 * 8

/-- `mcp990x::Data::getTemperature`, `mcp990x.hpp:87-92`. -/
def mcp990xTemp (d0 d1 : BitVec 8) : ℚ := mcp990xFrac d0 d1 / 8

/-- `mcp990x::Data::getTemperatureInteger`, `mcp990x.hpp:80-85`; the result is an
`int8_t`. -/
def mcp990xInt (_d0 d1 : BitVec 8) : Int := (d1 - 64#8).toInt

/-- `Ds18b20::readTemperature`, `ds18b20_impl.hpp:85-107`, from the two bytes
read. -/
def ds18b20Temp (lo hi : BitVec 8) : Int :=
  let temp := (lo.setWidth 16 ||| ((hi.setWidth 16) <<< 8)).toInt
  wrap16 (Int.tdiv (625 * temp + 50) 100)

/-- `getResistance`, `max31865.hpp:127-133`. -/
def max31865Res (rref : ℚ) (data : BitVec 16) : ℚ := ((data >>> 1).toNat : ℚ) / 32768 * rref

/-- `getTemperatureFast`, `max31865.hpp:135-141`. -/
def max31865Fast (rref r0 alpha : ℚ) (data : BitVec 16) : ℚ :=
  (max31865Res rref data - r0) / alpha / 100

/-! ## Limits

The two bytes written behind the address of the register. -/

/-- The two bytes `temp >> 8` and `temp`. -/
def bytes (temp : Int) : BitVec 8 × BitVec 8 := (BitVec.ofInt 8 (temp / 256), BitVec.ofInt 8 temp)

/-- `Lm75::setLimitRegister`, `lm75_impl.hpp:61-80`. -/
def lm75Limit (t : ℚ) : Option (BitVec 8 × BitVec 8) :=
  (toInt16 (t * 2)).map fun temp => bytes (wrap16 (temp * 2 ^ 7))

/-- `Tmp102::setLimitRegister`, `tmp102_impl.hpp:172-190`. -/
def tmp102Limit (ext : Bool) (t : ℚ) : Option (BitVec 8 × BitVec 8) :=
  (toInt16 (t * 16)).map fun temp => bytes (wrap16 (temp * 2 ^ (if ext then 3 else 4)))

/-- `Tmp175::setLimitRegister` and `Ds1631::setLimitRegister`, with the resolution
`res` of the configuration (0: 9 bits … 3: 12 bits), `tmp175_impl.hpp:118-138`,
`ds1631_impl.hpp:163-184`. -/
def tmp175Limit (res : Nat) (t : ℚ) : Option (BitVec 8 × BitVec 8) :=
  (toInt16 (t * 2 ^ (1 + res))).map fun temp => bytes (wrap16 (temp * 2 ^ (4 + res)))

/-! ## Rates, conversion times, modes -/

/-- `ConversionRate_t::set`, a `Configuration` with mask 0b11000000,
`register.hpp:586-587`, `tmp102.hpp:60-67`. -/
def setRateBits (lsb rate : BitVec 8) : BitVec 8 := (lsb &&& ~~~0xc0#8) ||| rate

/-- State of the driver of a TMP102: second byte of the configuration, `updateTime`
and what the chip was told last. -/
structure Tmp102 where
  lsb : BitVec 8
  updateTime : BitVec 16
  chip : BitVec 8
deriving DecidableEq

/-- `Tmp102::setUpdateRate` for a chip that acknowledges,
`tmp102_impl.hpp:62-104`. -/
def tmp102SetRate (rate : BitVec 8) (s : Tmp102) : Tmp102 :=
  let rate := if rate > 33#8 then 33#8 else rate
  if rate = 0#8 ∨ rate = 1#8 ∨ rate = 4#8 ∨ rate = 8#8 then
    let l0 := s.lsb &&& ~~~0xc0#8
    let l1 := if (rate &&& 0b1001#8) ≠ 0#8 then setRateBits l0 0x40#8 else l0
    let l2 := if (rate &&& 0b1100#8) ≠ 0#8 then setRateBits l1 0x80#8 else l1
    { lsb := l2, chip := l2, updateTime := if rate = 0#8 then 4000#16 else BitVec.ofNat 16 (1000 / rate.toNat) }
  else { s with updateTime := BitVec.ofNat 16 (1000 / rate.toNat - 29) ||| 0x8000#16 }

/-- `Tmp175::setResolution`: milliseconds the driver waits for a conversion,
`tmp175_impl.hpp:72-82`. -/
def tmp175Wait (res : Nat) : Nat := (res + 1) * 29

/-- `updateTime` in milliseconds after `setUpdateRate` of TMP175 and DS1631,
`tmp175_impl.hpp:58-70`, `ds1631_impl.hpp:67-89`. -/
def updateTime (rate : Nat) : Nat :=
  let rate := if rate = 0 then 1 else rate
  let rate := if rate > 33 then 33 else rate
  1000 / rate - 29

/-- What a driver does with its device in one turn of its thread. -/
inductive Act | start | wait (ms : Nat) | read
deriving DecidableEq

/-- One turn of `Tmp175::run` after the period has expired,
`tmp175_impl.hpp:28-48`. -/
def tmp175Turn (conversionTime : Nat) : List Act := [.start, .wait conversionTime, .read]

/-- One turn of `Ds1631::run` after the period has expired; the configuration byte
has the mode in bit 0; `conversionTime` is 232 ms since construction,
`ds1631_impl.hpp:20-27,42-65`. -/
def ds1631Turn (config : BitVec 8) : List Act :=
  (if (config &&& 0x01#8) = 0#8 then [.start, .wait 232] else []) ++ [.read]

/-- Address byte on the bus for a device constructed with `address`,
`i2c_transaction.hpp:94-95`. -/
def busAddress (address : BitVec 8) : BitVec 8 := address <<< 1

/-- Default addresses of `Lm75` (`lm75.hpp:136`), `Ds1631` (`ds1631.hpp:117`). -/
def lm75Default : BitVec 8 := 0x48#8
def ds1631Default : BitVec 8 := 0x90#8

/-- What `Max31865` does on the bus: writes of the configuration register, pauses,
and reading the result. -/
inductive Cmd | config (v : BitVec 8) | pause (ms : Nat) | result
deriving DecidableEq

/-- `Max31865::initialize`: the write, and the configuration the driver keeps: what
the chip returns, which clears bit 1 itself, `max31865_impl.hpp:28-38`. -/
def max31865Init : List Cmd × BitVec 8 := ([.config 0x03#8], 0x01#8)

/-- `Max31865::readout`, `max31865_impl.hpp:41-63`. -/
def max31865Readout (config : BitVec 8) : List Cmd × BitVec 8 :=
  let c1 := config ||| 0x80#8
  let c2 := c1 ||| 0x20#8
  let c3 := c2 &&& ~~~0x80#8
  ([.config c1, .pause 10, .config c2, .pause 65, .result, .config c3], c3)

/-- `n` calls of `readout` after `initialize`. -/
def max31865Session : Nat → List Cmd × BitVec 8
  | 0 => max31865Init
  | n + 1 =>
    let (l, c) := max31865Session n
    let (l', c') := max31865Readout c
    (l ++ l', c')

end Model.TempSensors
