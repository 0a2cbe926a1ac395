set_option autoImplicit false

/-!
# Pressure sensors

Model of `/repo/src/modm/driver/pressure/`: compensation of MS5611 and MS5837
(`ms5611_data_impl.hpp`, `ms5837_data_impl.hpp`), check of their calibration words
(`ms5611_data.hpp`, `ms5837_data.hpp`, `ms5611_impl.hpp`, `ms5837_impl.hpp`),
compensation of BMP085 in fixed point (`bmp085_data_impl_fp.hpp`), when the values
are computed, and the getters of AMS5915 and HCLA (`ams5915.hpp`, `hclax.hpp`).

Signed arithmetic that overflows, and division by zero, is undefined: `none`.
Right shifts of signed values are arithmetic, `/` by a power of two here.
-/

namespace Model.Barometer

/-- Result of signed 32-bit arithmetic. -/
def i32 (x : Int) : Option Int := if -2147483648 ≤ x ∧ x ≤ 2147483647 then some x else none

/-- Result of signed 64-bit arithmetic. -/
def i64 (x : Int) : Option Int :=
  if -9223372036854775808 ≤ x ∧ x ≤ 9223372036854775807 then some x else none

/-- Conversion to `int32_t`, `int16_t`. -/
def wrap32 (x : Int) : Int := (x + 2147483648) % 4294967296 - 2147483648
def wrap16 (x : Int) : Int := (x + 32768) % 65536 - 32768

/-- `k * x * x` in `int`. -/
def square (k x : Int) : Option Int := do
  let a ← i32 (k * x)
  i32 (a * x)

/-- Calibration words 1 … 6. -/
structure Prom where
  c1 : Nat
  c2 : Nat
  c3 : Nat
  c4 : Nat
  c5 : Nat
  c6 : Nat

/-! ## MS5611, MS5837 -/

/-- The second-order terms of MS5611 for `temp < 2000`, `ms5611_data_impl.hpp:63-73`:
what is subtracted from temperature, offset and sensitivity. -/
def ms5611Low (dT temp : Int) : Option (Int × Int × Int) := do
  let q ← i64 (dT * dT)
  let s ← square 5 (temp - 2000)
  let off2 := s / 2
  let sens2 := off2 / 2
  if temp < -1500 then
    let a ← square 7 (temp + 1500)
    let b ← square 11 (temp + 1500)
    return (q / 2147483648, off2 + a, sens2 + b / 2)
  else return (q / 2147483648, off2, sens2)

/-- Nothing is subtracted from 20 °C on, `ms5611_data_impl.hpp:60`. -/
def ms5611Second (dT temp : Int) : Option (Int × Int × Int) :=
  if temp < 2000 then ms5611Low dT temp else some (0, 0, 0)

/-- `Data::calculateCalibratedValues` of MS5611: pressure and temperature,
`ms5611_data_impl.hpp:44-85`. -/
def ms5611 (p : Prom) (d1 d2 : Nat) : Option (Int × Int) := do
  let dT := wrap32 (((d2 : Int) - (p.c5 : Int) * 256) % 4294967296)
  let a ← i64 (p.c4 * dT)
  let b ← i64 (p.c3 * dT)
  let c ← i64 (dT * p.c6)
  let off ← i64 ((p.c2 : Int) * 65536 + a / 128)
  let sens ← i64 ((p.c1 : Int) * 32768 + b / 256)
  let temp := wrap32 (2000 + c / 8388608)
  let (t2, off2, sens2) ← ms5611Second dT temp
  let off ← i64 (off - off2)
  let sens ← i64 (sens - sens2)
  let m ← i64 (sens * d1)
  let n ← i64 (m / 2097152 - off)
  return (wrap32 (n / 32768), wrap32 (temp - t2))

/-- The second-order terms of MS5837, `ms5837_data_impl.hpp:60-88`. -/
def ms5837Second (dT temp : Int) : Option (Int × Int × Int) := do
  let q ← i64 (dT * dT)
  if temp < 2000 then
    let q3 ← i64 (3 * q)
    let a ← square 3 (temp - 2000)
    let b ← square 5 (temp - 2000)
    if temp < -1500 then
      let c ← square 7 (temp + 1500)
      let d ← square 4 (temp + 1500)
      return (q3 / 8589934592, a / 2 + c, b / 8 + d)
    else return (q3 / 8589934592, a / 2, b / 8)
  else
    let q2 ← i64 (2 * q)
    let a ← square 1 (temp - 2000)
    return (q2 / 137438953472, a / 16, 0)

/-- `Data::calculateCalibratedValues` of MS5837, `ms5837_data_impl.hpp:45-98`. -/
def ms5837 (p : Prom) (d1 d2 : Nat) : Option (Int × Int) := do
  let dT := wrap32 (((d2 : Int) - (p.c5 : Int) * 256) % 4294967296)
  let c ← i64 (dT * p.c6)
  let temp := wrap32 (2000 + c / 8388608)
  let a ← i64 (p.c4 * dT)
  let b ← i64 (p.c3 * dT)
  let off ← i64 ((p.c2 : Int) * 65536 + a / 128)
  let sens ← i64 ((p.c1 : Int) * 32768 + b / 256)
  let (t2, off2, sens2) ← ms5837Second dT temp
  let off ← i64 (off - off2)
  let sens ← i64 (sens - sens2)
  let m ← i64 (sens * d1)
  let n ← i64 (m / 2097152 - off)
  return (wrap32 (n / 8192), wrap32 (temp - t2))

/-! ## Check of the calibration words -/

/-- One bit of the check, `ms5611_data.hpp:52-62`. -/
def crcBit (r : BitVec 16) : BitVec 16 :=
  if (r &&& 0x8000#16) ≠ 0#16 then (r <<< 1) ^^^ 0x3000#16 else r <<< 1

def crcBits : Nat → BitVec 16 → BitVec 16
  | 0, r => r
  | n + 1, r => crcBits n (crcBit r)

/-- One byte, `ms5611_data.hpp:41-63`. -/
def crcByte (r : BitVec 16) (b : BitVec 8) : BitVec 16 := crcBits 8 (r ^^^ b.setWidth 16)

/-- Bytes of the words: the upper half first, `ms5611_data.hpp:43-50`. -/
def wordBytes : List (BitVec 16) → List (BitVec 8)
  | [] => []
  | w :: ws => (w >>> 8).setWidth 8 :: w.setWidth 8 :: wordBytes ws

/-- `Prom::calculateCrc` of MS5611: words 0 … 6 and the upper half of word 7,
`ms5611_data.hpp:35-67`. -/
def crc5611 (ws : List (BitVec 16)) (w7 : BitVec 16) : BitVec 16 :=
  0x000f#16 &&& ((wordBytes (ws ++ [0xff00#16 &&& w7])).foldl crcByte 0#16 >>> 12)

/-- `initialize` of MS5611 after reading the words, `ms5611_impl.hpp:60-70`. -/
def init5611 (ws : List (BitVec 16)) (w7 : BitVec 16) : Bool := crc5611 ws w7 == (w7 &&& 0x000f#16)

/-- `Prom::calculateCrc` of MS5837: word 0 without the check, words 1 … 6, and 0,
`ms5837_data.hpp:36-56` (the remainder has 32 bits there; the upper 16 never come
back). -/
def crc5837 (w0 : BitVec 16) (ws : List (BitVec 16)) : BitVec 16 :=
  ((wordBytes ((w0 &&& 0x0fff#16) :: ws ++ [0#16])).foldl crcByte 0#16 >>> 12) &&& 0x000f#16

/-- `initialize` of MS5837 after reading the words, `ms5837_impl.hpp:48-60`. -/
def init5837 (w0 : BitVec 16) (ws : List (BitVec 16)) : Bool :=
  ((w0 >>> 12) &&& 0xf#16) == crc5837 w0 ws

/-- `readProm` of MS5837: 0 if the transaction fails, `ms5837_impl.hpp:122-140`. -/
def readProm (bus : Nat → Option (BitVec 16)) (a : Nat) : BitVec 16 := (bus a).getD 0#16

/-- `initialize` of MS5837 behind a reset that was acknowledged. -/
def initBus (bus : Nat → Option (BitVec 16)) : Bool :=
  init5837 (readProm bus 0) ((List.range 6).map fun i => readProm bus (i + 1))

/-! ## When values are computed

A data object with the raw values, the results and the two flags; `comp` is the
compensation. -/

structure Data where
  d1 : Nat
  d2 : Nat
  press : Int
  temp : Int
  okP : Bool
  okT : Bool

/-- Events of MS5611 and MS5837: new raw values (the flag is cleared once they are
there, `ms5611_impl.hpp:105-113,139-147`), and calls of the getters. -/
inductive Ev | rawP (d : Nat) | rawT (d : Nat) | getP | getT

/-- `ms5611_data_impl.hpp:24-42` (and `ms5837_data_impl.hpp:25-43`). -/
def ev (comp : Nat → Nat → Int × Int) (s : Data) : Ev → Data × Option Int
  | .rawP d => ({ s with d1 := d, okP := false }, none)
  | .rawT d => ({ s with d2 := d, okT := false }, none)
  | .getP =>
    if s.okP then (s, some s.press)
    else ({ s with press := (comp s.d1 s.d2).1, temp := (comp s.d1 s.d2).2, okP := true, okT := true }, some (comp s.d1 s.d2).1)
  | .getT =>
    if s.okT then (s, some s.temp)
    else ({ s with press := (comp s.d1 s.d2).1, temp := (comp s.d1 s.d2).2, okP := true, okT := true }, some (comp s.d1 s.d2).2)

/-- A sequence of events; the last result. -/
def evs (comp : Nat → Nat → Int × Int) (s : Data) (l : List Ev) : Data := l.foldl (fun s e => (ev comp s e).1) s

/-- Events of BMP085: the flag is cleared before the transaction that fetches the
value, `bmp085_impl.hpp:82-90,107-114`. -/
inductive BEv | touchT | fetchT (d : Nat) | touchP | fetchP (d : Nat) | getP | getT

/-- `bmp085_data_impl_fp.hpp:55-64,86-105`: the pressure always computes the
temperature as well. -/
def bev (comp : Nat → Nat → Int × Int) (s : Data) : BEv → Data × Option Int
  | .touchT => ({ s with okT := false }, none)
  | .fetchT d => ({ s with d2 := d }, none)
  | .touchP => ({ s with okP := false }, none)
  | .fetchP d => ({ s with d1 := d }, none)
  | .getP =>
    if s.okP then (s, some s.press)
    else ({ s with press := (comp s.d1 s.d2).1, temp := (comp s.d1 s.d2).2, okP := true, okT := true }, some (comp s.d1 s.d2).1)
  | .getT =>
    if s.okT then (s, some s.temp)
    else ({ s with temp := (comp s.d1 s.d2).2, okT := true }, some (comp s.d1 s.d2).2)

def bevs (comp : Nat → Nat → Int × Int) (s : Data) (l : List BEv) : Data := l.foldl (fun s e => (bev comp s e).1) s

/-! ## BMP085 -/

/-- Calibration words, `bmp085_data.hpp:38-55`. -/
structure Cal where
  ac1 : Int
  ac2 : Int
  ac3 : Int
  ac4 : Nat
  ac5 : Nat
  ac6 : Nat
  b1 : Int
  b2 : Int
  mc : Int
  md : Int

/-- `calculateCalibratedTemperature`: `b5` and the temperature in 0.1 °C,
`bmp085_data_impl_fp.hpp:33-53`. -/
def bmpTemp (c : Cal) (ut : Nat) : Option (Int × Int) := do
  let x1 := wrap16 ((ut : Int) - c.ac6) * wrap16 c.ac5 / 32768
  if x1 + c.md = 0 then none
  else
    let x2 := Int.tdiv (c.mc * 2048) (x1 + c.md)
    let b5 ← i32 (x1 + x2)
    return (b5, wrap16 ((b5 + 8) / 16))

/-- `calculateCalibratedPressure` after the temperature; `up` has been shifted by
`8 − oss`, `bmp085_data_impl_fp.hpp:55-84`. -/
def bmpPress (c : Cal) (oss : Nat) (b5 : Int) (up : Nat) : Option Int := do
  let b6 := wrap16 (b5 - 4000)
  let x1 := c.b2 * wrap16 (b6 * b6 / 4096) / 2048
  let x2 := c.ac2 * b6 / 2048
  let b3 := wrap32 ((c.ac1 * 4 + (x1 + x2)) * 2 ^ oss)
  let b3 := (b3 + 2) / 4
  let x1 := c.ac3 * b6 / 8192
  let x2 := c.b1 * wrap16 (b6 * b6 / 4096) / 65536
  let x3 := ((x1 + x2) + 2) / 4
  let b4 := (c.ac4 : Int) * ((x3 + 32768) % 65536) / 32768
  let b7 := ((up : Int) - b3) * (50000 / 2 ^ oss : Nat) % 4294967296
  if b4 = 0 then none
  else
    let p := wrap32 (if b7 < 2147483648 then b7 * 2 / b4 else b7 / b4 * 2 % 4294967296)
    let x1 := wrap32 ((p / 256 % 65536) * (p / 256 % 65536))
    let y1 ← i32 (x1 * 3038)
    let y2 ← i32 (-7357 * p)
    i32 (p + (y1 / 65536 + y2 / 65536 + 3791) / 16)

/-! ## AMS5915, HCLA -/

/-- `ams5915::Data::getPressure` times 13107, `ams5915.hpp:36-74`. -/
def ams5915 (b0 b1 : BitVec 8) : Int :=
  let raw : Int := (b0 &&& 0x3f#8).toNat * 256 + b1.toNat
  if raw ≤ 1638 then 0 else if raw ≥ 1638 + 13107 then 13107 else raw - 1638

/-- `hclax::Data::getPressure` times 0x6666, `hclax.hpp:45-52`. -/
def hclax (b0 b1 : BitVec 8) : Int := ((b0.toNat * 256 + b1.toNat : Int) - 0x0666) % 65536

end Model.Barometer
