import Mathlib.Logic.Function.Basic
set_option autoImplicit false

/-!
# LED drivers: packed buffers and chains

Model of
`/repo/src/modm/driver/pwm/tlc594x_impl.hpp` (buffers for grayscale values and dot
correction), `/repo/src/modm/driver/pwm/ws2812b.hpp`,
`/repo/src/modm/driver/pwm/sk6812w.hpp` and `/repo/src/modm/driver/pwm/apa102.hpp`
(buffers), and `/repo/src/modm/driver/pwm/max6966_impl.hpp` with a chain of
MAX6966.  The transfers themselves are those of the SPI master (`Model.Spi`).
-/

namespace Model.LedDrivers

/-- A buffer of bytes. -/
abbrev Buf := Nat → BitVec 8

/-! ## TLC594x -/

/-- `index` of `setChannel` and `getChannel`, `tlc594x_impl.hpp:69,106`. -/
def gsIndex (C ch : Nat) : Nat := ((C - 1 - ch) * 3 / 2) % 65536

/-- `setChannel`, `tlc594x_impl.hpp:50-78`. -/
def setChannel (C ch : Nat) (v : BitVec 16) (gs : Buf) : Buf :=
  if ch > C - 1 then gs
  else
    let i := gsIndex C ch
    if ch % 2 = 1 then
      let gs := Function.update gs i ((v >>> 4).setWidth 8)
      Function.update gs (i + 1) ((v <<< 4).setWidth 8 ||| (gs (i + 1) &&& 0x0f#8))
    else
      let gs := Function.update gs i (((v >>> 8).setWidth 8 &&& 0x0f#8) ||| (gs i &&& 0xf0#8))
      Function.update gs (i + 1) (v.setWidth 8)

/-- `setAllChannels`, `tlc594x_impl.hpp:81-92`; `i` counts the passes of the loop
(three bytes each). -/
def setAllChannels (v : BitVec 16) : Nat → Buf → Buf
  | 0, gs => gs
  | n + 1, gs =>
    let gs := setAllChannels v n gs
    let gs := Function.update gs (3 * n) ((v >>> 4).setWidth 8)
    let gs := Function.update gs (3 * n + 1) ((v <<< 4).setWidth 8 ||| ((v >>> 8).setWidth 8 &&& 0x0f#8))
    Function.update gs (3 * n + 2) (v.setWidth 8)

/-- `getChannel`, `tlc594x_impl.hpp:95-113`. -/
def getChannel (C ch : Nat) (gs : Buf) : BitVec 16 :=
  if ch > C - 1 then 0
  else
    let i := gsIndex C ch
    if ch % 2 = 1 then ((gs i).setWidth 16 <<< 4) ||| (gs (i + 1) >>> 4).setWidth 16
    else ((gs i &&& 0x0f#8).setWidth 16 <<< 8) ||| (gs (i + 1)).setWidth 16

/-- `index` of `setDotCorrection` and `getDotCorrection`,
`tlc594x_impl.hpp:138,185`. -/
def dcIndex (C ch : Nat) : Nat := ((C - 1 - ch) * 3 / 4) % 65536

/-- `setDotCorrection`, `tlc594x_impl.hpp:116-160`. -/
def setDot (C ch : Nat) (v : BitVec 8) (dc : Buf) : Buf :=
  if ch > C - 1 then dc
  else
    let i := dcIndex C ch
    if ch % 4 = 0 then Function.update dc i ((dc i &&& 0xc0#8) ||| v)
    else if ch % 4 = 1 then
      let dc := Function.update dc i ((dc i &&& 0xf0#8) ||| (v >>> 2))
      Function.update dc (i + 1) ((dc (i + 1) &&& 0x3f#8) ||| (v <<< 6))
    else if ch % 4 = 2 then
      let dc := Function.update dc i ((dc i &&& 0xfc#8) ||| (v >>> 4))
      Function.update dc (i + 1) ((dc (i + 1) &&& 0x0f#8) ||| (v <<< 4))
    else Function.update dc i ((dc i &&& 0x03#8) ||| (v <<< 2))

/-- `setAllDotCorrection`, `tlc594x_impl.hpp:163-175`. -/
def setAllDots (v : BitVec 8) : Nat → Buf → Buf
  | 0, dc => dc
  | n + 1, dc =>
    let dc := setAllDots v n dc
    let dc := Function.update dc (3 * n) ((v <<< 2) ||| (v >>> 4))
    let dc := Function.update dc (3 * n + 1) ((v <<< 4) ||| (v >>> 2))
    Function.update dc (3 * n + 2) ((v <<< 6) ||| v)

/-- `getDotCorrection`, `tlc594x_impl.hpp:178-206`. -/
def getDot (C ch : Nat) (dc : Buf) : BitVec 8 :=
  if ch > C - 1 then 0
  else
    let i := dcIndex C ch
    if ch % 4 = 0 then dc i &&& 0x3f#8
    else if ch % 4 = 1 then ((dc i &&& 0x0f#8) <<< 2) ||| ((dc (i + 1) &&& 0xc0#8) >>> 6)
    else if ch % 4 = 2 then ((dc i &&& 0x03#8) <<< 4) ||| ((dc (i + 1) &&& 0xf0#8) >>> 4)
    else (dc i &&& 0xfc#8) >>> 2

/-! ## WS2812B, SK6812W -/

/-- The buffer bit by bit, the lowest bit of each byte first, which is the order
of transmission.  A 32-bit word at byte `o` (little endian) is the bits `8 * o`
to `8 * o + 31`. -/
abbrev Bits := Nat → Bool

/-- `base_mask`, `ws2812b.hpp:26`: as bits. -/
def baseMask : Nat := 0b001001001001001001001001
/-- `clear_mask`, `ws2812b.hpp:27`. -/
def clearMask : Nat := baseMask <<< 1

/-- `spread`, `ws2812b.hpp:32-37`. -/
def spread (nibble : Nat) : Nat :=
  ((nibble &&& 1) <<< 10) ||| ((nibble &&& 2) <<< 6) ||| ((nibble &&& 4) <<< 5) ||| ((nibble &&& 8) <<< 1)

/-- `gather`, `ws2812b.hpp:39-44`; the pattern as bits. -/
def gather (w : Bits) : Nat :=
  ((w 10).toNat ||| ((w 7).toNat <<< 1)) ||| ((w 7).toNat <<< 2) ||| ((w 4).toNat <<< 3)

/-- Storing a 32-bit word at byte `o`. -/
def store (o : Nat) (w : Bits) (m : Bits) : Bits := fun p => if 8 * o ≤ p ∧ p < 8 * o + 32 then w (p - 8 * o) else m p

/-- Loading a 32-bit word. -/
def load (o : Nat) (m : Bits) : Bits := fun j => m (8 * o + j)

/-- `clear`, `ws2812b.hpp:62-69`; `n` passes of the loop, then the last byte. -/
def clearLoop : Nat → Bits → Bits
  | 0, m => m
  | n + 1, m => store (3 * n) (fun j => baseMask.testBit j) (clearLoop n m)

/-- `clear` for a buffer of `len` bytes. -/
def clear (len : Nat) (m : Bits) : Bits := fun p => if 8 * len ≤ p ∧ p < 8 * len + 8 then false else clearLoop (len / 3) m p

/-- `c` of `setColor`, `ws2812b.hpp:79`. -/
def pattern (v : Nat) : Nat := ((spread v) <<< 12) ||| spread (v >>> 4)

/-- The body of the loop of `setColor`, `ws2812b.hpp:79-81`: one component at
byte `o`. -/
def setByte (o v : Nat) (m : Bits) : Bits :=
  store o (fun j => (load o m j && !clearMask.testBit j) || (pattern v).testBit j) m

/-- The body of the loop of `getColor`, `ws2812b.hpp:92-93`. -/
def getByte (o : Nat) (m : Bits) : Nat :=
  ((gather (load o m) <<< 4) % 256) ||| gather (fun j => load o m (j + 12))

/-- Components of a colour. -/
structure Rgb where
  r : Nat
  g : Nat
  b : Nat
  deriving DecidableEq, Repr

/-- `setColor`, `ws2812b.hpp:71-83`, `sk6812w.hpp:87-99`; `stride` is 9 or 12. -/
def setColor (stride leds i : Nat) (c : Rgb) (m : Bits) : Bits :=
  if i ≥ leds then m else setByte (i * stride + 6) c.b (setByte (i * stride + 3) c.r (setByte (i * stride) c.g m))

/-- `getColor`, `ws2812b.hpp:85-97`, `sk6812w.hpp:101-113`. -/
def getColor (stride leds i : Nat) (m : Bits) : Rgb :=
  if i ≥ leds then ⟨0, 0, 0⟩ else ⟨getByte (i * stride + 3) m, getByte (i * stride) m, getByte (i * stride + 6) m⟩

/-! ## APA102 -/

/-- `length`, `apa102.hpp:27`. -/
def apaLength (leds : Nat) : Nat := 4 + 4 * leds + (leds + 15) / 16

/-- Storing a word of four bytes, little endian. -/
def store32 (o : Nat) (w : BitVec 32) (m : Buf) : Buf :=
  Function.update (Function.update (Function.update (Function.update m o (w.setWidth 8)) (o + 1) ((w >>> 8).setWidth 8))
    (o + 2) ((w >>> 16).setWidth 8)) (o + 3) ((w >>> 24).setWidth 8)

/-- Loading a word. -/
def load32 (o : Nat) (m : Buf) : BitVec 32 :=
  (m o).setWidth 32 ||| ((m (o + 1)).setWidth 32 <<< 8) ||| ((m (o + 2)).setWidth 32 <<< 16) ||| ((m (o + 3)).setWidth 32 <<< 24)

/-- `clear`, `apa102.hpp:40-45`. -/
def apaClear : Nat → Buf → Buf
  | 0, m => m
  | n + 1, m => store32 (4 * (1 + n)) 0xff#32 (apaClear n m)

/-- The constructor, `apa102.hpp:32-38`: all bytes outside of the LEDs are 0. -/
def apaInit (leds : Nat) : Buf := apaClear leds (fun _ => 0)

/-- The colours in a word, `apa102.hpp:51-52,64`. -/
def apaColors (r g b : BitVec 8) : BitVec 32 := (r.setWidth 32 <<< 24) ||| (g.setWidth 32 <<< 16) ||| (b.setWidth 32 <<< 8)

/-- `setColorBrightness`, `apa102.hpp:47-55`. -/
def apaSetBoth (leds i : Nat) (r g b bri : BitVec 8) (m : Buf) : Buf × Bool :=
  if i ≥ leds then (m, false)
  else (store32 (4 * (1 + i)) (apaColors r g b ||| (bri.setWidth 32 ||| 0xe0#32)) m, true)

/-- `setColor`, `apa102.hpp:57-68`. -/
def apaSetColor (leds i : Nat) (r g b : BitVec 8) (m : Buf) : Buf × Bool :=
  if i ≥ leds then (m, false)
  else (store32 (4 * (1 + i)) ((load32 (4 * (1 + i)) m &&& 0xff#32) ||| apaColors r g b) m, true)

/-- `getColor`, `apa102.hpp:70-76`. -/
def apaGetColor (leds i : Nat) (m : Buf) : BitVec 8 × BitVec 8 × BitVec 8 :=
  if i ≥ leds then (0, 0, 0)
  else
    let v := load32 (4 * (1 + i)) m
    ((v >>> 24).setWidth 8, (v >>> 16).setWidth 8, (v >>> 8).setWidth 8)

/-- `setBrightness`, `apa102.hpp:78-83`. -/
def apaSetBrightness (leds i : Nat) (bri : BitVec 8) (m : Buf) : Buf :=
  if i ≥ leds then m else Function.update m (4 + i * 4) (bri ||| 0xe0#8)

/-- `getBrightness`, `apa102.hpp:85-90`. -/
def apaGetBrightness (leds i : Nat) (m : Buf) : BitVec 8 :=
  if i ≥ leds then 0 else m (4 + i * 4) &&& ~~~0xe0#8

/-! ## MAX6966 -/

/-- A command: address and data. -/
abbrev Cmd := Nat × Nat

/-- A chain of drivers: the shift registers, that of the driver next to the
controller first, and the registers of each. -/
structure Chain where
  shift : List Cmd
  regs : Nat → Nat → Nat

/-- Two bytes are transferred: what falls out of the last driver is received. -/
def send (w : Cmd) (s : List Cmd) : List Cmd × Cmd := (w :: s.dropLast, s.getLast?.getD (0, 0))

/-- The transfers between two edges of `Cs`. -/
def transfer : List Cmd → List Cmd → List Cmd × List Cmd
  | [], s => (s, [])
  | w :: ws, s =>
    let r := send w s
    let q := transfer ws r.1
    (q.1, r.2 :: q.2)

/-- The registers written by address `a` (datasheet of the MAX6966, table 2;
`max6966.hpp:29-60`). -/
def Writes (a r : Nat) : Bool :=
  (a = r && (a < 0x0A || (0x10 ≤ a && a ≤ 0x15))) || (a = 0x0A && r < 10) || (a = 0x0B && r < 4)
    || (a = 0x0C && 4 ≤ r && r < 8) || (a = 0x0D && 8 ≤ r && r < 10)

/-- The rising edge of `Cs`: each driver executes its command; for a read the
register is loaded into the shift register. -/
def latch (c : Chain) : Chain :=
  ⟨c.shift.mapIdx fun k w => if w.1 ≥ 0x80 then (w.1, c.regs k (w.1 - 0x80)) else w,
   fun k r => match c.shift[k]? with
    | some w => if w.1 < 0x80 ∧ Writes w.1 r = true then w.2 else c.regs k r
    | none => c.regs k r⟩

/-- A frame: the new chain and what was received. -/
def frame (ws : List Cmd) (c : Chain) : Chain × List Cmd :=
  let q := transfer ws c.shift
  (latch { c with shift := q.1 }, q.2)

/-- `writeToDriver`, `max6966_impl.hpp:139-149`. -/
def writeToDriver (n driver reg data : Nat) (c : Chain) : Chain :=
  (frame ((List.range n).map fun i => (if i = driver then reg ||| 0x00 else 0x20, data)) c).1

/-- `readFromDriver`, `max6966_impl.hpp:151-180`. -/
def readFromDriver (n driver reg : Nat) (c : Chain) : Chain × Nat :=
  let c := (frame ((List.range n).map fun i => (if i = driver then reg ||| 0x80 else 0x20, 0xff)) c).1
  let q := frame ((List.range n).map fun _ => (0x20, 0xff)) c
  (q.1, (q.2[driver]?.map Prod.snd).getD 0)

/-- `setChannel`, `max6966_impl.hpp:41-52`. -/
def maxSetChannel (n ch v : Nat) (c : Chain) : Chain :=
  if ch ≥ n * 10 then c else writeToDriver n (ch / 10) (ch % 10) v c

/-- `getChannel`, `max6966_impl.hpp:86-97`. -/
def maxGetChannel (n ch : Nat) (c : Chain) : Chain × Nat :=
  if ch ≥ n * 10 then (c, 0) else readFromDriver n (ch / 10) (ch % 10) c

/-- `setChannels`, `max6966_impl.hpp:54-70`; `k` channels. -/
def maxSetChannels (n : Nat) (values : Nat → Nat) : Nat → Chain → Chain
  | 0, c => c
  | k + 1, c => (frame ((List.range n).map fun dr => (0x00 + k, values (k + dr * 10))) (maxSetChannels n values k c)).1

/-- `setAllChannels`, `max6966_impl.hpp:72-83`. -/
def maxSetAll (n v : Nat) (c : Chain) : Chain :=
  (frame ((List.range n).map fun _ => (0x0A, v)) c).1

/-- `writeToDriverMasked`, `max6966.hpp:227-232`; bytes. -/
def writeMasked (n driver reg data mask : Nat) (c : Chain) : Chain :=
  let q := readFromDriver n driver reg c
  writeToDriver n driver reg ((data &&& mask) ||| (q.2 &&& (255 - mask))) q.1

/-- `setHalfCurrent`, `max6966_impl.hpp:99-122`. -/
def setHalfCurrent (n ch : Nat) (full : Bool) (c : Chain) : Chain :=
  if ch ≥ n * 10 then c
  else
    let d := ch % 10
    let mask := if d ≤ 7 then 1 <<< d else 1 <<< (d - 8)
    let reg := if d ≤ 7 then 0x13 else 0x14
    writeMasked n (ch / 10) reg (if full then mask else 0) mask c

end Model.LedDrivers
