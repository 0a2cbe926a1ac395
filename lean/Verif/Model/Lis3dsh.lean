import Mathlib.Logic.Function.Basic
/-!
The accelerometer LIS3DSH.

Models `/repo/src/modm/driver/inertial/lis3dsh_impl.hpp:20-88` and `/repo/src/modm/driver/inertial/lis3dsh.hpp:128-193,400-423,440-483,514-630`:
the control registers 0x20 to 0x25 with their copies in the driver, and reading an acceleration.  Each transaction on the bus
either happens as a whole (`ok`) or fails and changes nothing.  Results are whole multiples of g/0x7FFF: the division and the
rounding of `float` are left out.
-/

set_option autoImplicit false

namespace Model.Lis3dsh

structure State where
  /-- The control registers of the chip: 4, 1, 2, 3, 5, 6 at 0x20 to 0x25. -/
  ctrl : Nat → BitVec 8
  raw : Nat → BitVec 8
  data : Nat → BitVec 8
  scale : BitVec 8

/-- lis3dsh_impl.hpp:20-24, lis3dsh.hpp:447-449; the registers of the chip have the defaults at lis3dsh.hpp:129,143,161,180. -/
def init : State := ⟨fun i => if i = 0 then 7#8 else 0#8, fun i => if i = 0 then 7#8 else 0#8, fun _ => 0#8, 2#8⟩

/-- A write to the control register at 0x20 + index (lis3_transport_impl.hpp:26-38). -/
def write (s : State) (ok : Bool) (index : Nat) (v : BitVec 8) : State × Bool :=
  if ok then ({ s with ctrl := Function.update s.ctrl index v }, true) else (s, false)

/-- lis3dsh_impl.hpp:38-39,65-68: the full scale in g for the bits already shifted. -/
def gOf (x : BitVec 8) : BitVec 8 := if x = 8#8 then x + 8#8 else x + 2#8

/-- lis3dsh_impl.hpp:26-52: `configure()`. -/
def configure (s : State) (scale rate : BitVec 8) (ok4 ok5 ok6 : Bool) : State × Bool :=
  let raw := Function.update (Function.update (Function.update s.raw 0 (rate ||| 0x07#8)) 4 scale) 5 0x10#8
  let s := { s with raw := raw, scale := gOf (raw 4 >>> 2) }
  let a := write s ok4 0 (raw 0)
  if a.2 = false then (a.1, false)
  else
    let b := write a.1 ok5 4 (raw 4)
    if b.2 = false then (b.1, false)
    else write b.1 ok6 5 (raw 5)

/-- lis3dsh_impl.hpp:54-72: `updateControlRegister()`. -/
def updateControlRegister (s : State) (index : Nat) (set clear : BitVec 8) (ok : Bool) : State × Bool :=
  let v := (s.raw index &&& ~~~clear) ||| set
  let raw := Function.update s.raw index v
  let s := { s with raw := raw, scale := if index = 4 then gOf ((raw 4 &&& 0x38#8) >>> 2) else s.scale }
  write s ok index v

/-- The nine bytes the chip sends when read from STATUS on: the registers one after another if ADD_INC is set (lis3dsh.hpp:187),
otherwise STATUS again and again; `sample` has the registers from 0x27 to 0x2F. -/
def reply (s : State) (sample : Nat → BitVec 8) (k : Nat) : BitVec 8 := if (s.ctrl 5).getLsbD 4 then sample k else sample 0

/-- lis3dsh_impl.hpp:74-88: `readAcceleration()`. -/
def readAcceleration (s : State) (sample : Nat → BitVec 8) (ok : Bool) : State × Bool :=
  if ok then
    let raw := fun k => if 6 ≤ k ∧ k < 6 + 9 then reply s sample (k - 6) else s.raw k
    ({ s with raw := raw, data := fun k => if k < 6 then raw (7 + k) else s.data k }, true)
  else (s, false)

/-- lis3dsh.hpp:472-477: `getData()`. -/
def getData (s : State) (axis : Nat) : Int := (s.data (2 * axis + 1) ++ s.data (2 * axis)).toInt

/-- lis3dsh.hpp:453-460: `getX()`, `getY()` and `getZ()` in g/0x7FFF. -/
def getAxis (s : State) (axis : Nat) : Int := getData s axis * (s.scale.toNat : Int)

/-- lis3dsh.hpp:574-590: `getControl4()` and so on. -/
def getControl (s : State) (index : Nat) : BitVec 8 := s.raw index

/-- Calls by the user; `update` with the index of one of the functions at lis3dsh.hpp:532-566. -/
inductive Op where
  | configure (scale rate : BitVec 8) (ok4 ok5 ok6 : Bool)
  | update (index : Fin 6) (set clear : BitVec 8) (ok : Bool)
  | read (sample : Nat → BitVec 8) (ok : Bool)

def step (s : State) : Op → State × Bool
  | .configure g r a b c => configure s g r a b c
  | .update i x y ok => updateControlRegister s i x y ok
  | .read f ok => readAcceleration s f ok

def run (s : State) (ops : List Op) : State := ops.foldl (fun s op => (step s op).1) s

end Model.Lis3dsh
