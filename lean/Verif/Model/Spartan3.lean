/-!
Loading the configuration of a Spartan-3 FPGA.

Models `/repo/src/modm/driver/fpga/xilinx_spartan3_impl.hpp:105-169` (the bytes; the reset before, with its time-outs, is
not modelled) and the sizes in `fpga_type.hpp`.  The FPGA is a pair of functions of the bits that it has received: whether
`DONE` is high, and whether `INIT_B` is low (an error).
-/

set_option autoImplicit false

namespace Model.Spartan3

/-- fpga_type.hpp:30-37: `FpgaType` (without the Spartan-6, which has its own driver). -/
inductive FpgaType where
  | Spartan3XC3S50
  | Spartan3XC3S200
  | Spartan3XC3S400
deriving DecidableEq

/-- fpga_type.hpp:30-37: the values of `FpgaType`. -/
def FpgaType.value : FpgaType → Nat
  | .Spartan3XC3S50 => 53908
  | .Spartan3XC3S200 => 130952
  | .Spartan3XC3S400 => 212392

structure Fpga where
  done : List Bool → Bool
  error : List Bool → Bool

/-- xilinx_spartan3_impl.hpp:115-141: the loop over the bits of a byte, `n` are left; `true` is an error. -/
def sendByte (d : Fpga) : Nat → BitVec 8 → List Bool → List Bool × Bool
  | 0, _, sent => (sent, false)
  | n + 1, byte, sent =>
    let sent := sent ++ [decide (byte &&& 0x80#8 ≠ 0#8)]
    if d.done sent then (sent, false)
    else if d.error sent then (sent, true)
    else sendByte d n (byte <<< 1) sent

/-- xilinx_spartan3_impl.hpp:107,147: `readPageFromMemory()`: 256 bytes from a position on. -/
def page (mem : Nat → BitVec 8) (pos : Nat) : Nat → BitVec 8 := fun i => mem (pos + i)

/-- xilinx_spartan3_impl.hpp:111-158: the loop over the bytes; at most `n` rounds. -/
def loop (mem : Nat → BitVec 8) (d : Fpga) (type : Nat) : Nat → Nat → Nat → (Nat → BitVec 8) → List Bool → Option (Bool × List Bool)
  | 0, _, _, _, _ => none
  | n + 1, pos, offset, buffer, sent =>
    match sendByte d 8 (buffer offset) sent with
    | (sent, true) => some (false, sent)
    | (sent, false) =>
      let offset := offset + 1
      let pos := pos + 1
      let (offset, buffer) := if offset = 256 then (0, page mem pos) else (offset, buffer)
      if pos > type + 100 then some (false, sent)
      else if d.done sent = false then loop mem d type n pos offset buffer sent
      else some (true, sent)

/-- xilinx_spartan3_impl.hpp:105-169: the rest of `configure()`: the result and the bits sent (without the 10 clocks at the end). -/
def configure (mem : Nat → BitVec 8) (d : Fpga) (type : Nat) : Option (Bool × List Bool) :=
  loop mem d type (type + 102) 0 0 (page mem 0) []

end Model.Spartan3
