import Verif.Model.Rtc

/-! # What users expect of real time clocks -/

set_option autoImplicit false

namespace RtcSpec

open Modm.Rtc

/-- A date and time that exists. -/
def Valid (d : DateTime) : Prop :=
  d.seconds.toNat < 60 ∧ d.minutes.toNat < 60 ∧ d.hours.toNat < 24 ∧ 1 ≤ d.days.toNat ∧ d.days.toNat ≤ 31 ∧
  1 ≤ d.months.toNat ∧ d.months.toNat ≤ 12 ∧ d.years.toNat < 100

/-- Two decimal digits, the tens in the upper half of the byte. -/
def Bcd (b : Byte) (n : Nat) : Prop := b.toNat = n / 10 * 16 + n % 10 ∧ n < 100

/-- The registers of the MCP7941x say this date and time in the 24 h format (data sheet), with a running
oscillator. -/
def McpShows (m : Mcp) (d : DateTime) : Prop :=
  (∃ b, m.mem 0 = b ||| 0x80 ∧ b.toNat < 128 ∧ Bcd b d.seconds.toNat) ∧ Bcd (m.mem 1) d.minutes.toNat ∧ Bcd (m.mem 2) d.hours.toNat ∧
  Bcd (m.mem 4) d.days.toNat ∧ Bcd (m.mem 5) d.months.toNat ∧ Bcd (m.mem 6) d.years.toNat

/-- The DS1302 between calls: `CE` and `SCLK` low, the line `IO` free. -/
def Ready (s : St) : Prop := s.chip.phase = .idle ∧ s.chip.sclk = false ∧ s.chip.out = none ∧ s.output = false

/-- The address byte for writing clock register `r` (data sheet); reading has bit 0 set. -/
def writeAddress (r : Nat) : Byte := BitVec.ofNat 8 (0x80 + 2 * r)
def readAddress (r : Nat) : Byte := BitVec.ofNat 8 (0x81 + 2 * r)

end RtcSpec
