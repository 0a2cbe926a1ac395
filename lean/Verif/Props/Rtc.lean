import Verif.Spec.Rtc
import Mathlib.Tactic.IntervalCases

/-! # Real time clocks -/

set_option autoImplicit false

namespace Props.Rtc

open Modm.Rtc RtcSpec

/-! ## C214: MCP7941x, date and time -/

theorem encode_bcd : ∀ b : Byte, b.toNat < 100 → (encodeBcd b).toNat = b.toNat / 10 * 16 + b.toNat % 10 := by decide +kernel

theorem decode_bcd (b : Byte) (x : Byte) (h : Bcd b x.toNat) : decodeBcd b = x := by
  obtain ⟨h1, h2⟩ := h
  unfold decodeBcd
  apply BitVec.eq_of_toNat_eq
  rw [BitVec.toNat_ofNat]
  omega

theorem mask7f : ∀ b : Byte, b.toNat < 128 → (b ||| 0x80) &&& 0x7f = b := by decide +kernel
theorem mask3f : ∀ b : Byte, b.toNat < 64 → b &&& 0x3f = b := by decide +kernel
theorem mask1f : ∀ b : Byte, b.toNat < 32 → b &&& 0x1f = b := by decide +kernel

/-- `setDateTime` with two acknowledged transactions writes the date and time in the format of the data sheet,
starts the oscillator and returns true. -/
theorem C214_set (m : Mcp) (d : DateTime) (h : Valid d) :
    (setDateTime m d true true).2 = true ∧ McpShows (setDateTime m d true true).1 d := by
  obtain ⟨h1, h2, h3, h4, h5, h6, h7, h8⟩ := h
  refine ⟨rfl, ⟨encodeBcd d.seconds, rfl, ?_, ?_⟩, ?_, ?_, ?_, ?_, ?_⟩
  · rw [encode_bcd _ (by omega)]
    omega
  · exact ⟨encode_bcd _ (by omega), by omega⟩
  · exact ⟨encode_bcd d.minutes (by omega), by omega⟩
  · exact ⟨encode_bcd d.hours (by omega), by omega⟩
  · exact ⟨encode_bcd d.days (by omega), by omega⟩
  · exact ⟨encode_bcd d.months (by omega), by omega⟩
  · exact ⟨encode_bcd d.years (by omega), by omega⟩

/-- `getDateTime` gives the date and time that the registers say. -/
theorem C214_get (m : Mcp) (d : DateTime) (h : Valid d) (hm : McpShows m d) : getDateTime m true = some d := by
  obtain ⟨h1, h2, h3, h4, h5, h6, h7, h8⟩ := h
  obtain ⟨⟨b, hb, hb1, hb2⟩, m1, m2, m4, m5, m6⟩ := hm
  have e0 : decodeBcd (m.read 0 &&& 0x7f) = d.seconds := by
    have : m.read 0 = m.mem 0 := rfl
    rw [this, hb, mask7f b hb1]
    exact decode_bcd _ _ hb2
  have e1 : decodeBcd (m.read 1) = d.minutes := decode_bcd _ _ m1
  have e2 : decodeBcd (m.read 2 &&& 0x3f) = d.hours := by
    have : m.read 2 = m.mem 2 := rfl
    rw [this, mask3f _ (by have := m2.1; omega)]
    exact decode_bcd _ _ m2
  have e4 : decodeBcd (m.read 4) = d.days := decode_bcd _ _ m4
  have e5 : decodeBcd (m.read 5 &&& 0x1f) = d.months := by
    have : m.read 5 = m.mem 5 := rfl
    rw [this, mask1f _ (by have := m5.1; omega)]
    exact decode_bcd _ _ m5
  have e6 : decodeBcd (m.read 6) = d.years := decode_bcd _ _ m6
  simp only [getDateTime, if_true, e0, e1, e2, e4, e5, e6]

/-- What has been set is got back. -/
theorem C214_roundtrip (m : Mcp) (d : DateTime) (h : Valid d) :
    getDateTime (setDateTime m d true true).1 true = some d := C214_get _ d h (C214_set m d h).2

example : Valid ⟨31, 12, 26, 59, 59, 23⟩ := by unfold Valid; decide +kernel

/-- Without an acknowledge `setDateTime` returns false, and without the first one nothing has changed;
`getDateTime` returns nothing. -/
theorem C214_fail (m : Mcp) (d : DateTime) (ok : Bool) :
    setDateTime m d false ok = (m, false) ∧ (setDateTime m d true false).2 = false ∧ getDateTime m false = none := ⟨rfl, rfl, rfl⟩

/-! ## C215: MCP7941x, oscillator -/

/-- While the oscillator runs, `oscillatorRunning` is true if acknowledged. -/
theorem C215_running_partial (m : Mcp) (ok : Bool) (_h : m.running = true) : oscillatorRunning m ok = ok := by
  have key : ∀ b : Byte, 0 < (b ||| 0x20).toNat := by decide +kernel
  cases ok
  · rfl
  · unfold oscillatorRunning
    simp only [if_true, key, decide_true]

example : oscillatorRunning ⟨fun _ => 0, true⟩ true = true := by decide +kernel

/-- It is true as well when the oscillator does not run, whatever the registers are. -/
theorem C215_stopped_counterexample (m : Mcp) (_h : m.running = false) : oscillatorRunning m true = true := by
  have key : ∀ b : Byte, 0 < (b ||| 0x20).toNat := by decide +kernel
  unfold oscillatorRunning
  simp only [if_true, key, decide_true]

/-! ## DS1302: bytes on the wire -/

/-- The bits of a byte, the lowest first. -/
def bits (b : Byte) : List Bool :=
  [b.getLsbD 0, b.getLsbD 1, b.getLsbD 2, b.getLsbD 3, b.getLsbD 4, b.getLsbD 5, b.getLsbD 6, b.getLsbD 7]

theorem shifted : ∀ b : Byte,
    [b.getLsbD 0, (b >>> 1).getLsbD 0, (b >>> 1 >>> 1).getLsbD 0, (b >>> 1 >>> 1 >>> 1).getLsbD 0,
      (b >>> 1 >>> 1 >>> 1 >>> 1).getLsbD 0, (b >>> 1 >>> 1 >>> 1 >>> 1 >>> 1).getLsbD 0,
      (b >>> 1 >>> 1 >>> 1 >>> 1 >>> 1 >>> 1).getLsbD 0, (b >>> 1 >>> 1 >>> 1 >>> 1 >>> 1 >>> 1 >>> 1).getLsbD 0] = bits b := by
  decide +kernel

theorem fromBits_bits : ∀ b : Byte, fromBits (bits b) = b := by decide +kernel

theorem round_command (regs : Nat → Byte) (rx : List Bool) (sclk : Bool) (o : Option Bool) (l : Bool) (b : Byte) :
    writeRound ⟨⟨regs, .command rx, sclk, o⟩, true, l⟩ b =
      (⟨⟨regs, decode (rx ++ [b.getLsbD 0]), true, o⟩, true, b.getLsbD 0⟩, b >>> 1) := by
  cases sclk <;> rfl

theorem round_write (regs : Nat → Byte) (r : Nat) (rx : List Bool) (sclk : Bool) (o : Option Bool) (l : Bool) (b : Byte)
    (h : rx.length < 7) :
    writeRound ⟨⟨regs, .write r rx, sclk, o⟩, true, l⟩ b =
      (⟨⟨regs, .write r (rx ++ [b.getLsbD 0]), true, o⟩, true, b.getLsbD 0⟩, b >>> 1) := by
  have : ¬ rx.length = 7 := by omega
  cases sclk <;> simp [writeRound, sclkReset, sclkSet, Chip.rise, Chip.fall, this]

theorem round_last (regs : Nat → Byte) (r : Nat) (rx : List Bool) (sclk : Bool) (o : Option Bool) (l : Bool) (b : Byte)
    (h : rx.length = 7) :
    writeRound ⟨⟨regs, .write r rx, sclk, o⟩, true, l⟩ b =
      (⟨⟨if r = 7 ∨ (regs 7).getLsbD 7 = false then Function.update regs r (fromBits (rx ++ [b.getLsbD 0])) else regs,
        .other, true, o⟩, true, b.getLsbD 0⟩, b >>> 1) := by
  cases sclk <;> simp [writeRound, sclkReset, sclkSet, Chip.rise, Chip.fall, h]

/-- A command byte arrives. -/
theorem writeByte_command (regs : Nat → Byte) (sclk : Bool) (o : Option Bool) (out l : Bool) (b : Byte) :
    ∃ l', writeByte ⟨⟨regs, .command [], sclk, o⟩, out, l⟩ b = ⟨⟨regs, decode (bits b), true, o⟩, true, l'⟩ := by
  rw [← shifted]
  refine ⟨(b >>> 1 >>> 1 >>> 1 >>> 1 >>> 1 >>> 1 >>> 1).getLsbD 0, ?_⟩
  unfold writeByte
  simp only [writeLoop, round_command, List.nil_append, List.cons_append, decode]

/-- A data byte arrives. -/
theorem writeByte_data (regs : Nat → Byte) (r : Nat) (sclk : Bool) (o : Option Bool) (out l : Bool) (b : Byte) :
    ∃ l', writeByte ⟨⟨regs, .write r [], sclk, o⟩, out, l⟩ b =
      ⟨⟨if r = 7 ∨ (regs 7).getLsbD 7 = false then Function.update regs r b else regs, .other, true, o⟩, true, l'⟩ := by
  refine ⟨(b >>> 1 >>> 1 >>> 1 >>> 1 >>> 1 >>> 1 >>> 1).getLsbD 0, ?_⟩
  have e := fromBits_bits b
  rw [← shifted] at e
  unfold writeByte
  simp only [writeLoop]
  rw [round_write _ _ [] _ _ _ _ (by simp)]
  simp only [List.nil_append]
  rw [round_write _ _ [_] _ _ _ _ (by simp)]
  simp only [List.cons_append, List.nil_append]
  rw [round_write _ _ [_, _] _ _ _ _ (by simp)]
  simp only [List.cons_append, List.nil_append]
  rw [round_write _ _ [_, _, _] _ _ _ _ (by simp)]
  simp only [List.cons_append, List.nil_append]
  rw [round_write _ _ [_, _, _, _] _ _ _ _ (by simp)]
  simp only [List.cons_append, List.nil_append]
  rw [round_write _ _ [_, _, _, _, _] _ _ _ _ (by simp)]
  simp only [List.cons_append, List.nil_append]
  rw [round_write _ _ [_, _, _, _, _, _] _ _ _ _ (by simp)]
  simp only [List.cons_append, List.nil_append]
  rw [round_last _ _ [_, _, _, _, _, _, _] _ _ _ _ (by simp)]
  simp only [List.cons_append, List.nil_append, e]

theorem decode_write (r : Nat) (h : r < 8) : decode (bits (writeAddress r)) = .write r [] := by
  interval_cases r <;> rfl

theorem decode_read (r : Nat) (h : r < 8) : decode (bits (readAddress r)) = .read r 0 := by
  interval_cases r <;> rfl

theorem decode_burst : decode (bits 0xbf) = .burst 0 := rfl

/-! ## C216: DS1302, writing -/

/-- `write` writes the register, unless the chip is write protected, and leaves the others; afterwards the chip is
ready again. -/
theorem C216_write (s : St) (hs : Ready s) (r : Nat) (hr : r < 8) (d : Byte) :
    Ready (write s (writeAddress r) d) ∧
    (write s (writeAddress r) d).chip.regs =
      if r = 7 ∨ (s.chip.regs 7).getLsbD 7 = false then Function.update s.chip.regs r d else s.chip.regs := by
  obtain ⟨⟨regs, phase, sclk, o⟩, output, latch⟩ := s
  obtain ⟨h1, h2, h3, h4⟩ := hs
  simp only at h1 h2 h3 h4
  subst h1 h2 h3 h4
  obtain ⟨l1, e1⟩ := writeByte_command regs false none false latch (writeAddress r)
  rw [decode_write r hr] at e1
  obtain ⟨l2, e2⟩ := writeByte_data regs r true none true l1 d
  have e : write ⟨⟨regs, .idle, false, none⟩, false, latch⟩ (writeAddress r) d =
      ⟨⟨if r = 7 ∨ (regs 7).getLsbD 7 = false then Function.update regs r d else regs, .idle, false, none⟩, false, l2⟩ := by
    simp only [write, ceSet, e1, e2]
    rfl
  rw [e]
  exact ⟨⟨rfl, rfl, rfl, rfl⟩, rfl⟩

example : (write (init (fun _ => 0) false) (writeAddress 4) 0x12).chip.regs 4 = 0x12 := by decide +kernel

/-- `initialize` makes the chip ready. -/
theorem C216_initialize (regs : Nat → Byte) (l : Bool) : Ready (init regs l) := ⟨rfl, rfl, rfl, rfl⟩

/-- `writeProtect` protects the registers, or allows writing, in any state. -/
theorem C216_writeProtect (s : St) (hs : Ready s) (wp : Bool) :
    Ready (writeProtect s wp) ∧ ((writeProtect s wp).chip.regs 7).getLsbD 7 = wp ∧
    ∀ i, i ≠ 7 → (writeProtect s wp).chip.regs i = s.chip.regs i := by
  obtain ⟨h1, h2⟩ := C216_write s hs 7 (by omega) (if wp then 0x80 else 0x00)
  have e : writeAddress 7 = 0x8e := rfl
  rw [e] at h1 h2
  unfold writeProtect
  refine ⟨h1, ?_, ?_⟩
  · rw [h2, if_pos (Or.inl rfl)]
    cases wp <;> simp
  · intro i hi
    rw [h2, if_pos (Or.inl rfl), Function.update_of_ne hi]

/-- `enableOscillator` clears the halt flag, if not write protected. -/
theorem C216_enableOscillator_partial (s : St) (hs : Ready s) (hp : (s.chip.regs 7).getLsbD 7 = false) :
    Ready (enableOscillator s) ∧ ((enableOscillator s).chip.regs 0).getLsbD 7 = false ∧
    ∀ i, i ≠ 0 → (enableOscillator s).chip.regs i = s.chip.regs i := by
  obtain ⟨h1, h2⟩ := C216_write s hs 0 (by omega) 0x00
  have e : writeAddress 0 = 0x80 := rfl
  rw [e] at h1 h2
  unfold enableOscillator
  refine ⟨h1, ?_, ?_⟩
  · rw [h2, if_pos (Or.inr hp)]
    simp
  · intro i hi
    rw [h2, if_pos (Or.inr hp), Function.update_of_ne hi]

/-- `enableOscillator` sets the seconds to zero, also of a clock that runs. -/
theorem C216_seconds_counterexample :
    let s := init (fun i => if i = 0 then 0x59 else 0) false
    getSeconds s.chip.regs = 59 ∧ getSeconds (enableOscillator s).chip.regs = 0 := by decide +kernel

/-! ## C217: DS1302, reading all registers -/

/-- A bit shifted in from the top. -/
def shiftIn (ret : Byte) (o : Bool) : Byte := (ret >>> 1) ||| (if o then 0x80 else 0)

theorem round_burst (z : Bool) (regs : Nat → Byte) (n : Nat) (o : Bool) (l : Bool) (ret : Byte) :
    readRound z ⟨⟨regs, .burst n, false, some o⟩, false, l⟩ ret =
      (⟨⟨regs, .burst (n + 1), false, some ((regs (n / 8 % 8)).getLsbD (n % 8))⟩, false, l⟩,
        shiftIn ret o) := rfl

theorem round_read (z : Bool) (regs : Nat → Byte) (r n : Nat) (o : Bool) (l : Bool) (ret : Byte) :
    readRound z ⟨⟨regs, .read r n, false, some o⟩, false, l⟩ ret =
      (⟨⟨regs, .read r (n + 1), false, some ((regs r).getLsbD (n % 8))⟩, false, l⟩,
        shiftIn ret o) := rfl

/-- Eight bits shifted in from the top, the lowest first. -/
theorem gather : ∀ b : Byte,
    shiftIn (shiftIn (shiftIn (shiftIn (shiftIn (shiftIn (shiftIn (shiftIn 0 (b.getLsbD 0)) (b.getLsbD 1)) (b.getLsbD 2))
      (b.getLsbD 3)) (b.getLsbD 4)) (b.getLsbD 5)) (b.getLsbD 6)) (b.getLsbD 7) = b := by decide +kernel

/-- The same with a bit before. -/
theorem gather_late : ∀ z : Bool, ∀ b : Byte, ∀ i : Fin 8,
    (shiftIn (shiftIn (shiftIn (shiftIn (shiftIn (shiftIn (shiftIn (shiftIn 0 z) (b.getLsbD 0)) (b.getLsbD 1)) (b.getLsbD 2))
      (b.getLsbD 3)) (b.getLsbD 4)) (b.getLsbD 5)) (b.getLsbD 6)).getLsbD i.val =
    if i.val = 0 then z else b.getLsbD (i.val - 1) := by decide +kernel

/-- One byte of a burst: the chip has put out bit 0 of register `j`. -/
theorem byte_burst (z : Bool) (regs : Nat → Byte) (j : Nat) (hj : j < 8) (l : Bool) :
    readLoop z 8 ⟨⟨regs, .burst (8 * j + 1), false, some ((regs j).getLsbD 0)⟩, false, l⟩ 0 =
      (⟨⟨regs, .burst (8 * (j + 1) + 1), false, some ((regs ((j + 1) % 8)).getLsbD 0)⟩, false, l⟩, regs j) := by
  have r1 : ∀ o ret, readRound z ⟨⟨regs, .burst (8 * j + 1), false, some o⟩, false, l⟩ ret =
      (⟨⟨regs, .burst (8 * j + 2), false, some ((regs j).getLsbD 1)⟩, false, l⟩, shiftIn ret o) := by
    intro o ret
    rw [round_burst, show (8 * j + 1) / 8 % 8 = j by omega, show (8 * j + 1) % 8 = 1 by omega]
  have r2 : ∀ o ret, readRound z ⟨⟨regs, .burst (8 * j + 2), false, some o⟩, false, l⟩ ret =
      (⟨⟨regs, .burst (8 * j + 3), false, some ((regs j).getLsbD 2)⟩, false, l⟩, shiftIn ret o) := by
    intro o ret
    rw [round_burst, show (8 * j + 2) / 8 % 8 = j by omega, show (8 * j + 2) % 8 = 2 by omega]
  have r3 : ∀ o ret, readRound z ⟨⟨regs, .burst (8 * j + 3), false, some o⟩, false, l⟩ ret =
      (⟨⟨regs, .burst (8 * j + 4), false, some ((regs j).getLsbD 3)⟩, false, l⟩, shiftIn ret o) := by
    intro o ret
    rw [round_burst, show (8 * j + 3) / 8 % 8 = j by omega, show (8 * j + 3) % 8 = 3 by omega]
  have r4 : ∀ o ret, readRound z ⟨⟨regs, .burst (8 * j + 4), false, some o⟩, false, l⟩ ret =
      (⟨⟨regs, .burst (8 * j + 5), false, some ((regs j).getLsbD 4)⟩, false, l⟩, shiftIn ret o) := by
    intro o ret
    rw [round_burst, show (8 * j + 4) / 8 % 8 = j by omega, show (8 * j + 4) % 8 = 4 by omega]
  have r5 : ∀ o ret, readRound z ⟨⟨regs, .burst (8 * j + 5), false, some o⟩, false, l⟩ ret =
      (⟨⟨regs, .burst (8 * j + 6), false, some ((regs j).getLsbD 5)⟩, false, l⟩, shiftIn ret o) := by
    intro o ret
    rw [round_burst, show (8 * j + 5) / 8 % 8 = j by omega, show (8 * j + 5) % 8 = 5 by omega]
  have r6 : ∀ o ret, readRound z ⟨⟨regs, .burst (8 * j + 6), false, some o⟩, false, l⟩ ret =
      (⟨⟨regs, .burst (8 * j + 7), false, some ((regs j).getLsbD 6)⟩, false, l⟩, shiftIn ret o) := by
    intro o ret
    rw [round_burst, show (8 * j + 6) / 8 % 8 = j by omega, show (8 * j + 6) % 8 = 6 by omega]
  have r7 : ∀ o ret, readRound z ⟨⟨regs, .burst (8 * j + 7), false, some o⟩, false, l⟩ ret =
      (⟨⟨regs, .burst (8 * j + 8), false, some ((regs j).getLsbD 7)⟩, false, l⟩, shiftIn ret o) := by
    intro o ret
    rw [round_burst, show (8 * j + 7) / 8 % 8 = j by omega, show (8 * j + 7) % 8 = 7 by omega]
  have r8 : ∀ o ret, readRound z ⟨⟨regs, .burst (8 * j + 8), false, some o⟩, false, l⟩ ret =
      (⟨⟨regs, .burst (8 * (j + 1) + 1), false, some ((regs ((j + 1) % 8)).getLsbD 0)⟩, false, l⟩, shiftIn ret o) := by
    intro o ret
    rw [round_burst, show (8 * j + 8) / 8 % 8 = (j + 1) % 8 by omega, show (8 * j + 8) % 8 = 0 by omega,
      show 8 * j + 8 + 1 = 8 * (j + 1) + 1 by omega]
  simp only [readLoop, r1, r2, r3, r4, r5, r6, r7, r8]
  rw [gather (regs j)]

theorem bytes_burst (z : Bool) (regs : Nat → Byte) (l : Bool) (n j : Nat) (h : n + j = 8) :
    readBytes z n ⟨⟨regs, .burst (8 * j + 1), false, some ((regs (j % 8)).getLsbD 0)⟩, false, l⟩ =
      (⟨⟨regs, .burst 65, false, some ((regs 0).getLsbD 0)⟩, false, l⟩, (List.range' j n).map regs) := by
  induction n generalizing j with
  | zero =>
      have : j = 8 := by omega
      subst this
      rfl
  | succ n ih =>
      have hj : j < 8 := by omega
      have hm : j % 8 = j := by omega
      simp only [readBytes, hm, byte_burst z regs j hj l]
      rw [ih (j + 1) (by omega)]
      simp [List.range'_succ]

/-- `readRtc` gets all eight registers, whatever they contain, and leaves the chip ready and unchanged. -/
theorem C217_readRtc (z : Bool) (s : St) (hs : Ready s) :
    (readRtc z s).2 = (List.range 8).map s.chip.regs ∧ Ready (readRtc z s).1 ∧ (readRtc z s).1.chip.regs = s.chip.regs := by
  obtain ⟨⟨regs, phase, sclk, o⟩, output, latch⟩ := s
  obtain ⟨h1, h2, h3, h4⟩ := hs
  simp only at h1 h2 h3 h4
  subst h1 h2 h3 h4
  obtain ⟨l1, e1⟩ := writeByte_command regs false none false latch 0xbf
  rw [decode_burst] at e1
  have e2 := bytes_burst z regs l1 8 0 (by omega)
  have e : readRtc z ⟨⟨regs, .idle, false, none⟩, false, latch⟩ =
      (⟨⟨regs, .idle, false, none⟩, false, l1⟩, (List.range' 0 8).map regs) := by
    simp only [readRtc, ceSet, e1]
    have : sclkReset ⟨⟨regs, .burst 0, true, none⟩, false, l1⟩ =
        ⟨⟨regs, .burst (8 * 0 + 1), false, some ((regs (0 % 8)).getLsbD 0)⟩, false, l1⟩ := rfl
    rw [this, e2]
    rfl
  rw [e]
  exact ⟨rfl, ⟨rfl, rfl, rfl, rfl⟩, rfl⟩

example : (readRtc true (init (fun i => BitVec.ofNat 8 (17 * i)) false)).2 = [0x00, 0x11, 0x22, 0x33, 0x44, 0x55, 0x66, 0x77] := by
  decide +kernel

/-! ## C218: DS1302, reading one register -/

/-- What `read` gets: the bits of the register one place too high, and the free line as the lowest bit. -/
theorem C218_read_partial (z : Bool) (s : St) (hs : Ready s) (r : Nat) (hr : r < 8) :
    (∀ i, i < 8 → (read z s (readAddress r)).2.getLsbD i = if i = 0 then z else (s.chip.regs r).getLsbD (i - 1)) ∧
    Ready (read z s (readAddress r)).1 ∧ (read z s (readAddress r)).1.chip.regs = s.chip.regs := by
  obtain ⟨⟨regs, phase, sclk, o⟩, output, latch⟩ := s
  obtain ⟨h1, h2, h3, h4⟩ := hs
  simp only at h1 h2 h3 h4
  subst h1 h2 h3 h4
  obtain ⟨l1, e1⟩ := writeByte_command regs false none false latch (readAddress r)
  rw [decode_read r hr] at e1
  have e0 : readRound z ⟨⟨regs, .read r 0, true, none⟩, false, l1⟩ 0 =
      (⟨⟨regs, .read r 1, false, some ((regs r).getLsbD 0)⟩, false, l1⟩, shiftIn 0 z) := rfl
  have e : read z ⟨⟨regs, .idle, false, none⟩, false, latch⟩ (readAddress r) =
      (ceReset ⟨⟨regs, .read r 8, false, some ((regs r).getLsbD 7)⟩, false, l1⟩,
        shiftIn (shiftIn (shiftIn (shiftIn (shiftIn (shiftIn (shiftIn (shiftIn 0 z) ((regs r).getLsbD 0)) ((regs r).getLsbD 1))
          ((regs r).getLsbD 2)) ((regs r).getLsbD 3)) ((regs r).getLsbD 4)) ((regs r).getLsbD 5)) ((regs r).getLsbD 6)) := by
    unfold Modm.Rtc.read
    simp only [ceSet, e1]
    simp only [readLoop, e0, round_read]
  rw [e]
  refine ⟨?_, ⟨rfl, rfl, rfl, rfl⟩, rfl⟩
  intro i hi
  exact gather_late z (regs r) ⟨i, hi⟩

/-- `read` does not get the register: the year 26 (0x26) is read as 0x4c or 0x4d. -/
theorem C218_read_counterexample :
    let s := write (init (fun _ => 0) false) (writeAddress 6) 0x26
    s.chip.regs 6 = 0x26 ∧ (read false s (readAddress 6)).2 = 0x4c ∧ (read true s (readAddress 6)).2 = 0x4d := by decide +kernel

/-! ## C219: DS1302, data -/

theorem bcd_decode : ∀ b : Byte, ∀ n : Fin 80, b.toNat = n.val / 10 * 16 + n.val % 10 → doubleBcdToDecimal b = n.val := by
  decide +kernel

/-- The getters decode seconds, minutes, hours (24 h), date and month. -/
theorem C219_getters_partial (data : Nat → Byte) (s m h d mo : Nat) (hs : s < 60) (hm : m < 60) (hh : h < 24) (hd : d ≤ 31) (hmo : mo ≤ 12)
    (h0 : Bcd (data 0) s) (h1 : Bcd (data 1) m) (h2 : Bcd (data 2) h) (h3 : Bcd (data 3) d) (h4 : Bcd (data 4) mo) :
    getSeconds data = s ∧ getMinutes data = m ∧ is24hours data = true ∧ getHours data = h ∧ getDate data = d ∧ getMonth data = mo := by
  have h24 : is24hours data = true := by
    unfold is24hours
    have : (data 2).getLsbD 7 = false := by
      rw [BitVec.getLsbD]
      apply Nat.testBit_lt_two_pow
      have := h2.1
      omega
    rw [this]
    rfl
  refine ⟨?_, ?_, h24, ?_, ?_, ?_⟩
  · exact bcd_decode _ ⟨s, by omega⟩ h0.1
  · exact bcd_decode _ ⟨m, by omega⟩ h1.1
  · unfold getHours
    rw [if_pos h24]
    exact bcd_decode _ ⟨h, by omega⟩ h2.1
  · exact bcd_decode _ ⟨d, by omega⟩ h3.1
  · exact bcd_decode _ ⟨mo, by omega⟩ h4.1

/-- In the 12 h format: bit 7 is set, bit 5 is set in the afternoon, the hour is 1 to 12. -/
theorem C219_hours12 (data : Nat → Byte) (h : Nat) (pm : Bool) (hh : h ≤ 12)
    (h2 : (data 2).toNat = 0x80 + (if pm then 0x20 else 0) + (h / 10 * 16 + h % 10)) :
    is24hours data = false ∧ isPm data = pm ∧ getHours data = h := by
  have key : ∀ b : Byte, ∀ n : Fin 13, ∀ p : Bool, b.toNat = 0x80 + (if p then 0x20 else 0) + (n.val / 10 * 16 + n.val % 10) →
      b.getLsbD 7 = true ∧ b.getLsbD 5 = p ∧ doubleBcdToDecimal (b &&& 0x1f) = n.val := by decide +kernel
  obtain ⟨k1, k2, k3⟩ := key (data 2) ⟨h, by omega⟩ pm h2
  have e : is24hours data = false := by
    unfold is24hours
    rw [k1]
    rfl
  refine ⟨e, k2, ?_⟩
  unfold getHours
  rw [e]
  exact k3

example : (0xb1 : Byte).toNat = 0x80 + (if true then 0x20 else 0) + (11 / 10 * 16 + 11 % 10) := by decide

/-- `isWriteProtected` tells what the last `writeProtect` has set. -/
theorem C219_protected (z : Bool) (s : St) (hs : Ready s) (wp : Bool) :
    isWriteProtected (fun i => ((readRtc z (writeProtect s wp)).2)[i]?.getD 0) = wp := by
  obtain ⟨h1, h2, _⟩ := C216_writeProtect s hs wp
  obtain ⟨h3, _, _⟩ := C217_readRtc z _ h1
  unfold isWriteProtected
  rw [h3]
  exact h2

/-- `getYear` is not decoded: it is right for the years 0 to 9 only. -/
theorem C219_year_counterexample (data : Nat → Byte) (y : Nat) (hy : 10 ≤ y) (h : Bcd (data 6) y) : getYear data ≠ y := by
  unfold getYear
  rw [h.1]
  omega

example : Bcd 0x26 26 := by unfold Bcd; decide

end Props.Rtc
