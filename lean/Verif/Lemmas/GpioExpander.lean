import Verif.Model.GpioExpander
import Verif.Spec.GpioExpander

set_option autoImplicit false

/-! Helper lemmas for `Verif.Props.GpioExpander`. -/

namespace Lemmas.GpioExpander

open Modm.GpioExpander

theorem any_twoPow {w : Nat} (x : BitVec w) (i : Nat) (hi : i < w) :
    Flags.any x (BitVec.twoPow w i) = x.getLsbD i := by
  unfold Flags.any
  cases h : x.getLsbD i
  · have : x &&& BitVec.twoPow w i = 0 := by
      apply BitVec.eq_of_getLsbD_eq
      intro k hk
      simp only [BitVec.getLsbD_and, BitVec.getLsbD_twoPow]
      by_cases hki : i = k
      · subst hki; simp [h]
      · simp [hki]
    simp [this]
  · have : x &&& BitVec.twoPow w i ≠ 0 := by
      intro h0
      have := congrArg (fun y => y.getLsbD i) h0
      rw [BitVec.getLsbD_eq_getElem hi] at h
      simp [hi, h] at this
    exact decide_eq_true this

theorem glue (v : BitVec 16) : v.extractLsb' 8 8 ++ v.extractLsb' 0 8 = v := by
  apply BitVec.eq_of_getLsbD_eq
  intro k hk
  rw [BitVec.getLsbD_append]
  by_cases h : k < 8
  · simp [h]
  · simp only [h, decide_false, BitVec.getLsbD_extractLsb']
    have h1 : 8 + (k - 8) = k := by omega
    have h2 : k - 8 < 8 := by omega
    simp [h1, h2]

theorem word_put (f : Nat → BitVec 8) (a : Nat) (v : BitVec 16) : word (putWord f a v) a = v := by
  unfold word putWord
  rw [Function.update_self, Function.update_of_ne (by omega), Function.update_self, glue]

theorem word_put_ne (f : Nat → BitVec 8) (a b : Nat) (v : BitVec 16) (h : b + 1 < a ∨ a + 1 < b) :
    word (putWord f a v) b = word f b := by
  unfold word putWord
  rw [Function.update_of_ne (by omega), Function.update_of_ne (by omega), Function.update_of_ne (by omega),
    Function.update_of_ne (by omega)]

/-- A write of two bytes below the interrupt registers is a write of a word. -/
theorem chip_write (f : Nat → BitVec 8) (r : Nat) (v : BitVec 16) (h : r + 1 < 0x0E) :
    Mcp.chipWrite (Mcp.chipWrite f r (v.extractLsb' 0 8)) (r + 1) (v.extractLsb' 8 8) = putWord f r v := by
  unfold Mcp.chipWrite putWord
  rw [if_neg (by omega), if_neg (by omega), if_neg (by omega), if_neg (by omega)]

/-- A write of two bytes to OLAT is a write of a word. -/
theorem chip_write_olat (f : Nat → BitVec 8) (v : BitVec 16) :
    Mcp.chipWrite (Mcp.chipWrite f 0x14 (v.extractLsb' 0 8)) (0x14 + 1) (v.extractLsb' 8 8) = putWord f 0x14 v := by
  unfold Mcp.chipWrite putWord
  rw [if_neg (by omega), if_neg (by omega), if_neg (by omega), if_neg (by omega)]

/-- A write of two bytes to GPIO ends in OLAT. -/
theorem chip_write_gpio (f : Nat → BitVec 8) (v : BitVec 16) :
    Mcp.chipWrite (Mcp.chipWrite f 0x12 (v.extractLsb' 0 8)) (0x12 + 1) (v.extractLsb' 8 8) = putWord f 0x14 v := by
  unfold Mcp.chipWrite putWord
  rw [if_pos (by omega), if_pos (by omega)]

theorem wr (ok : Bool) (r : Nat) (v : BitVec 16) (s : Mcp) (h : r + 1 < 0x0E) :
    Mcp.write16 ok r v s = if ok then { s with chip := putWord s.chip r v } else s := by
  unfold Mcp.write16; rw [chip_write _ _ _ h]

theorem wr_olat (ok : Bool) (v : BitVec 16) (s : Mcp) :
    Mcp.write16 ok 0x14 v s = if ok then { s with chip := putWord s.chip 0x14 v } else s := by
  unfold Mcp.write16; rw [chip_write_olat]

theorem wr_gpio (ok : Bool) (v : BitVec 16) (s : Mcp) :
    Mcp.write16 ok 0x12 v s = if ok then { s with chip := putWord s.chip 0x14 v } else s := by
  unfold Mcp.write16; rw [chip_write_gpio]

theorem wr_buffer (ok : Bool) (r : Nat) (v : BitVec 16) (s : Mcp) : (Mcp.write16 ok r v s).buffer = s.buffer := by
  unfold Mcp.write16; split <;> rfl

theorem read_chip (ok : Bool) (ext : BitVec 16) (r o n : Nat) (s : Mcp) :
    (Mcp.read ok ext r o n s).chip = s.chip := by
  unfold Mcp.read; split <;> rfl

theorem read_word_ne (ok : Bool) (ext : BitVec 16) (r o n b : Nat) (s : Mcp) (h : b + 1 < o ∨ o + n ≤ b) :
    word (Mcp.read ok ext r o n s).buffer b = word s.buffer b := by
  unfold Mcp.read word
  split
  · simp only
    rw [if_neg (by omega), if_neg (by omega)]
  · rfl

/-- Reading a word other than GPIO gives what the chip holds. -/
theorem read_word (ext : BitVec 16) (r o n b : Nat) (s : Mcp) (h : o ≤ b ∧ b + 1 < o + n)
    (hg : r + (b - o) + 1 < 0x12 ∨ 0x13 < r + (b - o)) :
    word (Mcp.read true ext r o n s).buffer b = word s.chip (r + (b - o)) := by
  have e : r + (b + 1 - o) = r + (b - o) + 1 := by omega
  simp only [Mcp.read, word, if_true]
  rw [if_pos (by omega), if_pos (by omega), e]
  unfold Mcp.chipRead
  rw [if_neg (by omega), if_neg (by omega), if_neg (by omega), if_neg (by omega)]

/-- Reading GPIO gives the wires, inverted where asked for. -/
theorem read_gpio (ext : BitVec 16) (r o n b : Nat) (s : Mcp) (h : o ≤ b ∧ b + 1 < o + n) (hg : r + (b - o) = 0x12) :
    word (Mcp.read true ext r o n s).buffer b = Mcp.wires s.chip ext ^^^ word s.chip Mcp.IPOL := by
  have e : r + (b + 1 - o) = 0x13 := by omega
  simp only [Mcp.read, word, if_true]
  rw [if_pos (by omega), if_pos (by omega), e, hg]
  simp only [Mcp.chipRead, if_true]
  rw [if_neg (by omega)]
  exact glue _

end Lemmas.GpioExpander
