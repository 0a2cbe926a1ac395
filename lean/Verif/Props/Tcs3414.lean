import Verif.Model.Tcs3414
/-!
C375, C376: the colour sensor TCS3414.
-/

set_option autoImplicit false

namespace Props.Tcs3414
open Model.Tcs3414

/-- C375 (partial): a call of `writeRegister()` returns whether the sensor acknowledged, and no other register is changed.  Missing: the
register is changed. -/
theorem C375_others_partial (s : State) (a v : Byte) :
    (writeRegister s a v).2 = s.present ∧ ∀ r, r ≠ a.toNat → (writeRegister s a v).1.regs r = s.regs r := by
  unfold writeRegister
  cases h : s.present <;> simp [receive, store, List.range, List.range.loop]

/-- C375 (false): a sensor that acknowledges never receives the value, whatever the register, so that it is neither switched on nor
set to a gain or a time, though the calls return true. -/
theorem C375_value_counterexample (s : State) (h : s.present = true) :
    (∀ a v, (writeRegister s a v).2 = true ∧ (writeRegister s a v).1.regs = s.regs)
    ∧ ((init s).2 = true ∧ (init s).1.regs = s.regs)
    ∧ (∀ g p, (setGain s g p).2 = true ∧ (setGain s g p).1.regs = s.regs)
    ∧ (∀ m t, (setIntegrationTime s m t).2 = true ∧ (setIntegrationTime s m t).1.regs = s.regs) := by
  have key : ∀ a v, (writeRegister s a v).2 = true ∧ (writeRegister s a v).1.regs = s.regs := by
    intro a v
    unfold writeRegister
    simp [h, receive, store, List.range, List.range.loop]
  exact ⟨key, key _ _, fun _ _ => key _ _, fun _ _ => key _ _⟩

/-- A sensor that is off, with colours. -/
def sensor : State := ⟨fun r => if r = 0 then 0#8 else BitVec.ofNat 8 (r * 3), 8#8, true, fun _ => 0#8, fun _ => 0x55#8⟩

example : (init sensor).2 = true ∧ (init sensor).1.regs 0 = 0#8 := by decide +kernel

/-- The sensor would store a value that is sent: it is the driver that does not send it. -/
example : receive sensor.regs [0xc0#8, 1#8, 0b11#8] 0 = 0b11#8 := by decide +kernel

/-- C376 (partial): after `readColor()` of a sensor that acknowledges, the colours are those of the registers with the low byte first,
and it returns true; otherwise it returns false and the colours are unchanged.  The registers are unchanged, and so is the memory
but for `Data` and the byte that follows it.  Missing: that byte. -/
theorem C376_colors_partial (s : State) :
    (readColor s).2 = s.present ∧ (readColor s).1.regs = s.regs
    ∧ (s.present = true →
        (getGreen (readColor s).1).toNat = (s.regs 0x10).toNat + 256 * (s.regs 0x11).toNat
        ∧ (getRed (readColor s).1).toNat = (s.regs 0x12).toNat + 256 * (s.regs 0x13).toNat
        ∧ (getBlue (readColor s).1).toNat = (s.regs 0x14).toNat + 256 * (s.regs 0x15).toNat
        ∧ (getClear (readColor s).1).toNat = (s.regs 0x16).toNat + 256 * (s.regs 0x17).toNat)
    ∧ (s.present = false → (readColor s).1.mem = s.mem)
    ∧ ∀ i, 10 < i → (readColor s).1.mem i = s.mem i := by
  have app : ∀ h l : Byte, (h ++ l).toNat = l.toNat + 256 * h.toNat := by
    intro h l
    rw [BitVec.toNat_append, Nat.shiftLeft_eq, ← Nat.shiftLeft_eq, ← Nat.shiftLeft_add_eq_or_of_lt l.isLt, Nat.shiftLeft_eq]
    omega
  cases h : s.present
  · have e : readColor s = ({ s with buffer := Function.update s.buffer 0 (0x80#8 ||| 0x40#8 ||| 0x10#8) }, false) := by
      unfold readColor readRegisters; simp [h]
    rw [e]
    exact ⟨rfl, rfl, fun h => absurd h (by decide), fun _ => rfl, fun _ _ => rfl⟩
  · have e : (readColor s).2 = true ∧ (readColor s).1.regs = s.regs ∧ (readColor s).1.mem
        = fun i => if 1 ≤ i ∧ i < 11 then (if i - 1 = 0 then s.count else s.regs (0x10 + (i - 1 - 1))) else s.mem i := by
      unfold readColor readRegisters; simp [h, send]
    obtain ⟨e1, e2, e3⟩ := e
    refine ⟨e1, e2, fun _ => ?_, fun h => absurd h (by decide), ?_⟩
    · simp only [getGreen, getRed, getBlue, getClear, getValue, app, e3]
      simp
    · intro i hi
      rw [e3]
      exact if_neg (by omega)

example : (getRed (readColor sensor).1, getClear (readColor sensor).1) = (0x3936#16, 0x4542#16) := by decide +kernel

/-- C376 (false in general): the byte after `Data` is overwritten. -/
theorem C376_beyond_counterexample : sensor.mem 10 = 0x55#8 ∧ (readColor sensor).1.mem 10 = 0x48#8 := by decide +kernel

end Props.Tcs3414
