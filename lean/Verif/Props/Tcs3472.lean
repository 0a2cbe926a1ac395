import Verif.Model.Tcs3472
/-!
C377, C378: the colour sensor TCS3472.
-/

set_option autoImplicit false

namespace Props.Tcs3472
open Model.Tcs3472

/-- All registers but those in the list, the interrupt and the data are unchanged. -/
def keeps (s s' : State) (l : List Nat) : Prop := (∀ r, r ∉ l → s'.regs r = s.regs r) ∧ s'.interrupt = s.interrupt ∧ s'.data = s.data

theorem write_eq (s : State) (a : Nat) (h : a < 32) (v : Byte) : writeRegister s (BitVec.ofNat 8 a) v
    = (⟨if s.ack 0 then Function.update s.regs a v else s.regs, s.interrupt, fun n => s.ack (n + 1), s.data⟩, s.ack 0) := by
  have t : ∀ a : Fin 32, (0x80#8 ||| BitVec.ofNat 8 a.val) &&& 0xe0#8 = 0x80#8 ∧ ((0x80#8 ||| BitVec.ofNat 8 a.val) &&& 0x1f#8).toNat = a.val := by
    decide +kernel
  obtain ⟨t1, t2⟩ := t ⟨a, h⟩
  simp only at t1 t2
  unfold writeRegister transfer
  cases hk : s.ack 0
  · simp
  · simp only [receive, t1, t2, if_true]

theorem one (s : State) (a : Nat) (h : a < 32) (v : Byte) : (writeRegister s (BitVec.ofNat 8 a) v).2 = s.ack 0
    ∧ ((writeRegister s (BitVec.ofNat 8 a) v).2 = true → (writeRegister s (BitVec.ofNat 8 a) v).1.regs a = v)
    ∧ keeps s (writeRegister s (BitVec.ofNat 8 a) v).1 [a] := by
  rw [write_eq s a h v]
  refine ⟨rfl, ?_, ?_, rfl, rfl⟩
  · intro hk
    simp only at hk
    simp [hk]
  · intro r hr
    have : r ≠ a := by simpa using hr
    cases hk : s.ack 0
    · simp
    · simp [Function.update_of_ne this]

theorem two (s : State) (a b : Nat) (ha : a < 32) (hb : b < 32) (hne : a ≠ b) (v w : Byte) (c : State × Bool)
    (hc : c = both (writeRegister s (BitVec.ofNat 8 a) v) fun s => writeRegister s (BitVec.ofNat 8 b) w) :
    c.2 = (s.ack 0 && s.ack 1) ∧ (c.2 = true → c.1.regs a = v ∧ c.1.regs b = w) ∧ keeps s c.1 [a, b] := by
  subst hc
  rw [write_eq s a ha v]
  cases h0 : s.ack 0
  · simp [both, keeps]
  · simp only [both, if_true, write_eq _ b hb w, Bool.true_and]
    refine ⟨trivial, ?_, ?_, rfl, rfl⟩
    · intro h1
      have h1' : s.ack 1 = true := h1
      simp [h1', Function.update_of_ne hne]
    · intro r hr
      have h2 : r ≠ a ∧ r ≠ b := by simpa using hr
      cases h1 : s.ack (0 + 1)
      · simp [Function.update_of_ne h2.1]
      · simp [Function.update_of_ne h2.1, Function.update_of_ne h2.2]

/-- C377: calls return whether all their transfers were acknowledged; if so, the sensor has the flags, the gain, the times, the filter or
the threshold asked for, with the low byte in the first register; nothing else is changed. -/
theorem C377_registers (s : State) :
    (∀ v, (init s v).2 = s.ack 0 ∧ ((init s v).2 = true → (init s v).1.regs 0 = v) ∧ keeps s (init s v).1 [0])
    ∧ (∀ v, (setGain s v).2 = s.ack 0 ∧ ((setGain s v).2 = true → (setGain s v).1.regs 15 = v) ∧ keeps s (setGain s v).1 [15])
    ∧ (∀ v, (setIntegrationTime s v).2 = s.ack 0 ∧ ((setIntegrationTime s v).2 = true → (setIntegrationTime s v).1.regs 1 = v)
        ∧ keeps s (setIntegrationTime s v).1 [1])
    ∧ (∀ v, (setInterruptPersistenceFilter s v).2 = s.ack 0
        ∧ ((setInterruptPersistenceFilter s v).2 = true → (setInterruptPersistenceFilter s v).1.regs 12 = v)
        ∧ keeps s (setInterruptPersistenceFilter s v).1 [12])
    ∧ (∀ g t, (configure s g t).2 = (s.ack 0 && s.ack 1)
        ∧ ((configure s g t).2 = true → (configure s g t).1.regs 15 = g ∧ (configure s g t).1.regs 1 = t) ∧ keeps s (configure s g t).1 [15, 1])
    ∧ (∀ t l, (setWaitTime s t l).2 = (s.ack 0 && s.ack 1)
        ∧ ((setWaitTime s t l).2 = true → (setWaitTime s t l).1.regs 13 = (if l then 2#8 else 0#8) ∧ (setWaitTime s t l).1.regs 3 = t)
        ∧ keeps s (setWaitTime s t l).1 [13, 3])
    ∧ (∀ t, (setInterruptLowThreshold s t).2 = (s.ack 0 && s.ack 1)
        ∧ ((setInterruptLowThreshold s t).2 = true →
            ((setInterruptLowThreshold s t).1.regs 4).toNat + 256 * ((setInterruptLowThreshold s t).1.regs 5).toNat = t.toNat)
        ∧ keeps s (setInterruptLowThreshold s t).1 [4, 5])
    ∧ (∀ t, (setInterruptHighThreshold s t).2 = (s.ack 0 && s.ack 1)
        ∧ ((setInterruptHighThreshold s t).2 = true →
            ((setInterruptHighThreshold s t).1.regs 6).toNat + 256 * ((setInterruptHighThreshold s t).1.regs 7).toNat = t.toNat)
        ∧ keeps s (setInterruptHighThreshold s t).1 [6, 7]) := by
  have split : ∀ t : BitVec 16, (t.setWidth 8 : Byte).toNat + 256 * ((t >>> 8).setWidth 8 : Byte).toNat = t.toNat := by
    intro t
    have := t.isLt
    simp only [BitVec.toNat_setWidth, BitVec.toNat_ushiftRight, Nat.shiftRight_eq_div_pow]
    omega
  refine ⟨fun v => one s 0 (by omega) v, fun v => one s 15 (by omega) v, fun v => one s 1 (by omega) v, fun v => one s 12 (by omega) v,
    fun g t => two s 15 1 (by omega) (by omega) (by omega) g t _ rfl, fun t l => ?_, fun t => ?_, fun t => ?_⟩
  · have h := two s 13 3 (by omega) (by omega) (by omega) (if l then 1#8 <<< 1 else 0#8) t (setWaitTime s t l) rfl
    refine ⟨h.1, fun k => ⟨?_, (h.2.1 k).2⟩, h.2.2⟩
    rw [(h.2.1 k).1]; cases l <;> rfl
  · have h := two s 4 5 (by omega) (by omega) (by omega) (t.setWidth 8) ((t >>> 8).setWidth 8) (setInterruptLowThreshold s t) rfl
    exact ⟨h.1, fun k => by rw [(h.2.1 k).1, (h.2.1 k).2, split], h.2.2⟩
  · have h := two s 6 7 (by omega) (by omega) (by omega) (t.setWidth 8) ((t >>> 8).setWidth 8) (setInterruptHighThreshold s t) rfl
    exact ⟨h.1, fun k => by rw [(h.2.1 k).1, (h.2.1 k).2, split], h.2.2⟩

/-- C377: `readColor()` gives the colours in the registers of the sensor, or returns false and changes nothing; `reloadInterrupt()` clears
the interrupt and changes nothing else. -/
theorem C377_colors (s : State) :
    (readColor s).2 = s.ack 0 ∧ (readColor s).1.regs = s.regs ∧ (readColor s).1.interrupt = s.interrupt
    ∧ (s.ack 0 = false → (readColor s).1.data = s.data) ∧ (∀ i, 8 ≤ i → (readColor s).1.data i = s.data i)
    ∧ (s.ack 0 = true →
        (getClear (readColor s).1).toNat = (s.regs 0x14).toNat + 256 * (s.regs 0x15).toNat
        ∧ (getRed (readColor s).1).toNat = (s.regs 0x16).toNat + 256 * (s.regs 0x17).toNat
        ∧ (getGreen (readColor s).1).toNat = (s.regs 0x18).toNat + 256 * (s.regs 0x19).toNat
        ∧ (getBlue (readColor s).1).toNat = (s.regs 0x1a).toNat + 256 * (s.regs 0x1b).toNat)
    ∧ (reloadInterrupt s).2 = s.ack 0 ∧ (reloadInterrupt s).1.regs = s.regs ∧ (reloadInterrupt s).1.data = s.data
    ∧ (reloadInterrupt s).1.interrupt = (s.interrupt && !s.ack 0) := by
  have app : ∀ h l : Byte, (h ++ l).toNat = l.toNat + 256 * h.toNat := by
    intro h l
    rw [BitVec.toNat_append, ← Nat.shiftLeft_add_eq_or_of_lt l.isLt, Nat.shiftLeft_eq]
    omega
  cases h : s.ack 0
  · simp [readColor, reloadInterrupt, transfer, h]
  · have e : (readColor s).1.data = fun i => if i < 8 then s.regs (0x14 + i) else s.data i := by
      simp [readColor, h, send]
    refine ⟨by simp [readColor, h], by simp [readColor, h], by simp [readColor, h], fun k => absurd k (by decide), ?_, fun _ => ?_,
      by simp [reloadInterrupt, transfer, h], by simp [reloadInterrupt, transfer, h, receive], by simp [reloadInterrupt, transfer, h, receive],
      by simp [reloadInterrupt, transfer, h, receive]⟩
    · intro i hi
      rw [e]; exact if_neg (by omega)
    · simp only [getGreen, getRed, getBlue, getClear, getValue, app, e]
      simp

def sensor : State := ⟨fun r => BitVec.ofNat 8 (r * 3), true, fun n => decide (n ≠ 2), fun _ => 0#8⟩

example : let a := setInterruptLowThreshold sensor 0x1234#16; a.2 = true ∧ a.1.regs 4 = 0x34#8 ∧ a.1.regs 5 = 0x12#8
    ∧ (reloadInterrupt a.1).2 = false ∧ (getRed (readColor sensor).1) = 0x4542#16 := by decide +kernel

/-- C378 (partial): the modes offered have the sensor on and measuring, and the modes with interrupts have them enabled.  Missing: waiting. -/
theorem C378_modes_partial : pollingMode = 0x03#8 ∧ interruptMode = 0x13#8
    ∧ interruptModeWaittime &&& 0x13#8 = 0x13#8 := by decide

/-- C378 (false): in the mode with a waiting time the sensor does not wait: it is the same mode as that without. -/
theorem C378_wait_counterexample (s : State) (h : s.ack 0 = true) :
    (init s interruptModeWaittime).2 = true ∧ (init s interruptModeWaittime).1.regs 0 &&& WAIT_ENABLE = 0#8
    ∧ (init s interruptModeWaittime).1.regs 0 = (init s interruptMode).1.regs 0 := by
  have h1 := one s 0 (by omega) interruptModeWaittime
  have h2 := one s 0 (by omega) interruptMode
  have e1 : (init s interruptModeWaittime).1.regs 0 = interruptModeWaittime := h1.2.1 (h1.1.trans h)
  have e2 : (init s interruptMode).1.regs 0 = interruptMode := h2.2.1 (h2.1.trans h)
  rw [e1, e2]
  exact ⟨h1.1.trans h, by decide, by decide⟩

end Props.Tcs3472
