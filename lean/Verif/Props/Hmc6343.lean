import Verif.Model.Hmc6343
/-!
C379, C380: the compass HMC6343.
-/

set_option autoImplicit false

namespace Props.Hmc6343
open Model.Hmc6343

/-- The number `k` that is posted after a command, high byte first. -/
def posted (s : State) (cmd : Byte) (k : Nat) : Nat := 256 * (s.post cmd (2 * k)).toNat + (s.post cmd (2 * k + 1)).toNat

theorem append_toNat (h l : Byte) : (h ++ l).toNat = 256 * h.toNat + l.toNat := by
  rw [BitVec.toNat_append, ← Nat.shiftLeft_add_eq_or_of_lt l.isLt, Nat.shiftLeft_eq]
  omega

theorem readPostData_eq (s : State) (cmd : Byte) (o n : Nat) :
    (readPostData s cmd o n).2 = (s.ack 0 && s.ack 1) ∧ (readPostData s cmd o n).1.eeprom = s.eeprom
    ∧ (readPostData s cmd o n).1.data = (if (s.ack 0 && s.ack 1) = true then (fun i => if o ≤ i ∧ i < o + n then s.post cmd (i - o) else s.data i) else s.data) := by
  unfold readPostData writeCommand startWrite
  cases h0 : s.ack 0 <;> cases h1 : s.ack 1 <;> simp [h0, h1, receive, List.range, List.range.loop]

/-- What a call that reads six bytes does to the data. -/
def reads (s : State) (r : State × Bool) (cmd : Byte) (index : Nat) : Prop :=
  r.2 = (s.ack 0 && s.ack 1) ∧ r.1.eeprom = s.eeprom
  ∧ (r.2 = true → ∀ k, k < 3 → (swapData r.1 (index + k)).toNat = posted s cmd k)
  ∧ (∀ j, (r.2 = false ∨ j < index ∨ index + 3 ≤ j) → swapData r.1 j = swapData s j)

theorem reads_six (s : State) (cmd : Byte) (index : Nat) : reads s (readPostData s cmd (2 * index) 6) cmd index := by
  obtain ⟨h1, h2, h3⟩ := readPostData_eq s cmd (2 * index) 6
  refine ⟨h1, h2, ?_, ?_⟩
  · intro h k hk
    rw [h1] at h
    rw [swapData, append_toNat, h3, if_pos h, posted]
    rw [if_pos (by omega), if_pos (by omega), show 2 * (index + k) - 2 * index = 2 * k by omega,
      show 2 * (index + k) + 1 - 2 * index = 2 * k + 1 by omega]
  · intro j hj
    rw [swapData, swapData, h3]
    by_cases h : (s.ack 0 && s.ack 1) = true
    · rw [if_pos h]
      rw [h1, h] at hj
      have hj : j < index ∨ index + 3 ≤ j := by simpa using hj
      rw [if_neg (by omega), if_neg (by omega)]
    · rw [if_neg h]

/-- C379: `readAcceleration()`, `readMagneticField()`, `readHeading()` and `readTilt()` return whether both transfers were acknowledged; if so
their three values (0–2, 3–5, 6–8 and 7–9) are those that the compass posts, and the others are unchanged; else all are unchanged. -/
theorem C379_values (s : State) :
    reads s (readAcceleration s) 0x40#8 0 ∧ reads s (readMagneticField s) 0x45#8 3 ∧ reads s (readHeading s) 0x50#8 6
    ∧ reads s (readTilt s) 0x55#8 7 :=
  ⟨reads_six s _ 0, reads_six s _ 3, reads_six s _ 6, reads_six s _ 7⟩

/-- C379: `readOperationMode()` reads the mode, and changes none of the values. -/
theorem C379_mode (s : State) :
    (readOperationMode s).2 = (s.ack 0 && s.ack 1) ∧ ((readOperationMode s).2 = true → (readOperationMode s).1.data 20 = s.post 0x65#8 0)
    ∧ ∀ j, j < 10 → swapData (readOperationMode s).1 j = swapData s j := by
  obtain ⟨h1, h2, h3⟩ := readPostData_eq s 0x65#8 20 1
  refine ⟨h1, ?_, ?_⟩
  · intro h
    have h' : (s.ack 0 && s.ack 1) = true := h1.symm.trans h
    show (readPostData s 0x65#8 20 1).1.data 20 = _
    rw [h3, if_pos h']
    rfl
  · intro j hj
    show swapData (readPostData s 0x65#8 20 1).1 j = _
    rw [swapData, swapData, h3]
    by_cases h : (s.ack 0 && s.ack 1) = true
    · rw [if_pos h]
      rw [if_neg (by omega), if_neg (by omega)]
    · rw [if_neg h]

theorem writeRegister_eq (s : State) (r v : Byte) :
    (writeRegister s r v).2 = s.ack 0 ∧ (writeRegister s r v).1.data = s.data ∧ (writeRegister s r v).1.buffer 3 = s.buffer 3
    ∧ (writeRegister s r v).1.ack = (fun k => s.ack (k + 1))
    ∧ (writeRegister s r v).1.eeprom = (if s.ack 0 = true then Function.update s.eeprom r.toNat v else s.eeprom) := by
  unfold writeRegister startWrite
  cases h : s.ack 0 <;> simp [h, receive, List.range, List.range.loop]

theorem write16 (s : State) (r : Byte) (hr : r.toNat < 255) (v : BitVec 16) :
    (writeRegister16 s r v).2 = (s.ack 0 && s.ack 1) ∧ (writeRegister16 s r v).1.data = s.data
    ∧ ((writeRegister16 s r v).2 = true →
        ((writeRegister16 s r v).1.eeprom r.toNat).toNat + 256 * ((writeRegister16 s r v).1.eeprom (r.toNat + 1)).toNat = v.toNat)
    ∧ ∀ i, i ≠ r.toNat → i ≠ r.toNat + 1 → (writeRegister16 s r v).1.eeprom i = s.eeprom i := by
  have hn : (r + 1#8).toNat = r.toNat + 1 := by
    rw [BitVec.toNat_add]; simp; omega
  have split : (v.setWidth 8 : Byte).toNat + 256 * ((v >>> 8).setWidth 8 : Byte).toNat = v.toNat := by
    have := v.isLt
    simp only [BitVec.toNat_setWidth, BitVec.toNat_ushiftRight, Nat.shiftRight_eq_div_pow]
    omega
  unfold writeRegister16
  simp only
  generalize hs : ({ s with buffer := Function.update (Function.update s.buffer 2 (v.setWidth 8)) 3 ((v >>> 8).setWidth 8) } : State) = s1
  have hb2 : Function.update (Function.update s.buffer 2 (v.setWidth 8)) 3 ((v >>> 8).setWidth 8) 2 = (v.setWidth 8 : Byte) := by
    simp [Function.update]
  rw [hb2]
  obtain ⟨a1, a2, a3, a4, a5⟩ := writeRegister_eq s1 r (v.setWidth 8)
  have e0 : s1.ack = s.ack := by rw [← hs]
  have e1 : s1.data = s.data := by rw [← hs]
  have e2 : s1.eeprom = s.eeprom := by rw [← hs]
  have e3 : s1.buffer 3 = ((v >>> 8).setWidth 8 : Byte) := by rw [← hs]; simp
  rw [e0] at a1 a4 a5
  rw [e1] at a2
  rw [e3] at a3
  rw [e2] at a5
  cases h0 : s.ack 0
  · rw [a1, h0]
    simp only [Bool.false_eq_true, if_false, Bool.false_and]
    refine ⟨trivial, a2, fun h => absurd h (by simp), ?_⟩
    intro i _ _
    rw [a5, h0]; simp
  · rw [a1, h0]
    simp only [if_true, Bool.true_and]
    rw [a3]
    obtain ⟨b1, b2, _, _, b5⟩ := writeRegister_eq (writeRegister s1 r (v.setWidth 8)).1 (r + 1#8) ((v >>> 8).setWidth 8)
    rw [a4] at b1 b5
    rw [a5, h0, if_pos rfl, hn] at b5
    refine ⟨b1, b2.trans a2, ?_, ?_⟩
    · intro h
      rw [b1] at h
      rw [b5, if_pos h, Function.update_self, Function.update_of_ne (by omega), Function.update_self, split]
    · intro i hi hi'
      rw [b5]
      split
      · rw [Function.update_of_ne hi', Function.update_of_ne hi]
      · rw [Function.update_of_ne hi]

/-- C380: the angles, the rate and the filter are stored in the EEPROM as asked for if the call returns true, and nothing else is changed. -/
theorem C380_written (s : State) :
    (∀ v, (setDeviationAngle s v).2 = (s.ack 0 && s.ack 1)
        ∧ ((setDeviationAngle s v).2 = true → ((setDeviationAngle s v).1.eeprom 10).toNat + 256 * ((setDeviationAngle s v).1.eeprom 11).toNat = v.toNat)
        ∧ ∀ i, i ≠ 10 → i ≠ 11 → (setDeviationAngle s v).1.eeprom i = s.eeprom i)
    ∧ (∀ v, (setVariationAngle s v).2 = (s.ack 0 && s.ack 1)
        ∧ ((setVariationAngle s v).2 = true → ((setVariationAngle s v).1.eeprom 12).toNat + 256 * ((setVariationAngle s v).1.eeprom 13).toNat = v.toNat)
        ∧ ∀ i, i ≠ 12 → i ≠ 13 → (setVariationAngle s v).1.eeprom i = s.eeprom i)
    ∧ (∀ v, (setMeasurementRate s v).2 = s.ack 0 ∧ ((setMeasurementRate s v).2 = true → (setMeasurementRate s v).1.eeprom 5 = v)
        ∧ ∀ i, i ≠ 5 → (setMeasurementRate s v).1.eeprom i = s.eeprom i)
    ∧ (∀ v : Byte, v.toNat < 16 → (setIIRFilter s v).2 = s.ack 0 ∧ ((setIIRFilter s v).2 = true → (setIIRFilter s v).1.eeprom 20 = v)
        ∧ ∀ i, i ≠ 20 → (setIIRFilter s v).1.eeprom i = s.eeprom i) := by
  have single : ∀ (r : Byte) (v : Byte), (writeRegister s r v).2 = s.ack 0 ∧ ((writeRegister s r v).2 = true → (writeRegister s r v).1.eeprom r.toNat = v)
      ∧ ∀ i, i ≠ r.toNat → (writeRegister s r v).1.eeprom i = s.eeprom i := by
    intro r v
    obtain ⟨a1, _, _, _, a5⟩ := writeRegister_eq s r v
    refine ⟨a1, ?_, ?_⟩
    · intro h; rw [a1] at h; rw [a5, if_pos h, Function.update_self]
    · intro i hi
      rw [a5]; split
      · rw [Function.update_of_ne hi]
      · rfl
  refine ⟨fun v => ?_, fun v => ?_, fun v => single 0x05#8 v, fun v hv => ?_⟩
  · obtain ⟨h1, _, h3, h4⟩ := write16 s 0x0a#8 (by decide) v
    exact ⟨h1, h3, h4⟩
  · obtain ⟨h1, _, h3, h4⟩ := write16 s 0x0c#8 (by decide) v
    exact ⟨h1, h3, h4⟩
  · have hm : v &&& 0x0f#8 = v := by
      apply BitVec.eq_of_toNat_eq
      rw [BitVec.toNat_and]
      show v.toNat &&& (2 ^ 4 - 1) = _
      rw [Nat.and_two_pow_sub_one_eq_mod]
      omega
    have := single 0x14#8 (v &&& 0x0f#8)
    rw [hm] at this
    unfold setIIRFilter
    rw [hm]
    exact this

theorem readRegister_eq (s : State) (r : Byte) :
    (readRegister s r).2 = (if (s.ack 0 && s.ack 1) = true then some (s.eeprom r.toNat) else none)
    ∧ (readRegister s r).1.eeprom = s.eeprom ∧ (readRegister s r).1.data = s.data
    ∧ (readRegister s r).1.buffer 2 = s.buffer 2
    ∧ ((s.ack 0 && s.ack 1) = true → (readRegister s r).1.ack = fun k => s.ack (k + 2)) := by
  unfold readRegister startWrite
  cases h0 : s.ack 0 <;> cases h1 : s.ack 1 <;> simp [h0, h1, receive, List.range, List.range.loop, Function.update]

/-- C380: `getIIR_Filter()` and `getDeviceId()` give what the EEPROM has if all transfers are acknowledged, and else return false. -/
theorem C380_read (s : State) :
    (getIIRFilter s).2 = (if (s.ack 0 && s.ack 1) = true then some (s.eeprom 20) else none)
    ∧ (getDeviceId s).2 = (if (s.ack 0 && s.ack 1 && s.ack 2 && s.ack 3) = true then some (s.eeprom 7 ++ s.eeprom 6) else none) := by
  refine ⟨(readRegister_eq s 0x14#8).1, ?_⟩
  unfold getDeviceId readRegister16
  obtain ⟨a1, a2, a3, a4, a5⟩ := readRegister_eq s 0x06#8
  generalize readRegister s 0x06#8 = p at *
  obtain ⟨s1, v1⟩ := p
  simp only at a1 a2 a3 a4 a5
  subst a1
  cases h : (s.ack 0 && s.ack 1)
  · simp
  · simp only [if_true, Bool.true_and]
    obtain ⟨b1, b2, b3, b4, b5⟩ := readRegister_eq { s1 with buffer := Function.update s1.buffer 2 (s.eeprom (0x06#8).toNat) } (0x06#8 + 1#8)
    generalize readRegister { s1 with buffer := Function.update s1.buffer 2 (s.eeprom (0x06#8).toNat) } (0x06#8 + 1#8) = q at *
    obtain ⟨s2, v2⟩ := q
    simp only at b1 b2 b3 b4 b5
    rw [a5 h, a2] at b1
    subst b1
    simp only [Function.update_self] at b4
    cases k : (s.ack 2 && s.ack 3)
    · simp [k]
    · simp [k, Function.update, b4]

def compass : State := ⟨fun c i => c + BitVec.ofNat 8 i, fun i => BitVec.ofNat 8 (i * 5), fun _ => 0#8, fun _ => true, fun _ => 0#8, fun _ => 0#8⟩

example : let a := (readTilt compass).1; (swapData a 6, swapData a 7, swapData a 9) = (0#16, 0x5556#16, 0x595a#16)
    ∧ (setDeviationAngle compass 0xfff6#16).1.eeprom 10 = 0xf6#8 ∧ (setDeviationAngle compass 0xfff6#16).1.eeprom 11 = 0xff#8
    ∧ (getDeviceId compass).2 = some 0x231e#16 := by decide +kernel

/-- If the second transfer fails, the angle is half written, and the call returns false. -/
example : let a := setDeviationAngle { compass with ack := fun n => decide (n = 0) } 0x0102#16; a.2 = false ∧ a.1.eeprom 10 = 2#8 ∧ a.1.eeprom 11 = 55#8 := by
  decide +kernel

end Props.Hmc6343
