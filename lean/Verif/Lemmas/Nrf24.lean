import Verif.Model.Nrf24

set_option autoImplicit false

/-! # Registers of the nRF24L01+ one by one -/

namespace Modm.Nrf24

/-- Registers of one byte that can be written. -/
def Plain (r : Byte) : Prop := r < 0x20 ∧ r ≠ 0x07 ∧ r ≠ 0x08 ∧ r ≠ 0x09 ∧ r ≠ 0x0a ∧ r ≠ 0x0b ∧ r ≠ 0x10 ∧ r ≠ 0x17

instance (r : Byte) : Decidable (Plain r) := by unfold Plain; infer_instance

private theorem cmd : ∀ r : Byte, r < 0x20 → ¬((0x20 ||| r) < 0x20) ∧ (0x20 ||| r) < 0x40 ∧ (0x20 ||| r) &&& 0x1f = r ∧ 0x00 ||| r = r := by decide +kernel

theorem fit_one (x : Byte) : fit 1 [x] = [x] := rfl

theorem readRegister_plain {r : Byte} (h : Plain r) (d : Dev) : readRegister r d = (d.regs r, d) := by
  obtain ⟨h1, h2, h3, h4, h5, h6, h7, h8⟩ := h
  obtain ⟨-, -, -, c⟩ := cmd r h1
  have h34 : ¬(r = 0x08 ∨ r = 0x09) := fun h => h.elim h3 h4
  simp only [readRegister, Dev.transact, Dev.exec, c, if_pos h1, Dev.readReg, if_neg h5, if_neg h6, if_neg h7, if_neg h2, if_neg h8, if_neg h34]
  rfl

theorem writeRegister_plain {r : Byte} (h : Plain r) (b : Byte) (d : Dev) :
    writeRegister r b d = { d with regs := Function.update d.regs r b } := by
  obtain ⟨h1, h2, h3, h4, h5, h6, h7, h8⟩ := h
  obtain ⟨c1, c2, c3, -⟩ := cmd r h1
  simp only [writeRegister, Dev.transact, Dev.exec, if_neg c1, if_pos c2, c3, Dev.writeReg, if_neg h5, if_neg h6, if_neg h7, if_neg h2]
  rw [if_neg]
  exact fun h => h.elim h3 fun h => h.elim h4 h8

theorem setBits_plain {r : Byte} (h : Plain r) (f : Byte) (d : Dev) :
    setBits r f d = { d with regs := Function.update d.regs r (d.regs r ||| f) } := by
  simp only [setBits, readRegister_plain h, writeRegister_plain h]

theorem clearBits_plain {r : Byte} (h : Plain r) (f : Byte) (d : Dev) :
    clearBits r f d = { d with regs := Function.update d.regs r (d.regs r &&& ~~~f) } := by
  simp only [clearBits, readRegister_plain h, writeRegister_plain h]

theorem clearInterrupt_eq (f : Byte) (d : Dev) : clearInterrupt f d =
    { d with rxDr := d.rxDr && !f.getLsbD 6, txDs := d.txDs && !f.getLsbD 5, maxRt := d.maxRt && !f.getLsbD 4 } := rfl

theorem readStatus_eq (d : Dev) : readStatus d = (d.status, d) := rfl
theorem flushTx_eq (d : Dev) : flushTxFifo d = { d with txF := [] } := rfl
theorem flushRx_eq (d : Dev) : flushRxFifo d = { d with rxF := [] } := rfl
theorem pulseCe_eq (d : Dev) : pulseCe d = d := by simp [pulseCe]
theorem setTx_eq (x : BitVec 64) (d : Dev) : setTxAddress x d = { d with ta := addrBytes x } := rfl
theorem setRx0_eq (x : BitVec 64) (d : Dev) : setRxAddress 0 x d = { d with a0 := addrBytes x } := rfl
theorem setRx1_eq (x : BitVec 64) (d : Dev) : setRxAddress 1 x d = { d with a1 := addrBytes x } := rfl

theorem setRx_eq {p : Byte} (h : 2 ≤ p ∧ p < 6) (x : BitVec 64) (d : Dev) :
    setRxAddress p x d = { d with regs := Function.update d.regs (0x0a + p) (x.extractLsb' 0 8) } := by
  have h1 : ∀ p : Byte, 2 ≤ p ∧ p < 6 → ¬ p ≤ 1 ∧ Plain (0x0a + p) := by decide +kernel
  obtain ⟨a, b⟩ := h1 p h
  simp only [setRxAddress, if_neg a, if_pos h.2, writeRegister_plain b]

theorem readRx_cons (len : Byte) (d : Dev) (x : Nat × List Byte) (f : List (Nat × List Byte)) (h : d.rxF = x :: f) :
    readRxPayload len d = (fit len.toNat x.2, { d with rxF := f }) := by
  have c1 : ¬(0x61 : Byte) < 0x20 := by decide
  have c2 : ¬(0x61 : Byte) < 0x40 := by decide
  simp [readRxPayload, Dev.transact, Dev.exec, h]

theorem readRx_nil (len : Byte) (d : Dev) (h : d.rxF = []) : readRxPayload len d = (fit len.toNat [], d) := by
  simp [readRxPayload, Dev.transact, Dev.exec, h]

theorem writeTx_eq (len : Byte) (data : List Byte) (d : Dev) (hl : data.length ≤ len.toNat) (h : d.txF.length < 3) :
    writeTxPayload len data d = { d with txF := d.txF ++ [(false, data)] } := by
  have c1 : ¬(0xa0 : Byte) < 0x20 := by decide
  have c2 : ¬(0xa0 : Byte) < 0x40 := by decide
  simp [writeTxPayload, Nat.not_lt.mpr hl, Dev.transact, Dev.exec, h]

theorem writeTxNoAck_eq (len : Byte) (data : List Byte) (d : Dev) (hl : data.length ≤ len.toNat) (h : d.txF.length < 3)
    (hf : (d.regs 0x1d).getLsbD 0 = true) : writeTxPayloadNoAck len data d = { d with txF := d.txF ++ [(true, data)] } := by
  have c1 : ¬(0xb0 : Byte) < 0x20 := by decide
  have c2 : ¬(0xb0 : Byte) < 0x40 := by decide
  have c3 : ¬(0xb0 : Byte) = 0x61 := by decide
  have c4 : ¬(0xb0 : Byte) = 0xa0 := by decide
  have hl' : ¬ data.length > len.toNat := by omega
  simp only [writeTxPayloadNoAck, if_neg hl', Dev.transact, Dev.exec, if_neg c1, if_neg c2, if_neg c3, if_neg c4, if_true]
  rw [if_pos ⟨h, hf⟩]

theorem status_bits (d : Dev) : ((d.status &&& 0x40 ≠ 0) ↔ d.rxDr = true) ∧ ((d.status &&& 0x20 ≠ 0) ↔ d.txDs = true) ∧
    ((d.status &&& 0x10 ≠ 0) ↔ d.maxRt = true) := by
  have key : ∀ (a b c : Bool) (n : Fin 8) (e : Bool) (m : Bool), let s : Byte := (if a then 0x40 else 0) ||| (if b then 0x20 else 0) |||
      (if c then 0x10 else 0) ||| (if m then 0x0e else BitVec.ofNat 8 (2 * n.val)) ||| (if e then 1 else 0)
      ((s &&& 0x40 ≠ 0) ↔ a = true) ∧ ((s &&& 0x20 ≠ 0) ↔ b = true) ∧ ((s &&& 0x10 ≠ 0) ↔ c = true) := by decide +kernel
  have := key d.rxDr d.txDs d.maxRt
  unfold Dev.status
  cases h : d.rxF with
  | nil => simpa using this 0 (decide (d.txF.length = 3)) true
  | cons x f => simpa using this ⟨x.1 % 8, Nat.mod_lt _ (by decide)⟩ (decide (d.txF.length = 3)) false

theorem fifo_bit (d : Dev) : readRegister 0x17 d = (d.fifoStatus, d) ∧ ((d.fifoStatus &&& 0x01 = 0) ↔ d.rxF ≠ []) := by
  refine ⟨rfl, ?_⟩
  have key : ∀ (a b c e : Bool), let s : Byte := (if a then 1 else 0) ||| (if b then 2 else 0) ||| (if c then 0x10 else 0) ||| (if e then 0x20 else 0)
      ((s &&& 0x01 = 0) ↔ a = false) := by decide +kernel
  have := key (decide (d.rxF.length = 0)) (decide (d.rxF.length = 3)) (decide (d.txF.length = 0)) (decide (d.txF.length = 3))
  unfold Dev.fifoStatus
  simpa using this

end Modm.Nrf24
