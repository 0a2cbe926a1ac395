import Verif.Lemmas.Nrf24
import Verif.Spec.Nrf24
import Mathlib.Tactic.IntervalCases

set_option autoImplicit false

/-!
# Radio nRF24L01+: C294, C295, C296
-/

namespace Props.Nrf24

open Modm.Nrf24 Modm.Nrf24.Spec

/-! ## Registers -/

/-- C294: writing, setting and clearing bits of a register changes just these bits of this register, as the
following reads tell. -/
theorem C294_bits {r r' : Byte} (h : Plain r) (h' : Plain r') (b : Byte) (d : Dev) :
    (readRegister r' (writeRegister r b d)).1 = (if r' = r then b else (readRegister r' d).1) ∧
      (readRegister r' (setBits r b d)).1 = (readRegister r' d).1 ||| (if r' = r then b else 0) ∧
      (readRegister r' (clearBits r b d)).1 = (readRegister r' d).1 &&& (if r' = r then ~~~b else ~~~0) := by
  simp only [writeRegister_plain h, setBits_plain h, clearBits_plain h, readRegister_plain h', Function.update_apply]
  by_cases e : r' = r
  · subst e; simp
  · simp only [if_neg e]
    have : ∀ x : Byte, x = x ||| 0 ∧ x = x &&& ~~~0 := by decide +kernel
    exact ⟨trivial, this _⟩

example : Plain 0x06 ∧ Plain 0x1d ∧ ¬ Plain 0x07 := by decide

private theorem asm (x : BitVec 64) : assemble (addrBytes x) = x &&& 0xffffffffff := by
  simp only [assemble, addrBytes, List.reverse_cons, List.reverse_nil, List.nil_append, List.cons_append, List.foldl_cons, List.foldl_nil]
  apply BitVec.eq_of_getLsbD_eq
  intro i hi
  simp only [BitVec.getLsbD_and, BitVec.getLsbD_or, BitVec.getLsbD_shiftLeft, BitVec.getLsbD_setWidth, BitVec.getLsbD_extractLsb']
  interval_cases i <;> simp

private theorem pipe_cases {p : Byte} (h : p < 6) : p = 0 ∨ p = 1 ∨ (2 ≤ p ∧ p < 6) := by
  revert p; decide +kernel

private theorem get_long {r : Byte} (h : r = 0x0a ∨ r = 0x0b ∨ r = 0x10) (d : Dev) (x : BitVec 64) (e : d.readReg r = addrBytes x) :
    (readAddressRegister r d).1 = x &&& 0xffffffffff := by
  have hr : ∀ r : Byte, r = 0x0a ∨ r = 0x0b ∨ r = 0x10 → 0x00 ||| r = r ∧ r < 0x20 := by decide +kernel
  obtain ⟨h1, h2⟩ := hr r h
  simp only [readAddressRegister, if_pos h, Dev.transact, Dev.exec, h1, if_pos h2, e, List.drop_succ_cons, List.drop_zero]
  rw [← asm]
  rfl

private theorem get_short {p : Byte} (h : 2 ≤ p ∧ p < 6) (d : Dev) : getRxAddress p d = ((d.regs (0x0a + p)).setWidth 64, d) := by
  have hr : ∀ p : Byte, 2 ≤ p ∧ p < 6 → Plain (0x0a + p) ∧ ¬(0x0a + p = 0x0a ∨ 0x0a + p = 0x0b ∨ 0x0a + p = 0x10) ∧
    (0x0a + p = 0x0c ∨ 0x0a + p = 0x0d ∨ 0x0a + p = 0x0e ∨ 0x0a + p = 0x0f) := by decide +kernel
  obtain ⟨h1, h2, h3⟩ := hr p h
  simp only [getRxAddress, readAddressRegister, if_neg h2, if_pos h3, readRegister_plain h1]

/-- C294: an address that has been set is read back: 40 bits of pipes 0 and 1 and for sending, the lowest
byte of pipes 2 to 5; setting it leaves the address of every other pipe and the one for sending alone. -/
theorem C294_address (x : BitVec 64) (d : Dev) :
    (∀ p : Byte, p < 6 → (getRxAddress p (setRxAddress p x d)).1 = x &&& (if p ≤ 1 then 0xffffffffff else 0xff)) ∧
      (∀ p q : Byte, p < 6 → q < 6 → p ≠ q → (getRxAddress q (setRxAddress p x d)).1 = (getRxAddress q d).1) ∧
      (∀ p : Byte, p < 6 → (getTxAddress (setRxAddress p x d)).1 = (getTxAddress d).1) ∧
      (getTxAddress (setTxAddress x d)).1 = x &&& 0xffffffffff ∧
      (∀ q : Byte, q < 6 → (getRxAddress q (setTxAddress x d)).1 = (getRxAddress q d).1) := by
  refine ⟨?_, ?_, ?_, ?_, ?_⟩
  · intro p hp
    rcases pipe_cases hp with rfl | rfl | hp2
    · exact get_long (Or.inl rfl) _ x rfl
    · exact get_long (Or.inr (Or.inl rfl)) _ x rfl
    · rw [setRx_eq hp2, get_short hp2]
      have : ¬ p ≤ 1 := by revert p; decide +kernel
      simp only [Function.update_self, if_neg this]
      apply BitVec.eq_of_getLsbD_eq
      intro i hi
      simp only [BitVec.getLsbD_setWidth, BitVec.getLsbD_extractLsb', BitVec.getLsbD_and]
      interval_cases i <;> simp
  · intro p q hp hq hne
    rcases pipe_cases hp with rfl | rfl | hp2 <;> rcases pipe_cases hq with rfl | rfl | hq2
    · exact absurd rfl hne
    · rfl
    · rw [setRx0_eq, get_short hq2, get_short hq2]
    · rfl
    · exact absurd rfl hne
    · rw [setRx1_eq, get_short hq2, get_short hq2]
    · rw [setRx_eq hp2]; rfl
    · rw [setRx_eq hp2]; rfl
    · rw [setRx_eq hp2, get_short hq2, get_short hq2]
      have : 0x0a + q ≠ 0x0a + p := by simpa using fun h => hne h.symm
      simp only [Function.update_of_ne this]
  · intro p hp
    rcases pipe_cases hp with rfl | rfl | hp2
    · rfl
    · rfl
    · rw [setRx_eq hp2]; rfl
  · exact get_long (Or.inr (Or.inr rfl)) _ x rfl
  · intro q hq
    rcases pipe_cases hq with rfl | rfl | hq2
    · rfl
    · rfl
    · rw [setTx_eq, get_short hq2, get_short hq2]

example : addrBytes 0x1122334455 = [0x55, 0x44, 0x33, 0x22, 0x11] := by decide

private theorem p0 : Plain 0x00 := by decide
private theorem p1 : Plain 0x01 := by decide
private theorem p2 : Plain 0x02 := by decide
private theorem p3 : Plain 0x03 := by decide
private theorem p4 : Plain 0x04 := by decide
private theorem p6 : Plain 0x06 := by decide
private theorem p1d : Plain 0x1d := by decide

/-- C294: the speed that has been set is read back; of all registers only the two bits of the speed change. -/
theorem C294_speed (v : Speed) (d : Dev) :
    getSpeed (setSpeed v d) = v ∧
      ∃ b, setSpeed v d = { d with regs := Function.update d.regs 0x06 b } ∧ b &&& 0xd7 = d.regs 0x06 &&& 0xd7 := by
  have k : ∀ b : Byte, let x := (b &&& ~~~0x08) ||| 0x20; let y := (b &&& ~~~0x08) &&& ~~~0x20; let z := (b ||| 0x08) &&& ~~~0x20
      (x &&& 0x20 ≠ 0 ∧ x &&& 0xd7 = b &&& 0xd7) ∧ (¬ y &&& 0x20 ≠ 0 ∧ ¬ y &&& 0x08 ≠ 0 ∧ y &&& 0xd7 = b &&& 0xd7) ∧
      (¬ z &&& 0x20 ≠ 0 ∧ z &&& 0x08 ≠ 0 ∧ z &&& 0xd7 = b &&& 0xd7) := by decide +kernel
  obtain ⟨⟨a1, a2⟩, ⟨b1, b2, b3⟩, c1, c2, c3⟩ := k (d.regs 0x06)
  cases v with
  | kBps250 =>
    simp only [setSpeed, setBits_plain p6, clearBits_plain p6, getSpeed, readRegister_plain p6, Function.update_self, Function.update_idem, if_pos a1]
    exact ⟨trivial, _, rfl, a2⟩
  | mBps1 =>
    simp only [setSpeed, setBits_plain p6, clearBits_plain p6, getSpeed, readRegister_plain p6, Function.update_self, Function.update_idem, if_neg b1, if_neg b2]
    exact ⟨trivial, _, rfl, b3⟩
  | mBps2 =>
    simp only [setSpeed, setBits_plain p6, clearBits_plain p6, getSpeed, readRegister_plain p6, Function.update_self, Function.update_idem, if_neg c1, if_pos c2]
    exact ⟨trivial, _, rfl, c3⟩

/-- C294: transmission power, delay and number of repetitions, check sum: the field of the register has the
value wanted, its other bits and all else are as before. -/
theorem C294_fields (x : Byte) (d : Dev) :
    (x < 4 → ∃ b, setRfPower x d = { d with regs := Function.update d.regs 0x06 b } ∧ (b >>> 1) &&& 0x03 = x ∧ b &&& 0xf9 = d.regs 0x06 &&& 0xf9) ∧
      (x < 16 → ∃ b, setAutoRetransmitDelay x d = { d with regs := Function.update d.regs 0x04 b } ∧ b >>> 4 = x ∧ b &&& 0x0f = d.regs 0x04 &&& 0x0f) ∧
      (x < 16 → ∃ b, setAutoRetransmitCount x d = { d with regs := Function.update d.regs 0x04 b } ∧ b &&& 0x0f = x ∧ b &&& 0xf0 = d.regs 0x04 &&& 0xf0) ∧
      (∀ n, n ≤ 2 → ∃ b, setCrc n d = { d with regs := Function.update d.regs 0x00 b } ∧ b &&& 0xf3 = d.regs 0x00 &&& 0xf3 ∧
        b.getLsbD 3 = decide (0 < n) ∧ (0 < n → b.getLsbD 2 = decide (n = 2))) := by
  refine ⟨fun h => ?_, fun h => ?_, fun h => ?_, fun n hn => ?_⟩
  · have k : ∀ x : Byte, x < 4 → ∀ b : Byte, let y := (b &&& ~~~(0x06 : Byte)) ||| (x <<< 1); (y >>> 1) &&& 0x03 = x ∧ y &&& 0xf9 = b &&& 0xf9 := by decide +kernel
    simp only [setRfPower, readRegister_plain p6, writeRegister_plain p6]
    exact ⟨_, rfl, k x h _⟩
  · have k : ∀ x : Byte, x < 16 → ∀ b : Byte, let y := (b &&& ~~~(0xf0 : Byte)) ||| (x <<< 4); y >>> 4 = x ∧ y &&& 0x0f = b &&& 0x0f := by decide +kernel
    simp only [setAutoRetransmitDelay, readRegister_plain p4, writeRegister_plain p4]
    exact ⟨_, rfl, k x h _⟩
  · have k : ∀ x : Byte, x < 16 → ∀ b : Byte, let y := (b &&& ~~~(0x0f : Byte)) ||| x; y &&& 0x0f = x ∧ y &&& 0xf0 = b &&& 0xf0 := by decide +kernel
    simp only [setAutoRetransmitCount, readRegister_plain p4, writeRegister_plain p4]
    exact ⟨_, rfl, k x h _⟩
  · have k : ∀ b : Byte, (let y := b &&& ~~~0x08; y &&& 0xf3 = b &&& 0xf3 ∧ y.getLsbD 3 = false) ∧
        (let y := (b ||| 0x08) &&& ~~~0x04; y &&& 0xf3 = b &&& 0xf3 ∧ y.getLsbD 3 = true ∧ y.getLsbD 2 = false) ∧
        (let y := (b ||| 0x08) ||| 0x04; y &&& 0xf3 = b &&& 0xf3 ∧ y.getLsbD 3 = true ∧ y.getLsbD 2 = true) := by decide +kernel
    obtain ⟨k0, k1, k2⟩ := k (d.regs 0x00)
    have : n = 0 ∨ n = 1 ∨ n = 2 := by omega
    rcases this with rfl | rfl | rfl
    · simp only [setCrc, if_true, clearBits_plain p0]
      exact ⟨_, rfl, k0.1, k0.2, fun h => absurd h (by omega)⟩
    · simp only [setCrc, if_true, clearBits_plain p0, setBits_plain p0, Function.update_self, Function.update_idem]
      exact ⟨_, rfl, k1.1, k1.2.1, fun _ => k1.2.2⟩
    · simp only [setCrc, if_true, setBits_plain p0, Function.update_self, Function.update_idem]
      exact ⟨_, rfl, k2.1, k2.2.1, fun _ => k2.2.2⟩

private theorem pipe_plain : ∀ p : Byte, p < 6 → Plain (0x11 + p) ∧ 0x11 + p ≠ 0x01 ∧ 0x11 + p ≠ 0x02 ∧ 0x01 ≠ 0x11 + p ∧ 0x02 ≠ 0x11 + p := by decide +kernel

/-- C294: enabling a pipe sets its length, its bit for acknowledgements as wanted, and its bit; disabling it
clears its bit.  The bits of other pipes and all else are as before. -/
theorem C294_pipe {p : Byte} (hp : p < 6) (len : Byte) (ack : Bool) (d : Dev) :
    (∃ a e, enablePipe len p ack d = { d with regs := Function.update (Function.update (Function.update d.regs (0x11 + p) len) 0x01 a) 0x02 e } ∧
      ∀ i, i < 8 → a.getLsbD i = (if i = p.toNat then ack else (d.regs 0x01).getLsbD i) ∧
        e.getLsbD i = (if i = p.toNat then true else (d.regs 0x02).getLsbD i)) ∧
    ∃ e, disablePipe p d = { d with regs := Function.update d.regs 0x02 e } ∧
      ∀ i, i < 8 → e.getLsbD i = (if i = p.toNat then false else (d.regs 0x02).getLsbD i) := by
  obtain ⟨q1, q2, q3, q4, q5⟩ := pipe_plain p hp
  have hp6 : p.toNat < 6 := by
    have h2 := hp
    rw [BitVec.lt_def] at h2
    exact h2
  have hb : ∀ p : Fin 6, ∀ i : Fin 8, ((1 : Byte) <<< p.val).getLsbD i = decide (i.val = p.val) := by decide +kernel
  have hb' : ∀ i, i < 8 → ((1 : Byte) <<< p.toNat).getLsbD i = decide (i = p.toNat) := fun i hi => hb ⟨p.toNat, hp6⟩ ⟨i, hi⟩
  have h12 : (0x01 : Byte) ≠ 0x02 := by decide
  have h21 : (0x02 : Byte) ≠ 0x01 := by decide
  constructor
  · cases ack with
    | true =>
      simp only [enablePipe, writeRegister_plain q1, setBits_plain p1, setBits_plain p2, if_true, Function.update_of_ne q4, Function.update_of_ne q5,
        Function.update_of_ne h21]
      refine ⟨_, _, rfl, fun i hi => ?_⟩
      simp only [BitVec.getLsbD_or, hb' i hi]
      by_cases h : i = p.toNat <;> simp [h]
    | false =>
      simp only [enablePipe, writeRegister_plain q1, clearBits_plain p1, setBits_plain p2, Function.update_of_ne q4, Function.update_of_ne q5,
        Function.update_of_ne h21, Bool.false_eq_true, if_false]
      refine ⟨_, _, rfl, fun i hi => ?_⟩
      simp only [BitVec.getLsbD_or, BitVec.getLsbD_and, BitVec.getLsbD_not, hb' i hi]
      by_cases h : i = p.toNat <;> simp [h, hi]
  · simp only [disablePipe, clearBits_plain p2]
    refine ⟨_, rfl, fun i hi => ?_⟩
    simp only [BitVec.getLsbD_and, BitVec.getLsbD_not, hb' i hi]
    by_cases h : i = p.toNat <;> simp [h, hi]

/-! ## The data layer -/

private theorem station_eq (base : BitVec 64) (a : Byte) : addrBytes (address (base &&& ~~~0xff) a) = station base a := by
  simp only [addrBytes, address, station, List.cons.injEq, and_true]
  refine ⟨?_, ?_, ?_, ?_, ?_⟩ <;>
  · apply BitVec.eq_of_getLsbD_eq
    intro i hi
    simp only [BitVec.getLsbD_extractLsb', BitVec.getLsbD_or, BitVec.getLsbD_and, BitVec.getLsbD_not, BitVec.getLsbD_setWidth]
    interval_cases i <;> simp

private theorem nobody_eq (base : BitVec 64) : addrBytes (~~~address (base &&& ~~~0xff) 0x55) = nobody base := by
  have h : ∀ x : BitVec 64, addrBytes (~~~x) = (addrBytes x).map fun b => ~~~b := by
    intro x
    simp only [addrBytes, List.map_cons, List.map_nil, List.cons.injEq, and_true]
    refine ⟨?_, ?_, ?_, ?_, ?_⟩ <;>
    · apply BitVec.eq_of_getLsbD_eq
      intro i hi
      simp only [BitVec.getLsbD_extractLsb', BitVec.getLsbD_not]
      simp [hi]
      omega
  rw [h, station_eq, nobody]

/-- Bits of the registers `CONFIG` and `EN_RX_ADDR`. -/
private theorem bits : ∀ b : Byte, ((b ||| 0x01).getLsbD 0 = true ∧ (b ||| 0x01).getLsbD 1 = b.getLsbD 1 ∧ (b &&& ~~~0x01).getLsbD 0 = false ∧
    (b &&& ~~~0x01).getLsbD 1 = b.getLsbD 1) ∧ ((b ||| 0x01).getLsbD 2 = b.getLsbD 2 ∧ (b ||| 0x01).getLsbD 3 = b.getLsbD 3 ∧
    (b ||| 0x01).getLsbD 4 = b.getLsbD 4 ∧ (b ||| 0x01).getLsbD 5 = b.getLsbD 5) ∧
    ((b &&& ~~~0x01).getLsbD 2 = b.getLsbD 2 ∧ (b &&& ~~~0x01).getLsbD 3 = b.getLsbD 3 ∧
    (b &&& ~~~0x01).getLsbD 4 = b.getLsbD 4 ∧ (b &&& ~~~0x01).getLsbD 5 = b.getLsbD 5) ∧ (b ||| 0x02).getLsbD 1 = true ∧
    (b ||| 0x02).getLsbD 0 = b.getLsbD 0 := by
  decide +kernel

private theorem setMode_rx {s : St} (h : s.mode ≠ .rx) : setMode .rx s =
    { s with dev := { s.dev with rxF := [], regs := Function.update s.dev.regs 0x00 (s.dev.regs 0x00 ||| 0x01), ce := true }, mode := .rx } := by
  simp only [setMode, if_neg (Ne.symm h), flushRx_eq, setBits_plain p0, setCe]

private theorem setMode_tx {s : St} (h : s.mode ≠ .tx) : setMode .tx s =
    { s with dev := { s.dev with txF := [], regs := Function.update s.dev.regs 0x00 (s.dev.regs 0x00 &&& ~~~0x01), ce := true }, mode := .tx } := by
  simp only [setMode, if_neg (Ne.symm h), flushTx_eq, clearBits_plain p0, setCe, pulseCe_eq]

/-- What always holds. -/
private structure Inv (B : BitVec 64) (O C : Byte) (w : World) : Prop where
  own : w.st.own = O
  bcast : w.st.bcast = C
  base : w.st.base = B &&& ~~~0xff
  len : w.st.len = 32
  pwr : w.st.dev.pwrUp = true
  ce : w.st.dev.ce = true
  prim : w.st.dev.primRx = decide (w.st.mode = .rx)
  mode : (w.st.mode = .rx ∧ w.st.fb ≠ .busy) ∨ (w.st.mode = .tx ∧ w.st.fb = .busy)
  feat : (w.st.dev.regs 0x1d).getLsbD 0 = true
  a1 : w.st.dev.a1 = station B C
  r2 : w.st.dev.regs 0x0c = O
  e1 : (w.st.dev.regs 0x02).getLsbD 1 = true ∧ (w.st.dev.regs 0x02).getLsbD 2 = true
  e3 : (w.st.dev.regs 0x02).getLsbD 3 = false ∧ (w.st.dev.regs 0x02).getLsbD 4 = false ∧ (w.st.dev.regs 0x02).getLsbD 5 = false
  e0 : w.st.mode = .rx → (w.st.dev.regs 0x02).getLsbD 0 = false ∨ w.st.dev.a0 = nobody B
  mid0 : w.mid = some none → w.st.fb ≠ .busy
  mid1 : ∀ x, w.mid = some (some x) → w.st.fb = .busy
  heard : ∀ h ∈ w.heard, h.1 = station B O ∨ h.1 = station B C ∨ h.1 = nobody B

private theorem init_eq (base : BitVec 64) (own bc : Byte) {s : St} (h : s.mode ≠ .rx) :
    ∃ regs, init base own bc s = ⟨{ s.dev with regs := regs, a0 := nobody base, a1 := station base bc, rxF := [], txF := [], ce := true },
      .rx, 32, base &&& ~~~0xff, own, bc, .undefined⟩ ∧ (regs 0x00).getLsbD 0 = true ∧ (regs 0x00).getLsbD 1 = true ∧
      (regs 0x1d).getLsbD 0 = true ∧ regs 0x0c = own ∧ regs 0x02 = s.dev.regs 0x02 ||| 0x07 := by
  have q0 : Plain (0x11 + 0) := by decide
  have q1 : Plain (0x11 + 1) := by decide
  have q2 : Plain (0x11 + 2) := by decide
  have h2 : (2 : Byte) ≤ 2 ∧ (2 : Byte) < 6 := by decide
  have hs := station_eq base bc
  have ho := station_eq base own
  have hn := nobody_eq base
  have hlow : (address (base &&& ~~~0xff) own).extractLsb' 0 8 = own := by
    have := congrArg (·.headD 0) ho
    simpa [addrBytes, station] using this
  have ex : ∃ regs, init base own bc s = ⟨{ s.dev with regs := regs, a0 := nobody base, a1 := station base bc, rxF := [], txF := [], ce := true },
      .rx, 32, base &&& ~~~0xff, own, bc, .undefined⟩ ∧ (∃ a : Byte, regs 0x00 = (a ||| 0x01) ||| 0x02) ∧
      (regs 0x1d) = s.dev.regs 0x1d ||| 0x01 ∧ regs 0x0c = own ∧ regs 0x02 = ((s.dev.regs 0x02 ||| (1 : Byte) <<< (0 : Byte).toNat) ||| (1 : Byte) <<< (1 : Byte).toNat) ||| (1 : Byte) <<< (2 : Byte).toNat := by
    simp only [init, enablePipe, setCrc, setSpeed, setAutoRetransmitDelay, setAutoRetransmitCount, setRfPower, writeRegister_plain p3,
      writeRegister_plain p4, writeRegister_plain p6, writeRegister_plain q0, writeRegister_plain q1, writeRegister_plain q2, readRegister_plain p4,
      readRegister_plain p6, setBits_plain p0, setBits_plain p1, setBits_plain p2, setBits_plain p6, setBits_plain p1d, clearBits_plain p0,
      clearBits_plain p6, setRx0_eq, setRx1_eq, setRx_eq h2, flushRx_eq, flushTx_eq, setCe, hs, hn, hlow, setMode, if_neg (Ne.symm h),
      if_true, Nat.one_ne_zero, if_false]
    refine ⟨_, rfl, ⟨_, Function.update_self _ _ _⟩, ?_, ?_, ?_⟩
    · simp [Function.update_apply]
    · simp [Function.update_apply]
    · simp [Function.update_apply]
  obtain ⟨regs, e, ⟨a, h0⟩, h1d, hc, hr⟩ := ex
  refine ⟨regs, e, ?_, ?_, ?_, hc, ?_⟩
  · rw [h0, (bits _).2.2.2.2, (bits _).1.1]
  · rw [h0, (bits _).2.2.2.1]
  · rw [h1d, (bits _).1.1]
  · rw [hr]
    have : ∀ b : Byte, ((b ||| (1 : Byte) <<< (0 : Byte).toNat) ||| (1 : Byte) <<< (1 : Byte).toNat) ||| (1 : Byte) <<< (2 : Byte).toNat = b ||| 0x07 := by
      decide +kernel
    exact this _

private theorem init_inv (base : BitVec 64) (own bc : Byte) {s : St} (h : Fresh s) : Inv base own bc (start base own bc s) := by
  obtain ⟨regs, e, h0, h1, h1d, hc, h2⟩ := init_eq base own bc (s := s) (by rw [h.mode]; decide)
  have k : ∀ b : Byte, (b ||| 0x07).getLsbD 1 = true ∧ (b ||| 0x07).getLsbD 2 = true ∧ (b ||| 0x07).getLsbD 3 = b.getLsbD 3 ∧
    (b ||| 0x07).getLsbD 4 = b.getLsbD 4 ∧ (b ||| 0x07).getLsbD 5 = b.getLsbD 5 := by decide +kernel
  have kb := k (s.dev.regs 0x02)
  simp only [start, e]
  exact
    { own := rfl, bcast := rfl, base := rfl, len := rfl, pwr := h1, ce := rfl, prim := by simpa [Dev.primRx] using h0, mode := Or.inl ⟨rfl, by simp⟩, feat := h1d
      a1 := rfl, r2 := hc, e1 := by simp only [h2]; exact ⟨kb.1, kb.2.1⟩, e3 := by simp only [h2]; exact ⟨kb.2.2.1.trans h.p3, kb.2.2.2.1.trans h.p4, kb.2.2.2.2.trans h.p5⟩
      e0 := fun _ => Or.inr rfl, mid0 := by simp, mid1 := by simp, heard := by simp }

/-- The state after a packet has been accepted for sending. -/
private theorem send_eq {B : BitVec 64} {O C : Byte} {w : World} (i : Inv B O C w) (hb : w.st.fb ≠ .busy) (dest : Byte) {payload : List Byte}
    (hl : payload.length = 30) : ∃ regs a0, sendPacket dest payload w.st = (true, { w.st with mode := .tx, fb := .busy, dev := { w.st.dev with regs := regs, a0 := a0, ta := station B dest, txF := [(decide (dest = C), O :: dest :: payload)], ce := true } }) ∧
      (regs 0x00 = w.st.dev.regs 0x00 &&& ~~~0x01 ∧ regs 0x1d = w.st.dev.regs 0x1d ∧ regs 0x0c = w.st.dev.regs 0x0c) ∧
      (dest = C → regs 0x02 = w.st.dev.regs 0x02) ∧ (dest ≠ C → regs 0x02 = w.st.dev.regs 0x02 ||| 0x01 ∧ a0 = station B dest) := by
  have hm : w.st.mode = .rx := by
    rcases i.mode with h | h
    · exact h.1
    · exact absurd h.2 hb
  have hm' : w.st.mode ≠ .tx := by rw [hm]; decide
  have q0 : Plain (0x11 + 0) := by decide
  have h32 : (32 : Byte).toNat = 32 := by decide
  simp only [sendPacket, if_neg hb, setMode_tx hm', i.own, i.bcast, i.base, i.len, station_eq, setTx_eq, pulseCe_eq, setRx0_eq]
  by_cases hd : dest = C
  · simp only [if_pos hd]
    rw [writeTxNoAck_eq]
    · refine ⟨Function.update w.st.dev.regs 0x00 (w.st.dev.regs 0x00 &&& ~~~0x01), w.st.dev.a0, by simp [hd], ?_, ?_, fun h => absurd hd h⟩
      · simp [Function.update_apply]
      · intro _; simp [Function.update_apply]
    · simp [hl]
    · simp
    · have := i.feat
      simpa [Function.update_apply] using this
  · simp only [if_neg hd, enablePipe, writeRegister_plain q0, setBits_plain p1, setBits_plain p2, if_true]
    rw [writeTx_eq]
    · refine ⟨_, station B dest, by simp [hd]; rfl, ?_, fun h => absurd h hd, ?_⟩
      · simp [Function.update_apply]
      · intro _
        refine ⟨?_, rfl⟩
        simp [Function.update_apply]
    · simp [hl]
    · simp

private theorem poll_busy {s : St} (h : s.fb = .busy) : poll s = (some s.dev.status, s) := by
  rw [poll, if_neg (by simp [h])]
  rfl

private theorem poll_idle {s : St} (h : s.fb ≠ .busy) : poll s = (none, s) := by
  rw [poll, if_pos h]

private theorem get_dev (s : St) : ∃ rxDr rxF, (getPacket s).2 = { s with dev := { s.dev with rxDr := rxDr, rxF := rxF } } := by
  simp only [getPacket, isPacketAvailable, readStatus_eq, (fifo_bit s.dev).1]
  have hc : ∃ rxDr rxF, (readRxPayload s.len (clearInterrupt 0x40 s.dev)).2 = { s.dev with rxDr := rxDr, rxF := rxF } := by
    have h4 : (0x40 : Byte).getLsbD 5 = false := by decide
    have h5 : (0x40 : Byte).getLsbD 4 = false := by decide
    have hci : clearInterrupt 0x40 s.dev = { s.dev with rxDr := false } := by
      rw [clearInterrupt_eq, h4, h5]
      simp
    rw [hci]
    cases hq : s.dev.rxF with
    | nil =>
      rw [readRx_nil _ _ (by simpa using hq)]
      exact ⟨false, s.dev.rxF, rfl⟩
    | cons x f =>
      rw [readRx_cons _ _ x f (by simpa using hq)]
      exact ⟨false, f, rfl⟩
  obtain ⟨r1, r2, hr⟩ := hc
  by_cases h1 : s.dev.status &&& 0x40 ≠ 0
  · simp only [if_pos h1, if_true, hr]
    exact ⟨r1, r2, rfl⟩
  · simp only [if_neg h1]
    by_cases h2 : s.dev.fifoStatus &&& 0x01 = 0
    · simp only [h2, decide_true, if_true, hr]
      exact ⟨r1, r2, rfl⟩
    · simp only [h2, decide_false, Bool.false_eq_true, if_false]
      exact ⟨s.dev.rxDr, s.dev.rxF, rfl⟩

private theorem inv_step {B : BitVec 64} {O C : Byte} {w w' : World} (i : Inv B O C w) {a : Act} (ha : Sized a) (e : step w a = some w') :
    Inv B O C w' := by
  cases a with
  | send dest payload =>
    simp only [step] at e
    split at e
    · next hm =>
      by_cases hb : w.st.fb = .busy
      · simp only [sendPacket, if_pos hb, Bool.false_eq_true, if_false, Option.some.injEq] at e
        subst e
        exact i
      · obtain ⟨regs, a0, hs, ⟨h0, h1d, hc⟩, hC, hN⟩ := send_eq i hb dest ha
        rw [hs] at e
        simp only [if_true, Option.some.injEq] at e
        subst e
        have hmid : w.mid = none := by simpa using hm
        have hbits : (regs 0x02).getLsbD 1 = (w.st.dev.regs 0x02).getLsbD 1 ∧ (regs 0x02).getLsbD 2 = (w.st.dev.regs 0x02).getLsbD 2 ∧
            (regs 0x02).getLsbD 3 = (w.st.dev.regs 0x02).getLsbD 3 ∧ (regs 0x02).getLsbD 4 = (w.st.dev.regs 0x02).getLsbD 4 ∧
            (regs 0x02).getLsbD 5 = (w.st.dev.regs 0x02).getLsbD 5 := by
          by_cases hd : dest = C
          · rw [hC hd]; exact ⟨rfl, rfl, rfl, rfl, rfl⟩
          · rw [(hN hd).1]
            have hk := bits (w.st.dev.regs 0x02)
            exact ⟨hk.1.2.1, hk.2.1.1, hk.2.1.2.1, hk.2.1.2.2.1, hk.2.1.2.2.2⟩
        have hk := bits (w.st.dev.regs 0x00)
        exact
          { own := i.own, bcast := i.bcast, base := i.base, len := i.len
            pwr := by simp only [Dev.pwrUp, h0]; exact hk.1.2.2.2.trans i.pwr
            ce := rfl
            prim := by simp only [Dev.primRx, h0]; simpa using hk.1.2.2.1
            mode := Or.inr ⟨rfl, rfl⟩
            feat := by simp only [h1d]; exact i.feat
            a1 := i.a1
            r2 := by simp only [hc]; exact i.r2
            e1 := ⟨hbits.1.trans i.e1.1, hbits.2.1.trans i.e1.2⟩
            e3 := ⟨hbits.2.2.1.trans i.e3.1, hbits.2.2.2.1.trans i.e3.2.1, hbits.2.2.2.2.trans i.e3.2.2⟩
            e0 := (by intro h; cases h)
            mid0 := (by intro h; simp only [hmid] at h; cases h)
            mid1 := fun _ _ => rfl
            heard := i.heard }
    · cases e
  | get =>
    simp only [step] at e
    split at e
    · simp only [Option.some.injEq] at e
      obtain ⟨r1, r2, hr⟩ := get_dev w.st
      rw [hr] at e
      subst e
      exact { i with }
    · cases e
  | poll =>
    simp only [step] at e
    split at e
    · simp only [Option.some.injEq] at e
      by_cases hb : w.st.fb = .busy
      · rw [poll_busy hb] at e
        subst e
        exact { i with mid0 := (by intro h; cases h), mid1 := fun _ _ => hb }
      · rw [poll_idle hb] at e
        subst e
        exact { i with mid0 := fun _ => hb, mid1 := (by intro x h; cases h) }
    · cases e
  | finish ex =>
    simp only [step, Option.map_eq_some_iff] at e
    obtain ⟨st, hm, e⟩ := e
    subst e
    -- the end of a transmission
    have key : ∀ (fb : Feedback) (d : Dev), fb ≠ .busy → w.st.fb = .busy → d.pwrUp = true → (d.regs 0x1d).getLsbD 0 = true → d.a1 = station B C → d.regs 0x0c = O →
        d.regs 0x02 = w.st.dev.regs 0x02 →
        Inv B O C { w with st := setMode .rx { w.st with fb := fb, dev := disablePipe 0 d }, mid := none } := by
      intro fb d hf hb hp hfe ha1 hr2 h2
      have hmode : w.st.mode = .tx := by
        rcases i.mode with h | h
        · exact absurd hb h.2
        · exact h.1
      have hk := bits (w.st.dev.regs 0x02)
      have hk0 := bits (d.regs 0x00)
      have hdis : disablePipe 0 d = { d with regs := Function.update d.regs 0x02 (w.st.dev.regs 0x02 &&& ~~~0x01) } := by
        simp only [disablePipe, clearBits_plain p2, h2]
        rfl
      rw [hdis, setMode_rx (by rw [hmode]; decide)]
      have n02 : (0x02 : Byte) ≠ 0x00 := by decide
      have n00 : (0x00 : Byte) ≠ 0x02 := by decide
      have n1d0 : (0x1d : Byte) ≠ 0x00 := by decide
      have n1d2 : (0x1d : Byte) ≠ 0x02 := by decide
      have nc0 : (0x0c : Byte) ≠ 0x00 := by decide
      have nc2 : (0x0c : Byte) ≠ 0x02 := by decide
      exact
        { own := i.own, bcast := i.bcast, base := i.base, len := i.len
          pwr := by simp only [Dev.pwrUp, Function.update_self, Function.update_of_ne n00]; exact hk0.1.2.1.trans hp
          ce := rfl
          prim := by simp only [Dev.primRx, Function.update_self, Function.update_of_ne n00]; simpa using hk0.1.1
          mode := Or.inl ⟨rfl, hf⟩
          feat := by simp only [Function.update_of_ne n1d0, Function.update_of_ne n1d2]; exact hfe
          a1 := ha1
          r2 := by simp only [Function.update_of_ne nc0, Function.update_of_ne nc2]; exact hr2
          e1 := by simp only [Function.update_self, Function.update_of_ne n02]; exact ⟨hk.1.2.2.2.trans i.e1.1, hk.2.2.1.1.trans i.e1.2⟩
          e3 := by simp only [Function.update_self, Function.update_of_ne n02]; exact ⟨hk.2.2.1.2.1.trans i.e3.1, hk.2.2.1.2.2.1.trans i.e3.2.1, hk.2.2.1.2.2.2.trans i.e3.2.2⟩
          e0 := fun _ => Or.inl (by simp only [Function.update_self, Function.update_of_ne n02]; exact hk.1.2.2.1)
          mid0 := (by intro h; cases h)
          mid1 := (by intro x h; cases h)
          heard := i.heard }
    cases st with
    | none =>
      have hb := i.mid0 hm
      have hmode : w.st.mode = .rx := by
        rcases i.mode with h | h
        · exact h.1
        · exact absurd h.2 hb
      simp only [finish, setMode, hmode, if_true]
      exact { i with mid0 := (by intro h; cases h), mid1 := (by intro x h; cases h) }
    | some x =>
      have hb := i.mid1 x hm
      simp only [finish]
      split
      · exact key .finishedAck _ (by decide) hb i.pwr i.feat i.a1 i.r2 rfl
      · split
        · exact key .finishedNack _ (by decide) hb i.pwr i.feat i.a1 i.r2 rfl
        · split
          · exact key .dontKnow _ (by decide) hb i.pwr i.feat i.a1 i.r2 rfl
          · exact { i with mid0 := (by intro h; cases h), mid1 := (by intro x h; cases h) }
  | arrive ad pkt =>
    simp only [step, Option.map_eq_some_iff] at e
    obtain ⟨d, hd, e⟩ := e
    subst e
    simp only [Dev.arrive] at hd
    split at hd
    · next hc =>
      simp only [Option.map_eq_some_iff] at hd
      obtain ⟨p, hp, hd⟩ := hd
      subst hd
      have hmode : w.st.mode = .rx := by
        have := i.prim
        rw [hc.1] at this
        simpa using this.symm
      refine { i with heard := ?_ }
      intro h hh
      simp only [List.mem_append, List.mem_singleton] at hh
      rcases hh with hh | hh
      · exact i.heard h hh
      · subst hh
        simp only
        have h1 := List.find?_some hp
        have h2 := List.mem_of_find?_eq_some hp
        simp only [Bool.and_eq_true, decide_eq_true_eq] at h1
        simp only [List.mem_range] at h2
        have hcase : p = 0 ∨ p = 1 ∨ p = 2 ∨ p = 3 ∨ p = 4 ∨ p = 5 := by omega
        rcases hcase with rfl | rfl | rfl | rfl | rfl | rfl
        · rcases i.e0 hmode with h | h
          · rw [h] at h1; cases h1.1
          · exact Or.inr (Or.inr (h1.2.symm.trans h))
        · exact Or.inr (Or.inl (h1.2.symm.trans i.a1))
        · refine Or.inl (h1.2.symm.trans ?_)
          have : w.st.dev.pipeAddr 2 = w.st.dev.regs 0x0c :: w.st.dev.a1.drop 1 := rfl
          rw [this, i.r2, i.a1]
          rfl
        · rw [i.e3.1] at h1; cases h1.1
        · rw [i.e3.2.1] at h1; cases h1.1
        · rw [i.e3.2.2] at h1; cases h1.1
    · cases hd
  | sentNoAck =>
    simp only [step, Option.map_eq_some_iff] at e
    obtain ⟨d, hd, e⟩ := e
    subst e
    simp only [Dev.sentNoAck] at hd
    split at hd
    · split at hd
      · cases hd; exact { i with }
      · cases hd
    · cases hd
  | sentAck =>
    simp only [step, Option.map_eq_some_iff] at e
    obtain ⟨d, hd, e⟩ := e
    subst e
    simp only [Dev.sentAck] at hd
    split at hd
    · split at hd
      · cases hd; exact { i with }
      · cases hd
    · cases hd
  | sentFail =>
    simp only [step, Option.map_eq_some_iff] at e
    obtain ⟨d, hd, e⟩ := e
    subst e
    simp only [Dev.sentFail] at hd
    split at hd
    · split at hd
      · cases hd; exact { i with }
      · cases hd
    · cases hd

private theorem inv_run {B : BitVec 64} {O C : Byte} (l : List Act) (hl : ∀ a ∈ l, Sized a) {w w' : World} (i : Inv B O C w) (e : run w l = some w') :
    Inv B O C w' := by
  induction l generalizing w with
  | nil => cases e; exact i
  | cons a l ih =>
    simp only [run, Option.bind_eq_some_iff] at e
    obtain ⟨v, e1, e2⟩ := e
    exact ih (fun b hb => hl b (List.mem_cons_of_mem _ hb)) (inv_step i (hl a List.mem_cons_self) e1) e2

/-- C295: if the driver is not busy, `sendPacket` accepts the packet: it is then the only one in the device,
with source and destination in front, to be acknowledged unless it is for all; the address is that of the
destination, pipe 0 listens to it for the acknowledgement, and the device is ready to send.  If the driver is
busy, `sendPacket` returns false and nothing changes. -/
theorem C295_send {base : BitVec 64} {own bc : Byte} {s : St} (hs : Fresh s) {l : List Act} {w : World} (hl : ∀ a ∈ l, Sized a)
    (e : run (start base own bc s) l = some w) (dest : Byte) {payload : List Byte} (hp : payload.length = 30) :
    (w.st.fb = .busy → sendPacket dest payload w.st = (false, w.st)) ∧
      (w.st.fb ≠ .busy → ∃ s', sendPacket dest payload w.st = (true, s') ∧ s'.fb = .busy ∧ s'.dev.txF = [(decide (dest = bc), own :: dest :: payload)] ∧
        s'.dev.ta = station base dest ∧ s'.dev.primRx = false ∧ s'.dev.pwrUp = true ∧ s'.dev.ce = true ∧
        (dest ≠ bc → s'.dev.a0 = station base dest ∧ (s'.dev.regs 0x02).getLsbD 0 = true)) := by
  have i := inv_run l hl (init_inv base own bc hs) e
  refine ⟨fun hb => by simp only [sendPacket, if_pos hb], fun hb => ?_⟩
  obtain ⟨regs, a0, h, ⟨h0, -, -⟩, -, hN⟩ := send_eq i hb dest hp
  have hk := bits (w.st.dev.regs 0x00)
  refine ⟨_, h, rfl, rfl, rfl, ?_, ?_, rfl, fun hd => ⟨(hN hd).2, ?_⟩⟩
  · simp only [Dev.primRx, h0]; exact hk.1.2.2.1
  · simp only [Dev.pwrUp, h0]; exact hk.1.2.2.2.trans i.pwr
  · simp only [(hN hd).1]; exact (bits _).1.1

/-- A device and a driver after switching on. -/
def fresh : St :=
  ⟨⟨fun r => if r = 0x00 then 0x08 else if r = 0x01 then 0x3f else if r = 0x02 then 0x03 else 0, [0xe7, 0xe7, 0xe7, 0xe7, 0xe7],
    [0xc2, 0xc2, 0xc2, 0xc2, 0xc2], [0xe7, 0xe7, 0xe7, 0xe7, 0xe7], false, false, false, [], [], false⟩, .invalid, 0, 0, 0, 0, .undefined⟩

example : Fresh fresh := ⟨rfl, rfl, rfl, rfl, by decide, by decide, by decide⟩

/-- The network, the station, the address for all. -/
def net : World := start 0x1122334400 0x07 0xff fresh

example : (run net [.send 0x09 (List.replicate 30 1), .sentAck]).map (fun w => (w.st.dev.txDs, w.st.dev.txF)) = some (true, []) := by decide +kernel

/-! ### Feedback -/

/-- What is known of the last packet, as long as the timeout does not expire. -/
private structure Fate (C : Byte) (w : World) : Prop where
  busy : w.st.fb = .busy → (w.st.dev.txDs = false ∧ w.st.dev.maxRt = false ∧ w.fate = .pending ∧ ∃ pkt, w.st.dev.txF = [(decide (w.last = C), pkt)]) ∨
    (w.st.dev.txDs = true ∧ w.st.dev.maxRt = false ∧ w.st.dev.txF = [] ∧ w.fate ≠ .pending ∧ (w.last ≠ C → w.fate = .acked)) ∨
    (w.st.dev.txDs = false ∧ w.st.dev.maxRt = true ∧ w.fate = .failed)
  idle : w.st.fb ≠ .busy → w.st.dev.txDs = false ∧ w.st.dev.maxRt = false
  ack : w.st.fb = .finishedAck → w.last ≠ C → w.fate = .acked
  nack : w.st.fb = .finishedNack → w.fate = .failed
  know : w.st.fb ≠ .dontKnow
  mid : ∀ x, w.mid = some (some x) → (x &&& 0x20 ≠ 0 → w.st.dev.txDs = true) ∧ (x &&& 0x10 ≠ 0 → w.st.dev.maxRt = true)

private theorem sends_busy {B : BitVec 64} {O C : Byte} {w : World} (i : Inv B O C w) (h : w.st.dev.sends = true) : w.st.fb = .busy := by
  rcases i.mode with hm | hm
  · have := i.prim
    rw [hm.1] at this
    simp [Dev.sends, this] at h
  · exact hm.2

private theorem fate_step {B : BitVec 64} {O C : Byte} {w w' : World} (i : Inv B O C w) (f : Fate C w) {a : Act} (ha : Sized a) (ht : InTime a)
    (e : step w a = some w') : Fate C w' := by
  cases a with
  | send dest payload =>
    simp only [step] at e
    split at e
    · next hm =>
      by_cases hb : w.st.fb = .busy
      · simp only [sendPacket, if_pos hb, Bool.false_eq_true, if_false, Option.some.injEq] at e
        subst e
        exact f
      · obtain ⟨regs, a0, hs, -, -, -⟩ := send_eq i hb dest ha
        rw [hs] at e
        simp only [if_true, Option.some.injEq] at e
        subst e
        have hmid : w.mid = none := by simpa using hm
        obtain ⟨h1, h2⟩ := f.idle hb
        exact
          { busy := fun _ => Or.inl ⟨h1, h2, rfl, _, rfl⟩
            idle := fun h => absurd rfl h
            ack := (by intro h; cases h)
            nack := (by intro h; cases h)
            know := (by intro h; cases h)
            mid := (by intro x h; simp only [hmid] at h; cases h) }
    · cases e
  | get =>
    simp only [step] at e
    split at e
    · simp only [Option.some.injEq] at e
      obtain ⟨r1, r2, hr⟩ := get_dev w.st
      rw [hr] at e
      subst e
      exact { f with }
    · cases e
  | poll =>
    simp only [step] at e
    split at e
    · simp only [Option.some.injEq] at e
      by_cases hb : w.st.fb = .busy
      · rw [poll_busy hb] at e
        subst e
        refine { f with mid := ?_ }
        intro x hx
        cases hx
        exact ⟨(status_bits _).2.1.mp, (status_bits _).2.2.mp⟩
      · rw [poll_idle hb] at e
        subst e
        exact { f with mid := (by intro x h; cases h) }
    · cases e
  | finish ex =>
    simp only [step, Option.map_eq_some_iff] at e
    obtain ⟨st, hm, e⟩ := e
    subst e
    have hex : ex = false := ht
    subst hex
    cases st with
    | none =>
      have hb := i.mid0 hm
      have hmode : w.st.mode = .rx := by
        rcases i.mode with h | h
        · exact h.1
        · exact absurd h.2 hb
      simp only [finish, setMode, hmode, if_true]
      exact { f with mid := (by intro x h; cases h) }
    | some x =>
      have hb := i.mid1 x hm
      have hmode : w.st.mode = .tx := by
        rcases i.mode with h | h
        · exact absurd hb h.2
        · exact h.1
      obtain ⟨m1, m2⟩ := f.mid x hm
      have c5 : (0x20 : Byte).getLsbD 5 = true := by decide
      have c4 : (0x20 : Byte).getLsbD 4 = false := by decide
      have d5 : (0x10 : Byte).getLsbD 5 = false := by decide
      have d4 : (0x10 : Byte).getLsbD 4 = true := by decide
      simp only [finish, disablePipe, clearBits_plain p2, clearInterrupt_eq, flushTx_eq, c5, c4, d5, d4]
      by_cases h1 : x &&& 0x20 ≠ 0
      · simp only [if_pos h1]
        have ht := m1 h1
        rcases f.busy hb with hc | hc | hc
        · rw [hc.1] at ht; cases ht
        · rw [setMode_rx (by simp [hmode])]
          exact
            { busy := (by intro h; cases h)
              idle := fun _ => by simp [hc.2.1]
              ack := fun _ h => hc.2.2.2.2 h
              nack := (by intro h; cases h)
              know := (by intro h; cases h)
              mid := (by intro x h; cases h) }
        · rw [hc.1] at ht; cases ht
      · simp only [if_neg h1]
        by_cases h2 : x &&& 0x10 ≠ 0
        · simp only [if_pos h2]
          have ht := m2 h2
          rcases f.busy hb with hc | hc | hc
          · rw [hc.2.1] at ht; cases ht
          · rw [hc.2.1] at ht; cases ht
          · rw [setMode_rx (by simp [hmode])]
            exact
              { busy := (by intro h; cases h)
                idle := fun _ => by simp [hc.1]
                ack := (by intro h; cases h)
                nack := fun _ => hc.2.2
                know := (by intro h; cases h)
                mid := (by intro x h; cases h) }
        · simp only [if_neg h2, Bool.false_eq_true, if_false]
          exact { f with mid := (by intro x h; cases h) }
  | arrive ad pkt =>
    simp only [step, Option.map_eq_some_iff] at e
    obtain ⟨d, hd, e⟩ := e
    subst e
    simp only [Dev.arrive] at hd
    split at hd
    · simp only [Option.map_eq_some_iff] at hd
      obtain ⟨p, hp, hd⟩ := hd
      subst hd
      exact { f with }
    · cases hd
  | sentNoAck =>
    simp only [step, Option.map_eq_some_iff] at e
    obtain ⟨d, hd, e⟩ := e
    subst e
    simp only [Dev.sentNoAck] at hd
    split at hd
    · next pk fl htx =>
      split at hd
      · next hs =>
        cases hd
        have hb := sends_busy i hs
        have hmr : w.st.dev.maxRt = false := by
          simp only [Dev.sends, Bool.and_eq_true, Bool.not_eq_true'] at hs
          exact hs.2
        rcases f.busy hb with hc | hc | hc
        · obtain ⟨pkt, hpk⟩ := hc.2.2.2
          rw [hpk] at htx
          simp only [List.cons.injEq, Prod.mk.injEq, decide_eq_true_eq] at htx
          exact
            { busy := fun _ => Or.inr (Or.inl ⟨rfl, hmr, htx.2.symm, by simp, fun h => absurd htx.1.1 h⟩)
              idle := fun h => absurd hb h
              ack := (by intro h; simp only [hb] at h; cases h)
              nack := (by intro h; simp only [hb] at h; cases h)
              know := f.know
              mid := fun x hx => ⟨fun _ => rfl, (f.mid x hx).2⟩ }
        · rw [hc.2.2.1] at htx; cases htx
        · rw [hc.2.1] at hmr; cases hmr
      · cases hd
    · cases hd
  | sentAck =>
    simp only [step, Option.map_eq_some_iff] at e
    obtain ⟨d, hd, e⟩ := e
    subst e
    simp only [Dev.sentAck] at hd
    split at hd
    · next pk fl htx =>
      split at hd
      · next hs =>
        cases hd
        have hb := sends_busy i hs.1
        have hmr : w.st.dev.maxRt = false := by
          have hs := hs.1
          simp only [Dev.sends, Bool.and_eq_true, Bool.not_eq_true'] at hs
          exact hs.2
        rcases f.busy hb with hc | hc | hc
        · obtain ⟨pkt, hpk⟩ := hc.2.2.2
          rw [hpk] at htx
          simp only [List.cons.injEq] at htx
          exact
            { busy := fun _ => Or.inr (Or.inl ⟨rfl, hmr, htx.2.symm, by simp, fun _ => rfl⟩)
              idle := fun h => absurd hb h
              ack := (by intro h; simp only [hb] at h; cases h)
              nack := (by intro h; simp only [hb] at h; cases h)
              know := f.know
              mid := fun x hx => ⟨fun _ => rfl, (f.mid x hx).2⟩ }
        · rw [hc.2.2.1] at htx; cases htx
        · rw [hc.2.1] at hmr; cases hmr
      · cases hd
    · cases hd
  | sentFail =>
    simp only [step, Option.map_eq_some_iff] at e
    obtain ⟨d, hd, e⟩ := e
    subst e
    simp only [Dev.sentFail] at hd
    split at hd
    · next pk fl htx =>
      split at hd
      · next hs =>
        cases hd
        have hb := sends_busy i hs
        rcases f.busy hb with hc | hc | hc
        · exact
            { busy := fun _ => Or.inr (Or.inr ⟨hc.1, rfl, rfl⟩)
              idle := fun h => absurd hb h
              ack := (by intro h; simp only [hb] at h; cases h)
              nack := (by intro h; simp only [hb] at h; cases h)
              know := f.know
              mid := fun x hx => ⟨(f.mid x hx).1, fun _ => rfl⟩ }
        · rw [hc.2.2.1] at htx; cases htx
        · simp [Dev.sends, hc.2.1] at hs
      · cases hd
    · cases hd

private theorem fate_run {B : BitVec 64} {O C : Byte} (l : List Act) (hl : ∀ a ∈ l, Sized a) (ht : ∀ a ∈ l, InTime a) {w w' : World} (i : Inv B O C w)
    (f : Fate C w) (e : run w l = some w') : Fate C w' := by
  induction l generalizing w with
  | nil => cases e; exact f
  | cons a l ih =>
    simp only [run, Option.bind_eq_some_iff] at e
    obtain ⟨v, e1, e2⟩ := e
    have h1 := hl a List.mem_cons_self
    exact ih (fun b hb => hl b (List.mem_cons_of_mem _ hb)) (fun b hb => ht b (List.mem_cons_of_mem _ hb)) (inv_step i h1 e1)
      (fate_step i f h1 (ht a List.mem_cons_self) e1) e2

private theorem init_fate (base : BitVec 64) (own bc : Byte) {s : St} (h : Fresh s) : Fate bc (start base own bc s) := by
  obtain ⟨regs, e, -⟩ := init_eq base own bc (s := s) (by rw [h.mode]; decide)
  simp only [start, e]
  exact { busy := (by intro h; cases h), idle := fun _ => ⟨h.txDs, h.maxRt⟩, ack := (by intro h; cases h), nack := (by intro h; cases h), know := (by intro h; cases h), mid := (by intro x h; cases h) }

/-- C295, in part: in every execution after switching on in which the timeout does not expire, feedback is
true for packets that are not for all: `FinishedAck` if the last packet was acknowledged, `FinishedNack` if it
was not.  What is missing: packets for all, timeouts, flags left over from before `initialize`. -/
theorem C295_feedback_partial {base : BitVec 64} {own bc : Byte} {s : St} (hs : Fresh s) {l : List Act} {w : World} (hl : ∀ a ∈ l, Sized a)
    (ht : ∀ a ∈ l, InTime a) (e : run (start base own bc s) l = some w) :
    (w.st.fb = .finishedAck → w.last ≠ bc → w.fate = .acked) ∧ (w.st.fb = .finishedNack → w.fate = .failed) := by
  have f := fate_run l hl ht (init_inv base own bc hs) (init_fate base own bc hs) e
  exact ⟨f.ack, f.nack⟩

example : (run net [.send 0x09 (List.replicate 30 1), .poll, .sentAck, .finish false, .poll, .finish false]).map (fun w => (w.st.fb, w.fate)) =
    some (.finishedAck, .acked) ∧
    (run net [.send 0x09 (List.replicate 30 1), .sentFail, .poll, .finish false]).map (fun w => (w.st.fb, w.fate)) = some (.finishedNack, .failed) := by
  constructor <;> decide +kernel

/-- C295: when the fate of the packet is known, the next `update` ends the transmission: the driver is not
busy any more, and the device listens again. -/
theorem C295_done {base : BitVec 64} {own bc : Byte} {s : St} (hs : Fresh s) {l : List Act} {w : World} (hl : ∀ a ∈ l, Sized a)
    (ht : ∀ a ∈ l, InTime a) (e : run (start base own bc s) l = some w) (hm : w.mid = none) (hf : w.fate ≠ .pending) :
    ∃ w', run w [.poll, .finish false] = some w' ∧ w'.st.fb ≠ .busy ∧ w'.st.dev.primRx = true ∧ w'.st.dev.ce = true := by
  have i := inv_run l hl (init_inv base own bc hs) e
  have f := fate_run l hl ht (init_inv base own bc hs) (init_fate base own bc hs) e
  have he : ∃ w', run w [.poll, .finish false] = some w' ∧ w'.st.fb ≠ .busy := by
    simp only [run, step, hm, Option.isNone_none, if_true, Option.map_some, Option.bind_some]
    refine ⟨_, rfl, ?_⟩
    by_cases hb : w.st.fb = .busy
    · simp only [poll_busy hb]
      have hmode : w.st.mode = .tx := by
        rcases i.mode with h | h
        · exact absurd hb h.2
        · exact h.1
      rcases f.busy hb with hc | hc | hc
      · exact absurd hc.2.2.1 hf
      · have h1 := (status_bits w.st.dev).2.1.mpr hc.1
        simp only [finish, if_pos h1]
        rw [setMode_rx (by simp [hmode])]
        simp
      · have h1 : ¬ w.st.dev.status &&& 0x20 ≠ 0 := by rw [(status_bits w.st.dev).2.1, hc.1]; decide
        have h2 := (status_bits w.st.dev).2.2.mpr hc.2.1
        simp only [finish, if_neg h1, if_pos h2]
        rw [setMode_rx (by simp [hmode])]
        simp
    · simp only [poll_idle hb]
      have hmode : w.st.mode = .rx := by
        rcases i.mode with h | h
        · exact h.1
        · exact absurd h.2 hb
      simpa [finish, setMode, hmode] using hb
  obtain ⟨w', e1, e2⟩ := he
  have i' := inv_run [.poll, .finish false] (by intro a ha; simp at ha; rcases ha with rfl | rfl <;> trivial) i e1
  refine ⟨w', e1, e2, ?_, i'.ce⟩
  rcases i'.mode with h | h
  · rw [i'.prim, h.1]; rfl
  · exact absurd h.2 e2

/-- C295 is false in full: a packet for all is never acknowledged, but the feedback is `FinishedAck` ("Packet
sent and ACK received"), not `DontKnow` ("Packet was sent without requesting ACK"). -/
theorem C295_broadcast_counterexample :
    (run net [.send 0xff (List.replicate 30 1), .sentNoAck, .poll, .finish false]).map (fun w => (w.st.fb, w.fate)) = some (.finishedAck, .sentNoAck) := by
  decide +kernel

/-- C295 is false in full: the acknowledgement arrives just when the timeout expires; the flag remains set,
and the next packet is reported as acknowledged though it was never sent. -/
theorem C295_late_counterexample :
    (run net [.send 0x09 (List.replicate 30 1), .poll, .sentAck, .finish true, .send 0x08 (List.replicate 30 2), .poll, .finish false]).map
      (fun w => (w.st.fb, w.last, w.fate)) = some (.finishedAck, 0x08, .pending) := by
  decide +kernel

/-- C295 is false in full: `initialize` does not clear the flags.  If the processor was reset after a packet
was sent, the first packet afterwards is reported as acknowledged at once, and never sent. -/
theorem C295_restart_counterexample :
    (run (start 0x1122334400 0x07 0xff { fresh with dev := { fresh.dev with txDs := true } })
      [.send 0x09 (List.replicate 30 1), .poll, .finish false]).map (fun w => (w.st.fb, w.fate)) = some (.finishedAck, .pending) := by
  decide +kernel

/-! ### Receiving -/

/-- C296: in every execution after switching on, the device takes only packets for the own address and for
the address for all (and for an address of no station of the network until the first packet is sent). -/
theorem C296_addresses {base : BitVec 64} {own bc : Byte} {s : St} (hs : Fresh s) {l : List Act} {w : World} (hl : ∀ a ∈ l, Sized a)
    (e : run (start base own bc s) l = some w) {h : List Byte × List Byte} (hh : h ∈ w.heard) :
    h.1 = station base own ∨ h.1 = station base bc ∨ h.1 = nobody base :=
  (inv_run l hl (init_inv base own bc hs) e).heard h hh

/-- C296: packets for both addresses are taken whenever the driver is not busy and there is room. -/
theorem C296_taken {base : BitVec 64} {own bc : Byte} {s : St} (hs : Fresh s) {l : List Act} {w : World} (hl : ∀ a ∈ l, Sized a)
    (e : run (start base own bc s) l = some w) (hb : w.st.fb ≠ .busy) (hr : w.st.dev.rxF.length < 3) (pkt : List Byte) {a : List Byte}
    (ha : a = station base own ∨ a = station base bc) : ∃ w', step w (.arrive a pkt) = some w' ∧ w'.heard = w.heard ++ [(a, pkt)] := by
  have i := inv_run l hl (init_inv base own bc hs) e
  have hmode : w.st.mode = .rx := by
    rcases i.mode with h | h
    · exact h.1
    · exact absurd h.2 hb
  have hprim : w.st.dev.primRx = true := by rw [i.prim, hmode]; rfl
  have hp : (w.st.dev.pipeOf a).isSome = true := by
    simp only [Dev.pipeOf, List.find?_isSome]
    rcases ha with rfl | rfl
    · refine ⟨2, by decide, ?_⟩
      have : w.st.dev.pipeAddr 2 = w.st.dev.regs 0x0c :: w.st.dev.a1.drop 1 := rfl
      rw [i.e1.2, this, i.r2, i.a1]
      simp [station]
    · refine ⟨1, by decide, ?_⟩
      have : w.st.dev.pipeAddr 1 = w.st.dev.a1 := rfl
      rw [i.e1.1, this, i.a1]
      simp
  obtain ⟨p, hp⟩ := Option.isSome_iff_exists.mp hp
  simp only [step, Dev.arrive]
  rw [if_pos ⟨hprim, i.pwr, i.ce, hr⟩, hp]
  exact ⟨_, rfl, rfl⟩

example : station 0x1122334400 0x07 = [0x07, 0x44, 0x33, 0x22, 0x11] ∧
    (run net [.arrive [0x07, 0x44, 0x33, 0x22, 0x11] [1]]).map (·.heard.length) = some 1 ∧
    (run net [.arrive [0x08, 0x44, 0x33, 0x22, 0x11] [1]]).isNone = true := by
  refine ⟨?_, ?_, ?_⟩ <;> decide +kernel

private theorem fit_all (l : List Byte) (h : l.length = 32) : fit (32 : Byte).toNat l = l := by
  have h32 : (32 : Byte).toNat = 32 := by decide
  rw [fit, h32, h, List.take_of_length_le (by omega)]
  simp

/-- As long as nothing is sent. -/
private structure Rec (w : World) : Prop where
  idle : w.st.fb ≠ .busy
  eq : w.got ++ w.st.dev.rxF.map (·.2) = w.heard.map (·.2)
  dr : w.st.dev.rxDr = true → w.st.dev.rxF ≠ []
  len : ∀ x ∈ w.st.dev.rxF, x.2.length = 32

private theorem get_eq {s : St} (hl : s.len = 32) (hd : s.dev.rxDr = true → s.dev.rxF ≠ []) (hx : ∀ x ∈ s.dev.rxF, x.2.length = 32) :
    getPacket s = (match s.dev.rxF with | [] => (none, s) | x :: f => (some x.2, { s with dev := { s.dev with rxDr := false, rxF := f } })) := by
  have h4 : (0x40 : Byte).getLsbD 5 = false := by decide
  have h5 : (0x40 : Byte).getLsbD 4 = false := by decide
  have hci : clearInterrupt 0x40 s.dev = { s.dev with rxDr := false } := by
    rw [clearInterrupt_eq, h4, h5]
    simp
  cases hq : s.dev.rxF with
  | nil =>
    have h1 : ¬ s.dev.status &&& 0x40 ≠ 0 := by
      rw [(status_bits s.dev).1]
      intro h
      exact hd h hq
    have h2 : ¬ s.dev.fifoStatus &&& 0x01 = 0 := by
      rw [(fifo_bit s.dev).2]
      simp [hq]
    simp only [getPacket, isPacketAvailable, readStatus_eq, if_neg h1, (fifo_bit s.dev).1, h2, decide_false, Bool.false_eq_true, if_false]
  | cons x f =>
    have hav : isPacketAvailable s.dev = (true, s.dev) := by
      have h2 : s.dev.fifoStatus &&& 0x01 = 0 := by
        rw [(fifo_bit s.dev).2]
        simp [hq]
      simp only [isPacketAvailable, readStatus_eq, (fifo_bit s.dev).1, h2, decide_true]
      split <;> rfl
    simp only [getPacket, hav, if_true, hci]
    rw [readRx_cons _ _ x f (by simpa using hq)]
    rw [hl, fit_all _ (hx x (by rw [hq]; exact List.mem_cons_self))]

private theorem rec_step {B : BitVec 64} {O C : Byte} {w w' : World} (i : Inv B O C w) (r : Rec w) {a : Act} (ha : Sized a) (hl : Listens a)
    (e : step w a = some w') : Rec w' := by
  have hmode : w.st.mode = .rx := by
    rcases i.mode with h | h
    · exact h.1
    · exact absurd h.2 r.idle
  have hns : w.st.dev.sends = false := by
    have := i.prim
    rw [hmode] at this
    simp [Dev.sends, this]
  cases a with
  | send dest payload => cases hl
  | get =>
    simp only [step] at e
    split at e
    · simp only [Option.some.injEq] at e
      rw [get_eq i.len r.dr r.len] at e
      cases hq : w.st.dev.rxF with
      | nil =>
        simp only [hq] at e
        subst e
        exact { r with eq := by simpa using r.eq }
      | cons x f =>
        simp only [hq] at e
        subst e
        have he := r.eq
        rw [hq] at he
        exact { idle := r.idle, eq := by simpa using he, dr := (by intro h; cases h), len := fun y hy => r.len y (by rw [hq]; exact List.mem_cons_of_mem _ hy) }
    · cases e
  | poll =>
    simp only [step] at e
    split at e
    · simp only [Option.some.injEq] at e
      rw [poll_idle r.idle] at e
      subst e
      exact { r with }
    · cases e
  | finish ex =>
    simp only [step, Option.map_eq_some_iff] at e
    obtain ⟨st, hm, e⟩ := e
    subst e
    cases st with
    | none =>
      simp only [finish, setMode, hmode, if_true]
      exact { r with }
    | some x => exact absurd (i.mid1 x hm) r.idle
  | arrive ad pkt =>
    simp only [step, Option.map_eq_some_iff] at e
    obtain ⟨d, hd, e⟩ := e
    subst e
    simp only [Dev.arrive] at hd
    split at hd
    · simp only [Option.map_eq_some_iff] at hd
      obtain ⟨p, hp, hd⟩ := hd
      subst hd
      refine { idle := r.idle, eq := ?_, dr := fun _ => by simp, len := ?_ }
      · simp [← r.eq]
      · intro y hy
        simp only [List.mem_append, List.mem_singleton] at hy
        rcases hy with hy | rfl
        · exact r.len y hy
        · exact ha
    · cases hd
  | sentNoAck =>
    simp only [step, Dev.sentNoAck, hns] at e
    split at e <;> simp at e
  | sentAck =>
    simp only [step, Dev.sentAck, hns] at e
    split at e <;> simp at e
  | sentFail =>
    simp only [step, Dev.sentFail, hns] at e
    split at e <;> simp at e

private theorem rec_run {base : BitVec 64} {own bc : Byte} {s : St} (hs : Fresh s) {l : List Act} {w : World} (hl : ∀ a ∈ l, Sized a)
    (ht : ∀ a ∈ l, Listens a) (e : run (start base own bc s) l = some w) : Rec w := by
  have i := init_inv base own bc hs
  have r : Rec (start base own bc s) := by
    obtain ⟨regs, e, -⟩ := init_eq base own bc (s := s) (by rw [hs.mode]; decide)
    simp only [start, e]
    exact { idle := (by intro h; cases h), eq := rfl, dr := (by intro h; rw [hs.rxDr] at h; cases h), len := (by intro x h; cases h) }
  revert e i r
  generalize start base own bc s = v
  intro e i r
  have key : Rec w := by
    induction l generalizing v with
    | nil => cases e; exact r
    | cons a l ih =>
      simp only [run, Option.bind_eq_some_iff] at e
      obtain ⟨u, e1, e2⟩ := e
      have h1 := hl a List.mem_cons_self
      exact ih (fun b hb => hl b (List.mem_cons_of_mem _ hb)) (fun b hb => ht b (List.mem_cons_of_mem _ hb)) u e2 (inv_step i h1 e1)
        (rec_step i r h1 (ht a List.mem_cons_self) e1)
  exact key

/-- C296, in part: in every execution after switching on in which nothing is sent, the packets given to the
user and those still in the device are the packets taken, in their order: none lost, none invented.  What is
missing: executions in which packets are sent, flags left over from before `initialize`, a second
`initialize`. -/
theorem C296_packets_partial {base : BitVec 64} {own bc : Byte} {s : St} (hs : Fresh s) {l : List Act} {w : World} (hl : ∀ a ∈ l, Sized a)
    (ht : ∀ a ∈ l, Listens a) (e : run (start base own bc s) l = some w) :
    w.got ++ w.st.dev.rxF.map (·.2) = w.heard.map (·.2) :=
  (rec_run hs hl ht e).eq

/-- C296, in part: in the same executions `getPacket` returns the first packet that the user has not got yet,
and false if there is none. -/
theorem C296_next_partial {base : BitVec 64} {own bc : Byte} {s : St} (hs : Fresh s) {l : List Act} {w : World} (hl : ∀ a ∈ l, Sized a)
    (ht : ∀ a ∈ l, Listens a) (e : run (start base own bc s) l = some w) : (getPacket w.st).1 = (w.heard.map (·.2))[w.got.length]? := by
  have i := inv_run l hl (init_inv base own bc hs) e
  have r := rec_run hs hl ht e
  rw [← r.eq, get_eq i.len r.dr r.len, List.getElem?_append_right (Nat.le_refl _), Nat.sub_self]
  cases w.st.dev.rxF <;> rfl

example : (run net [.arrive [0x07, 0x44, 0x33, 0x22, 0x11] (List.replicate 32 1), .arrive [0xff, 0x44, 0x33, 0x22, 0x11] (List.replicate 32 2), .get, .get, .get]).map
    (·.got) = some [List.replicate 32 1, List.replicate 32 2] := by decide +kernel

/-- C296 is false in full: a packet has arrived and was acknowledged to its sender; before the user fetches it
the driver sends a packet itself.  Returning to reception empties the queue: the packet is lost, and as the
flag remains set `getPacket` returns true with a packet that nobody has sent. -/
theorem C296_flush_counterexample :
    (run net [.arrive [0x07, 0x44, 0x33, 0x22, 0x11] (List.replicate 32 1), .send 0x09 (List.replicate 30 2), .sentAck, .poll, .finish false, .get]).map
      (fun w => (w.got, w.heard.map (·.2))) = some ([List.replicate 32 0], [List.replicate 32 1]) := by decide +kernel

/-- C296 is false in full: `initialize` empties the queue but does not clear the flag. -/
theorem C296_restart_counterexample :
    (run (start 0x1122334400 0x07 0xff { fresh with dev := { fresh.dev with rxDr := true } }) [.get]).map (fun w => (w.got, w.heard)) =
      some ([List.replicate 32 0], []) := by decide +kernel

/-- C296 is false in full: the device was switched off and on, and `initialize` is called a second time.  The
driver believes the device to be listening and leaves it in standby; nothing is received. -/
theorem C296_again_counterexample (a pkt : List Byte) :
    (run (start 0x1122334400 0x07 0xff { net.st with dev := fresh.dev }) [.arrive a pkt]).isNone = true := by
  have h : (start 0x1122334400 0x07 0xff { net.st with dev := fresh.dev }).st.dev.primRx = false := by decide +kernel
  revert h
  generalize start 0x1122334400 0x07 0xff { net.st with dev := fresh.dev } = w
  intro h
  simp [run, step, Dev.arrive, h]

end Props.Nrf24
