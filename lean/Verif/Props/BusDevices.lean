import Verif.Model.BusDevices
import Mathlib.Tactic.IntervalCases

set_option autoImplicit false

/-! Devices on a bus: C310–C313. -/

namespace Props.BusDevices

open Modm.BusDevices

/-! ## Multiplexer PCA9548A (C310) -/

/-- Operations that are acknowledged and do not read the register -/
def Plain : MuxOp → Prop
  | .write _ a => a = true
  | .read _ => False
  | .start _ a => a = true

theorem write_sync (s : Mux) (h : s.chip = s.current) (v : Byte) : (s.writeCommandRegister v true).1 = true ∧
    (s.writeCommandRegister v true).2.chip = v ∧ (s.writeCommandRegister v true).2.current = v := by
  unfold Mux.writeCommandRegister
  by_cases hc : s.current = v
  · rw [if_pos hc]
    exact ⟨rfl, h.trans hc, hc⟩
  · rw [if_neg hc]
    exact ⟨rfl, rfl, rfl⟩

theorem sync_op (s : Mux) (h : s.chip = s.current) (o : MuxOp) (ho : Plain o) : (s.op o).chip = (s.op o).current := by
  cases o with
  | write v a =>
    obtain rfl : a = true := ho
    have := write_sync s h v
    exact this.2.1.trans this.2.2.symm
  | read a => exact ho.elim
  | start c a =>
    obtain rfl : a = true := ho
    simp only [Mux.op, Mux.start, Mux.setActiveChannel]
    by_cases hc : c ≥ 8
    · simp only [if_pos hc, if_true]
      exact h
    · have := write_sync s h ((1 : Byte) <<< c)
      simp only [if_neg hc, this.1, Bool.true_eq_false, if_false]
      exact this.2.1.trans this.2.2.symm

/-- **C310**: as long as the multiplexer and the driver start in the same state and every transaction with the multiplexer is acknowledged, a transaction on a
channel reaches exactly this channel; numbers from 8 on are refused.  Missing: failed transactions, `readCommandRegister`, and a multiplexer that was
not reset with the program, see the counterexamples. -/
theorem C310_channel_partial (s : Mux) (h : s.chip = s.current) (ops : List MuxOp) (ho : ∀ o ∈ ops, Plain o) (c : Nat) :
    ((ops.foldl Mux.op s).start c true).1 = if c < 8 then some ((1 : Byte) <<< c) else none := by
  have hs : (ops.foldl Mux.op s).chip = (ops.foldl Mux.op s).current := by
    revert s
    induction ops with
    | nil => exact fun s h => h
    | cons o l ih =>
      intro s h
      exact ih (fun o' h' => ho o' (List.mem_cons_of_mem _ h')) (s.op o) (sync_op s h o (ho o List.mem_cons_self))
  simp only [Mux.start, Mux.setActiveChannel]
  by_cases hc : c ≥ 8
  · simp only [if_pos hc, if_true, if_neg (show ¬ c < 8 by omega)]
  · have := write_sync _ hs ((1 : Byte) <<< c)
    simp only [if_neg hc, this.1, this.2.1, Bool.true_eq_false, if_false, show c < 8 by omega, if_true]

/-- **C310** (failures): a transaction on a channel is not started if the multiplexer did not acknowledge its selection. -/
theorem C310_refused (s : Mux) (c : Nat) (hc : c < 8) (hn : s.current ≠ (1 : Byte) <<< c) : (s.start c false).1 = none ∧ (s.start c false).2.chip = s.chip := by
  have h8 : ¬ c ≥ 8 := by omega
  simp only [Mux.start, Mux.setActiveChannel, Mux.writeCommandRegister, if_neg h8, if_neg hn, if_true, Bool.false_eq_true, Bool.true_eq_false, if_false, and_self]

/-- **C310**, false in general: after a selection that was not acknowledged, the next transaction on the same channel is started without a new
selection and reaches the devices of the channels that were selected before, for every state and channel. -/
theorem C310_retry_counterexample (s : Mux) (c : Nat) (hc : c < 8) (hn : s.current ≠ (1 : Byte) <<< c) (a : Bool) :
    ((s.start c false).2.start c a).1 = some s.chip := by
  have h8 : ¬ c ≥ 8 := by omega
  simp only [Mux.start, Mux.setActiveChannel, Mux.writeCommandRegister, if_neg h8, if_neg hn, if_true, Bool.false_eq_true, Bool.true_eq_false, if_false, and_self]

/-- **C310**, false in general: `readCommandRegister` returns what was in the buffer before, not what it read, and takes this for the state of the
multiplexer: a channel selected next may be skipped. -/
theorem C310_read_counterexample (s : Mux) (a : Bool) (c : Nat) (hc : c < 8) (hb : s.buffer = (1 : Byte) <<< c) (a' : Bool) :
    (s.readCommandRegister a).2.1 = s.buffer ∧ ((s.readCommandRegister a).2.2.start c a').1 = some s.chip := by
  have h8 : ¬ c ≥ 8 := by omega
  simp only [Mux.readCommandRegister, Mux.start, Mux.setActiveChannel, Mux.writeCommandRegister, if_neg h8, hb, if_true, Bool.true_eq_false, if_false, and_self]

example : ([MuxOp.start 3 true, .write 0x81 true, .start 9 true].foldl Mux.op ⟨0, 0, 0xAA⟩).chip = 0x81 := by decide
example : (((⟨0x02, 0x02, 0x02⟩ : Mux).start 5 false).2.start 5 true).1 = some 0x02 := by decide

/-! ## PCA9685 (C311) -/

theorem ai_set : ∀ b : Byte, (b ||| 0x20) &&& 0x20 ≠ 0 := by decide +kernel

theorem low_nibble : ∀ b : Byte, (b &&& 0x0f).toNat % 16 = (b &&& 0x0f).toNat ∧ (b &&& 0x0f).getLsbD 4 = false ∧ (b &&& 0x0f).toNat = b.toNat % 16 := by
  decide +kernel

theorem store_all (r : Regs) (a i : Nat) (b : Byte) (h : 0xfa ≤ a ∧ a ≤ 0xfd) :
    store r a b i = if 6 ≤ i ∧ i < 0x46 ∧ (i - 6) % 4 = a - 0xfa then b else r i := by
  unfold store
  rw [if_pos h]

theorem store_one (r : Regs) (a i : Nat) (b : Byte) (h : ¬ (0xfa ≤ a ∧ a ≤ 0xfd)) : store r a b i = if i = a then b else r i := by
  unfold store
  rw [if_neg h, Function.update_apply]

theorem transaction_two (r : Regs) (a : Nat) (x y : Byte) (h : r 0 &&& 0x20 ≠ 0) (ha : a ≠ 0) : transaction r a [x, y] = store (store r a x) (a + 1) y := by
  have h0 : store r a x 0 = r 0 := by
    by_cases hc : 0xfa ≤ a ∧ a ≤ 0xfd
    · rw [store_all _ _ _ _ hc, if_neg (by omega)]
    · rw [store_one _ _ _ _ hc, if_neg (by omega)]
  simp only [transaction, h0, if_neg h]

/-- The value a history sets for a channel: the last one that was acknowledged, for this channel or for all -/
def lastValue (c : Nat) (ops : List PwmOp) : Option (BitVec 16) :=
  ops.foldl (fun acc o => match o with
    | .one c' v a => if c' = c ∧ a = true then some v else acc
    | .all v a => if a = true then some v else acc) none

/-- The state of the chip after `initialize`, and the values of the channel `c` -/
structure Ready (r : Regs) (c : Nat) (w : Option (BitVec 16)) : Prop where
  ai : r 0 &&& 0x20 ≠ 0
  on0 : r (0x06 + 4 * c) = 0
  on1 : r (0x07 + 4 * c) = 0
  off : ∀ v, w = some v → r (0x08 + 4 * c) = v.setWidth 8 ∧ r (0x09 + 4 * c) = (v >>> 8).setWidth 8 &&& 0x0f

theorem ready_op (r : Regs) (c : Nat) (hc : c < 16) (w : Option (BitVec 16)) (h : Ready r c w) (o : PwmOp) :
    Ready (pwmOp r o) c (match o with
      | .one c' v a => if c' = c ∧ a = true then some v else w
      | .all v a => if a = true then some v else w) := by
  cases o with
  | one c' v a =>
    simp only [pwmOp, setChannel]
    by_cases h16 : c' ≥ 16
    · rw [if_pos h16, if_neg (by omega)]
      exact h
    · rw [if_neg h16]
      cases a with
      | false =>
        simp only [Bool.false_eq_true, if_false, and_false]
        exact h
      | true =>
        simp only [if_true, and_true]
        rw [Nat.mod_eq_of_lt (by omega), transaction_two r _ _ _ h.ai (by omega)]
        have hu : ∀ i, store (store r (8 + 4 * c') (v.setWidth 8)) (8 + 4 * c' + 1) ((v >>> 8).setWidth 8 &&& 0x0f) i =
            if i = 8 + 4 * c' + 1 then (v >>> 8).setWidth 8 &&& 0x0f else if i = 8 + 4 * c' then v.setWidth 8 else r i := by
          intro i
          rw [store_one _ _ _ _ (by omega), store_one _ _ _ _ (by omega)]
        refine ⟨?_, ?_, ?_, ?_⟩
        · rw [hu, if_neg (by omega), if_neg (by omega)]
          exact h.ai
        · rw [hu, if_neg (by omega), if_neg (by omega)]
          exact h.on0
        · rw [hu, if_neg (by omega), if_neg (by omega)]
          exact h.on1
        · intro v' hv
          by_cases he : c' = c
          · subst he
            rw [if_pos rfl] at hv
            simp only [Option.some.injEq] at hv
            subst hv
            rw [hu, hu, if_neg (by omega), if_pos rfl, if_pos (by omega)]
            exact ⟨rfl, rfl⟩
          · rw [if_neg he] at hv
            rw [hu, hu, if_neg (by omega), if_neg (by omega), if_neg (by omega), if_neg (by omega)]
            exact h.off v' hv
  | all v a =>
    simp only [pwmOp, setAllChannels]
    cases a with
    | false =>
      simp only [Bool.false_eq_true, if_false]
      exact h
    | true =>
      simp only [if_true]
      rw [transaction_two r _ _ _ h.ai (by omega)]
      have hu : ∀ i, store (store r 0xfc (v.setWidth 8)) (0xfc + 1) ((v >>> 8).setWidth 8 &&& 0x0f) i =
          if 6 ≤ i ∧ i < 0x46 ∧ (i - 6) % 4 = 3 then (v >>> 8).setWidth 8 &&& 0x0f else if 6 ≤ i ∧ i < 0x46 ∧ (i - 6) % 4 = 2 then v.setWidth 8 else r i := by
        intro i
        rw [store_all _ _ _ _ (by omega), store_all _ _ _ _ (by omega)]
      refine ⟨?_, ?_, ?_, ?_⟩
      · rw [hu, if_neg (by omega), if_neg (by omega)]
        exact h.ai
      · rw [hu, if_neg (by omega), if_neg (by omega)]
        exact h.on0
      · rw [hu, if_neg (by omega), if_neg (by omega)]
        exact h.on1
      · intro v' hv
        simp only [Option.some.injEq] at hv
        subst hv
        rw [hu, hu, if_neg (by omega), if_pos (by omega), if_pos (by omega)]
        exact ⟨rfl, rfl⟩

theorem ready_ops (c : Nat) (hc : c < 16) : ∀ (ops : List PwmOp) (r : Regs) (w : Option (BitVec 16)), Ready r c w →
    Ready (ops.foldl pwmOp r) c (ops.foldl (fun acc o => match o with
      | .one c' v a => if c' = c ∧ a = true then some v else acc
      | .all v a => if a = true then some v else acc) w) := by
  intro ops
  induction ops with
  | nil => exact fun _ _ h => h
  | cons o l ih => exact fun r w h => ih _ _ (ready_op r c hc w h o)

theorem ready_initialize (r : Regs) (m1 m2 : Byte) (c : Nat) (hc : c < 16) : Ready (pcaInitialize r m1 m2 fun _ => true).2 c none := by
  have h1 : store r 0 (m1 ||| 0x20) = Function.update r 0 (m1 ||| 0x20) := by
    unfold store
    rw [if_neg (by omega)]
  have h2 : store (Function.update r 0 (m1 ||| 0x20)) 1 m2 = Function.update (Function.update r 0 (m1 ||| 0x20)) 1 m2 := by
    unfold store
    rw [if_neg (by omega)]
  have h0 : Function.update (Function.update r 0 (m1 ||| 0x20)) 1 m2 0 = m1 ||| 0x20 := by
    rw [Function.update_of_ne (by omega), Function.update_self]
  have e : (pcaInitialize r m1 m2 fun _ => true).2 = store (store (Function.update (Function.update r 0 (m1 ||| 0x20)) 1 m2) 0xfa 0) (0xfa + 1) 0 := by
    simp only [pcaInitialize, Bool.not_true, Bool.false_eq_true, if_false]
    rw [← transaction_two _ _ _ _ (by rw [h0]; exact ai_set m1) (by omega)]
    simp only [transaction, h1, h2]
  have hu : ∀ i, (pcaInitialize r m1 m2 fun _ => true).2 i = if 6 ≤ i ∧ i < 0x46 ∧ (i - 6) % 4 = 1 then 0 else if 6 ≤ i ∧ i < 0x46 ∧ (i - 6) % 4 = 0 then 0
      else Function.update (Function.update r 0 (m1 ||| 0x20)) 1 m2 i := by
    intro i
    rw [e, store_all _ _ _ _ (by omega), store_all _ _ _ _ (by omega)]
  refine ⟨?_, ?_, ?_, by intro v hv; cases hv⟩
  · rw [hu, if_neg (by omega), if_neg (by omega), h0]
    exact ai_set m1
  · rw [hu, if_neg (by omega), if_pos (by omega)]
  · rw [hu, if_pos (by omega)]

/-- **C311**: after `initialize` (from any contents of the registers, with any modes), and after any sequence of `setChannel` and `setAllChannels`, acknowledged or
not, each channel is on for the first `v` ticks of the 4096 of a period, where `v` are the low 12 bits of the last value acknowledged for it.
Missing: `v = 0`, see `C311_zero_counterexample`. -/
theorem C311_pwm_partial (r : Regs) (m1 m2 : Byte) (ops : List PwmOp) (c : Nat) (hc : c < 16) (v : BitVec 16) (hv : lastValue c ops = some v)
    (h0 : v.toNat % 4096 ≠ 0) (t : Nat) : output (ops.foldl pwmOp (pcaInitialize r m1 m2 fun _ => true).2) c t = some (decide (t < v.toNat % 4096)) := by
  have h := ready_ops c hc ops _ _ (ready_initialize r m1 m2 c hc)
  obtain ⟨o1, o2⟩ := h.off v hv
  obtain ⟨n1, n2, n3⟩ := low_nibble ((v >>> 8).setWidth 8)
  have e : ((v >>> 8).setWidth 8 &&& (0x0f : Byte)).toNat * 256 + (v.setWidth 8).toNat = v.toNat % 4096 := by
    rw [n3, BitVec.toNat_setWidth, BitVec.toNat_setWidth, BitVec.toNat_ushiftRight, Nat.shiftRight_eq_div_pow]
    omega
  unfold output
  simp only [h.on0, h.on1, o1, o2, n1, n2, e, Bool.false_eq_true, if_false]
  have z : (0 : Byte).toNat % 16 * 256 + (0 : Byte).toNat = 0 := by decide
  have z4 : (0 : Byte).getLsbD 4 = false := by decide
  rw [z, z4]
  simp only [Bool.false_eq_true, if_false, Nat.zero_le, true_and]
  rw [if_pos (by omega)]

/-- **C311**, false in general: the value 0 (and 4096, 8192, …) programs the same count for on and off, for which the data sheet does not define the
output; the bit for off is cleared. -/
theorem C311_zero_counterexample (r : Regs) (m1 m2 : Byte) (ops : List PwmOp) (c : Nat) (hc : c < 16) (v : BitVec 16) (hv : lastValue c ops = some v)
    (h0 : v.toNat % 4096 = 0) (t : Nat) : output (ops.foldl pwmOp (pcaInitialize r m1 m2 fun _ => true).2) c t = none := by
  have h := ready_ops c hc ops _ _ (ready_initialize r m1 m2 c hc)
  obtain ⟨o1, o2⟩ := h.off v hv
  obtain ⟨n1, n2, n3⟩ := low_nibble ((v >>> 8).setWidth 8)
  have e : ((v >>> 8).setWidth 8 &&& (0x0f : Byte)).toNat * 256 + (v.setWidth 8).toNat = v.toNat % 4096 := by
    rw [n3, BitVec.toNat_setWidth, BitVec.toNat_setWidth, BitVec.toNat_ushiftRight, Nat.shiftRight_eq_div_pow]
    omega
  unfold output
  simp only [h.on0, h.on1, o1, o2, n1, n2, e, Bool.false_eq_true, if_false]
  have z : (0 : Byte).toNat % 16 * 256 + (0 : Byte).toNat = 0 := by decide
  have z4 : (0 : Byte).getLsbD 4 = false := by decide
  rw [z, z4]
  simp only [Bool.false_eq_true, if_false]
  rw [if_neg (by omega), if_neg (by omega)]

/-- **C311** (results): a channel from 16 on is refused without a transaction; a transaction that fails changes nothing; the result of `initialize` is true
exactly if all three transactions were acknowledged. -/
theorem C311_results (r : Regs) (c : Nat) (v : BitVec 16) (a : Bool) (m1 m2 : Byte) (ack : Nat → Bool) :
    ((setChannel r c v a).1 = true ↔ c < 16 ∧ a = true) ∧ ((setChannel r c v a).1 = false → (setChannel r c v a).2 = r) ∧
    ((setAllChannels r v a).1 = a) ∧ ((pcaInitialize r m1 m2 ack).1 = true ↔ ack 0 = true ∧ ack 1 = true ∧ ack 2 = true) := by
  refine ⟨?_, ?_, ?_, ?_⟩
  · unfold setChannel
    by_cases h : c ≥ 16
    · rw [if_pos h]
      simp only [Bool.false_eq_true, false_iff]
      omega
    · rw [if_neg h]
      cases a <;> simp <;> omega
  · unfold setChannel
    by_cases h : c ≥ 16
    · rw [if_pos h]
      exact fun _ => rfl
    · rw [if_neg h]
      cases a <;> simp
  · cases a <;> rfl
  · unfold pcaInitialize
    cases ack 0 <;> cases ack 1 <;> cases ack 2 <;> simp

example : lastValue 3 [.one 3 100 true, .all 0x1800 true, .one 3 7 false, .one 4 9 true] = some 0x1800 ∧
    lastValue 4 [.one 3 100 true, .all 0x1800 true, .one 3 7 false, .one 4 9 true] = some 9 := by decide

/-! ## AS5047 (C312) -/

local instance : Std.Commutative xor := ⟨Bool.xor_comm⟩

local instance : Std.Associative xor := ⟨Bool.xor_assoc⟩

theorem xor_twice (b0 b1 b2 b3 b4 b5 b6 b7 b8 b9 b10 b11 b12 b13 b14 : Bool) : b0 = (b1 != (b2 != (b3 != (b4 != (b5 != (b6 != (b7 != (b8 != (b9 != (b10 != (b11 != (b12 != (b13 != (b14 != (b0 != (b8 != (b4 != (b12 != (b2 != (b10 != (b6 != (b14 != (b1 != (b9 != (b5 != (b13 != (b3 != (b11 != b7)))))))))))))))))))))))))))) := by
  have e : (b1 != (b2 != (b3 != (b4 != (b5 != (b6 != (b7 != (b8 != (b9 != (b10 != (b11 != (b12 != (b13 != (b14 != (b0 != (b8 != (b4 != (b12 != (b2 != (b10 != (b6 != (b14 != (b1 != (b9 != (b5 != (b13 != (b3 != (b11 != b7)))))))))))))))))))))))))))) = ((b1 != (b2 != (b3 != (b4 != (b5 != (b6 != (b7 != (b8 != (b9 != (b10 != (b11 != (b12 != (b13 != b14))))))))))))) != (b0 != (b1 != (b2 != (b3 != (b4 != (b5 != (b6 != (b7 != (b8 != (b9 != (b10 != (b11 != (b12 != (b13 != b14))))))))))))))) := by
    simp only [Bool.bne_eq_xor]
    ac_rfl
  rw [e]
  generalize (b1 != (b2 != (b3 != (b4 != (b5 != (b6 != (b7 != (b8 != (b9 != (b10 != (b11 != (b12 != (b13 != b14))))))))))))) = p
  cases b0 <;> cases p <;> rfl

theorem parity_bit (n : BitVec 16) : evenParity (setMsbToEvenParity n) = true ∧ setMsbToEvenParity n &&& 0x7fff = n &&& 0x7fff := by
  constructor
  · simp only [evenParity, setMsbToEvenParity, List.range_succ, List.range_zero, List.nil_append, List.foldl_append, List.foldl_cons, List.foldl_nil]
    simp
    exact xor_twice _ _ _ _ _ _ _ _ _ _ _ _ _ _ _
  · apply BitVec.eq_of_getLsbD_eq
    intro i hi
    interval_cases i <;> simp [setMsbToEvenParity]

theorem parity_low (n : BitVec 16) : setMsbToEvenParity n &&& 0x3fff = n &&& 0x3fff := by
  apply BitVec.eq_of_getLsbD_eq
  intro i hi
  interval_cases i <;> simp [setMsbToEvenParity]

theorem parity_flag (n : BitVec 16) : (setMsbToEvenParity n).getLsbD 14 = n.getLsbD 14 := by
  simp [setMsbToEvenParity]

theorem split_word (w : BitVec 16) : ((w >>> 8).setWidth 8 ++ w.setWidth 8 : BitVec 16) = w ∧
    (w.setWidth 8).setWidth 16 ||| ((((w >>> 8).setWidth 8 : BitVec 8).setWidth 16) <<< 8) = w := by
  constructor
  · apply BitVec.eq_of_toNat_eq
    have hw := w.isLt
    rw [BitVec.toNat_append, ← Nat.shiftLeft_add_eq_or_of_lt (BitVec.isLt _), BitVec.toNat_setWidth, BitVec.toNat_setWidth, BitVec.toNat_ushiftRight,
      Nat.shiftLeft_eq, Nat.shiftRight_eq_div_pow]
    omega
  · apply BitVec.eq_of_getLsbD_eq
    intro i hi
    interval_cases i <;> simp

/-- **C312** (commands): for every address of 14 bits the command has even parity, the bit for reading and the address, so the chip accepts it. -/
theorem C312_command (a : BitVec 14) : evenParity (readCommand (a.setWidth 16)) = true ∧ (readCommand (a.setWidth 16)).getLsbD 14 = true ∧
    (readCommand (a.setWidth 16)).setWidth 14 = a := by
  refine ⟨(parity_bit _).1, ?_, ?_⟩
  · simp [readCommand, setMsbToEvenParity]
  · apply BitVec.eq_of_getLsbD_eq
    intro i hi
    interval_cases i <;> simp [readCommand, setMsbToEvenParity]

theorem readout_answer (regs : BitVec 14 → BitVec 14) (error : Bool) : asReadout regs error = asAnswer regs error (readCommand 0x3FFE) := by
  simp only [asReadout]
  rw [(split_word (readCommand 0x3FFE)).1, (split_word _).2]

/-- **C312**: `readout` stores the answer to the command for the uncorrected angle, and `getAngleRaw` is the register of the chip, for all its contents. -/
theorem C312_angle (regs : BitVec 14 → BitVec 14) : getAngleRaw (asReadout regs false) = (regs 0x3FFE).toNat := by
  have hc := C312_command 0x3FFE
  have e : ((0x3FFE : BitVec 14).setWidth 16) = 0x3FFE := by decide
  rw [e] at hc
  rw [readout_answer]
  unfold asAnswer
  rw [hc.1, hc.2.1, hc.2.2]
  simp only [Bool.not_true, Bool.or_self, Bool.false_eq_true, if_false, Bool.and_self, if_true]
  generalize regs 0x3FFE = v
  have : setMsbToEvenParity (v.setWidth 16 ||| 0) &&& 0x3fff = v.setWidth 16 := by
    rw [parity_low]
    apply BitVec.eq_of_getLsbD_eq
    intro i hi
    interval_cases i <;> simp
  unfold getAngleRaw
  rw [this, BitVec.toNat_setWidth]
  exact Nat.mod_eq_of_lt (by have := v.isLt; omega)

/-- **C312** (errors), false in general: the error flag is not looked at.  An angle is returned whether the chip reports an error or not, always the same one. -/
theorem C312_error_counterexample (regs : BitVec 14 → BitVec 14) : getAngleRaw (asReadout regs true) = getAngleRaw (asReadout regs false) ∧
    (asReadout regs true).getLsbD 14 = true ∧ (asReadout regs false).getLsbD 14 = false := by
  have hc := C312_command 0x3FFE
  have e : ((0x3FFE : BitVec 14).setWidth 16) = 0x3FFE := by decide
  rw [e] at hc
  rw [readout_answer, readout_answer]
  unfold asAnswer
  rw [hc.1, hc.2.1, hc.2.2]
  simp only [Bool.not_true, Bool.or_self, Bool.true_or, Bool.false_eq_true, if_false, Bool.and_self, if_true]
  generalize regs 0x3FFE = v
  refine ⟨?_, ?_, ?_⟩
  · unfold getAngleRaw
    rw [parity_low, parity_low]
    congr 1
    apply BitVec.eq_of_getLsbD_eq
    intro i hi
    interval_cases i <;> simp
  · rw [parity_flag]
    simp
  · rw [parity_flag]
    simp

/-- **C312** (degrees), false in general: a turn has 16384 steps, but the angle is divided by 16383.  For every angle but 0 the result is too large, and the
last step before a full turn gives 360 degrees. -/
theorem C312_degrees_counterexample (data : BitVec 16) (h : 0 < getAngleRaw data) :
    getAngleRaw data * 360 * (getAngleDeg data).2 < (getAngleDeg data).1 * 16384 ∧ getAngleDeg 0x3fff = (16383 * 360, 16383) := by
  refine ⟨?_, by decide⟩
  simp only [getAngleDeg]
  omega

/-- **C312** (degrees): the error is less than 0.022 degrees, a step of the chip.  Missing: see `C312_degrees_counterexample`. -/
theorem C312_degrees_partial (data : BitVec 16) : (getAngleDeg data).1 * 16384 ≤ getAngleRaw data * 360 * (getAngleDeg data).2 + 360 * 16383 ∧
    getAngleRaw data * 360 * (getAngleDeg data).2 ≤ (getAngleDeg data).1 * 16384 := by
  have h : getAngleRaw data < 16384 := by
    unfold getAngleRaw
    rw [BitVec.toNat_and]
    exact Nat.lt_of_le_of_lt Nat.and_le_right (by decide)
  simp only [getAngleDeg]
  omega

example : getAngleRaw (asReadout (fun a => a - 1) false) = 0x3FFD := by decide

/-! ## MCP4922 (C313) -/

/-- The value a history sets for one channel: the one before the last update -/
structure Wanted where
  nextA : Dac
  nextB : Dac
  a : Dac
  b : Dac

/-- What the documentation promises: 12 bits, the gain asked for, buffered and switched on; visible after `update` -/
def Wanted.op (w : Wanted) : DacOp → Wanted
  | .a v g => { w with nextA := ⟨v.toNat % 4096, g, true, true⟩ }
  | .b v g => { w with nextB := ⟨v.toNat % 4096, g, true, true⟩ }
  | .update => { w with a := w.nextA, b := w.nextB }

/-- **C313**: for every sequence of `setChannelA`, `setChannelB` and `update` both outputs have the values and gains that were set last before the last
update, whatever the chip had before; a call for one channel does not change the other one, and nothing changes at the outputs before `update`. -/
theorem C313_outputs (ops : List DacOp) (s : Dacs) :
    let w := ops.foldl Wanted.op ⟨s.inputA, s.inputB, s.outA, s.outB⟩
    (ops.foldl Dacs.op s).outA = w.a ∧ (ops.foldl Dacs.op s).outB = w.b := by
  have step : ∀ (s : Dacs) (o : DacOp), Wanted.op ⟨s.inputA, s.inputB, s.outA, s.outB⟩ o = ⟨(s.op o).inputA, (s.op o).inputB, (s.op o).outA, (s.op o).outB⟩ := by
    intro s o
    have key : ∀ (f : BitVec 4) (v : BitVec 16), ((((f.setWidth 16 <<< 12) ||| (v &&& 0x0fff)) >>> 8).setWidth 8 : Byte).toNat % 16 * 256 +
        ((((f.setWidth 16 <<< 12) ||| (v &&& 0x0fff)) &&& 0xff).setWidth 8 : Byte).toNat = v.toNat % 4096 := by
      intro f v
      have e1 : ((((f.setWidth 16 <<< 12) ||| (v &&& 0x0fff)) >>> 8).setWidth 8 : Byte).toNat % 16 = v.toNat / 256 % 16 := by
        have : ((((f.setWidth 16 <<< 12) ||| (v &&& 0x0fff)) >>> 8).setWidth 4) = (v >>> 8).setWidth 4 := by
          apply BitVec.eq_of_getLsbD_eq
          intro i hi
          interval_cases i <;> simp
        have t := congrArg BitVec.toNat this
        rw [BitVec.toNat_setWidth, BitVec.toNat_setWidth, BitVec.toNat_ushiftRight v, Nat.shiftRight_eq_div_pow] at t
        rw [BitVec.toNat_setWidth]
        omega
      have e2 : ((((f.setWidth 16 <<< 12) ||| (v &&& 0x0fff)) &&& 0xff).setWidth 8 : Byte).toNat = v.toNat % 256 := by
        have : ((((f.setWidth 16 <<< 12) ||| (v &&& 0x0fff)) &&& 0xff).setWidth 8 : Byte) = v.setWidth 8 := by
          apply BitVec.eq_of_getLsbD_eq
          intro i hi
          interval_cases i <;> simp
        rw [this, BitVec.toNat_setWidth]
      rw [e1, e2]
      omega
    cases o with
    | a v g =>
      cases g with
      | true =>
        have k := key 0b0101 v
        have e : (BitVec.setWidth 16 (0b0101 : BitVec 4) <<< 12) = BUF ||| SHDN := by decide
        rw [e] at k
        simp only [Wanted.op, Dacs.op, Dacs.setChannelA, if_true, Dacs.writeRegister, Dacs.word, k]
        simp [BUF, SHDN]
      | false =>
        have k := key 0b0111 v
        have e : (BitVec.setWidth 16 (0b0111 : BitVec 4) <<< 12) = GA ||| BUF ||| SHDN := by decide
        rw [e] at k
        simp only [Wanted.op, Dacs.op, Dacs.setChannelA, Bool.false_eq_true, if_false, Dacs.writeRegister, Dacs.word, k]
        simp [BUF, SHDN, GA]
    | b v g =>
      cases g with
      | true =>
        have k := key 0b1101 v
        have e : (BitVec.setWidth 16 (0b1101 : BitVec 4) <<< 12) = CHANNEL_B ||| BUF ||| SHDN := by decide
        rw [e] at k
        simp only [Wanted.op, Dacs.op, Dacs.setChannelB, if_true, Dacs.writeRegister, Dacs.word, k]
        simp [BUF, SHDN, CHANNEL_B]
      | false =>
        have k := key 0b1111 v
        have e : (BitVec.setWidth 16 (0b1111 : BitVec 4) <<< 12) = CHANNEL_B ||| GA ||| BUF ||| SHDN := by decide
        rw [e] at k
        simp only [Wanted.op, Dacs.op, Dacs.setChannelB, Bool.false_eq_true, if_false, Dacs.writeRegister, Dacs.word, k]
        simp [BUF, SHDN, GA, CHANNEL_B]
    | update => rfl
  have all : ∀ (ops : List DacOp) (s : Dacs), ops.foldl Wanted.op ⟨s.inputA, s.inputB, s.outA, s.outB⟩ =
      ⟨(ops.foldl Dacs.op s).inputA, (ops.foldl Dacs.op s).inputB, (ops.foldl Dacs.op s).outA, (ops.foldl Dacs.op s).outB⟩ := by
    intro ops
    induction ops with
    | nil => exact fun _ => rfl
    | cons o l ih =>
      intro s
      rw [List.foldl_cons, List.foldl_cons, step, ih]
  simp only [all, and_self]

example : let s := [DacOp.a 0x1234 true, .b 77 false, .update, .a 5 false].foldl Dacs.op ⟨⟨0, true, false, false⟩, ⟨0, true, false, false⟩, ⟨0, true, false, false⟩, ⟨0, true, false, false⟩⟩
    s.outA = ⟨0x234, true, true, true⟩ ∧ s.outB = ⟨77, false, true, true⟩ := by decide

end Props.BusDevices
